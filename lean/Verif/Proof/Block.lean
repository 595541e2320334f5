import Verif.Spec.BlockData
import Verif.Proof.Sections
/-! # Lemmas: whole blocks -/

set_option linter.unusedSimpArgs false

namespace MapEditr
open Spec

theorem decompressNodeData_iff {c : Codec} {s : Bytes} {nd : NodeData} {r : Bytes} :
    decompressNodeData c s = .ok (nd, r) ↔
      ∃ n, c.zlibDec s = some (nodesBytes nd, n) ∧ NodesFit nd ∧ r = s.drop n := by
  unfold decompressNodeData
  cases h : c.zlibDec s with
  | none => simp [badData]
  | some x =>
    obtain ⟨d, n⟩ := x
    simp only [bind_ok_iff]
    constructor
    · rintro ⟨⟨nd', left⟩, h1, h2⟩
      obtain ⟨hf, hd⟩ := rdNodeData_iff.1 h1
      simp only at h2
      split at h2
      · rename_i he
        simp only [res_pure, ok_inj, Prod.mk.injEq] at h2
        obtain ⟨e1, e2⟩ := h2
        have : left = [] := by simpa using he
        subst e1 e2 this
        exact ⟨n, by rw [hd, List.append_nil], hf, rfl⟩
      · exact nomatch h2
    · rintro ⟨n', h1, hf, hr⟩
      simp only [Option.some.injEq, Prod.mk.injEq] at h1
      obtain ⟨e1, e2⟩ := h1
      subst e1 e2 hr
      exact ⟨(nd, []), rdNodeData_iff.2 ⟨hf, by simp⟩, rfl⟩

theorem decompressMetaList_iff {c : Codec} {s : Bytes} {l : MetaList} {r : Bytes} :
    decompressMetaList c s = .ok (l, r) ↔
      ∃ (m : RawMetaList) (junk : Bytes) (n : Nat),
        c.zlibDec s = some (m.bytes ++ junk, n) ∧ m.Fits ∧ l = m.value ∧ r = s.drop n := by
  unfold decompressMetaList
  cases h : c.zlibDec s with
  | none => simp [badData]
  | some x =>
    obtain ⟨d, n⟩ := x
    simp only [bind_ok_iff]
    constructor
    · rintro ⟨⟨l', left⟩, h1, h2⟩
      obtain ⟨m, hf, hd, hl⟩ := rdMetaList_iff.1 h1
      simp only [res_pure, ok_inj, Prod.mk.injEq] at h2
      obtain ⟨e1, e2⟩ := h2
      subst e1 e2
      exact ⟨m, left, n, by rw [hd], hf, hl, rfl⟩
    · rintro ⟨m, junk, n', h1, hf, hl, hr⟩
      simp only [Option.some.injEq, Prod.mk.injEq] at h1
      obtain ⟨e1, e2⟩ := h1
      subst e1 e2 hr hl
      exact ⟨(m.value, junk), rdMetaList_iff.2 ⟨m, hf, rfl, rfl⟩, rfl⟩

theorem rdLight_iff {v : Nat} {s : Bytes} {n : Nat} {r : Bytes} :
    rdLight v s = .ok (n, r) ↔ n < 65536 ∧ (v < 27 → n = 65535) ∧
      s = (if 27 ≤ v then be16 n else []) ++ r := by
  unfold rdLight
  by_cases h : 27 ≤ v
  · rw [if_pos (show v ≥ 27 from h), if_pos h, rdU16_iff]
    exact ⟨fun ⟨h1, h2⟩ => ⟨h1, fun h3 => by omega, h2⟩, fun ⟨h1, _, h2⟩ => ⟨h1, h2⟩⟩
  · rw [if_neg (show ¬ v ≥ 27 from h), if_neg h]
    simp only [ok_inj, Prod.mk.injEq, List.nil_append]
    constructor
    · rintro ⟨h1, h2⟩; exact ⟨by omega, fun _ => h1.symm, h2⟩
    · rintro ⟨_, h1, h2⟩; exact ⟨(h1 (by omega)).symm, h2⟩

theorem rdBody29_iff {v : Nat} {d : Bytes} {b : MapBlock} :
    rdBody29 v d = .ok b ↔ b.version = v ∧ Body29 d b := by
  unfold rdBody29 Body29
  constructor
  · intro h
    simp only [bind_ok_iff] at h
    obtain ⟨⟨flags, s1⟩, h1, ⟨light, s2⟩, h2, ⟨time, s3⟩, h3, ⟨nimap, s4⟩, h4, ⟨cw, s5⟩, h5,
      ⟨pw, s6⟩, h6, h⟩ := h
    simp only at h1 h2 h3 h4 h5 h6 h
    split at h
    · exact nomatch h
    · rename_i hw
      simp only [bind_ok_iff] at h
      obtain ⟨⟨nd, s7⟩, h7, ⟨metas, s8⟩, h8, ⟨objs, s9⟩, h9, ⟨timers, s10⟩, h10, h⟩ := h
      simp only at h7 h8 h9 h10
      simp only [res_pure, ok_inj] at h
      obtain ⟨n1, e1⟩ := rdU8_iff.1 h1
      obtain ⟨n2, e2⟩ := rdU16_iff.1 h2
      obtain ⟨n3, e3⟩ := rdU32_iff.1 h3
      obtain ⟨names, n4, e4, v4⟩ := rdNimap_iff.1 h4
      obtain ⟨_, e5⟩ := rdU8_iff.1 h5
      obtain ⟨_, e6⟩ := rdU8_iff.1 h6
      obtain ⟨n7, e7⟩ := rdNodeData_iff.1 h7
      obtain ⟨raw, n8, e8, v8⟩ := rdMetaList_iff.1 h8
      obtain ⟨n9, e9⟩ := rdObjects_iff.1 h9
      obtain ⟨n10, e10⟩ := rdTimers_iff.1 h10
      have hcw : cw = 2 := by omega
      have hpw : pw = 2 := by omega
      subst h hcw hpw
      refine ⟨rfl, names, raw, s10, n1, n2, n3, n4, ⟨rfl, rfl⟩, n7, n8, n9, n10, v4, v8, ?_⟩
      rw [e1, e2, e3, e4, e5, e6, e7, e8, e9, e10]
      rfl
  · rintro ⟨hv, names, raw, junk, n1, n2, n3, n4, ⟨w1, w2⟩, n7, n8, n9, n10, v4, v8, hd⟩
    subst hd
    simp only [bind_ok_iff]
    refine ⟨_, rdU8_iff.2 ⟨n1, rfl⟩, _, rdU16_iff.2 ⟨n2, rfl⟩, _, rdU32_iff.2 ⟨n3, rfl⟩,
      _, rdNimap_iff.2 ⟨names, n4, rfl, rfl⟩, (2, _), rdU8_iff.2 ⟨by omega, rfl⟩,
      (2, _), rdU8_iff.2 ⟨by omega, rfl⟩, ?_⟩
    simp only [bind_ok_iff, ne_eq, not_true_eq_false, or_self, if_false]
    refine ⟨_, rdNodeData_iff.2 ⟨n7, rfl⟩, _, rdMetaList_iff.2 ⟨raw, n8, rfl, rfl⟩,
      _, rdObjects_iff.2 ⟨n9, rfl⟩, _, rdTimers_iff.2 ⟨n10, rfl⟩, ?_⟩
    cases b
    simp only at v4 v8 w1 w2 hv
    subst v4 v8 w1 w2 hv
    rfl

theorem rdBody28_iff {c : Codec} {v : Nat} {d : Bytes} {b : MapBlock} :
    rdBody28 c v d = .ok b ↔ b.version = v ∧ Body28 c d b := by
  unfold rdBody28 Body28
  constructor
  · intro h
    simp only [bind_ok_iff] at h
    obtain ⟨⟨flags, s1⟩, h1, ⟨light, s2⟩, h2, ⟨cw, s5⟩, h5, ⟨pw, s6⟩, h6, h⟩ := h
    simp only at h1 h2 h5 h6 h
    split at h
    · exact nomatch h
    · rename_i hw
      simp only [bind_ok_iff] at h
      obtain ⟨⟨nd, s7⟩, h7, ⟨metas, s8⟩, h8, ⟨objs, s9⟩, h9, ⟨time, s3⟩, h3, ⟨nimap, s4⟩, h4,
        ⟨timers, s10⟩, h10, h⟩ := h
      simp only at h7 h8 h9 h3 h4 h10
      simp only [res_pure, ok_inj] at h
      obtain ⟨n1, e1⟩ := rdU8_iff.1 h1
      obtain ⟨n2, o2, e2⟩ := rdLight_iff.1 h2
      obtain ⟨n3, e3⟩ := rdU32_iff.1 h3
      obtain ⟨names, n4, e4, v4⟩ := rdNimap_iff.1 h4
      obtain ⟨_, e5⟩ := rdU8_iff.1 h5
      obtain ⟨_, e6⟩ := rdU8_iff.1 h6
      obtain ⟨k7, z7, n7, e7⟩ := decompressNodeData_iff.1 h7
      obtain ⟨raw, junk', k8, z8, n8, v8, e8⟩ := decompressMetaList_iff.1 h8
      obtain ⟨n9, e9⟩ := rdObjects_iff.1 h9
      obtain ⟨n10, e10⟩ := rdTimers_iff.1 h10
      have hcw : cw = 2 := by omega
      have hpw : pw = 2 := by omega
      subst h hcw hpw
      refine ⟨rfl, names, raw, s6, k7, k8, s10, junk', n1, n2, o2, n3, n4, ⟨rfl, rfl⟩, n7, n8, n9,
        n10, v4, v8, ?_, z7, by rw [← e7]; exact z8, ?_⟩
      · rw [e1, e2, e5, e6]; rfl
      · rw [← e7, ← e8, e9, e3, e4, e10]
  · rintro ⟨hv, names, raw, z, k7, k8, junk, junk', n1, n2, o2, n3, n4, ⟨w1, w2⟩, n7, n8, n9, n10,
      v4, v8, hd, z7, z8, e9⟩
    subst hd
    simp only [bind_ok_iff]
    refine ⟨_, rdU8_iff.2 ⟨n1, rfl⟩, (b.lighting, 2 :: 2 :: z),
      rdLight_iff.2 ⟨n2, by rw [← hv]; exact o2, by rw [← hv]⟩, (2, 2 :: z),
      rdU8_iff.2 ⟨by omega, rfl⟩, (2, z), rdU8_iff.2 ⟨by omega, rfl⟩, ?_⟩
    simp only [bind_ok_iff, ne_eq, not_true_eq_false, or_self, if_false]
    refine ⟨_, decompressNodeData_iff.2 ⟨k7, z7, n7, rfl⟩, _,
      decompressMetaList_iff.2 ⟨raw, junk', k8, z8, n8, rfl, rfl⟩,
      _, rdObjects_iff.2 ⟨n9, e9⟩, _, rdU32_iff.2 ⟨n3, rfl⟩,
      _, rdNimap_iff.2 ⟨names, n4, rfl, rfl⟩, _, rdTimers_iff.2 ⟨n10, rfl⟩, ?_⟩
    cases b
    simp only at v4 v8 w1 w2 hv
    subst v4 v8 w1 w2 hv
    rfl

theorem deserialize_iff {c : Codec} {s : Bytes} {b : MapBlock} :
    deserialize c s = .ok b ↔ Represents c s b := by
  unfold deserialize Represents
  rw [bind_ok_iff]
  constructor
  · rintro ⟨⟨v, s1⟩, h1, h⟩
    obtain ⟨n1, e1⟩ := rdU8_iff.1 h1
    simp only at h
    split at h
    · exact nomatch h
    · rename_i hv
      split at h
      · rename_i h29
        have hv29 : v = 29 := by omega
        subst hv29
        cases hz : c.zstdDec s1 with
        | none => rw [hz] at h; exact nomatch h
        | some d =>
          rw [hz] at h
          obtain ⟨e2, hb⟩ := rdBody29_iff.1 h
          exact Or.inl ⟨e2, s1, d, e1, hz, hb⟩
      · obtain ⟨e2, hb⟩ := rdBody28_iff.1 h
        subst e2
        exact Or.inr ⟨⟨by omega, by omega⟩, s1, e1, hb⟩
  · rintro (⟨hv, z, d, hs, hz, hb⟩ | ⟨⟨hv1, hv2⟩, d, hs, hb⟩)
    · refine ⟨(29, z), rdU8_iff.2 ⟨by omega, hs⟩, ?_⟩
      show (match c.zstdDec z with | none => badData | some d => rdBody29 29 d) = _
      rw [hz]
      exact rdBody29_iff.2 ⟨hv, hb⟩
    · refine ⟨(b.version, d), rdU8_iff.2 ⟨by omega, hs⟩, ?_⟩
      simp only
      rw [if_neg (by omega), if_neg (by omega)]
      exact rdBody28_iff.2 ⟨rfl, hb⟩

theorem np_deserialize (c : Codec) (s : Bytes) : NoPanic (deserialize c s) := by
  unfold deserialize
  refine np_bind (np_rdU8 _) fun ⟨v, s1⟩ => np_ite (np_err _) (np_ite ?_ ?_)
  · cases c.zstdDec s1 with
    | none => exact np_bad
    | some d =>
      refine np_bind (np_rdU8 _) fun _ => np_bind (np_rdU16 _) fun _ => np_bind (np_rdU32 _) fun _ =>
        np_bind (np_rdNimap _) fun _ => np_bind (np_rdU8 _) fun _ => np_bind (np_rdU8 _) fun _ =>
        np_ite (np_err _) ?_
      exact np_bind (np_rdNodeData _) fun _ => np_bind (np_rdMetaList _) fun _ =>
        np_bind (np_rdObjects _) fun _ => np_bind (np_rdTimers _) fun _ => np_pure _
  · refine np_bind (np_rdU8 _) fun _ => np_bind (np_ite (np_rdU16 _) (np_ok _)) fun _ =>
      np_bind (np_rdU8 _) fun _ => np_bind (np_rdU8 _) fun _ => np_ite (np_err _) ?_
    refine np_bind ?_ fun _ => np_bind ?_ fun _ => np_bind (np_rdObjects _) fun _ =>
      np_bind (np_rdU32 _) fun _ => np_bind (np_rdNimap _) fun _ => np_bind (np_rdTimers _) fun _ =>
      np_pure _
    · unfold decompressNodeData
      cases c.zlibDec _ with
      | none => exact np_bad
      | some x => exact np_bind (np_rdNodeData _) fun _ => np_ite (np_pure _) np_bad
    · unfold decompressMetaList
      cases c.zlibDec _ with
      | none => exact np_bad
      | some x => exact np_bind (np_rdMetaList _) fun _ => np_pure _

theorem wf_of_represents {c : Codec} {s : Bytes} {b : MapBlock} (h : Represents c s b) : Wf b := by
  rcases h with ⟨hv, z, d, hs, hz, hb⟩ | ⟨⟨hv1, hv2⟩, d, hs, hb⟩
  · obtain ⟨names, raw, junk, n1, n2, n3, n4, w, n7, n8, n9, n10, v4, v8, hd⟩ := hb
    exact ⟨by omega, n1, n2, fun h => by omega, w, n7, by rw [v8]; exact rawValue_wf n8, n9, n3,
      by rw [v4]; exact namesValue_wf n4, n10⟩
  · obtain ⟨names, raw, z, k7, k8, junk, junk', n1, n2, o2, n3, n4, w, n7, n8, n9, n10,
      v4, v8, hd, z7, z8, e9⟩ := hb
    exact ⟨by omega, n1, n2, o2, w, n7, by rw [v8]; exact rawValue_wf n8, n9, n3,
      by rw [v4]; exact namesValue_wf n4, n10⟩

/-! ## Saving -/

/-! ### Output that needs no single `write` -/

/-- Every chunk is written with `write_all`. -/
def AllAll (l : List Chunk) : Prop := ∀ ch ∈ l, ∃ b, ch = .all b

theorem emit_allAll {c : Codec} {l : List Chunk} (h : AllAll l) : c.emit l = flat l := by
  have : ∀ k, emitFrom c.accept k l = flat l := by
    induction l with
    | nil => intro k; rfl
    | cons a t ih =>
      intro k
      obtain ⟨b, rfl⟩ := h a (by simp)
      simp only [emitFrom, flat, ih fun ch hch => h ch (by simp [hch])]
  exact this 0

theorem allAll_nodes {nd : NodeData} {cs : List Chunk} (h : nd.serialize = .ok cs) : AllAll cs := by
  unfold NodeData.serialize at h
  obtain ⟨_, _, h⟩ := bind_ok_iff.1 h
  simp only [res_pure, ok_inj] at h
  subst h
  intro ch hch
  simp only [List.mem_cons, List.not_mem_nil, or_false] at hch
  rcases hch with h | h | h <;> exact ⟨_, h⟩

theorem allAll_void {ord : VarOrd} {l : MetaList} {v : Nat} {cs : List Chunk}
    (h : wrMetaList ord l v = .ok cs) (hl : MetasWf l) (h0 : dropVoid l = []) : AllAll cs := by
  unfold wrMetaList at h
  simp only [filter_isEmpty hl, h0, List.length_nil, if_true, ok_inj] at h
  subst h
  intro ch hch
  simp only [wrAll, List.mem_cons, List.not_mem_nil, or_false] at hch
  exact ⟨_, hch⟩


/-- Saving a block that fits the format succeeds, and the result represents the stored block. -/
theorem serialize_spec' {c : Codec} (hc : c.Lawful) {ord : VarOrd}
    (ho : ord.Lawful) {b : MapBlock} (h : Wf b)
    (hw : c.FullWrites ∨ (b.version ≤ 28 ∧ dropVoid b.metas = [])) :
    ∃ s, serialize c ord b = .ok s ∧ Represents c s (stored b) := by
  obtain ⟨nd, nd1, nd2⟩ := writes_nodes h.nodes
  obtain ⟨ml, ml1, ml2⟩ := writes_metas ord ho b.version h.metas
  obtain ⟨os, os1, os2⟩ := writes_objects h.objs
  obtain ⟨ni, ni1, ni2⟩ := writes_nimap h.nimap.fits
  obtain ⟨ts, ts1, ts2⟩ := writes_timers (l := b.timers)
  have hraw := rawList_fits ord ho b.version h.metas
  have hval := rawList_value ord ho b.version h.metas
  have hver := h.ver
  have hra : rassert (decide (25 ≤ b.version ∧ b.version ≤ 29)) "Invalid mapblock version."
      = .ok () := by simp only [rassert, decide_eq_true hver, if_true]
  by_cases h29 : b.version ≥ 29
  · refine ⟨_, by simp only [serialize, hra, res_bind_ok, if_pos h29, wrBody29, nd1, ml1, os1, ni1,
      ts1, res_pure]; rfl, ?_⟩
    let body := c.emit (wrAll (encU8 b.flags) ++ wrAll (encU16 b.lighting) ++
      wrAll (encU32 b.timestamp) ++ ni ++ wrAll (encU8 b.contentWidth) ++
      wrAll (encU8 b.paramsWidth) ++ nd ++ ml ++ os ++ ts)
    refine Or.inl ⟨by show b.version = 29; omega, c.zstdEnc body, body, ?_, hc.zstd _, ?_⟩
    · have : b.version = 29 := by omega
      rw [this]; rfl
    · refine ⟨b.nimap, rawList ord b.metas b.version, [], h.flags, h.light, h.time, h.nimap.fits,
        h.widths, h.nodes, hraw, h.objs, h.timers, (namesValue_sorted h.nimap.sorted).symm,
        hval.symm, ?_⟩
      show c.emit _ = _
      have hw : c.FullWrites := hw.resolve_right (by omega)
      rw [emit_full hw]
      simp only [flat_append, flat_wrAll, nd2, ml2, os2, ni2, ts2, h.widths.1, h.widths.2]
      simp only [encU8, byte, encU16_eq, encU32_eq, stored, List.cons_append, List.nil_append,
        List.append_assoc, List.append_nil]
      rfl
  · refine ⟨_, by simp only [serialize, hra, res_bind_ok, if_neg h29, wrBody28, nd1, ml1, os1, ni1,
      ts1, res_pure]; rfl, ?_⟩
    refine Or.inr ⟨⟨hver.1, by show b.version ≤ 28; omega⟩,
      encU8 b.flags ++ (if b.version ≥ 27 then encU16 b.lighting else [])
        ++ encU8 b.contentWidth ++ encU8 b.paramsWidth
        ++ c.zlibEnc (c.emit nd) ++ c.zlibEnc (c.emit ml)
        ++ flat os ++ encU32 b.timestamp ++ flat ni ++ flat ts, ?_, ?_⟩
    · rfl
    · refine ⟨b.nimap, rawList ord b.metas b.version,
        c.zlibEnc (nodesBytes b.nd) ++ (c.zlibEnc (rawList ord b.metas b.version).bytes ++
          (objsBytes b.objects ++ (be32 b.timestamp ++ (namesBytes b.nimap ++
            (timersBytes b.timers ++ []))))),
        (c.zlibEnc (nodesBytes b.nd)).length,
        (c.zlibEnc (rawList ord b.metas b.version).bytes).length, [], [], h.flags, h.light,
        h.light_old, h.time, h.nimap.fits, h.widths, h.nodes, hraw, h.objs, h.timers,
        (namesValue_sorted h.nimap.sorted).symm, hval.symm, ?_, hc.zlib _ _, ?_, ?_⟩
      · have hml : c.emit ml = flat ml := by
          rcases hw with hw | hw
          · exact emit_full hw _
          · exact emit_allAll (allAll_void ml1 h.metas hw.2)
        rw [emit_allAll (allAll_nodes nd1), hml]
        simp only [nd2, ml2, os2, ni2, ts2, h.widths.1, h.widths.2]
        simp only [encU8, byte, encU16_eq, encU32_eq, stored, List.cons_append, List.nil_append,
          List.append_assoc, List.append_nil]
        rfl
      · rw [List.drop_left, hc.zlib, List.append_nil]
      · rw [List.drop_left, List.drop_left]
        rfl

theorem serialize_spec {c : Codec} (hc : c.Lawful) (hw : c.FullWrites) {ord : VarOrd}
    (ho : ord.Lawful) {b : MapBlock} (h : Wf b) :
    ∃ s, serialize c ord b = .ok s ∧ Represents c s (stored b) :=
  serialize_spec' hc ho h (Or.inl hw)

/-- Saving a block that fits the format never fails, whatever the compressors do. -/
theorem serialize_ok (c : Codec) {ord : VarOrd} (ho : ord.Lawful) {b : MapBlock} (h : Wf b) :
    ∃ s, serialize c ord b = .ok s := by
  obtain ⟨nd, nd1, _⟩ := writes_nodes h.nodes
  obtain ⟨ml, ml1, _⟩ := writes_metas ord ho b.version h.metas
  obtain ⟨os, os1, _⟩ := writes_objects h.objs
  obtain ⟨ni, ni1, _⟩ := writes_nimap h.nimap.fits
  obtain ⟨ts, ts1, _⟩ := writes_timers (l := b.timers)
  have hra : rassert (decide (25 ≤ b.version ∧ b.version ≤ 29)) "Invalid mapblock version."
      = .ok () := by simp only [rassert, decide_eq_true h.ver, if_true]
  by_cases h29 : b.version ≥ 29
  · exact ⟨_, by simp only [serialize, hra, res_bind_ok, if_pos h29, wrBody29, nd1, ml1, os1, ni1,
      ts1, res_pure]; rfl⟩
  · exact ⟨_, by simp only [serialize, hra, res_bind_ok, if_neg h29, wrBody28, nd1, ml1, os1, ni1,
      ts1, res_pure]; rfl⟩

/-- Only the metadata list matters beyond the rest of the block. -/
theorem serialize_ok_metas (c : Codec) {ord : VarOrd} {b : MapBlock} (h : Wf { b with metas := [] })
    (hm : ∃ ml, wrMetaList ord b.metas b.version = .ok ml) : ∃ s, serialize c ord b = .ok s := by
  obtain ⟨nd, nd1, _⟩ := writes_nodes h.nodes
  obtain ⟨ml, ml1⟩ := hm
  obtain ⟨os, os1, _⟩ := writes_objects h.objs
  obtain ⟨ni, ni1, _⟩ := writes_nimap h.nimap.fits
  obtain ⟨ts, ts1, _⟩ := writes_timers (l := b.timers)
  simp only at nd1 os1 ni1
  have hra : rassert (decide (25 ≤ b.version ∧ b.version ≤ 29)) "Invalid mapblock version."
      = .ok () := by simp only [rassert, decide_eq_true h.ver, if_true]
  by_cases h29 : b.version ≥ 29
  · exact ⟨_, by simp only [serialize, hra, res_bind_ok, if_pos h29, wrBody29, nd1, ml1, os1, ni1,
      ts1, res_pure]; rfl⟩
  · exact ⟨_, by simp only [serialize, hra, res_bind_ok, if_neg h29, wrBody28, nd1, ml1, os1, ni1,
      ts1, res_pure]; rfl⟩

theorem roundtrip {c : Codec} (hc : c.Lawful) (hw : c.FullWrites) {ord : VarOrd}
    (ho : ord.Lawful) {b : MapBlock} (h : Wf b) :
    ∃ s, serialize c ord b = .ok s ∧ deserialize c s = .ok (stored b) := by
  obtain ⟨s, h1, h2⟩ := serialize_spec hc hw ho h
  exact ⟨s, h1, deserialize_iff.2 h2⟩

theorem wf_of_deserialize {c : Codec} {s : Bytes} {b : MapBlock} (h : deserialize c s = .ok b) :
    Wf b := wf_of_represents (deserialize_iff.1 h)

theorem wf_stored {b : MapBlock} (h : Wf b) : Wf (stored b) := by
  have h1 : MetasWf (stored b).metas := by
    have hs : SMap.Sorted (dropVoid b.metas) := SMap.sorted_filter h.metas.sorted _
    have hl : (dropVoid b.metas).length ≤ b.metas.length := List.length_filter_le _ _
    have hc := h.metas.count
    have hm : ∀ e ∈ dropVoid b.metas, e ∈ b.metas := fun e he => (List.mem_filter.1 he).1
    show MetasWf (if 28 ≤ b.version then dropVoid b.metas
      else (dropVoid b.metas).map fun e => (e.1, publish e.2))
    split
    · exact ⟨hs, by omega, fun e he => h.metas.keys e (hm e he),
        fun e he => h.metas.metas e (hm e he)⟩
    · refine ⟨SMap.sorted_mapVal hs fun _ m => publish m, by rw [List.length_map]; omega, ?_, ?_⟩
      · intro e he
        obtain ⟨x, hx, rfl⟩ := List.mem_map.1 he
        exact h.metas.keys x (hm x hx)
      · intro e he
        obtain ⟨x, hx, rfl⟩ := List.mem_map.1 he
        have hw := h.metas.metas x (hm x hx)
        refine ⟨SMap.sorted_mapVal hw.sorted fun _ v => (v.1, false), ?_, ?_, hw.inv⟩
        · show (x.2.vars.map _).length < _
          rw [List.length_map]; exact hw.count
        · intro v hv
          obtain ⟨y, hy, rfl⟩ := List.mem_map.1 hv
          exact hw.names y hy
  exact ⟨h.ver, h.flags, h.light, h.light_old, h.widths, h.nodes, h1, h.objs, h.time, h.nimap,
    h.timers⟩

theorem publish_void (m : NodeMeta) : MetaVoid (publish m) ↔ MetaVoid m := by
  unfold MetaVoid publish; simp

theorem publish_publish (m : NodeMeta) : publish (publish m) = publish m := by
  unfold publish; simp

theorem stored_stored (b : MapBlock) : stored (stored b) = stored b := by
  have h1 : dropVoid (dropVoid b.metas) = dropVoid b.metas := by
    unfold dropVoid; simp
  have h2 : dropVoid ((dropVoid b.metas).map fun e => (e.1, publish e.2))
      = (dropVoid b.metas).map fun e => (e.1, publish e.2) := by
    unfold dropVoid
    rw [List.filter_map]
    congr 1
    rw [List.filter_filter]
    apply List.filter_congr
    intro e _
    simp [Function.comp, publish_void]
  unfold stored
  by_cases h : 28 ≤ b.version
  · simp only [if_pos h, h1]
  · simp only [if_neg h, h2, List.map_map]
    congr 1
    apply List.map_congr_left
    intro e _
    simp [Function.comp, publish_publish]

end MapEditr
