import Verif.Proof.ByteIO
/-! # Lemmas: the sections of a block -/

set_option linter.unusedSimpArgs false

namespace MapEditr
open Spec

/-! ## Node arrays -/

theorem u16sOf_flatMap {l : List Nat} (h : ∀ n ∈ l, n < 65536) : u16sOf (l.flatMap be16) = l := by
  induction l with
  | nil => rfl
  | cons a t ih =>
    have ha := h a (by simp)
    show u16sOf (be16 a ++ t.flatMap be16) = a :: t
    simp only [be16, List.cons_append, List.nil_append, u16sOf, toNat_ofNat8]
    rw [ih fun n hn => h n (by simp [hn])]
    congr 1
    omega

theorem u16sOf_spec (k : Nat) (s : Bytes) (h : s.length = 2 * k) :
    (u16sOf s).length = k ∧ (∀ n ∈ u16sOf s, n < 65536) ∧ (u16sOf s).flatMap be16 = s := by
  induction k generalizing s with
  | zero =>
    have : s = [] := List.length_eq_zero_iff.1 h
    subst this
    simp [u16sOf]
  | succ k ih =>
    match s, h with
    | a :: b :: t, h =>
      obtain ⟨h1, h2, h3⟩ := ih t (by simp at h; omega)
      have ha := a.toNat_lt
      have hb := b.toNat_lt
      simp only [u16sOf, List.length_cons, h1, List.mem_cons, List.flatMap_cons, h3, true_and]
      refine ⟨?_, ?_⟩
      · rintro n (hn | hn)
        · subst hn; omega
        · exact h2 n hn
      · have e1 : UInt8.ofNat ((a.toNat * 256 + b.toNat) / 256) = a := by
          apply UInt8.toNat.inj; rw [toNat_ofNat8]; omega
        have e2 : UInt8.ofNat (a.toNat * 256 + b.toNat) = b := by
          apply UInt8.toNat.inj; rw [toNat_ofNat8]; omega
        simp only [be16, e1, e2, List.cons_append, List.nil_append]

theorem length_flatMap_be16 (l : List Nat) : (l.flatMap be16).length = 2 * l.length := by
  induction l with
  | nil => rfl
  | cons a t ih => simp [ih, be16]; omega

theorem rdNodeData_iff {s : Bytes} {nd : NodeData} {r : Bytes} :
    rdNodeData s = .ok (nd, r) ↔ NodesFit nd ∧ s = nodesBytes nd ++ r := by
  unfold rdNodeData
  rw [bind_ok_iff]
  constructor
  · rintro ⟨⟨nb, s1⟩, h1, h⟩
    rw [bind_ok_iff] at h
    obtain ⟨⟨p1, s2⟩, h2, h⟩ := h
    rw [bind_ok_iff] at h
    obtain ⟨⟨p2, s3⟩, h3, h⟩ := h
    rw [rdN_iff] at h1 h2 h3
    simp only [res_pure, ok_inj, Prod.mk.injEq] at h
    obtain ⟨hnd, hr⟩ := h
    obtain ⟨l1, e1⟩ := h1
    obtain ⟨l2, e2⟩ := h2
    obtain ⟨l3, e3⟩ := h3
    subst e1 e2 e3 hr hnd
    obtain ⟨k1, k2, k3⟩ := u16sOf_spec 4096 nb (by rw [l1]; rfl)
    refine ⟨⟨k1, k2, l2, l3⟩, ?_⟩
    simp only [nodesBytes, k3, List.append_assoc]
  · rintro ⟨⟨k1, k2, k3, k4⟩, hs⟩
    subst hs
    refine ⟨(nd.nodes.flatMap be16, nd.param1 ++ (nd.param2 ++ r)), rdN_iff.2 ⟨?_, ?_⟩, ?_⟩
    · rw [length_flatMap_be16, k1]; rfl
    · simp [nodesBytes]
    · rw [bind_ok_iff]
      refine ⟨(nd.param1, nd.param2 ++ r), rdN_iff.2 ⟨k3, rfl⟩, ?_⟩
      rw [bind_ok_iff]
      refine ⟨(nd.param2, r), rdN_iff.2 ⟨k4, rfl⟩, ?_⟩
      simp only [u16sOf_flatMap k2, res_pure]

theorem np_rdNodeData (s : Bytes) : NoPanic (rdNodeData s) :=
  np_bind (np_rdN _ _) fun _ => np_bind (np_rdN _ _) fun _ => np_bind (np_rdN _ _) fun _ =>
    np_pure _

theorem writes_nodes {nd : NodeData} (h : NodesFit nd) : Writes nd.serialize (nodesBytes nd) := by
  obtain ⟨k1, _, _, _⟩ := h
  refine ⟨[.all (bytesOfU16s nd.nodes), .all nd.param1, .all nd.param2], ?_, ?_⟩
  · unfold NodeData.serialize rassert NODE_COUNT
    rw [k1]; rfl
  · show _ = nd.nodes.flatMap be16 ++ nd.param1 ++ nd.param2
    simp only [flat, bytesOfU16s, List.append_nil, List.append_assoc]
    rfl

/-! ## Metadata -/

/-- Effect of one variable in the file on the variables read so far. -/
def addVar (ver : Nat) (vs : Vars) (v : RawVar) : Vars :=
  vs.insert v.name (v.val, decide (2 ≤ ver) && decide (v.priv ≠ 0))

theorem rdVar_iff (ver : Nat) (vars : Vars) (s : Bytes) (vars' : Vars) (r : Bytes) :
    rdVar ver vars s = .ok (vars', r) ↔
      ∃ v : RawVar, v.Fits ∧ s = v.bytes ver ++ r ∧ vars' = addVar ver vars v := by
  unfold rdVar
  rw [bind_ok_iff]
  constructor
  · rintro ⟨⟨name, s1⟩, h1, h⟩
    rw [bind_ok_iff] at h
    obtain ⟨⟨val, s2⟩, h2, h⟩ := h
    rw [bind_ok_iff] at h
    obtain ⟨⟨p, s3⟩, h3, h⟩ := h
    obtain ⟨n1, e1⟩ := rdStr16_iff.1 h1
    obtain ⟨n2, e2⟩ := rdStr32_iff.1 h2
    simp only [res_pure, ok_inj, Prod.mk.injEq] at h
    obtain ⟨hv, hr⟩ := h
    subst hv hr e1 e2
    by_cases hver : ver ≥ 2
    · unfold rdPriv at h3
      rw [if_pos hver, bind_ok_iff] at h3
      obtain ⟨⟨q, s4⟩, h4, h5⟩ := h3
      obtain ⟨n3, e3⟩ := rdU8_iff.1 h4
      simp only [res_pure, ok_inj, Prod.mk.injEq] at h5
      obtain ⟨hp, hs⟩ := h5
      subst e3 hp hs
      refine ⟨⟨name, val, q⟩, ⟨n1, n2, n3⟩, ?_, ?_⟩
      · simp only [RawVar.bytes, if_pos hver, List.append_assoc]; rfl
      · simp only [addVar, hver, decide_true, Bool.true_and]
    · unfold rdPriv at h3
      rw [if_neg hver] at h3
      simp only [res_pure, ok_inj, Prod.mk.injEq] at h3
      obtain ⟨hp, hs⟩ := h3
      subst hp hs
      refine ⟨⟨name, val, 0⟩, ⟨n1, n2, by show 0 < 256; omega⟩, ?_, ?_⟩
      · simp only [RawVar.bytes, if_neg hver, List.append_assoc]; rfl
      · simp only [addVar, hver, decide_false, Bool.false_and]
  · rintro ⟨v, ⟨n1, n2, n3⟩, hs, hv⟩
    subst hs hv
    by_cases hver : 2 ≤ ver
    · refine ⟨(v.name, str32 v.val ++ ([UInt8.ofNat v.priv] ++ r)), rdStr16_iff.2 ⟨n1, ?_⟩, ?_⟩
      · simp only [RawVar.bytes, if_pos hver, List.append_assoc]
      · rw [bind_ok_iff]
        refine ⟨(v.val, [UInt8.ofNat v.priv] ++ r), rdStr32_iff.2 ⟨n2, rfl⟩, ?_⟩
        rw [bind_ok_iff]
        refine ⟨(decide (v.priv ≠ 0), r), ?_, ?_⟩
        · unfold rdPriv
          rw [if_pos hver, bind_ok_iff]
          exact ⟨(v.priv, r), rdU8_iff.2 ⟨n3, rfl⟩, rfl⟩
        · simp only [res_pure, addVar, hver, decide_true, Bool.true_and]
    · refine ⟨(v.name, str32 v.val ++ r), rdStr16_iff.2 ⟨n1, ?_⟩, ?_⟩
      · simp only [RawVar.bytes, if_neg hver, List.append_assoc, List.nil_append]
      · rw [bind_ok_iff]
        refine ⟨(v.val, r), rdStr32_iff.2 ⟨n2, rfl⟩, ?_⟩
        rw [bind_ok_iff]
        refine ⟨(false, r), ?_, ?_⟩
        · unfold rdPriv
          rw [if_neg (show ¬ ver ≥ 2 from hver)]
        · simp only [res_pure, addVar, hver, decide_false, Bool.false_and]

theorem np_rdVar (ver : Nat) (vars : Vars) (s : Bytes) : NoPanic (rdVar ver vars s) := by
  unfold rdVar
  refine np_bind (np_rdStr16 _) fun _ => np_bind (np_rdStr32 _) fun _ => np_bind ?_ fun _ =>
    np_pure _
  exact np_ite (np_bind (np_rdU8 _) fun _ => np_pure _) (np_pure _)

theorem rdMetaEntry_iff (ver : Nat) (l : MetaList) (s : Bytes) (l' : MetaList) (r : Bytes) :
    rdMetaEntry ver l s = .ok (l', r) ↔
      ∃ m : RawMeta, m.Fits ∧ s = m.bytes ver ++ r ∧ l' = l.insert m.pos (m.value ver) := by
  unfold rdMetaEntry rdMeta
  rw [bind_ok_iff]
  constructor
  · rintro ⟨⟨pos, s1⟩, h1, h⟩
    rw [bind_ok_iff] at h
    obtain ⟨⟨m, s2⟩, h2, h⟩ := h
    rw [bind_ok_iff] at h2
    obtain ⟨⟨cnt, s3⟩, h3, h2⟩ := h2
    rw [bind_ok_iff] at h2
    obtain ⟨⟨vars, s4⟩, h4, h2⟩ := h2
    obtain ⟨xs, hl, hf, e4, hv⟩ := (loopP_iff (rdVar_iff ver) _ _ _ _ _).1 h4
    obtain ⟨n1, e1⟩ := rdU16_iff.1 h1
    obtain ⟨n3, e3⟩ := rdU32_iff.1 h3
    simp only at e3 e4 hl h2
    have h5 : Framed m.inv ∧ s4 = m.inv ++ s2 ∧ m.vars = vars := by
      cases hs : searchIn END_STR s4 with
      | none => rw [hs] at h2; exact nomatch h2
      | some e =>
        rw [hs] at h2
        simp only at h2
        rw [bind_ok_iff] at h2
        obtain ⟨⟨inv, s5⟩, h6, h7⟩ := h2
        simp only [res_pure, ok_inj, Prod.mk.injEq] at h7
        obtain ⟨hm, hr⟩ := h7
        subst hm hr
        obtain ⟨h8, h9⟩ := rdInv_iff.1 ⟨e, hs, h6⟩
        exact ⟨h8, h9, rfl⟩
    obtain ⟨h6, h7, h8⟩ := h5
    simp only [res_pure, ok_inj, Prod.mk.injEq] at h
    obtain ⟨hl', hr⟩ := h
    refine ⟨⟨pos, xs, m.inv⟩, ⟨n1, by show xs.length < _; omega, hf, h6⟩, ?_, ?_⟩
    · rw [e1, e3, e4, h7, ← hl, hr]
      simp only [RawMeta.bytes, List.append_assoc]
    · rw [← hl']
      congr 1
      cases m
      simp only [RawMeta.value, NodeMeta.mk.injEq, and_true]
      simp only at h8
      rw [h8, hv]
      rfl
  · rintro ⟨m, ⟨n1, n2, hf, hfr⟩, hs, hl⟩
    subst hs hl
    refine ⟨(m.pos, be32 m.vars.length ++ (m.vars.flatMap (RawVar.bytes ver) ++ (m.inv ++ r))),
      rdU16_iff.2 ⟨n1, ?_⟩, ?_⟩
    · simp only [RawMeta.bytes, List.append_assoc]
    · rw [bind_ok_iff]
      refine ⟨(m.value ver, r), ?_, by rfl⟩
      rw [bind_ok_iff]
      refine ⟨(m.vars.length, m.vars.flatMap (RawVar.bytes ver) ++ (m.inv ++ r)),
        rdU32_iff.2 ⟨n2, rfl⟩, ?_⟩
      rw [bind_ok_iff]
      refine ⟨((m.value ver).vars, m.inv ++ r),
        (loopP_iff (rdVar_iff ver) _ _ _ _ _).2 ⟨m.vars, rfl, hf, rfl, rfl⟩, ?_⟩
      obtain ⟨e, he, hrd⟩ := rdInv_iff.2 ⟨hfr, (rfl : m.inv ++ r = m.inv ++ r)⟩
      simp only [he, hrd, res_bind_ok, res_pure]
      rfl

theorem np_rdMetaEntry (ver : Nat) (l : MetaList) (s : Bytes) : NoPanic (rdMetaEntry ver l s) := by
  unfold rdMetaEntry rdMeta
  refine np_bind (np_rdU16 _) fun _ => np_bind ?_ fun _ => np_pure _
  refine np_bind (np_rdU32 _) fun _ => np_bind (np_loopP (np_rdVar ver) _ _ _) fun
    ⟨vars, s⟩ => ?_
  simp only
  cases searchIn END_STR s with
  | none => exact np_bad
  | some e => exact np_bind (np_rdN _ _) fun _ => np_pure _

theorem rdMetaList_iff {s : Bytes} {l : MetaList} {r : Bytes} :
    rdMetaList s = .ok (l, r) ↔
      ∃ m : RawMetaList, m.Fits ∧ s = m.bytes ++ r ∧ l = m.value := by
  unfold rdMetaList
  rw [bind_ok_iff]
  constructor
  · rintro ⟨⟨ver, s1⟩, h1, h⟩
    obtain ⟨n1, e1⟩ := rdU8_iff.1 h1
    simp only at h
    split at h
    · exact nomatch h
    · rename_i hver
      rw [bind_ok_iff] at h
      obtain ⟨⟨cnt, s2⟩, h2, h⟩ := h
      obtain ⟨xs, hl, hf, e4, hv⟩ := (loopP_iff (rdMetaEntry_iff ver) _ _ _ _ _).1 h
      simp only at e4 hl
      unfold rdMetaCount at h2
      split at h2
      · rename_i h0
        simp only [res_pure, ok_inj, Prod.mk.injEq] at h2
        obtain ⟨hc, hs⟩ := h2
        subst hc hs
        have hx : xs = [] := List.length_eq_zero_iff.1 hl
        subst hx
        refine ⟨⟨ver, []⟩, ⟨by show ver ≤ 2; omega, by show 0 < 65536; omega, fun _ => rfl,
          by simp⟩, ?_, hv⟩
        rw [e1, e4]
        simp only [RawMetaList.bytes, if_pos h0, List.flatMap_nil, List.nil_append,
          List.cons_append]
      · rename_i h0
        obtain ⟨n2, e2⟩ := rdU16_iff.1 h2
        refine ⟨⟨ver, xs⟩, ⟨by show ver ≤ 2; omega, by show xs.length < 65536; omega,
          fun h => absurd h h0, hf⟩, ?_, hv⟩
        rw [e1, e2, e4, ← hl]
        simp only [RawMetaList.bytes, if_neg h0, List.append_assoc, List.cons_append]
  · rintro ⟨m, ⟨n1, n2, n3, hf⟩, hs, hl⟩
    subst hs hl
    by_cases h0 : m.ver = 0
    · refine ⟨(m.ver, r), rdU8_iff.2 ⟨by omega, ?_⟩, ?_⟩
      · simp only [RawMetaList.bytes, if_pos h0, List.cons_append, List.nil_append]
      · simp only [if_neg (show ¬ m.ver > 2 by omega), rdMetaCount, if_pos h0, res_bind_ok]
        have := n3 h0
        simp only [RawMetaList.value, this, loopP, List.foldl_nil]
    · refine ⟨(m.ver, be16 m.entries.length ++
        (m.entries.flatMap (RawMeta.bytes m.ver) ++ r)), rdU8_iff.2 ⟨by omega, ?_⟩, ?_⟩
      · simp only [RawMetaList.bytes, if_neg h0, List.append_assoc, List.cons_append]
      · simp only [if_neg (show ¬ m.ver > 2 by omega), rdMetaCount, if_neg h0]
        rw [bind_ok_iff]
        refine ⟨(m.entries.length, m.entries.flatMap (RawMeta.bytes m.ver) ++ r),
          rdU16_iff.2 ⟨n2, rfl⟩, ?_⟩
        exact (loopP_iff (rdMetaEntry_iff m.ver) _ _ _ _ _).2 ⟨m.entries, rfl, hf, rfl, rfl⟩

theorem np_rdMetaList (s : Bytes) : NoPanic (rdMetaList s) := by
  unfold rdMetaList
  refine np_bind (np_rdU8 _) fun _ => np_ite (np_err _) (np_bind ?_ fun _ =>
    np_loopP (np_rdMetaEntry _) _ _ _)
  exact np_ite (np_pure _) (np_rdU16 _)

/-! ## Static objects -/

theorem rdObject_iff {s : Bytes} {o : StaticObject} {r : Bytes} :
    rdObject s = .ok (o, r) ↔ ObjFits o ∧ s = objBytes o ++ r := by
  unfold rdObject
  simp only [bind_ok_iff]
  constructor
  · rintro ⟨⟨ty, s1⟩, h1, ⟨x, s2⟩, h2, ⟨y, s3⟩, h3, ⟨z, s4⟩, h4, ⟨d, s5⟩, h5, h⟩
    obtain ⟨n1, e1⟩ := rdU8_iff.1 h1
    obtain ⟨n2, e2⟩ := rdI32_iff.1 h2
    obtain ⟨n3, e3⟩ := rdI32_iff.1 h3
    obtain ⟨n4, e4⟩ := rdI32_iff.1 h4
    obtain ⟨n5, e5⟩ := rdStr16_iff.1 h5
    simp only [res_pure, ok_inj, Prod.mk.injEq] at h e2 e3 e4 e5
    obtain ⟨ho, hr⟩ := h
    subst ho hr e1 e2 e3 e4 e5
    exact ⟨⟨n1, n2, n3, n4, n5⟩, by simp [objBytes]⟩
  · rintro ⟨⟨n1, n2, n3, n4, n5⟩, hs⟩
    subst hs
    refine ⟨(o.objType, beI32 o.fPos.x ++ (beI32 o.fPos.y ++ (beI32 o.fPos.z ++
      (str16 o.data ++ r)))), rdU8_iff.2 ⟨n1, ?_⟩,
      (o.fPos.x, beI32 o.fPos.y ++ (beI32 o.fPos.z ++ (str16 o.data ++ r))),
      rdI32_iff.2 ⟨n2, rfl⟩, (o.fPos.y, beI32 o.fPos.z ++ (str16 o.data ++ r)),
      rdI32_iff.2 ⟨n3, rfl⟩, (o.fPos.z, str16 o.data ++ r), rdI32_iff.2 ⟨n4, rfl⟩,
      (o.data, r), rdStr16_iff.2 ⟨n5, rfl⟩, rfl⟩
    simp [objBytes]

theorem np_rdObject (s : Bytes) : NoPanic (rdObject s) :=
  np_bind (np_rdU8 _) fun _ => np_bind (np_rdI32 _) fun _ => np_bind (np_rdI32 _) fun _ =>
    np_bind (np_rdI32 _) fun _ => np_bind (np_rdStr16 _) fun _ => np_pure _

theorem push_iff {α : Type} {p : P α} {W : α → Prop} {enc : α → Bytes}
    (h : ∀ s a r, p s = .ok (a, r) ↔ W a ∧ s = enc a ++ r) (l : List α) (s : Bytes)
    (l' : List α) (r : Bytes) :
    (do let (o, s) ← p s; return (l ++ [o], s) : Res (List α × Bytes)) = .ok (l', r) ↔
      ∃ x, W x ∧ s = enc x ++ r ∧ l' = l ++ [x] := by
  rw [bind_ok_iff]
  constructor
  · rintro ⟨⟨o, s1⟩, h1, h2⟩
    obtain ⟨hw, hs⟩ := (h _ _ _).1 h1
    simp only [res_pure, ok_inj, Prod.mk.injEq] at h2
    obtain ⟨h3, h4⟩ := h2
    subst h3 h4
    exact ⟨o, hw, hs, rfl⟩
  · rintro ⟨x, hw, hs, hl⟩
    exact ⟨(x, r), (h _ _ _).2 ⟨hw, hs⟩, by rw [hl]; rfl⟩

theorem rdObjects_iff {s : Bytes} {l : List StaticObject} {r : Bytes} :
    rdObjects s = .ok (l, r) ↔ ObjsFit l ∧ s = objsBytes l ++ r := by
  unfold rdObjects
  have hp := push_iff (p := rdObject) (W := ObjFits) (enc := objBytes) fun _ _ _ => rdObject_iff
  rw [bind_ok_iff]
  constructor
  · rintro ⟨⟨ver, s1⟩, h1, h⟩
    obtain ⟨n1, e1⟩ := rdU8_iff.1 h1
    simp only at h
    split at h
    · exact nomatch h
    · rename_i hver
      rw [bind_ok_iff] at h
      obtain ⟨⟨cnt, s2⟩, h2, h⟩ := h
      obtain ⟨n2, e2⟩ := rdU16_iff.1 h2
      obtain ⟨xs, hl, hf, e4, hv⟩ := (loopP_iff hp _ _ _ _ _).1 h
      rw [foldl_snoc, List.nil_append] at hv
      simp only at e4 hl e2
      have hver : ver = 0 := by omega
      subst hv hl e1 e2 e4 hver
      exact ⟨⟨n2, hf⟩, by simp [objsBytes]⟩
  · rintro ⟨⟨n1, hf⟩, hs⟩
    subst hs
    refine ⟨(0, be16 l.length ++ (l.flatMap objBytes ++ r)), rdU8_iff.2 ⟨by omega, ?_⟩, ?_⟩
    · simp [objsBytes]
    · show (do let (count, s) ← rdU16 _; loopP _ count [] s : Res _) = _
      rw [bind_ok_iff]
      refine ⟨(l.length, l.flatMap objBytes ++ r), rdU16_iff.2 ⟨n1, rfl⟩, ?_⟩
      exact (loopP_iff hp _ _ _ _ _).2 ⟨l, rfl, hf, rfl, by rw [foldl_snoc, List.nil_append]⟩

theorem np_rdObjects (s : Bytes) : NoPanic (rdObjects s) := by
  unfold rdObjects
  refine np_bind (np_rdU8 _) fun _ => np_ite (np_err _) (np_bind (np_rdU16 _) fun _ => ?_)
  exact np_loopP (fun _ _ => np_bind (np_rdObject _) fun _ => np_pure _) _ _ _

theorem writes_object {o : StaticObject} (h : ObjFits o) : Writes (wrObject o) (objBytes o) := by
  obtain ⟨_, hx, hy, hz, hd⟩ := h
  obtain ⟨c, h1, h2⟩ := writes_str16 hd
  refine ⟨_, by simp only [wrObject, h1, res_bind_ok]; rfl, ?_⟩
  simp only [flat_append, flat_wrAll, h2, encI32_eq hx, encI32_eq hy, encI32_eq hz, objBytes,
    encU8, byte, List.cons_append, List.nil_append, List.append_assoc]

theorem writes_objects {l : List StaticObject} (h : ObjsFit l) :
    Writes (wrObjects l) (objsBytes l) := by
  obtain ⟨c, h1, h2⟩ := writes_each (f := wrObject) (enc := objBytes) (l := l)
    fun x hx => writes_object (h.2 x hx)
  refine ⟨_, by simp only [wrObjects, h1, res_bind_ok]; rfl, ?_⟩
  simp only [flat_append, flat_wrAll, h2, objsBytes, encU8, byte, encU16_eq, List.cons_append,
    List.nil_append, List.append_assoc]
  rfl

/-! ## Timers -/

theorem rdTimer_iff {s : Bytes} {t : NodeTimer} {r : Bytes} :
    rdTimer s = .ok (t, r) ↔ TimerFits t ∧ s = timerBytes t ++ r := by
  unfold rdTimer
  simp only [bind_ok_iff]
  constructor
  · rintro ⟨⟨ty, s1⟩, h1, ⟨x, s2⟩, h2, ⟨y, s3⟩, h3, h⟩
    obtain ⟨n1, e1⟩ := rdU16_iff.1 h1
    obtain ⟨n2, e2⟩ := rdU32_iff.1 h2
    obtain ⟨n3, e3⟩ := rdU32_iff.1 h3
    simp only [res_pure, ok_inj, Prod.mk.injEq] at h e2 e3
    obtain ⟨ho, hr⟩ := h
    subst ho hr e1 e2 e3
    exact ⟨⟨n1, n2, n3⟩, by simp [timerBytes]⟩
  · rintro ⟨⟨n1, n2, n3⟩, hs⟩
    subst hs
    refine ⟨(t.pos, be32 t.timeout ++ (be32 t.elapsed ++ r)), rdU16_iff.2 ⟨n1, ?_⟩,
      (t.timeout, be32 t.elapsed ++ r), rdU32_iff.2 ⟨n2, rfl⟩,
      (t.elapsed, r), rdU32_iff.2 ⟨n3, rfl⟩, rfl⟩
    simp [timerBytes]

theorem np_rdTimer (s : Bytes) : NoPanic (rdTimer s) :=
  np_bind (np_rdU16 _) fun _ => np_bind (np_rdU32 _) fun _ => np_bind (np_rdU32 _) fun _ =>
    np_pure _

theorem rdTimers_iff {s : Bytes} {l : List NodeTimer} {r : Bytes} :
    rdTimers s = .ok (l, r) ↔ TimersFit l ∧ s = timersBytes l ++ r := by
  unfold rdTimers
  have hp := push_iff (p := rdTimer) (W := TimerFits) (enc := timerBytes) fun _ _ _ => rdTimer_iff
  rw [bind_ok_iff]
  constructor
  · rintro ⟨⟨ver, s1⟩, h1, h⟩
    obtain ⟨n1, e1⟩ := rdU8_iff.1 h1
    simp only at h
    split at h
    · exact nomatch h
    · rename_i hver
      rw [bind_ok_iff] at h
      obtain ⟨⟨cnt, s2⟩, h2, h⟩ := h
      obtain ⟨n2, e2⟩ := rdU16_iff.1 h2
      obtain ⟨xs, hl, hf, e4, hv⟩ := (loopP_iff hp _ _ _ _ _).1 h
      rw [foldl_snoc, List.nil_append] at hv
      simp only at e4 hl e2
      have hver : ver = 10 := by omega
      subst hv hl e1 e2 e4 hver
      exact ⟨⟨n2, hf⟩, by simp [timersBytes]⟩
  · rintro ⟨⟨n1, hf⟩, hs⟩
    subst hs
    refine ⟨(10, be16 l.length ++ (l.flatMap timerBytes ++ r)), rdU8_iff.2 ⟨by omega, ?_⟩, ?_⟩
    · simp [timersBytes]
    · show (do let (count, s) ← rdU16 _; loopP _ count [] s : Res _) = _
      rw [bind_ok_iff]
      refine ⟨(l.length, l.flatMap timerBytes ++ r), rdU16_iff.2 ⟨n1, rfl⟩, ?_⟩
      exact (loopP_iff hp _ _ _ _ _).2 ⟨l, rfl, hf, rfl, by rw [foldl_snoc, List.nil_append]⟩

theorem np_rdTimers (s : Bytes) : NoPanic (rdTimers s) := by
  unfold rdTimers
  refine np_bind (np_rdU8 _) fun _ => np_ite (np_err _) (np_bind (np_rdU16 _) fun _ => ?_)
  exact np_loopP (fun _ _ => np_bind (np_rdTimer _) fun _ => np_pure _) _ _ _

theorem writes_timers {l : List NodeTimer} : Writes (wrTimers l) (timersBytes l) := by
  obtain ⟨c, h1, h2⟩ := writes_each (f := wrTimer) (enc := timerBytes) (l := l)
    fun x _ => ⟨_, rfl, by
      simp only [flat_append, flat_wrAll, timerBytes, encU16_eq, encU32_eq]⟩
  refine ⟨_, by simp only [wrTimers, h1, res_bind_ok]; rfl, ?_⟩
  simp only [flat_append, flat_wrAll, h2, timersBytes, encU8, byte, encU16_eq, List.cons_append,
    List.nil_append, List.append_assoc]
  rfl

/-! ## Name tables -/

theorem rdNimapEntry_iff (m : NameIdMap) (s : Bytes) (m' : NameIdMap) (r : Bytes) :
    rdNimapEntry m s = .ok (m', r) ↔
      ∃ e, NameFits e ∧ s = nameBytes e ++ r ∧ m' = SMap.insert m e.1 e.2 := by
  unfold rdNimapEntry
  simp only [bind_ok_iff]
  constructor
  · rintro ⟨⟨id, s1⟩, h1, ⟨name, s2⟩, h2, h⟩
    obtain ⟨n1, e1⟩ := rdU16_iff.1 h1
    obtain ⟨n2, e2⟩ := rdStr16_iff.1 h2
    simp only [res_pure, ok_inj, Prod.mk.injEq] at h e2
    obtain ⟨ho, hr⟩ := h
    subst ho hr e1 e2
    exact ⟨(id, name), ⟨n1, n2⟩, by simp [nameBytes], rfl⟩
  · rintro ⟨e, ⟨n1, n2⟩, hs, hm⟩
    subst hs hm
    refine ⟨(e.1, str16 e.2 ++ r), rdU16_iff.2 ⟨n1, ?_⟩, (e.2, r), rdStr16_iff.2 ⟨n2, rfl⟩, rfl⟩
    simp [nameBytes]

theorem np_rdNimapEntry (m : NameIdMap) (s : Bytes) : NoPanic (rdNimapEntry m s) :=
  np_bind (np_rdU16 _) fun _ => np_bind (np_rdStr16 _) fun _ => np_pure _

theorem rdNimap_iff {s : Bytes} {m : NameIdMap} {r : Bytes} :
    rdNimap s = .ok (m, r) ↔
      ∃ l, NamesFit l ∧ s = namesBytes l ++ r ∧ m = namesValue l := by
  unfold rdNimap
  rw [bind_ok_iff]
  constructor
  · rintro ⟨⟨ver, s1⟩, h1, h⟩
    obtain ⟨n1, e1⟩ := rdU8_iff.1 h1
    simp only at h
    split at h
    · exact nomatch h
    · rename_i hver
      rw [bind_ok_iff] at h
      obtain ⟨⟨cnt, s2⟩, h2, h⟩ := h
      obtain ⟨n2, e2⟩ := rdU16_iff.1 h2
      obtain ⟨xs, hl, hf, e4, hv⟩ := (loopP_iff rdNimapEntry_iff _ _ _ _ _).1 h
      simp only at e4 hl e2
      have hver : ver = 0 := by omega
      subst hv hl e1 e2 e4 hver
      exact ⟨xs, ⟨n2, hf⟩, by simp [namesBytes], rfl⟩
  · rintro ⟨l, ⟨n1, hf⟩, hs, hm⟩
    subst hs hm
    refine ⟨(0, be16 l.length ++ (l.flatMap nameBytes ++ r)), rdU8_iff.2 ⟨by omega, ?_⟩, ?_⟩
    · simp [namesBytes]
    · show (do let (count, s) ← rdU16 _; loopP _ count [] s : Res _) = _
      rw [bind_ok_iff]
      refine ⟨(l.length, l.flatMap nameBytes ++ r), rdU16_iff.2 ⟨n1, rfl⟩, ?_⟩
      exact (loopP_iff rdNimapEntry_iff _ _ _ _ _).2 ⟨l, rfl, hf, rfl, rfl⟩

theorem np_rdNimap (s : Bytes) : NoPanic (rdNimap s) := by
  unfold rdNimap
  refine np_bind (np_rdU8 _) fun _ => np_ite (np_err _) (np_bind (np_rdU16 _) fun _ => ?_)
  exact np_loopP np_rdNimapEntry _ _ _

theorem writes_nimap {m : NameIdMap} (h : NamesFit m) : Writes (wrNimap m) (namesBytes m) := by
  obtain ⟨c, h1, h2⟩ := writes_each (f := wrNimapEntry) (enc := nameBytes) (l := m)
    fun x hx => by
      obtain ⟨c, h1, h2⟩ := writes_str16 (h.2 x hx).2
      refine ⟨wrAll (encU16 x.1) ++ c, ?_, ?_⟩
      · unfold wrNimapEntry; rw [h1]; rfl
      · simp only [flat_append, flat_wrAll, h2, nameBytes, encU16_eq]
  refine ⟨_, by simp only [wrNimap, h1, res_bind_ok]; rfl, ?_⟩
  simp only [flat_append, flat_wrAll, h2, namesBytes, encU8, byte, encU16_eq, List.cons_append,
    List.nil_append, List.append_assoc]
  rfl

/-! ## Values of what was read are well-formed -/

theorem namesValue_eq (l : List (Nat × Bytes)) : namesValue l = SMap.insertAll [] l := rfl

theorem namesValue_sorted {m : NameIdMap} (h : SMap.Sorted m) : namesValue m = m :=
  SMap.insertAll_sorted h

theorem namesValue_wf {l : List (Nat × Bytes)} (h : NamesFit l) : NimapWf (namesValue l) := by
  rw [namesValue_eq]
  refine ⟨SMap.sorted_insertAll SMap.sorted_nil _, ?_, ?_⟩
  · have := SMap.length_insertAll_le ([] : NameIdMap) l
    have h1 := h.1
    simp at this
    omega
  · intro e he
    rcases SMap.mem_insertAll he with h1 | h1
    · simp at h1
    · exact h.2 e h1

theorem foldl_addVar (ver : Nat) (vs : Vars) (l : List RawVar) :
    l.foldl (addVar ver) vs = SMap.insertAll vs
      (l.map fun v => (v.name, (v.val, decide (2 ≤ ver) && decide (v.priv ≠ 0)))) := by
  induction l generalizing vs with
  | nil => rfl
  | cons a t ih => exact ih _

theorem RawMeta.value_eq (ver : Nat) (m : RawMeta) :
    m.value ver = ⟨m.vars.foldl (addVar ver) [], m.inv⟩ := rfl

theorem value_wf {m : RawMeta} (h : m.Fits) (ver : Nat) : MetaWf (m.value ver) := by
  obtain ⟨_, h1, h2, h3⟩ := h
  rw [RawMeta.value_eq, foldl_addVar]
  refine ⟨SMap.sorted_insertAll SMap.sorted_nil _, ?_, ?_, h3⟩
  · have := SMap.length_insertAll_le ([] : Vars)
      (m.vars.map fun v => (v.name, (v.val, decide (2 ≤ ver) && decide (v.priv ≠ 0))))
    simp only [List.length_nil, List.length_map, Nat.zero_add] at this
    show (SMap.insertAll _ _).length < _
    omega
  · intro e he
    rcases SMap.mem_insertAll he with h4 | h4
    · simp at h4
    · obtain ⟨v, hv, rfl⟩ := List.mem_map.1 h4
      exact ⟨(h2 v hv).1, (h2 v hv).2.1⟩

theorem RawMetaList.value_eq (l : RawMetaList) :
    l.value = SMap.insertAll [] (l.entries.map fun m => (m.pos, m.value l.ver)) := by
  have : ∀ (es : List RawMeta) (m : MetaList),
      es.foldl (fun ms m => SMap.insert ms m.pos (m.value l.ver)) m
        = SMap.insertAll m (es.map fun m => (m.pos, m.value l.ver)) := by
    intro es
    induction es with
    | nil => intro m; rfl
    | cons a t ih => intro m; exact ih _
  exact this _ _

theorem rawValue_wf {l : RawMetaList} (h : l.Fits) : MetasWf l.value := by
  obtain ⟨_, h1, _, h3⟩ := h
  rw [RawMetaList.value_eq]
  have hmem : ∀ e ∈ SMap.insertAll [] (l.entries.map fun m => (m.pos, m.value l.ver)),
      e.1 < 65536 ∧ MetaWf e.2 := by
    intro e he
    rcases SMap.mem_insertAll he with h4 | h4
    · simp at h4
    · obtain ⟨v, hv, rfl⟩ := List.mem_map.1 h4
      exact ⟨(h3 v hv).1, value_wf (h3 v hv) _⟩
  refine ⟨SMap.sorted_insertAll SMap.sorted_nil _, ?_, fun e he => (hmem e he).1,
    fun e he => (hmem e he).2⟩
  have := SMap.length_insertAll_le ([] : MetaList) (l.entries.map fun m => (m.pos, m.value l.ver))
  simp only [List.length_nil, List.length_map, Nat.zero_add] at this
  omega

/-! ## Writing metadata -/

/-- How a variable is written. -/
def rawVar (v : Bytes × (Bytes × Bool)) : RawVar := ⟨v.1, v.2.1, if v.2.2 then 1 else 0⟩

/-- How an entry is written, given the order of its variables. -/
def rawMeta (ord : VarOrd) (e : Nat × NodeMeta) : RawMeta :=
  ⟨e.1, (ord e.1 e.2.vars).map rawVar, e.2.inv⟩

/-- How a list is written. -/
def rawList (ord : VarOrd) (l : MetaList) (blockVersion : Nat) : RawMetaList :=
  if dropVoid l = [] then ⟨0, []⟩
  else ⟨if 28 ≤ blockVersion then 2 else 1, (dropVoid l).map (rawMeta ord)⟩

theorem framed_prefix {inv : Bytes} (h : Framed inv) : endInv <+: inv ↔ inv = endInv := by
  constructor
  · intro hp
    obtain ⟨pre, h1, h2⟩ := h
    cases pre with
    | nil => simpa using h1
    | cons a t => exact absurd (by simpa using hp) (h2 0 (by simp))
  · intro h; rw [h]; exact List.prefix_refl _

theorem isEmpty_iff {m : NodeMeta} (h : MetaWf m) : m.isEmpty = true ↔ MetaVoid m := by
  unfold NodeMeta.isEmpty MetaVoid
  rw [Bool.and_eq_true, List.isPrefixOf_iff_prefix, endInv_eq, framed_prefix h.inv,
    List.isEmpty_iff]

theorem filter_isEmpty {l : MetaList} (h : MetasWf l) :
    (l.filter fun e => !e.2.isEmpty) = dropVoid l := by
  unfold dropVoid
  apply List.filter_congr
  intro e he
  have := isEmpty_iff (h.metas e he)
  by_cases hv : MetaVoid e.2
  · simp [this.2 hv, hv]
  · have h2 : e.2.isEmpty = false := by
      cases h3 : e.2.isEmpty with
      | false => rfl
      | true => exact absurd (this.1 h3) hv
    simp [h2, hv]

theorem writes_var {v : Bytes × (Bytes × Bool)} (ver : Nat)
    (h : v.1.length < 65536 ∧ v.2.1.length < 4294967296) :
    Writes (wrVar ver v) ((rawVar v).bytes ver) := by
  obtain ⟨c1, h1, h2⟩ := writes_str16 h.1
  obtain ⟨c2, h3, h4⟩ := writes_str32 h.2
  refine ⟨_, by simp only [wrVar, h1, h3, res_bind_ok]; rfl, ?_⟩
  by_cases hv : 2 ≤ ver
  · simp only [flat_append, h2, h4, RawVar.bytes, rawVar, if_pos hv, flat_wrAll, ge_iff_le, encU8,
      byte]
  · simp only [flat_append, h2, h4, RawVar.bytes, rawVar, if_neg hv, ge_iff_le, flat]

theorem writes_metaEntry {e : Nat × NodeMeta} (ord : VarOrd) (ho : ord.Lawful) (ver : Nat)
    (h : MetaWf e.2) :
    Writes (wrMetaEntry ord ver e) (if MetaVoid e.2 then [] else (rawMeta ord e).bytes ver) := by
  unfold wrMetaEntry
  by_cases hv : MetaVoid e.2
  · rw [if_pos hv, if_pos ((isEmpty_iff h).2 hv)]
    exact ⟨[], rfl, rfl⟩
  · have : ¬ e.2.isEmpty = true := fun h' => hv ((isEmpty_iff h).1 h')
    rw [if_neg hv, if_neg this]
    obtain ⟨c, h1, h2⟩ := writes_each (f := wrVar ver) (enc := fun v => (rawVar v).bytes ver)
      (l := ord e.1 e.2.vars)
      fun x hx => writes_var ver (h.names x ((ho e.1 e.2.vars).mem_iff.1 hx))
    refine ⟨_, by simp only [NodeMeta.serialize, h1, res_bind_ok]; rfl, ?_⟩
    simp only [flat_append, flat_wrAll, h2, RawMeta.bytes, rawMeta, List.length_map,
      (ho e.1 e.2.vars).length_eq, encU16_eq, encU32_eq, List.append_assoc, List.flatMap_map]

theorem flatMap_void (f : Nat × NodeMeta → Bytes) (l : MetaList) :
    l.flatMap (fun e => if MetaVoid e.2 then [] else f e) = (dropVoid l).flatMap f := by
  induction l with
  | nil => rfl
  | cons e t ih =>
    unfold dropVoid at ih ⊢
    rw [List.flatMap_cons, List.filter_cons, ih]
    by_cases hv : MetaVoid e.2
    · simp [hv]
    · simp [hv]

theorem writes_metas {l : MetaList} (ord : VarOrd) (ho : ord.Lawful) (bv : Nat) (h : MetasWf l) :
    Writes (wrMetaList ord l bv) (rawList ord l bv).bytes := by
  unfold wrMetaList rawList
  simp only [filter_isEmpty h]
  by_cases h0 : dropVoid l = []
  · rw [if_pos (by simp [h0]), if_pos h0]
    exact ⟨_, rfl, rfl⟩
  · have h1 : ¬ (dropVoid l).length = 0 := fun h' => h0 (List.length_eq_zero_iff.1 h')
    rw [if_neg h1, if_neg h0]
    generalize hver : (if bv ≥ 28 then 2 else 1) = ver
    have hver' : (if 28 ≤ bv then 2 else 1) = ver := hver
    have hne : ¬ ver = 0 := by rw [← hver]; split <;> omega
    obtain ⟨c, h2, h3⟩ := writes_each (f := wrMetaEntry ord ver)
      (enc := fun e => if MetaVoid e.2 then [] else (rawMeta ord e).bytes ver) (l := l)
      fun e he => writes_metaEntry ord ho ver (h.metas e he)
    refine ⟨_, by simp only [h2, res_bind_ok]; rfl, ?_⟩
    simp only [flat_append, flat_wrAll, h3, RawMetaList.bytes, if_neg hne, flatMap_void,
      List.length_map, encU8, byte, encU16_eq, List.flatMap_map, List.cons_append,
      List.nil_append, List.append_assoc]

theorem rawVar_fits {v : Bytes × (Bytes × Bool)}
    (h : v.1.length < 65536 ∧ v.2.1.length < 4294967296) : (rawVar v).Fits := by
  refine ⟨h.1, h.2, ?_⟩
  simp only [rawVar]
  split <;> omega

theorem rawList_fits {l : MetaList} (ord : VarOrd) (ho : ord.Lawful) (bv : Nat) (h : MetasWf l) :
    (rawList ord l bv).Fits := by
  unfold rawList
  split
  · exact ⟨by simp, by simp, fun _ => rfl, by simp⟩
  · refine ⟨?_, ?_, ?_, ?_⟩
    · show (if 28 ≤ bv then 2 else 1) ≤ 2
      split <;> omega
    · simp only [List.length_map]
      have : (dropVoid l).length ≤ l.length := List.length_filter_le _ _
      have := h.count
      omega
    · intro h'
      exfalso
      simp only at h'
      split at h' <;> omega
    · intro m hm
      obtain ⟨e, he, rfl⟩ := List.mem_map.1 hm
      have hel : e ∈ l := (List.mem_filter.1 he).1
      have hw := h.metas e hel
      refine ⟨h.keys e hel, ?_, ?_, hw.inv⟩
      · simp only [rawMeta, List.length_map, (ho e.1 e.2.vars).length_eq]
        exact hw.count
      · intro v hv
        obtain ⟨x, hx, rfl⟩ := List.mem_map.1 hv
        exact rawVar_fits (hw.names x ((ho e.1 e.2.vars).mem_iff.1 hx))

theorem rawMeta_value {e : Nat × NodeMeta} (ord : VarOrd) (ho : ord.Lawful) (ver : Nat)
    (h : MetaWf e.2) :
    (rawMeta ord e).value ver = if 2 ≤ ver then e.2 else publish e.2 := by
  rw [RawMeta.value_eq, foldl_addVar]
  have hperm := ho e.1 e.2.vars
  by_cases hv : 2 ≤ ver
  · rw [if_pos hv]
    have : ((rawMeta ord e).vars.map fun v =>
        (v.name, (v.val, decide (2 ≤ ver) && decide (v.priv ≠ 0)))) = ord e.1 e.2.vars := by
      simp only [rawMeta, List.map_map]
      conv => rhs; rw [← List.map_id (ord e.1 e.2.vars)]
      apply List.map_congr_left
      intro x _
      simp only [Function.comp, rawVar, hv, decide_true, Bool.true_and, id]
      obtain ⟨a, b, c⟩ := x
      cases c <;> simp
    rw [this, SMap.insertAll_perm hperm h.sorted]
    rfl
  · rw [if_neg hv]
    have : ((rawMeta ord e).vars.map fun v =>
        (v.name, (v.val, decide (2 ≤ ver) && decide (v.priv ≠ 0))))
        = (ord e.1 e.2.vars).map fun x => (x.1, (x.2.1, false)) := by
      simp only [rawMeta, List.map_map]
      apply List.map_congr_left
      intro x _
      simp only [Function.comp, rawVar, hv, decide_false, Bool.false_and]
    rw [this]
    show NodeMeta.mk _ e.2.inv = NodeMeta.mk _ e.2.inv
    congr 1
    exact SMap.insertAll_perm (hperm.map _)
      (SMap.sorted_mapVal h.sorted fun _ x => (x.1, false))

theorem rawList_value {l : MetaList} (ord : VarOrd) (ho : ord.Lawful) (bv : Nat) (h : MetasWf l) :
    (rawList ord l bv).value = if 28 ≤ bv then dropVoid l
      else (dropVoid l).map fun e => (e.1, publish e.2) := by
  have hs : SMap.Sorted (dropVoid l) := SMap.sorted_filter h.sorted _
  rw [RawMetaList.value_eq]
  unfold rawList
  by_cases h0 : dropVoid l = []
  · rw [if_pos h0]
    split <;> simp [h0, SMap.insertAll]
  · rw [if_neg h0]
    simp only [List.map_map]
    by_cases hv : 28 ≤ bv
    · simp only [if_pos hv]
      have : ((dropVoid l).map ((fun m : RawMeta => (m.pos, m.value 2)) ∘ rawMeta ord))
          = dropVoid l := by
        conv => rhs; rw [← List.map_id (dropVoid l)]
        apply List.map_congr_left
        intro e he
        have hw := h.metas e (List.mem_filter.1 he).1
        simp only [Function.comp, rawMeta_value ord ho 2 hw, Nat.le_refl, if_true, id]
        rfl
      rw [this, SMap.insertAll_sorted hs]
    · simp only [if_neg hv]
      have : ((dropVoid l).map ((fun m : RawMeta => (m.pos, m.value 1)) ∘ rawMeta ord))
          = (dropVoid l).map fun e => (e.1, publish e.2) := by
        apply List.map_congr_left
        intro e he
        have hw := h.metas e (List.mem_filter.1 he).1
        simp only [Function.comp, rawMeta_value ord ho 1 hw, (show ¬ 2 ≤ 1 by omega), if_false]
        rfl
      rw [this, SMap.insertAll_sorted (SMap.sorted_mapVal hs fun _ m => publish m)]

end MapEditr
