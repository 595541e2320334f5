import Verif.Proof.CopyGoes
import Verif.Props.Overlay
import Verif.Props.Runs
/-! # Lemmas: which maps make the copying commands crash -/

namespace MapEditr
open Spec
set_option linter.unusedSimpArgs false
set_option linter.unusedVariables false

/-! ## Blocks -/

/-- A completed row could take its nodes. -/
theorem RawRow.goes {env : Env} {src t : Table} {part : Int → Area} {o : Vec3} {k : Int} {r : Option Bytes}
    (hc : env.codec.Lawful) (h : RawRow False env src t part o k r)
    (hsp : ((part k).sub o).isValid = true)
    (hin : ∀ p, InBox ((part k).sub o).min ((part k).sub o).max p → InBlock (Vec3.fromBlockKey k) (shift p o))
    {b : MapBlock} (hb : orig env.codec t k = some (.ok b)) :
    Goes env.build ((part k).sub o) o (Vec3.fromBlockKey k) (findIn env.codec src) b := by
  rcases h with ⟨-, h | h⟩ | ⟨b', find, b1, d', h1, h2, h3, ⟨b2, n, h4, -⟩, -⟩
  · exact h.elim
  · exact absurd hb (h b)
  · rw [hb] at h1
    cases h1
    have e := h2.all.resolve_left id
    subst e
    have hsel : ∀ p, InBlock (Vec3.fromBlockKey k) p →
        ((fun p => InBox ((part k).sub o).min ((part k).sub o).max (unshift p o)) p ↔
          InBox ((part k).sub o).min ((part k).sub o).max (unshift p o)) := fun _ _ => Iff.rfl
    obtain ⟨o1, o2, o3⟩ := sources_zyx hsp hin hsel
    obtain ⟨d, -, hr, -⟩ := (orig_ok hc).1 hb
    have wb := wf_of_deserialize (deserialize_iff.2 hr)
    obtain ⟨g1, -⟩ := fold_drawn (Src := fun q sb => findIn env.codec src q = some sb) hsp hin hsel
      (fun q sb h => findIn_wf hc h) (fun _ _ => Iff.rfl) o2 wb.half h3
    exact ⟨b1, b2, h3, h4, (clean_tidies g1 h4).2⟩

/-- The blocks at which copying with an offset gets stuck. -/
theorem someStuck_iff {bd : Build} {c : Codec} (hc : c.Lawful) {t src : Table} (hg : GoodTable t)
    (hn : (src.map (·.1)).Nodup) {area : Option Area} (ha : AreaOk area) {o : Vec3} :
    (SomeBlock c t fun bp _ b => CopyStuck bd c src o (fun p => Selected area false (unshift p o)) bp b) ↔
    ∃ k ∈ dests (shiftArea area o) false t, ∃ b, orig c t k = some (.ok b) ∧
      ¬ Goes bd ((partOf (shiftArea area o) k).sub o) o (Vec3.fromBlockKey k) (findIn c src) b := by
  have ha' := shiftArea_ok ha o
  have key : ∀ k ∈ dests (shiftArea area o) false t, ∀ b, Wf b → Generated b →
      (CopyStuck bd c src o (fun p => Selected area false (unshift p o)) (Vec3.fromBlockKey k) b ↔
        ¬ Goes bd ((partOf (shiftArea area o) k).sub o) o (Vec3.fromBlockKey k) (findIn c src) b) := by
    intro k hk b wb hgen
    have P := partOf_ok ha' hg o hk
    exact copyStuck_iff hc hn P.valid P.inside
      (fun p hp => (shiftArea_sel area o p).symm.trans (P.iff p hp).symm) wb hgen
  constructor
  · rintro ⟨bp, d, b, h1, h2, h3, h4⟩
    have hk : keyOf bp ∈ dests (shiftArea area o) false t := by
      refine (mem_dests hg ha' h1).2 ⟨List.mem_map.2 ⟨_, h2, rfl⟩, ?_⟩
      obtain ⟨p, p1, p2⟩ := h4.2.1
      exact ⟨p, p1, (shiftArea_sel area o p).2 p2⟩
    refine ⟨keyOf bp, hk, b, (orig_ok hc).2 ⟨d, Table.get?_of_mem hg.nodup h2, h3, h4.1⟩, ?_⟩
    refine (key _ hk b (wf_of_deserialize (deserialize_iff.2 h3)) h4.1).1 ?_
    rw [fromBlockKey_keyOf bp h1]
    exact h4
  · rintro ⟨k, hk, b, h1, h2⟩
    obtain ⟨d, g1, g2, g3⟩ := (orig_ok hc).1 h1
    obtain ⟨v, e⟩ := keyOf_fromBlockKey k (dests_row hg hk).1
    exact ⟨_, d, b, v, by rw [e]; exact Table.get?_some_mem g1, g2,
      (key k hk b (wf_of_deserialize (deserialize_iff.2 g2)) g3).2 h2⟩

theorem movedBy_same {a : Area} (hv : a.isValid = true) {bp : Vec3} {part : Area}
    (p3 : ∀ i, i < 4096 → (outIdx part i = false ↔ InBox a.min a.max (posAt bp i))) (i j : Nat) :
    MovedBy part part i j ↔ i < 4096 ∧ i = j ∧ InBox a.min a.max (posAt bp i) := by
  have hd : dif part part = 0 := by
    have : dif part part = (part.min.x - part.min.x) + (part.min.y - part.min.y) * 16
      + (part.min.z - part.min.z) * 256 := rfl
    omega
  unfold MovedBy
  rw [hd]
  constructor
  · rintro ⟨h1, h2, h3⟩
    refine ⟨h1, by omega, ?_⟩
    rw [← p3 i h1, ← Bool.not_eq_true, outIdx_iff, Classical.not_not]
    exact contains_idx.1 h2
  · rintro ⟨h1, h2, h3⟩
    rw [← p3 i h1, ← Bool.not_eq_true, outIdx_iff, Classical.not_not] at h3
    exact ⟨h1, contains_idx.2 h3, by omega⟩

theorem partGoes_iff {bd : Build} {a : Area} (hv : a.isValid = true) {bp : Vec3} {part : Area} (p2 : LocalArea part)
    (p3 : ∀ i, i < 4096 → (outIdx part i = false ↔ InBox a.min a.max (posAt bp i))) {src b : MapBlock} (ws : Wf src)
    (wb : Wf b) : PartGoes bd src b part ↔
      ∃ D, Joins bd src (fun i j => i < 4096 ∧ i = j ∧ InBox a.min a.max (posAt bp i)) (draftOf b) D ∧ Tidies D := by
  have e : MovedBy part part = fun i j => i < 4096 ∧ i = j ∧ InBox a.min a.max (posAt bp i) :=
    funext fun i => funext fun j => propext (movedBy_same hv p3 i j)
  have hsz : SameSize part part := ⟨rfl, rfl, rfl⟩
  rw [← e]
  constructor
  · rintro ⟨b1, b2, h1, h2, -⟩
    obtain ⟨g1, g2⟩ := mergeBoth_joins p2 p2 hsz ws wb.half h1
    exact ⟨_, g2, (clean_tidies g1 h2).1⟩
  · rintro ⟨D, h1, h2⟩
    obtain ⟨b1, g1, g2, rfl⟩ := joins_mergeBoth p2 p2 hsz ws wb.half h1
    obtain ⟨b2, h4⟩ := tidies_clean (bd := bd) g2 h2
    exact ⟨b1, b2, g1, h4, (clean_tidies g2 h4).2⟩

theorem partly_iff {a : Area} (hv : a.isValid = true) {invert : Bool} {bp : Vec3} :
    Partly (some a) invert bp ↔
      (∃ p, InBlock bp p ∧ Selected (some a) invert p) ∧ copiesWhole a invert bp = false := by
  have h := copiesWhole_iff hv invert bp
  rw [← Bool.not_eq_true, h]
  unfold Partly Whole
  refine and_congr Iff.rfl ⟨?_, ?_⟩
  · rintro ⟨p, h1, h2⟩ hw
    exact h2 (hw p h1)
  · intro hno
    refine Classical.byContradiction fun hx => hno fun p hp => ?_
    exact Classical.byContradiction fun hs => hx ⟨p, hp, hs⟩

/-- The blocks at which copying without offset gets stuck. -/
theorem somePart_iff {bd : Build} {c : Codec} (hc : c.Lawful) {t src : Table} (hg : GoodTable t)
    (hgs : GoodTable src) {a : Area} (hv : a.isValid = true) {invert : Bool} :
    (SomeBlock c t fun bp _ b => PartStuck bd c src a invert bp b) ↔
    ∃ k ∈ dests (some a) invert src, copiesWhole a invert (Vec3.fromBlockKey k) = false ∧
      ∃ part sd sb b, a.relBlockOverlap (Vec3.fromBlockKey k) = some part ∧ src.get? k = some sd ∧
        deserialize c sd = .ok sb ∧ orig c t k = some (.ok b) ∧
        ¬ PartGoes bd (if invert then b else sb) (if invert then sb else b) part := by
  have ha : AreaOk (some a) := by intro x hx; cases hx; exact hv
  constructor
  · rintro ⟨bp, d, b, h1, h2, h3, h4, h5, sd, sb, h6, h7, h8⟩
    obtain ⟨⟨p, p1, p2⟩, hw⟩ := (partly_iff hv).1 h5
    obtain ⟨part, q1, q2, q3⟩ := part_spec hv (not_whole_partly hv p1 p2 hw)
    have wb := wf_of_deserialize (deserialize_iff.2 h3)
    have ws := wf_of_deserialize (deserialize_iff.2 h7)
    refine ⟨keyOf bp, (mem_dests hgs ha h1).2 ⟨List.mem_map.2 ⟨_, h6, rfl⟩, p, p1, p2⟩, ?_⟩
    rw [fromBlockKey_keyOf bp h1]
    refine ⟨hw, part, sd, sb, b, q1, Table.get?_of_mem hgs.nodup h6, deserialize_iff.2 h7,
      (orig_ok hc).2 ⟨d, Table.get?_of_mem hg.nodup h2, h3, h4⟩, fun hgo => ?_⟩
    rw [partGoes_iff hv q2 q3 (by split <;> assumption) (by split <;> assumption)] at hgo
    obtain ⟨D, g1, g2⟩ := hgo
    exact h8 D g1 g2
  · rintro ⟨k, hk, hw, part, sd, sb, b, h1, h2, h3, h4, h5⟩
    obtain ⟨d, g1, g2, g3⟩ := (orig_ok hc).1 h4
    obtain ⟨v, e⟩ := keyOf_fromBlockKey k (dests_row hgs hk).1
    obtain ⟨p, p1, p2⟩ := dests_sel ha hgs hk
    obtain ⟨part', q1, q2, q3⟩ := part_spec hv (not_whole_partly hv p1 p2 hw)
    rw [h1] at q1
    cases q1
    have wb := wf_of_deserialize (deserialize_iff.2 g2)
    have ws := wf_of_deserialize h3
    refine ⟨_, d, b, v, by rw [e]; exact Table.get?_some_mem g1, g2, g3, (partly_iff hv).2 ⟨⟨p, p1, p2⟩, hw⟩, sd, sb,
      by rw [e]; exact Table.get?_some_mem h2, deserialize_iff.1 h3, fun D j1 j2 => h5 ?_⟩
    rw [partGoes_iff hv q2 q3 (by split <;> assumption) (by split <;> assumption)]
    exact ⟨D, j1, j2⟩

/-! ## Runs -/

section
variable {env : Env} {args : InstArgs} {f g : DbFile}

theorem clone_stuck (S : CopySet env args f g) (hc : args.command = "clone") (hin : args.inputMapPath = none)
    {a : Area} {o : Vec3} (hA : args.area = some a) (hO : args.offset = some o) :
    Crashes env args ↔ SomeBlock env.codec f.table fun bp _ b =>
      CopyStuck env.build env.codec f.table o (fun p => Selected args.area false (unshift p o)) bp b := by
  haveI : Calm env := ⟨fun n h => by rw [S.works] at h; cases h⟩
  have hv : a.isValid = true := S.area a hA
  have hver : cloneVerify args = .ok .ok := by
    simp only [cloneVerify, hA, hO, unwrap]
    have := movedOut_iff a o
    show (Except.ok (if (MAP_AREA.intersection (a.add o)).isNone then _ else _) : Res _) = _
    rw [if_neg (fun h => S.command (.inl ⟨hc, a, o, hA, hO, this.1 h⟩))]
  have hbad := (verifyArgs_iff args).2 S.accepted
  have hcol := (colsOk_iff _).2 S.cols
  have hinp : ∀ p, args.inputMapPath = some p → ∃ g, mapFile env p = some g ∧ colsOk g.cols = true := by
    intro p hp; rw [hin] at hp; cases hp
  rw [someStuck_iff S.ok.codec S.good S.good.nodup S.area]
  rw [hA]
  constructor
  · intro hcr
    refine Classical.byContradiction fun hno => ?_
    obtain ⟨t', evs, h⟩ : ∃ t' evs, Completes env args f.table t' evs := by
      refine completes_of hbad (by rw [hc]; exact clone_command) hver (by simp) S.file hcol hinp S.works S.confirmed
        (by rw [hc]; decide) ?_
      intro w1 ho _
      refine clone_goes S.ok S.works ho S.good _ hA hO hv fun k hk b hb => ?_
      exact Classical.byContradiction fun hn => hno ⟨k, hk, b, hb, hn⟩
    exact crashes_not h hcr
  · rintro ⟨k, hk, b, h1, h2⟩
    refine (completes_or hbad (by rw [hc]; exact clone_command) hver (by simp) S.file hcol hinp S.works S.confirmed
      (by rw [hc]; decide)).resolve_left ?_
    rintro ⟨t', evs, h⟩
    obtain ⟨D⟩ := completes_done h (by rw [hc]; decide)
    have hbody := D.body_of hc clone_command
    simp only at hbody
    obtain ⟨t2, ks, r1, -, r2⟩ := clone_raw (F := False) (fun n h => by rw [S.works] at h; cases h) D.start S.good
      hA hO hv hbody
    have P := partOf_ok (shiftArea_ok (area := some a) (hA ▸ S.area) o) S.good o hk
    exact h2 ((r2.on k (r1.mem_iff.2 hk)).goes S.ok.codec P.valid P.inside h1)

theorem overlay_verified (S : CopySet env args f g) (hc : args.command = "overlay") :
    overlayVerify args = .ok ∧ (args.invert = true → args.offset.getD ⟨0, 0, 0⟩ = ⟨0, 0, 0⟩) := by
  refine overlayVerify_ok fun e he => S.command ?_
  unfold overlayVerify at he
  simp only at he
  refine .inr (.inr (.inr (.inr (.inl ⟨hc, ?_⟩))))
  split at he
  · next h =>
    left
    rw [Bool.and_eq_true] at h
    refine ⟨h.1, ?_⟩
    cases ho : args.offset with
    | none => rw [ho] at h; simp at h
    | some o =>
      rw [ho] at h
      refine ⟨o, rfl, fun hz => ?_⟩
      subst hz
      simp at h
  · split at he
    · next h => exact .inr ((movedOut_iff _ _).1 h)
    · cases he

theorem offset_stuck (S : CopySet env args f g) (hc : args.command = "overlay") {p : String}
    (hp : args.inputMapPath = some p) (hgf : mapFile env p = some g) (hgc : MapColumns g.cols)
    (hgs : GoodTable g.table) (hoff : args.offset.getD ⟨0, 0, 0⟩ ≠ ⟨0, 0, 0⟩) :
    Crashes env args ↔ SomeBlock env.codec f.table fun bp _ b =>
      CopyStuck env.build env.codec g.table (args.offset.getD ⟨0, 0, 0⟩)
        (fun p => Selected args.area false (unshift p (args.offset.getD ⟨0, 0, 0⟩))) bp b := by
  haveI : Calm env := ⟨fun n h => by rw [S.works] at h; cases h⟩
  obtain ⟨hver, hinv⟩ := overlay_verified S hc
  obtain ⟨o, hO⟩ : ∃ o, args.offset = some o := by
    cases h : args.offset with
    | none => rw [h] at hoff; exact absurd rfl hoff
    | some o => exact ⟨o, rfl⟩
  have hinv : args.invert = false := by
    cases h : args.invert with
    | false => rfl
    | true => exact absurd (hinv h) hoff
  have hbad := (verifyArgs_iff args).2 S.accepted
  have hcol := (colsOk_iff _).2 S.cols
  have hgcol := (colsOk_iff _).2 hgc
  have ho : args.offset.getD ⟨0, 0, 0⟩ = o := by rw [hO]; rfl
  rw [ho, someStuck_iff S.ok.codec S.good hgs.nodup S.area]
  constructor
  · intro hcr
    refine Classical.byContradiction fun hno => ?_
    obtain ⟨t', evs, h⟩ : ∃ t' evs, Completes env args f.table t' evs := by
      refine overlay_completes S.works S.file S.cols hp hgf hgc S.accepted hc hver S.confirmed ?_
      intro w1 o1 o2
      rw [if_neg hoff]
      refine overlayOffset_goes S.ok S.works o1 o2 S.good _ hO hinv S.area fun k hk b hb => ?_
      exact Classical.byContradiction fun hn => hno ⟨k, hk, b, hb, hn⟩
    exact crashes_not h hcr
  · rintro ⟨k, hk, b, h1, h2⟩
    refine (completes_or hbad (by rw [hc]; exact overlay_command) (by simp only; rw [hver]) (by simp) S.file hcol
      (fun q hq => by rw [hp] at hq; cases hq; exact ⟨g, hgf, hgcol⟩) S.works S.confirmed
      (by rw [hc]; decide)).resolve_left ?_
    rintro ⟨t', evs, h⟩
    obtain ⟨D, d1, -, d3⟩ := overlay_done hc hp hgf h
    rw [if_neg hoff] at d3
    obtain ⟨t2, -, r2⟩ := overlayOffset_raw (F := False) (fun n h => by rw [S.works] at h; cases h) D.start d1 S.good
      hO hinv S.area d3
    have P := partOf_ok (shiftArea_ok S.area o) S.good o hk
    exact h2 ((r2.on k hk).goes S.ok.codec P.valid P.inside h1)

theorem plain_stuck (S : CopySet env args f g) (hc : args.command = "overlay") {p : String}
    (hp : args.inputMapPath = some p) (hgf : mapFile env p = some g) (hgc : MapColumns g.cols)
    (hgs : GoodTable g.table) (hoff : args.offset.getD ⟨0, 0, 0⟩ = ⟨0, 0, 0⟩) :
    Crashes env args ↔ SomeBlock env.codec f.table fun bp _ b => ∃ a, args.area = some a ∧
      PartStuck env.build env.codec g.table a args.invert bp b := by
  haveI : Calm env := ⟨fun n h => by rw [S.works] at h; cases h⟩
  obtain ⟨hver, -⟩ := overlay_verified S hc
  have hbad := (verifyArgs_iff args).2 S.accepted
  have hcol := (colsOk_iff _).2 S.cols
  have hgcol := (colsOk_iff _).2 hgc
  have hS : (SomeBlock env.codec f.table fun bp _ b => ∃ a, args.area = some a ∧
      PartStuck env.build env.codec g.table a args.invert bp b) ↔
      ∃ a, args.area = some a ∧ SomeBlock env.codec f.table fun bp _ b =>
        PartStuck env.build env.codec g.table a args.invert bp b := by
    constructor
    · rintro ⟨bp, d, b, h1, h2, h3, a, h4, h5⟩
      exact ⟨a, h4, bp, d, b, h1, h2, h3, h5⟩
    · rintro ⟨a, h4, bp, d, b, h1, h2, h3, h5⟩
      exact ⟨bp, d, b, h1, h2, h3, a, h4, h5⟩
  rw [hS]
  constructor
  · intro hcr
    refine Classical.byContradiction fun hno => ?_
    obtain ⟨t', evs, h⟩ : ∃ t' evs, Completes env args f.table t' evs := by
      refine overlay_completes S.works S.file S.cols hp hgf hgc S.accepted hc hver S.confirmed ?_
      intro w1 o1 o2
      rw [if_pos hoff]
      refine plain_goes S.ok S.works o1 o2 hgs fun k hk a ha hw => ?_
      have hv := S.area a ha
      obtain ⟨p, p1, p2⟩ := dests_sel S.area hgs hk
      rw [ha] at hk p2
      obtain ⟨part, q1, q2, q3⟩ := part_spec hv (not_whole_partly hv p1 p2 hw)
      refine ⟨part, q1, fun sd sb b s1 s2 s3 => ?_⟩
      refine Classical.byContradiction fun hn => hno ⟨a, ha, ?_⟩
      rw [somePart_iff S.ok.codec S.good hgs hv]
      exact ⟨k, hk, hw, part, sd, sb, b, q1, s1, s2, s3, hn⟩
    exact crashes_not h hcr
  · rintro ⟨a, ha, hx⟩
    have hv := S.area a ha
    rw [somePart_iff S.ok.codec S.good hgs hv] at hx
    obtain ⟨k, hk, hw, part, sd, sb, b, h1, h2, h3, h4, h5⟩ := hx
    refine (completes_or hbad (by rw [hc]; exact overlay_command) (by simp only; rw [hver]) (by simp) S.file hcol
      (fun q hq => by rw [hp] at hq; cases hq; exact ⟨g, hgf, hgcol⟩) S.works S.confirmed
      (by rw [hc]; decide)).resolve_left ?_
    rintro ⟨t', evs, h⟩
    obtain ⟨D, d1, -, d3⟩ := overlay_done hc hp hgf h
    rw [if_pos hoff] at d3
    obtain ⟨t2, -, r2⟩ := plain_raw (F := False) (fun n h => by rw [S.works] at h; cases h) D.start d1 hgs d3
    rw [ha] at r2
    have hr := r2.on k hk
    unfold RawLaid at hr
    simp only [hw, Bool.false_eq_true, if_false, false_and, false_or] at hr
    obtain ⟨sd', e1, hr, -⟩ := hr
    rw [h2] at e1
    cases e1
    obtain ⟨part', b1, metas, d', m1, m2, m3, ⟨b2, n, m4, -⟩, -⟩ := hr sb b h3 h4
    rw [h1] at m1
    cases m1
    obtain ⟨d, g1, g2, g3⟩ := (orig_ok S.ok.codec).1 h4
    have wb := wf_of_deserialize (deserialize_iff.2 g2)
    have ws := wf_of_deserialize h3
    obtain ⟨p, p1, p2⟩ := dests_sel (by intro x hx; cases hx; exact hv) hgs hk
    obtain ⟨part', q1, q2, q3⟩ := part_spec hv (not_whole_partly hv p1 p2 hw)
    rw [h1] at q1
    cases q1
    have e : mergeBoth env.build (if args.invert then b else sb) (if args.invert then sb else b) part part
        = .ok { b1 with metas } := by
      unfold mergeBoth
      rw [m2, res_bind_ok, m3]
      rfl
    have hh := (mergeBoth_joins q2 q2 ⟨rfl, rfl, rfl⟩ (src := if args.invert then b else sb)
      (b := if args.invert then sb else b) (by split <;> assumption)
      (Wf.half (by split <;> assumption)) e).1
    exact h5 ⟨_, b2, e, m4, (clean_tidies hh m4).2⟩

end

end MapEditr
