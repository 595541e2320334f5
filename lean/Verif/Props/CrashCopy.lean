import Verif.Proof.CrashCopy
import Verif.Props.Crash
/-!
# Property C107 for the commands that copy: what makes `clone` and `overlay` crash
-/

namespace MapEditr
open Spec
set_option linter.unusedVariables false

/-- `clone` and `overlay`, with accepted arguments and a working database, panic exactly if some block they would
change is stuck: raising the IDs of the blocks it takes nodes from, one after the other, beyond its own needs more
than 16 bits (in a debug build), or the name table cannot be tidied afterwards.

The property is `¬ Crashes env args`, which is false: `C107_clone_false`. -/
theorem C107_copy_crash_iff_partial (env : Env) (args : InstArgs) (f g : DbFile) (S : CopySet env args f g) :
    Crashes env args ↔ SomeBlock env.codec f.table fun bp _ b => StuckCopy env.build env.codec g.table args bp b := by
  unfold StuckCopy
  rcases S.kind with ⟨hc, hin, hfg, hA, hO⟩ | ⟨hc, ⟨p, hp, hgf⟩, hgc, hgs⟩
  · obtain ⟨a, hA⟩ := Option.ne_none_iff_exists'.1 hA
    obtain ⟨o, hO⟩ := Option.ne_none_iff_exists'.1 hO
    subst hfg
    have hne : ¬ (args.command = "overlay" ∧ args.offset.getD ⟨0, 0, 0⟩ = ⟨0, 0, 0⟩) := by
      rw [hc]; exact fun h => absurd h.1 (by decide)
    simp only [if_neg hne]
    have ho : args.offset.getD ⟨0, 0, 0⟩ = o := by rw [hO]; rfl
    rw [ho]
    exact clone_stuck S hc hin hA hO
  · by_cases hoff : args.offset.getD ⟨0, 0, 0⟩ = ⟨0, 0, 0⟩
    · simp only [if_pos (And.intro hc hoff)]
      exact plain_stuck S hc hp hgf hgc hgs hoff
    · have hne : ¬ (args.command = "overlay" ∧ args.offset.getD ⟨0, 0, 0⟩ = ⟨0, 0, 0⟩) := fun h => hoff h.2
      simp only [if_neg hne]
      exact offset_stuck S hc hp hgf hgc hgs hoff

/-! ## Room for all IDs -/

theorem sum16_small (bd : Build) {a b : Nat} (h : a + b < 65536) {c : Nat} : Sum16 bd a b c ↔ c = a + b := by
  unfold Sum16
  rw [Nat.mod_eq_of_lt h]
  exact ⟨fun h => h.1, fun e => ⟨e, fun _ => h⟩⟩

theorem joins_room {bd : Build} {src : MapBlock} {Moved : Nat → Nat → Prop} {D : Draft} {m L : Nat}
    (ws : SMap.Sorted src.nimap) (hcov : Covered src) (hL : ∀ e ∈ src.nimap, e.1 < L) (ht : Top D.ids m)
    (hn : ∀ i id, D.node i id → id ≤ m) (hr : m + 1 + L ≤ 65535) :
    ∃ D' m', Joins bd src Moved D D' ∧ Top D'.ids m' ∧ (∀ i id, D'.node i id → id ≤ m') ∧ m' < m + 1 + L := by
  have hid : ∀ id ∈ src.nd.nodes, id < L := by
    intro id h
    obtain ⟨e, he, h1⟩ := hcov id h
    have := hL e he
    omega
  have hs : ∀ e ∈ src.nimap, ∀ c, Sum16 bd e.1 (m + 1) c ↔ c = e.1 + (m + 1) := fun e he c => by
    have := hL e he
    exact sum16_small bd (by omega)
  have hsn : ∀ id ∈ src.nd.nodes, ∀ c, Sum16 bd id (m + 1) c ↔ c = id + (m + 1) := fun id h c => by
    have := hid id h
    exact sum16_small bd (by omega)
  let D' : Draft := ⟨fun c => D.ids c ∨ ∃ e ∈ src.nimap, Sum16 bd e.1 (m + 1) c,
    fun i c => (∃ j id, Moved i j ∧ src.nd.nodes[j]? = some id ∧ Sum16 bd id (m + 1) c) ∨
      ((∀ j, ¬ Moved i j) ∧ D.node i c)⟩
  have hj : Joins bd src Moved D D' := by
    refine ⟨m, m + 1, ht, (sum16_small bd (by omega)).2 rfl, fun e he => ⟨_, (hs e he _).2 rfl⟩, ?_,
      fun _ => Iff.rfl, fun _ _ => Iff.rfl⟩
    intro i j id _ h
    exact ⟨_, (hsn id (List.mem_of_getElem? h) _).2 rfl⟩
  by_cases hne : src.nimap = []
  · refine ⟨D', m, hj, ⟨.inl ht.1, ?_⟩, ?_, by omega⟩
    · rintro id (h | ⟨e, he, -⟩)
      · exact ht.2 id h
      · rw [hne] at he; cases he
    · rintro i c (⟨j, id, -, h, -⟩ | ⟨-, h⟩)
      · obtain ⟨e, he, -⟩ := hcov id (List.mem_of_getElem? h)
        rw [hne] at he; cases he
      · exact hn i c h
  · obtain ⟨k, hk⟩ := maxId_exists hne
    obtain ⟨⟨n, k1⟩, k2⟩ := (top_maxId ws).1 hk
    have k3 := hL _ k1
    simp only at k3
    refine ⟨D', k + (m + 1), hj, ⟨.inr ⟨_, k1, (hs _ k1 _).2 rfl⟩, ?_⟩, ?_, by omega⟩
    · rintro id (h | ⟨e, he, h⟩)
      · have := ht.2 id h; omega
      · have := k2 e.1 ⟨e.2, he⟩
        have := (hs e he _).1 h
        omega
    · rintro i c (⟨j, id, -, h, h'⟩ | ⟨-, h⟩)
      · have := (hsn id (List.mem_of_getElem? h) _).1 h'
        obtain ⟨e, he, h1⟩ := hcov id (List.mem_of_getElem? h)
        have := k2 e.1 ⟨e.2, he⟩
        omega
      · have := hn i c h; omega

theorem drawn_room {bd : Build} {Src : Vec3 → MapBlock → Prop} {Moved : Vec3 → Nat → Nat → Prop} {L : Nat}
    (hS : ∀ q sb, Src q sb → SMap.Sorted sb.nimap ∧ Covered sb ∧ ∀ e ∈ sb.nimap, e.1 < L) (qs : List Vec3) {D : Draft}
    {m : Nat} (ht : Top D.ids m) (hn : ∀ i id, D.node i id → id ≤ m) (hr : m + 1 + qs.length * L ≤ 65535) :
    ∃ D', Drawn bd Src Moved qs D D' ∧ Tidies D' := by
  induction qs generalizing D m with
  | nil => exact ⟨D, .nil D, m, ht, by omega, hn⟩
  | cons q qs ih =>
    rw [List.length_cons, Nat.add_mul, Nat.one_mul] at hr
    by_cases hq : ∃ sb, Src q sb
    · obtain ⟨sb, hq⟩ := hq
      obtain ⟨h1, h2, h3⟩ := hS q sb hq
      obtain ⟨D1, m1, g1, g2, g3, g4⟩ := joins_room (bd := bd) (Moved := Moved q) h1 h2 h3 ht hn (by omega)
      obtain ⟨D', g5, g6⟩ := ih g2 g3 (by omega)
      exact ⟨D', .join hq g1 g5, g6⟩
    · obtain ⟨D', g5, g6⟩ := ih ht hn (by omega)
      exact ⟨D', .skip (fun b h => hq ⟨b, h⟩) g5, g6⟩

theorem top_block {b : MapBlock} (hw : Wf b) (hc : Covered b) (hs : SmallIds b) :
    ∃ m, Top (draftOf b).ids m ∧ (∀ i id, (draftOf b).node i id → id ≤ m) ∧ m ≤ 7280 := by
  have hne : b.nimap ≠ [] := by
    intro e
    have hl := hw.nodes.1
    cases hnd : b.nd.nodes with
    | nil => rw [hnd] at hl; cases hl
    | cons a l =>
      obtain ⟨x, hx, -⟩ := hc a (by rw [hnd]; exact List.mem_cons_self)
      rw [e] at hx
      cases hx
  obtain ⟨m, hm⟩ := maxId_exists hne
  have ht := (top_maxId hw.nimap.sorted).1 hm
  refine ⟨m, ht, ?_, ?_⟩
  · intro i id h
    obtain ⟨e, he, h1⟩ := hc id (List.mem_of_getElem? h)
    have := ht.2 e.1 ⟨e.2, he⟩
    omega
  · obtain ⟨n, hn⟩ := ht.1
    exact hs _ hn

/-- No block is stuck if in both maps every node ID is at most some ID that has a name, and none of these
exceeds 7280; whatever the metadata. -/
theorem C107_copy_room_partial (env : Env) (args : InstArgs) (f g : DbFile) (S : CopySet env args f g)
    (hb : AllBlocks env.codec f.table fun b => Covered b ∧ SmallIds b)
    (hbs : AllBlocks env.codec g.table fun b => Covered b ∧ SmallIds b) : ¬ Crashes env args := by
  rw [C107_copy_crash_iff_partial env args f g S]
  rintro ⟨bp, d, b, h1, h2, h3, h4⟩
  have wb := wf_of_deserialize (deserialize_iff.2 h3)
  obtain ⟨cb, sb⟩ := hb _ _ _ h2 h3
  unfold StuckCopy at h4
  split at h4
  · obtain ⟨a, -, -, -, sd, s, s1, s2, h⟩ := h4
    have ws := wf_of_deserialize (deserialize_iff.2 s2)
    obtain ⟨cs, ss⟩ := hbs _ _ _ s1 s2
    have key : ∀ x y : MapBlock, Wf x → Covered x → SmallIds x → Wf y → Covered y → SmallIds y → ∀ M,
        ∃ D, Joins env.build x M (draftOf y) D ∧ Tidies D := by
      intro x y wx cx sx wy cy sy M
      obtain ⟨m, t1, t2, t3⟩ := top_block wy cy sy
      obtain ⟨D, m', j1, j2, j3, j4⟩ := joins_room (bd := env.build) (Moved := M) (L := 7281) wx.nimap.sorted cx
        (fun e he => Nat.lt_succ_of_le (sx e he)) t1 t2 (by omega)
      exact ⟨D, j1, m', j2, by omega, j3⟩
    cases hi : args.invert with
    | false =>
      rw [hi] at h
      obtain ⟨D, j1, j2⟩ := key s b ws cs ss wb cb sb _
      exact h D j1 j2
    | true =>
      rw [hi] at h
      obtain ⟨D, j1, j2⟩ := key b s wb cb sb ws cs ss _
      exact h D j1 j2
  · have hgn : (g.table.map (·.1)).Nodup := by
      rcases S.kind with ⟨-, -, hfg, -⟩ | ⟨-, -, -, h⟩
      · rw [← hfg]; exact S.good.nodup
      · exact h.nodup
    generalize args.offset.getD ⟨0, 0, 0⟩ = o at h4
    have hk : keyOf bp ∈ dests (shiftArea args.area o) false f.table := by
      refine (mem_dests S.good (shiftArea_ok S.area o) h1).2 ⟨List.mem_map.2 ⟨_, h2, rfl⟩, ?_⟩
      obtain ⟨p, p1, p2⟩ := h4.2.1
      exact ⟨p, p1, (shiftArea_sel args.area o p).2 p2⟩
    have P := partOf_ok (shiftArea_ok S.area o) S.good o hk
    rw [fromBlockKey_keyOf bp h1] at P
    obtain ⟨o1, -, o3⟩ := sources_zyx P.valid P.inside
      (fun p hp => (shiftArea_sel args.area o p).symm.trans (P.iff p hp).symm)
    obtain ⟨m, t1, t2, t3⟩ := top_block wb cb sb
    have hl := (touching_le P.valid P.inside).2
    obtain ⟨D, g1, g2⟩ := drawn_room (bd := env.build) (L := 7281)
      (Src := fun q sb => Within 1937 q ∧ Spec.Shows env.codec g.table (posAt q 0) sb) (fun q s hs => by
        have hw := findIn_wf S.ok.codec ((findIn_shows S.ok.codec hgn).1 hs)
        obtain ⟨-, -, -, sd, s1, s2⟩ := hs
        obtain ⟨cs, ss⟩ := hbs _ _ _ s1 s2
        exact ⟨hw.nimap.sorted, cs, fun e he => Nat.lt_succ_of_le (ss e he)⟩)
      ((partOf (shiftArea args.area o) (keyOf bp)).sub o).toTouchingBlockArea.positions t1 t2 (by omega)
    exact h4.2.2 _ D o1 o3 g1 g2

/-! ## Maps that make it crash -/

theorem drawn_ids {bd : Build} {Src : Vec3 → MapBlock → Prop} {Moved : Vec3 → Nat → Nat → Prop} {qs : List Vec3}
    {D D' : Draft} (h : Drawn bd Src Moved qs D D') : (∀ id, D.ids id → D'.ids id) ∧
      ((∀ id, D.ids id → id < 65536) → ∀ id, D'.ids id → id < 65536) := by
  induction h with
  | nil => exact ⟨fun _ h => h, fun h => h⟩
  | skip _ _ ih => exact ih
  | @join q qs b D D1 D' _ hj _ ih =>
    obtain ⟨m, base, -, -, -, -, h, -⟩ := hj
    refine ⟨fun id hid => ih.1 id ((h id).2 (.inl hid)), fun hb => ih.2 fun id hid => ?_⟩
    rcases (h id).1 hid with h | ⟨e, -, h⟩
    · exact hb id h
    · have := h.1; omega

/-- A name for ID 65535, in any generated block of which a node is to be replaced, makes `clone` (and `overlay` with
an offset) crash in both builds. -/
theorem C107_copy_last_partial (env : Env) (args : InstArgs) (f g : DbFile) (S : CopySet env args f g)
    (hoff : args.command = "overlay" → args.offset.getD ⟨0, 0, 0⟩ ≠ ⟨0, 0, 0⟩) (bp p : Vec3) (d : Bytes) (b : MapBlock)
    (hbp : ValidBlockPos bp) (hd : (keyOf bp, d) ∈ f.table) (hr : Represents env.codec d b) (hgen : Generated b)
    (hp : InBlock bp p) (hs : Selected args.area false (unshift p (args.offset.getD ⟨0, 0, 0⟩)))
    (hid : ∃ n, (65535, n) ∈ b.nimap) : Crashes env args := by
  rw [C107_copy_crash_iff_partial env args f g S]
  refine ⟨bp, d, b, hbp, hd, hr, ?_⟩
  have wb := wf_of_deserialize (deserialize_iff.2 hr)
  show StuckCopy _ _ _ _ _ _
  unfold StuckCopy
  rw [if_neg (fun h => hoff h.1 h.2)]
  refine ⟨hgen, ⟨p, hp, hs⟩, fun qs D _ _ hD hT => ?_⟩
  obtain ⟨h1, h2⟩ := drawn_ids hD
  obtain ⟨m, ⟨m1, m2⟩, m3, -⟩ := hT
  have h3 := m2 _ (h1 65535 hid)
  have h4 := h2 (by rintro id ⟨n, hn⟩; exact (wb.nimap.fits.2 _ hn).1) m m1
  omega

theorem clone_set (bd : Build) (b : MapBlock) : CopySet (toyEnv bd (toyMap b)) (cloneArgs 0 1)
    ⟨toyMap b, [⟨"pos", "INT", 1⟩, ⟨"data", "BLOB", 0⟩]⟩ ⟨toyMap b, [⟨"pos", "INT", 1⟩, ⟨"data", "BLOB", 0⟩]⟩ where
  ok := toyEnv_ok _ _
  works := fun _ => rfl
  file := rfl
  cols := ⟨_, rfl⟩
  good := toyMap_good b
  accepted := by rw [← verifyArgs_iff]; decide
  command := by
    unfold CommandRefuses
    simp only [cloneArgs, runArgs]
    rintro (⟨-, a, o, h1, h2, h3⟩ | ⟨h, -⟩ | ⟨h, -⟩ | ⟨h, -⟩ | ⟨h, -⟩ | ⟨h, -⟩ | ⟨h, -⟩)
    · cases h1
      cases h2
      exact h3 ⟨0, 0, 0⟩ (by unfold InBox; decide) (by decide)
    all_goals exact absurd h (by decide)
  area := by intro a h; cases h; decide
  confirmed := nofun
  kind := .inl ⟨rfl, rfl, rfl, nofun, nofun⟩

/-- Copying one node to the next one crashes, in both builds, if the block has a name for ID 65535. -/
theorem C107_clone_false (bd : Build) : ∃ (env : Env) (args : InstArgs) (f : DbFile), env.build = bd ∧
    args.command = "clone" ∧ CopySet env args f f ∧ Crashes env args := by
  have hwf : NimapWf [(0, ascii "air"), (1, ascii "a"), (65535, ascii "b")] :=
    ⟨by unfold SMap.Sorted; decide, by unfold NamesFit NameFits; decide⟩
  have S := clone_set bd (namedBlock [(0, ascii "air"), (1, ascii "a"), (65535, ascii "b")])
  refine ⟨_, _, _, rfl, rfl, S, ?_⟩
  refine C107_copy_last_partial _ _ _ _ S (fun h => absurd h (by decide)) ⟨0, 0, 0⟩ ⟨1, 0, 0⟩ _ _ origin_valid
    List.mem_cons_self (Toy.data_rep (namedBlock_wf hwf)) rfl (by unfold InBlock; decide) (by decide) ?_
  exact ⟨ascii "b", by show _ ∈ [(0, ascii "air"), (1, ascii "a"), (65535, ascii "b")]; decide⟩

/-- The same crashes in a debug build already if the block has a name for ID 32768: its IDs do not fit twice. -/
theorem C107_clone_half_false : ∃ (env : Env) (args : InstArgs) (f : DbFile), env.build = .debug ∧
    args.command = "clone" ∧ CopySet env args f f ∧
    AllBlocks env.codec f.table (fun b => ∀ e ∈ b.nimap, e.1 ≤ 32768) ∧ Crashes env args := by
  have hwf : NimapWf [(0, ascii "air"), (1, ascii "a"), (32768, ascii "b")] :=
    ⟨by unfold SMap.Sorted; decide, by unfold NamesFit NameFits; decide⟩
  have S := clone_set .debug (namedBlock [(0, ascii "air"), (1, ascii "a"), (32768, ascii "b")])
  refine ⟨_, _, _, rfl, rfl, S, toyMap_all (namedBlock_wf hwf) ?_, ?_⟩
  · show ∀ e ∈ [(0, ascii "air"), (1, ascii "a"), (32768, ascii "b")], e.1 ≤ 32768
    decide
  rw [C107_copy_crash_iff_partial _ _ _ _ S]
  refine ⟨⟨0, 0, 0⟩, _, _, origin_valid, List.mem_cons_self, Toy.data_rep (namedBlock_wf hwf), ?_⟩
  show StuckCopy _ _ _ _ _ _
  unfold StuckCopy
  rw [if_neg (fun h => absurd h.1 (by decide))]
  refine ⟨rfl, ⟨⟨1, 0, 0⟩, by unfold InBlock; decide, by decide⟩, fun qs D hz hq hD hT => ?_⟩
  have hmem : ∀ q, q ∈ qs ↔ q = ⟨0, 0, 0⟩ := by
    intro q
    rw [hq]
    constructor
    · rintro ⟨p, -, h2, h3⟩
      have h2 : Selected (some ⟨⟨0, 0, 0⟩, ⟨0, 0, 0⟩⟩) false (unshift p ⟨1, 0, 0⟩) := h2
      have h3 : InBlock q (unshift p ⟨1, 0, 0⟩) := h3
      rw [selected_iff] at h2
      have h2 := h2.2 rfl
      generalize unshift p ⟨1, 0, 0⟩ = u at h2 h3
      obtain ⟨x, y, z⟩ := q
      unfold InBox at h2
      unfold InBlock at h3
      simp only at h2 h3
      simp only [Vec3.mk.injEq]
      omega
    · rintro rfl
      exact ⟨⟨1, 0, 0⟩, by unfold InBlock; decide, by decide, by unfold InBlock; decide⟩
  have e : qs = [⟨0, 0, 0⟩] := zyx_unique hz (List.pairwise_singleton _ _) fun q => by
    rw [hmem, List.mem_singleton]
  subst e
  have hsrc : Within 1937 (⟨0, 0, 0⟩ : Vec3) ∧ Spec.Shows (Toy.codec id) (toyMap (namedBlock [(0, ascii "air"), (1, ascii "a"), (32768, ascii "b")]))
      (posAt ⟨0, 0, 0⟩ 0) (stored (namedBlock [(0, ascii "air"), (1, ascii "a"), (32768, ascii "b")])) :=
    ⟨by decide, by decide, rfl, _, List.mem_cons_self, Toy.data_rep (namedBlock_wf hwf)⟩
  cases hD with
  | skip hno _ => exact hno _ hsrc
  | @join _ _ sb _ D1 _ hs hj hnil =>
    obtain ⟨-, -, -, sd, s1, s2⟩ := hs
    have hk : keyOf (blockOf (posAt ⟨0, 0, 0⟩ 0)) = 0 := by decide
    rw [hk] at s1
    have hsd := Table.get?_of_mem (toyMap_good _).nodup s1
    have h0 := Table.get?_of_mem (toyMap_good (namedBlock [(0, ascii "air"), (1, ascii "a"), (32768, ascii "b")])).nodup
      List.mem_cons_self
    rw [Option.some.inj (hsd.symm.trans h0)] at s2
    have he := represents_unique s2 (Toy.data_rep (namedBlock_wf hwf))
    rw [he] at hj
    obtain ⟨m, base, ⟨m1, m2⟩, hb, hn, -⟩ := hj
    obtain ⟨c, hc⟩ := hn (32768, ascii "b") (by
      show _ ∈ [(0, ascii "air"), (1, ascii "a"), (32768, ascii "b")]; decide)
    have h5 := m2 32768 ⟨ascii "b", by
      show _ ∈ [(0, ascii "air"), (1, ascii "a"), (32768, ascii "b")]; decide⟩
    have h6 := hb.2 rfl
    have h7 := hb.1
    have h8 := hc.2 rfl
    simp only at h8
    rw [Nat.mod_eq_of_lt h6] at h7
    omega

theorem overlay_set (bd : Build) (inv : Bool) (b sb : MapBlock) :
    CopySet { twoEnv (oneMap b) (oneMap sb) with build := bd } (overlayArgs inv)
      ⟨oneMap b, [⟨"pos", "INT", 1⟩, ⟨"data", "BLOB", 0⟩]⟩ ⟨oneMap sb, [⟨"pos", "INT", 1⟩, ⟨"data", "BLOB", 0⟩]⟩ where
  ok := ⟨Toy.lawful id, Toy.fullWrites, fun _ => Toy.ord_lawful⟩
  works := fun _ => rfl
  file := rfl
  cols := ⟨_, rfl⟩
  good := oneMap_good b
  accepted := by rw [← verifyArgs_iff]; cases inv <;> decide
  command := by
    unfold CommandRefuses
    simp only [overlayArgs, runArgs]
    rintro (⟨h, -⟩ | ⟨h, -⟩ | ⟨h, -⟩ | ⟨h, -⟩ | ⟨-, ⟨-, o, h, -⟩ | h⟩ | ⟨h, -⟩ | ⟨h, -⟩)
    case inr.inr.inr.inr.inl.inl => cases h
    case inr.inr.inr.inr.inl.inr => exact h ⟨0, 0, 0⟩ (by unfold InBox; decide) (by decide)
    all_goals exact absurd h (by decide)
  area := by intro a h; cases h; decide
  confirmed := nofun
  kind := .inr ⟨rfl, ⟨"other", rfl, rfl⟩, ⟨_, rfl⟩, oneMap_good sb⟩

/-- Overlaying a node crashes, in both builds, if the block to be changed has a name for ID 65535. -/
theorem C107_overlay_false (bd : Build) : ∃ (env : Env) (args : InstArgs) (f g : DbFile), env.build = bd ∧
    args.command = "overlay" ∧ CopySet env args f g ∧ Crashes env args := by
  have hwf : NimapWf [(0, ascii "air"), (1, ascii "a"), (65535, ascii "b")] :=
    ⟨by unfold SMap.Sorted; decide, by unfold NamesFit NameFits; decide⟩
  have hw := Toy.block_wf 28 (by omega)
  have S := overlay_set bd false (namedBlock [(0, ascii "air"), (1, ascii "a"), (65535, ascii "b")]) (Toy.block 28)
  refine ⟨_, _, _, _, rfl, rfl, S, ?_⟩
  rw [C107_copy_crash_iff_partial _ _ _ _ S]
  refine ⟨⟨0, 0, 0⟩, _, _, origin_valid, List.mem_cons_self, Toy.data_rep (namedBlock_wf hwf), ?_⟩
  show StuckCopy _ _ _ _ _ _
  unfold StuckCopy
  rw [if_pos ⟨rfl, rfl⟩]
  refine ⟨_, rfl, rfl, ⟨⟨⟨0, 0, 0⟩, ?_, by decide⟩, ⟨1, 0, 0⟩, ?_, by decide⟩, _, _, List.mem_cons_self, Toy.data_rep hw, ?_⟩
  · unfold InBlock; decide
  · unfold InBlock; decide
  · rintro D ⟨m, base, -, -, -, -, h1, -⟩ ⟨m', ⟨h2, h3⟩, h4, -⟩
    have h5 := h3 65535 ((h1 65535).2 (.inl ⟨ascii "b", by
      show _ ∈ [(0, ascii "air"), (1, ascii "a"), (65535, ascii "b")]; decide⟩))
    rcases (h1 m').1 h2 with ⟨n, h⟩ | ⟨e, -, h⟩
    · have := (hwf.fits.2 _ h).1
      simp only at this
      omega
    · have := h.1
      omega

/-- The sample block has room, and `clone` does not crash on it. -/
example (bd : Build) : AllBlocks (Toy.codec id) (toyMap (Toy.block 29)) (fun b => Covered b ∧ SmallIds b) ∧
    ¬ Crashes (toyEnv bd (toyMap (Toy.block 29))) (cloneArgs 0 1) := by
  have h : AllBlocks (Toy.codec id) (toyMap (Toy.block 29)) (fun b => Covered b ∧ SmallIds b) :=
    toyMap_all (Toy.block_wf 29 (by omega)) ⟨(toy_tame 29).covered, (toy_tame 29).small⟩
  exact ⟨h, C107_copy_room_partial _ _ _ _ (clone_set bd _) h h⟩

/-- So do all blocks of two sample maps, and `overlay` does not crash on them. -/
example (bd : Build) (inv : Bool) :
    ¬ Crashes { twoEnv (oneMap (Toy.block 28)) (oneMap (otherBlock 0)) with build := bd } (overlayArgs inv) :=
  C107_copy_room_partial _ _ _ _ (overlay_set bd inv _ _)
    (oneMap_all (Toy.block_wf 28 (by omega)) ⟨(toy_tame 28).covered, (toy_tame 28).small⟩)
    (oneMap_all (otherBlock_wf (by decide)) ⟨(otherBlock_tame 0).covered, (otherBlock_tame 0).small⟩)

end MapEditr
