import Verif.Proof.CopyAny
import Verif.Proof.Calm
import Verif.Props.Overlay
/-!
# Property C83: failing reads

`clone` and `overlay` take a block whose read fails for one that is not there, without a word.  The
theorems about them (C47, C50, C51) therefore assume that no read fails.  Here nothing is assumed about
the database: whichever statements fail, if the command completes, no wrong data has been written.
-/

namespace MapEditr
open Spec

theorem someRow_get {F : Prop} {c : Codec} {src t : Table} {part : Int → Area} {o : Vec3} {k : Int}
    {r : Option Bytes} (h : SomeRow F c src t part o k r) {d : Bytes} (hd : t.get? k = some d) : ∃ d', r = some d' := by
  rcases h with ⟨rfl, -⟩ | ⟨b, find, d', b', -, -, rfl, -⟩
  · exact ⟨d, hd⟩
  · exact ⟨d', rfl⟩

theorem SomeDone.copied {F : Prop} {c : Codec} (hc : c.Lawful) {src : Table} (hns : (src.map (·.1)).Nodup)
    {part : Int → Area} {o : Vec3} {ks : List Int} {t t' : Table} {w w' : World}
    (h : SomeDone F c src part o ks t w t' w') (hg : GoodTable t) {Sel : Vec3 → Prop}
    (hk : ∀ k ∈ ks, k ∈ t.map (·.1))
    (hon : ∀ bp, ValidBlockPos bp → keyOf bp ∈ ks → (∃ p, InBlock bp p ∧ Sel p) ∧
      ∀ p, InBlock bp p →
        (InBox ((part (keyOf bp)).sub o).min ((part (keyOf bp)).sub o).max (unshift p o) ↔ Sel p)) :
    CopiedOrKept c src t t' o Sel fun q => Within 1937 (blockOf q) := by
  refine ⟨h.nodup hg.nodup, ?_, ?_, ?_, ?_⟩
  · intro k
    have e1 := Table.get?_none (t := t') (k := k)
    have e2 := Table.get?_none (t := t) (k := k)
    by_cases hm : k ∈ ks
    · simp only [hk k hm, iff_true]
      refine Classical.not_not.1 fun hc' => ?_
      obtain ⟨d, hd⟩ : ∃ d, t.get? k = some d := by
        cases hx : t.get? k with
        | none => exact absurd (hk k hm) (e2.1 hx)
        | some d => exact ⟨d, rfl⟩
      obtain ⟨d', h1⟩ := someRow_get (h.on k hm) hd
      rw [e1.2 hc'] at h1
      cases h1
    · rw [h.off k hm] at e1
      rw [e1] at e2
      exact ⟨fun h => Classical.not_not.1 fun hc => e2.2 hc h, fun h => Classical.not_not.1 fun hc => e2.1 hc h⟩
  · intro k d hd hb
    have hgd := Table.get?_of_mem hg.nodup hd
    by_cases hm : k ∈ ks
    · rcases h.on k hm with ⟨e, -⟩ | ⟨b, find, d', b', h1, -⟩
      · exact Table.get?_some_mem (e.trans hgd)
      · obtain ⟨d2, e1, e2, e3⟩ := (orig_ok hc).1 h1
        rw [hgd] at e1
        cases e1
        exact absurd e3 (hb b e2)
    · exact Table.get?_some_mem ((h.off k hm).trans hgd)
  · intro bp d hbp hd hno
    have hgd := Table.get?_of_mem hg.nodup hd
    have hm : keyOf bp ∉ ks := fun hm => by
      obtain ⟨⟨p, h1, h2⟩, -⟩ := hon bp hbp hm
      exact hno p h1 h2
    exact Table.get?_some_mem ((h.off _ hm).trans hgd)
  · intro bp d b hbp hd hr hgen
    have hgd := Table.get?_of_mem hg.nodup hd
    have same : t'.get? (keyOf bp) = t.get? (keyOf bp) →
        ∃ d' b', (keyOf bp, d') ∈ t' ∧ Represents c d' b' ∧ SameRest b b' ∧
          ∀ i, i < 4096 → NodeAs b' i b i ∨
            ∃ sb, Sel (posAt bp i) ∧ Within 1937 (blockOf (unshift (posAt bp i) o)) ∧
              Shows c src (unshift (posAt bp i) o) sb ∧ NodeAs b' i sb (idxOf (unshift (posAt bp i) o)) :=
      fun e => ⟨d, b, Table.get?_some_mem (e.trans hgd), hr, ⟨⟨rfl, rfl, rfl, rfl⟩, rfl, rfl⟩,
        fun i _ => .inl (nodeAs_refl b i)⟩
    by_cases hmk : keyOf bp ∈ ks
    · rcases h.on _ hmk with ⟨e, -⟩ | ⟨b0, find, d', b', h1, h2, h3, h4, h5⟩
      · exact same e
      · have hb0 : b0 = b := by
          have := (orig_ok hc).2 ⟨d, hgd, hr, hgen⟩
          rw [h1] at this
          cases this
          rfl
        subst hb0
        refine ⟨d', b', Table.get?_some_mem h3, h4, h5.rest, ?_⟩
        intro i hi
        have hn := h5.nodes i hi
        have hsel := (hon bp hbp hmk).2 _ (posAt_inBlock bp hi)
        rw [fromBlockKey_keyOf bp hbp] at hn
        unfold srcAt at hn
        have hfi := fun sb => findIn_iff hc hns (q := unshift (posAt bp i) o) (b := sb)
        generalize hq : unshift (posAt bp i) o = q at *
        unfold fromSrc at hn
        split at hn
        · next hin =>
          cases hf : find (blockOf q) with
          | none => rw [hf] at hn; exact .inl hn
          | some sb =>
            rw [hf] at hn
            obtain ⟨e1, e2⟩ := (hfi sb).1 (h2.sub _ _ hf)
            exact .inr ⟨sb, hsel.1 hin, e1, e2, hn⟩
        · exact .inl hn
    · exact same (h.off _ hmk)

/-- Whichever statements fail: after a completed `clone`, every node is as before or is what its source
node was in the map as it was before the command; the rest is as it was.  (Source nodes in the outermost
layer of blocks are never copied, see C47.) -/
theorem C83_clone (env : Env) (args : InstArgs) (t t' : Table) (evs : List Event) (a : Area)
    (o : Vec3) (hE : EnvOk env) (hg : GoodTable t)
    (hc : args.command = "clone") (harea : args.area = some a) (ha : a.isValid = true)
    (hoff : args.offset = some o) (hb : AllBlocks env.codec t (Mild env.build))
    (h : Completes env args t t' evs) :
    CopiedOrKept env.codec t t t' o (fun p => InBox a.min a.max (unshift p o))
      fun q => Within 1937 (blockOf q) := by
  replace h := calm_completes (by rw [hc]; decide) h
  replace hE : EnvOk env.calm := hE.failing _ _
  haveI : Calm env.calm := ⟨fun _ _ => rfl⟩
  change CopiedOrKept env.calm.codec _ _ _ _ _ _
  obtain ⟨D⟩ := completes_done h (by rw [hc]; decide)
  have hbody := D.body_of hc clone_command
  simp only at hbody
  obtain ⟨cur, ks, h2, h3, h4⟩ := clone_any (F := True) (fun _ _ => trivial) hE D.start hg hb harea hoff ha hbody
  obtain ⟨rfl, -⟩ := openAt_unique D.fin h3
  have hv' := addArea_valid (o := o) ha
  have hao : AreaOk (some (a.add o)) := by intro x hx; cases hx; exact hv'
  have hsel : ∀ p, Selected (some (a.add o)) false p ↔ InBox a.min a.max (unshift p o) := by
    intro p
    rw [selected_iff]
    unfold InBox unshift Area.add Vec3.add
    simp only [iff_true]
    omega
  refine h4.copied hE.codec hg.nodup hg ?_ ?_
  · intro k hk
    obtain ⟨-, d, hd⟩ := dests_row hg (h2.mem_iff.1 hk)
    exact List.mem_map.2 ⟨_, Table.get?_some_mem hd, rfl⟩
  · intro bp hbp hk
    have hk' := h2.mem_iff.1 hk
    obtain ⟨-, p, hp, hs⟩ := (mem_dests hg hao hbp).1 hk'
    refine ⟨⟨p, hp, (hsel p).1 hs⟩, ?_⟩
    intro p hp
    have hpart := partIn_some hv' hg hk'
    rw [fromBlockKey_keyOf bp hbp] at hpart
    rw [(absOverlap_part (o := o) hpart).2.2 p hp, ← hsel p, selected_iff]
    simp

/-- The environment of the examples for `clone`, with one failing statement. -/
def cloneFailEnv (n : Nat) (t : Table) : Env := { editEnv t with fail := fun m => m == n }

/-- The messages of a run without anything to report. -/
def quietEvents : List Event :=
  [.newState .querying, .newState .ignore, .newState .editing, .newState .ignore,
    .log .info (.text "Committing..."), .log .info (.text "Done.")]

theorem completes_by {env : Env} {args : InstArgs} {f : DbFile} {t' : Table} {evs : List Event} {cols : List Col}
    (hf : mapFile env args.mapPath = some f)
    (h : ((computeThread env args World.start).1, (computeThread env args World.start).2.events,
      (computeThread env args World.start).2.dbs .main) = (.ok (.ok ()), evs, some ⟨⟨t', t', false, cols⟩, false⟩))
    (hd : .log .info (.text "Done.") ∈ evs) : Completes env args f.table t' evs := by
  injection h with h1 h
  injection h with h2 h3
  exact ⟨f, _, _, hf, rfl, Prod.ext h1 rfl, h2, hd, h3, rfl⟩

theorem toy_head {b : MapBlock} (hv : b.version = 28) (h : Wf b) : ∃ d, Toy.data b = 28 :: d := by
  obtain ⟨s, hs⟩ : ∃ s, serialize (Toy.codec id) Toy.ord b = .ok s := serialize_ok _ Toy.ord_lawful h
  unfold Toy.data
  rw [hs]
  unfold serialize at hs
  rw [hv, if_neg (by omega)] at hs
  cases hw : wrBody28 (Toy.codec id) Toy.ord b with
  | error e => rw [hw] at hs; cases hs
  | ok body => rw [hw] at hs; cases hs; exact ⟨body, rfl⟩

theorem cloneFail_raw (d : Bytes) : Completes (cloneFailEnv 5 [(0, 28 :: d), (0 + 1, 28 :: d)]) (cloneArgs 0 18)
    [(0, 28 :: d), (0 + 1, 28 :: d)] [(0, 28 :: d), (0 + 1, 28 :: d)] quietEvents :=
  completes_by (cols := [⟨"pos", "INT", 1⟩, ⟨"data", "BLOB", 0⟩])
    (f := ⟨[(0, 28 :: d), (0 + 1, 28 :: d)], [⟨"pos", "INT", 1⟩, ⟨"data", "BLOB", 0⟩]⟩) rfl
    (by with_unfolding_all rfl) (by decide)

theorem cloneFail_completes {b : MapBlock} (hv : b.version = 28) (h : Wf b) :
    Completes (cloneFailEnv 5 (pairMap 0 b)) (cloneArgs 0 18) (pairMap 0 b) (pairMap 0 b) quietEvents := by
  obtain ⟨d, hd⟩ := toy_head hv h
  unfold pairMap
  rw [hd]
  exact cloneFail_raw d

/-- The hypotheses are met by a run in which the destination's block cannot be read. -/
example : EnvOk (cloneFailEnv 5 (pairMap 0 (Toy.block 28))) ∧ (cloneFailEnv 5 []).fail 5 = true ∧
    GoodTable (pairMap 0 (Toy.block 28)) ∧
    AllBlocks (Toy.codec id) (pairMap 0 (Toy.block 28)) Tame ∧
    ∃ t' evs, Completes (cloneFailEnv 5 (pairMap 0 (Toy.block 28))) (cloneArgs 0 18) (pairMap 0 (Toy.block 28)) t' evs :=
  ⟨⟨Toy.lawful id, Toy.fullWrites, fun _ => Toy.ord_lawful⟩, rfl,
    pairMap_good (by decide) (by decide) _, pairMap_all (Toy.block_wf 28 (by omega)) (toy_tame 28), _, _,
    cloneFail_completes rfl (Toy.block_wf 28 (by omega))⟩

/-- Nodes that should have been copied may indeed be missing, and no message tells of it: the node
(0, 0, 0) should be copied to (18, 0, 0), but the read of the block there fails. -/
theorem C47_failed_read_false : ∃ (env : Env) (args : InstArgs) (t t' : Table) (a : Area) (o : Vec3),
    EnvOk env ∧ GoodTable t ∧ args.command = "clone" ∧ args.area = some a ∧
    a.isValid = true ∧ args.offset = some o ∧ AllBlocks env.codec t Tame ∧
    Completes env args t t' quietEvents ∧
    ¬ Copied env.codec t t t' o (fun p => InBox a.min a.max (unshift p o)) fun q => Within 1937 (blockOf q) := by
  have hw := Toy.block_wf 28 (by omega)
  have hg := pairMap_good (x := 0) (by decide) (by decide) (Toy.block 28)
  have ha := pairMap_all (x := 0) hw (P := Tame) (toy_tame 28)
  refine ⟨cloneFailEnv 5 (pairMap 0 (Toy.block 28)), cloneArgs 0 18, pairMap 0 (Toy.block 28),
    pairMap 0 (Toy.block 28), ⟨⟨0, 0, 0⟩, ⟨0, 0, 0⟩⟩, ⟨18, 0, 0⟩,
    ⟨Toy.lawful id, Toy.fullWrites, fun _ => Toy.ord_lawful⟩, hg, rfl, rfl, by decide, rfl, ha,
    cloneFail_completes rfl hw, ?_⟩
  intro hc
  have hin : (keyOf ⟨1, 0, 0⟩, Toy.data (Toy.block 28)) ∈ pairMap 0 (Toy.block 28) := by
    show ((1 : Int), _) ∈ _
    unfold pairMap
    simp
  obtain ⟨d', b', g1, g2, -, g3⟩ := hc.good ⟨1, 0, 0⟩ (Toy.data (Toy.block 28)) (stored (Toy.block 28))
    (by unfold ValidBlockPos; decide) hin (Toy.data_rep hw) rfl
  have hd : d' = Toy.data (Toy.block 28) := by
    have e1 := Table.get?_of_mem hg.nodup g1
    rw [Table.get?_of_mem hg.nodup hin] at e1
    exact (Option.some.inj e1).symm
  rw [hd] at g2
  rw [represents_unique g2 (Toy.data_rep hw)] at g3
  obtain ⟨g4, -⟩ := g3 2 (by decide)
  have hq : unshift (posAt ⟨1, 0, 0⟩ 2) ⟨18, 0, 0⟩ = ⟨0, 0, 0⟩ := by decide
  rw [hq] at g4
  have hk : keyOf (blockOf ⟨0, 0, 0⟩) = 0 := by decide
  obtain ⟨n1, -⟩ := g4 (stored (Toy.block 28)) (by
    unfold InBox
    simp) (by
    show Within _ _
    decide) ⟨by unfold ValidBlockPos; decide, rfl, Toy.data (Toy.block 28), by
      rw [hk]
      unfold pairMap
      simp, Toy.data_rep hw⟩
  exact absurd (n1 (ascii "a") (by decide)) (by decide)

/-- Likewise `overlay` with an offset. -/
theorem C83_overlay_offset (env : Env) (args : InstArgs) (t t' : Table) (evs : List Event) (p : String)
    (g : DbFile) (o : Vec3) (hE : EnvOk env) (hg : GoodTable t)
    (hgs : GoodTable g.table) (hc : args.command = "overlay") (hp : args.inputMapPath = some p)
    (hgf : mapFile env p = some g) (hv : ∀ a, args.area = some a → a.isValid = true)
    (hoff : args.offset = some o) (hz : o ≠ ⟨0, 0, 0⟩)
    (hb : AllBlocks env.codec t (Mild env.build))
    (hbs : AllBlocks env.codec g.table (Mild env.build))
    (h : Completes env args t t' evs) :
    CopiedOrKept env.codec g.table t t' o (fun p => Selected args.area false (unshift p o))
      fun q => Within 1937 (blockOf q) := by
  replace h := calm_completes (by rw [hc]; decide) h
  replace hE : EnvOk env.calm := hE.failing _ _
  haveI : Calm env.calm := ⟨fun _ _ => rfl⟩
  change CopiedOrKept env.calm.codec _ _ _ _ _ _
  obtain ⟨D, h1, h2, h3⟩ := overlay_done (env := env.calm) hc hp hgf h
  rw [if_neg (by rw [hoff]; exact hz)] at h3
  have hinv : args.invert = false := by
    cases hi : args.invert with
    | false => rfl
    | true =>
      have := (overlayVerify_ok h2).2 hi
      rw [hoff] at this
      exact absurd this hz
  obtain ⟨cur', P1, P⟩ := overlayOffset_any (F := True) (fun _ _ => trivial) hE D.start h1 hg hb hbs hoff hinv hv h3
  obtain ⟨rfl, -⟩ := openAt_unique D.fin P1
  have hv' := shiftArea_ok hv o
  refine P.copied hE.codec hgs.nodup hg ?_ ?_
  · intro k hk
    obtain ⟨r, h5, rfl⟩ := List.mem_map.1 hk
    exact List.mem_map_of_mem (mem_hits.1 h5).1
  · intro bp hbp hk
    obtain ⟨-, q, h5, h6⟩ := (mem_dests hg hv' hbp).1 hk
    refine ⟨⟨q, h5, (shiftArea_sel _ _ _).1 h6⟩, fun q hq => ?_⟩
    have hp := partOf_ok hv' hg o hk
    rw [fromBlockKey_keyOf bp hbp] at hp
    rw [hp.iff q hq, shiftArea_sel]

/-- The environment of the examples for `overlay`, with one failing statement. -/
def twoFailEnv (n : Nat) (t src : Table) : Env := { twoEnv t src with fail := fun m => m == n }

theorem overlayShiftFail_raw (d s : Bytes) :
    Completes (twoFailEnv 9 [(0, 28 :: d), (0 + 1, 28 :: d)] [(0, 28 :: s), (0 + 1, 28 :: s)]) (overlayShiftArgs 0 18)
      [(0, 28 :: d), (0 + 1, 28 :: d)] [(0, 28 :: d), (0 + 1, 28 :: d)] quietEvents :=
  completes_by (cols := [⟨"pos", "INT", 1⟩, ⟨"data", "BLOB", 0⟩])
    (f := ⟨[(0, 28 :: d), (0 + 1, 28 :: d)], [⟨"pos", "INT", 1⟩, ⟨"data", "BLOB", 0⟩]⟩) rfl
    (by with_unfolding_all rfl) (by decide)

theorem overlayShiftFail_completes {b b' : MapBlock} (hv : b.version = 28) (h : Wf b) (hv' : b'.version = 28)
    (h' : Wf b') : Completes (twoFailEnv 9 (pairMap 0 b) (pairMap 0 b')) (overlayShiftArgs 0 18)
      (pairMap 0 b) (pairMap 0 b) quietEvents := by
  obtain ⟨d, hd⟩ := toy_head hv h
  obtain ⟨s, hs⟩ := toy_head hv' h'
  unfold pairMap
  rw [hd, hs]
  exact overlayShiftFail_raw d s

/-- The hypotheses are met by a run in which the destination's block cannot be read. -/
example : EnvOk (twoFailEnv 9 (pairMap 0 (Toy.block 28)) (pairMap 0 (otherBlock 0))) ∧
    (twoFailEnv 9 [] []).fail 9 = true ∧ GoodTable (pairMap 0 (Toy.block 28)) ∧
    GoodTable (pairMap 0 (otherBlock 0)) ∧
    AllBlocks (Toy.codec id) (pairMap 0 (Toy.block 28)) Tame ∧
    AllBlocks (Toy.codec id) (pairMap 0 (otherBlock 0)) Tame ∧
    ∃ t' evs, Completes (twoFailEnv 9 (pairMap 0 (Toy.block 28)) (pairMap 0 (otherBlock 0)))
      (overlayShiftArgs 0 18) (pairMap 0 (Toy.block 28)) t' evs :=
  ⟨⟨Toy.lawful id, Toy.fullWrites, fun _ => Toy.ord_lawful⟩, rfl,
    pairMap_good (by decide) (by decide) _, pairMap_good (by decide) (by decide) _,
    pairMap_all (Toy.block_wf 28 (by omega)) (toy_tame 28),
    pairMap_all (otherBlock_wf (by omega)) (otherBlock_tame _), _, _,
    overlayShiftFail_completes rfl (Toy.block_wf 28 (by omega)) rfl (otherBlock_wf (by omega))⟩

theorem SomePlain.overlaid {F : Prop} {c : Codec} (hc : c.Lawful) {src t t' : Table} {w w' : World}
    {a : Area} {invert : Bool} (hv : a.isValid = true) (hg : GoodTable t) (hgs : GoodTable src)
    (P : SomePlain F c src (some a) invert t w t' w') :
    OverlaidOrKept c src t t' (some a) invert fun _ => True := by
  have hao : AreaOk (some a) := by intro x hx; cases hx; exact hv
  have hmem := fun bp => mem_dests (t := src) (area := some a) (invert := invert) (bp := bp) hgs hao
  have hinb : ∀ bp : Vec3, InBlock bp ⟨bp.x * 16, bp.y * 16, bp.z * 16⟩ := by
    intro bp
    unfold InBlock
    simp only
    omega
  have hnp : ∀ bp, Partly (some a) invert bp → ¬ Whole (some a) invert bp :=
    fun bp ⟨_, p, h1, h2⟩ hw => h2 (hw p h1)
  have hpn : ∀ bp, (∃ p, InBlock bp p ∧ Selected (some a) invert p) → ¬ Whole (some a) invert bp →
      Partly (some a) invert bp := by
    intro bp h1 h2
    refine ⟨h1, ?_⟩
    apply Classical.byContradiction
    intro hno
    refine h2 fun p hp => ?_
    apply Classical.byContradiction
    exact fun hs => hno ⟨p, hp, hs⟩
  have hlaid : ∀ bp, ValidBlockPos bp → keyOf bp ∈ dests (some a) invert src →
      (Whole (some a) invert bp ∧ WholeRow c src t (keyOf bp) (t'.get? (keyOf bp))) ∨
      (Partly (some a) invert bp ∧ (t'.get? (keyOf bp) = t.get? (keyOf bp) ∨
        PartRow c src t a invert (keyOf bp) (t'.get? (keyOf bp)))) := by
    intro bp hbp hk
    have hrow := P.on _ hk
    unfold SomeLaid at hrow
    simp only [fromBlockKey_keyOf bp hbp] at hrow
    split at hrow
    · next hw => exact .inl ⟨(copiesWhole_iff hv invert bp).1 hw, hrow⟩
    · next hw =>
      exact .inr ⟨hpn bp ((hmem bp hbp).1 hk).2 fun h => hw ((copiesWhole_iff hv invert bp).2 h),
        hrow.imp And.right id⟩
  have hnd := P.nodup hg.nodup
  refine ⟨hnd, ?_, ?_, ?_, ?_⟩
  · intro bp sd hbp hs hw hgen
    have hk : keyOf bp ∈ dests (some a) invert src :=
      (hmem bp hbp).2 ⟨List.mem_map.2 ⟨_, hs, rfl⟩, _, hinb bp, hw _ (hinb bp)⟩
    rcases hlaid bp hbp hk with ⟨-, sd', h1, h2⟩ | ⟨h1, -⟩
    · rw [Table.get?_of_mem hgs.nodup hs] at h1
      cases h1
      rw [if_pos ((genData_iff c sd).2 hgen)] at h2
      exact Table.get?_some_mem h2
    · exact absurd hw (hnp bp h1)
  · intro bp sd sb d b hbp hs hrs _ hd hrb hgen hp
    have hk : keyOf bp ∈ dests (some a) invert src :=
      (hmem bp hbp).2 ⟨List.mem_map.2 ⟨_, hs, rfl⟩, hp.1⟩
    rcases hlaid bp hbp hk with ⟨h1, -⟩ | ⟨-, e | ⟨sd', h1, h2, -⟩⟩
    · exact absurd h1 (hnp bp hp)
    · exact .inl (Table.get?_some_mem (e.trans (Table.get?_of_mem hg.nodup hd)))
    · rw [Table.get?_of_mem hgs.nodup hs] at h1
      cases h1
      obtain ⟨d', b', e1, e2, e3⟩ := h2 sb b (deserialize_iff.2 hrs)
        ((orig_ok hc).2 ⟨d, Table.get?_of_mem hg.nodup hd, hrb, hgen⟩)
      rw [fromBlockKey_keyOf bp hbp] at e3
      exact .inr ⟨d', b', Table.get?_some_mem e1, e2, e3.rest, e3.pub, e3.nodes⟩
  · intro bp d hbp hd hno
    have hgd := Table.get?_of_mem hg.nodup hd
    by_cases hk : keyOf bp ∈ dests (some a) invert src
    · rcases hlaid bp hbp hk with ⟨hw, sd, h1, h2⟩ | ⟨hw, e | ⟨sd, h1, -, h2⟩⟩
      · rw [if_neg ?_, hgd] at h2
        · exact Table.get?_some_mem h2
        · intro hgen
          exact hno (.inl ⟨hw, sd, Table.get?_some_mem h1, (genData_iff c sd).1 hgen⟩)
      · exact Table.get?_some_mem (e.trans hgd)
      · refine Table.get?_some_mem ((h2 ?_).trans hgd)
        rintro sb b ⟨e1, e2⟩
        obtain ⟨d2, e3, e4, e5⟩ := (orig_ok hc).1 e2
        rw [hgd] at e3
        cases e3
        exact hno (.inr ⟨hw, sd, sb, b, Table.get?_some_mem h1, deserialize_iff.1 e1, trivial, e4, e5⟩)
    · exact Table.get?_some_mem ((P.off _ hk).trans hgd)
  · intro k d hd
    have hd' := Table.get?_of_mem hnd hd
    have hin : ∀ d0, t.get? k = some d0 → k ∈ t.map (·.1) := fun d0 h =>
      List.mem_map.2 ⟨_, Table.get?_some_mem h, rfl⟩
    by_cases hk : k ∈ dests (some a) invert src
    · obtain ⟨v, e⟩ := keyOf_fromBlockKey k (dests_row hgs hk).1
      rw [← e] at hk
      have hl := hlaid _ v hk
      rw [e, hd'] at hl
      rcases hl with ⟨hw, sd, h1, h2⟩ | ⟨-, e | ⟨sd, h1, h2, h3⟩⟩
      · split at h2
        · next hgen =>
          cases h2
          exact .inr ⟨Table.get?_some_mem h1, (genData_iff c d).1 hgen, _, v, e, hw⟩
        · exact .inl (hin d h2.symm)
      · exact .inl (hin d e.symm)
      · left
        by_cases hb : ∃ b, orig c t k = some (.ok b)
        · obtain ⟨b, hb⟩ := hb
          obtain ⟨d2, e3, -⟩ := (orig_ok hc).1 hb
          exact hin d2 e3
        · exact hin d (h3 fun sb b ⟨_, e2⟩ => hb ⟨b, e2⟩).symm
    · rw [P.off k hk] at hd'
      exact .inl (hin d hd')

/-- Likewise `overlay` with an area and no offset: only the update of partly selected blocks may be
missing.  (`overlay` without area needs no assumption in the first place, see `C49_overlay_all`.) -/
theorem C83_overlay (env : Env) (args : InstArgs) (t t' : Table) (evs : List Event) (p : String)
    (g : DbFile) (a : Area) (hE : EnvOk env) (hg : GoodTable t)
    (hgs : GoodTable g.table) (hc : args.command = "overlay") (hp : args.inputMapPath = some p)
    (hgf : mapFile env p = some g) (harea : args.area = some a) (ha : a.isValid = true)
    (hoff : args.offset = none ∨ args.offset = some ⟨0, 0, 0⟩)
    (hb : AllBlocks env.codec t (Mild env.build))
    (hbs : AllBlocks env.codec g.table (Mild env.build))
    (h : Completes env args t t' evs) :
    OverlaidOrKept env.codec g.table t t' (some a) args.invert fun _ => True := by
  replace h := calm_completes (by rw [hc]; decide) h
  replace hE : EnvOk env.calm := hE.failing _ _
  haveI : Calm env.calm := ⟨fun _ _ => rfl⟩
  change OverlaidOrKept env.calm.codec _ _ _ _ _ _
  obtain ⟨D, h1, -, h3⟩ := overlay_done (env := env.calm) hc hp hgf h
  rw [if_pos (by rcases hoff with e | e <;> rw [e] <;> rfl)] at h3
  obtain ⟨cur', P1, P⟩ := plain_any (F := True) (fun _ _ => trivial) hE D.start h1 hgs hb hbs (args := args)
    (by rw [harea]; intro x hx; cases hx; exact ha) h3
  obtain ⟨rfl, -⟩ := openAt_unique D.fin P1
  rw [harea] at P
  exact P.overlaid hE.codec ha hg hgs

theorem overlayFail_raw (d s : Bytes) :
    Completes (twoFailEnv 9 [(0, 28 :: d)] [(0, 28 :: s)]) (overlayArgs false) [(0, 28 :: d)] [(0, 28 :: d)]
      quietEvents :=
  completes_by (cols := [⟨"pos", "INT", 1⟩, ⟨"data", "BLOB", 0⟩])
    (f := ⟨[(0, 28 :: d)], [⟨"pos", "INT", 1⟩, ⟨"data", "BLOB", 0⟩]⟩) rfl (by with_unfolding_all rfl) (by decide)

theorem overlayFail_completes {b b' : MapBlock} (hv : b.version = 28) (h : Wf b) (hv' : b'.version = 28)
    (h' : Wf b') : Completes (twoFailEnv 9 (oneMap b) (oneMap b')) (overlayArgs false) (oneMap b) (oneMap b)
      quietEvents := by
  obtain ⟨d, hd⟩ := toy_head hv h
  obtain ⟨s, hs⟩ := toy_head hv' h'
  unfold oneMap
  rw [hd, hs]
  exact overlayFail_raw d s

/-- The hypotheses are met by a run in which the main map's block cannot be read. -/
example : EnvOk (twoFailEnv 9 (oneMap (Toy.block 28)) (oneMap (otherBlock 0))) ∧
    (twoFailEnv 9 [] []).fail 9 = true ∧ GoodTable (oneMap (Toy.block 28)) ∧
    GoodTable (oneMap (otherBlock 0)) ∧
    AllBlocks (Toy.codec id) (oneMap (Toy.block 28)) Tame ∧
    AllBlocks (Toy.codec id) (oneMap (otherBlock 0)) Tame ∧
    ∃ t' evs, Completes (twoFailEnv 9 (oneMap (Toy.block 28)) (oneMap (otherBlock 0)))
      (overlayArgs false) (oneMap (Toy.block 28)) t' evs :=
  ⟨⟨Toy.lawful id, Toy.fullWrites, fun _ => Toy.ord_lawful⟩, rfl, oneMap_good _, oneMap_good _,
    oneMap_all (Toy.block_wf 28 (by omega)) (toy_tame 28),
    oneMap_all (otherBlock_wf (by omega)) (otherBlock_tame _), _, _,
    overlayFail_completes rfl (Toy.block_wf 28 (by omega)) rfl (otherBlock_wf (by omega))⟩

end MapEditr
