import Verif.Proof.Copied
import Verif.Proof.CopyAny
import Verif.Proof.ToyMap
import Verif.Proof.Oracle
/-!
# Properties C47, C48: `clone`
-/

namespace MapEditr
open Spec

theorem clone_command : command? "clone" =
    some ⟨fun env => clone env BLOCK_CACHE_SIZE, cloneVerify, [.area true, .offset true]⟩ := rfl

/-- The result of `clone` in terms of nodes. -/
theorem cloneDone_copied {c : Codec} (hc : c.Lawful) {w w' : World} {t t' dur : Table} {cols : List Col}
    (hg : GoodTable t) {a : Area} {o : Vec3} (hv : a.isValid = true) {ks : List Int}
    (h2 : ks.Perm (dests (some (a.add o)) false t))
    (h3 : CopyDone c (findIn c t) (partIn (a.add o)) o ks dur t cols w t' w') :
    Copied c t t t' o (fun p => InBox a.min a.max (unshift p o)) fun q => Within 1937 (blockOf q) := by
  have hv' := addArea_valid (o := o) hv
  have hao : AreaOk (some (a.add o)) := by intro x hx; cases hx; exact hv'
  have hsel : ∀ p, Selected (some (a.add o)) false p ↔ InBox a.min a.max (unshift p o) := by
    intro p
    rw [selected_iff]
    unfold InBox unshift Area.add Vec3.add
    simp only [iff_true]
    omega
  refine copied_of hc hg.nodup h3 hg ?_ ?_ ?_
  · intro k hk
    obtain ⟨-, d, hd⟩ := dests_row hg (h2.mem_iff.1 hk)
    exact List.mem_map.2 ⟨_, Table.get?_some_mem hd, rfl⟩
  · intro bp hbp hk
    have hk' := h2.mem_iff.1 hk
    obtain ⟨-, p, hp, hs⟩ := (mem_dests hg hao hbp).1 hk'
    refine ⟨⟨p, hp, (hsel p).1 hs⟩, ?_⟩
    intro p hp
    have hpart := partIn_some hv' hg hk'
    rw [fromBlockKey_keyOf bp hbp] at hpart
    rw [(absOverlap_part (o := o) hpart).2.2 p hp, ← hsel p, selected_iff]
    simp
  · intro bp hbp hk hno p hp hs
    exact hno (h2.mem_iff.2 ((mem_dests hg hao hbp).2 ⟨hk, p, hp, (hsel p).2 hs⟩))

theorem clone_copied {env : Env} (hE : EnvOk env) (hf : ∀ n, env.fail n = false) {w w' : World}
    {t dur : Table} {cols : List Col} (ho : OpenAt w .main dur t cols) (hg : GoodTable t)
    (hb : AllBlocks env.codec t (Mild env.build)) {cap : Nat} {args : InstArgs} {a : Area}
    {o : Vec3} (hA : args.area = some a) (hO : args.offset = some o) (hv : a.isValid = true)
    (h : clone env cap args w = (.ok (), w')) :
    ∃ t', OpenAt w' .main dur t' cols ∧
      Copied env.codec t t t' o (fun p => InBox a.min a.max (unshift p o)) fun q => Within 1937 (blockOf q) := by
  obtain ⟨t', ks, h2, h3⟩ := clone_given hE hf ho hg hb hA hO hv h
  exact ⟨t', h3.isOpen, cloneDone_copied hE.codec hg hv h2 h3⟩

/-! ## C47

The property is `Copied` with every source node within reach:

    Copied env.codec t t t' o (fun p => InBox a.min a.max (unshift p o)) fun _ => True

It fails for source nodes in the outermost layer of blocks, see `C47_false`. -/

/-- The following for a database that never fails. -/
theorem clone_works (env : Env) (args : InstArgs) (t t' : Table) (evs : List Event) (a : Area)
    (o : Vec3) (hE : EnvOk env) (hfail : ∀ n, env.fail n = false) (hg : GoodTable t)
    (hc : args.command = "clone") (harea : args.area = some a) (ha : a.isValid = true)
    (hoff : args.offset = some o) (hb : AllBlocks env.codec t (Mild env.build))
    (h : Completes env args t t' evs) :
    Copied env.codec t t t' o (fun p => InBox a.min a.max (unshift p o)) fun q => Within 1937 (blockOf q) := by
  obtain ⟨D⟩ := completes_done h (by rw [hc]; decide)
  have hbody := D.body_of hc clone_command
  simp only at hbody
  obtain ⟨cur, h2, h3⟩ := clone_copied hE hfail D.start hg hb harea hoff ha hbody
  obtain ⟨rfl, -⟩ := openAt_unique D.fin h2
  exact h3

/-- After `clone`, every node of the shifted area, in a readable generated block, is what its source
node was before, if that is in a readable generated block; everything else is as it was.

Missing: source nodes in blocks with a coordinate of -1938, that is, nodes -31000 to -30993, are not
copied (`is_valid_block_pos` rejects these blocks).  It is assumed that no statement
of this run fails: a block whose read fails is silently treated as absent.  In release builds, IDs in the
map must not exceed 7280: the code does not notice when they overflow. -/
theorem C47_clone_partial (env : Env) (args : InstArgs) (t t' : Table) (evs : List Event) (a : Area)
    (o : Vec3) (hE : EnvOk env) (hwork : DbWorks env args) (hg : GoodTable t)
    (hc : args.command = "clone") (harea : args.area = some a) (ha : a.isValid = true)
    (hoff : args.offset = some o) (hb : AllBlocks env.codec t (Mild env.build))
    (h : Completes env args t t' evs) :
    Copied env.codec t t t' o (fun p => InBox a.min a.max (unshift p o)) fun q => Within 1937 (blockOf q) :=
  clone_works (env.failing (fun _ => false) fun _ => false) args t t' evs a o
    (hE.failing _ _) (fun _ => rfl) hg hc harea ha hoff hb (works_completes hwork h)

/-- `clone` completes whenever the database works, the arguments are accepted and IDs are small: each ID
used is at most some ID that has a name, and none exceeds 7280. -/
theorem C47_clone_completes (env : Env) (args : InstArgs) (f : DbFile) (a : Area) (o : Vec3)
    (hE : EnvOk env) (hfail : ∀ n, env.fail n = false) (hfile : mapFile env args.mapPath = some f)
    (hcols : MapColumns f.cols) (hg : GoodTable f.table) (hargs : ¬ BadArgs args)
    (hc : args.command = "clone") (harea : args.area = some a) (ha : a.isValid = true)
    (hoff : args.offset = some o) (hin : args.inputMapPath = none) (hout : ¬ MovedOut a o)
    (hconf : args.doConfirmation = true → env.answer = some true)
    (hb : AllBlocks env.codec f.table Tame) :
    ∃ t' evs, Completes env args f.table t' evs := by
  refine completes_of (cmd := ⟨fun env => clone env BLOCK_CACHE_SIZE, cloneVerify, [.area true, .offset true]⟩)
    (res := .ok) ((verifyArgs_iff args).2 hargs) (by rw [hc]; rfl) ?_
    (by simp) hfile ((colsOk_iff _).2 hcols) (by intro p hp; rw [hin] at hp; cases hp) hfail hconf
    (by rw [hc]; decide) ?_
  · simp only [cloneVerify, harea, hoff, unwrap]
    have := movedOut_iff a o
    show (Except.ok (if (MAP_AREA.intersection (a.add o)).isNone then _ else _) : Res _) = _
    rw [if_neg (fun h => hout (this.1 h))]
  · intro w1 ho _
    obtain ⟨w', _, _, h1, -⟩ := clone_run hE hfail ho hg hb BLOCK_CACHE_SIZE harea hoff ha
    exact ⟨w', h1⟩

/-- Copy the node (x, 0, 0) to (x + d, 0, 0). -/
def cloneArgs (x d : Int) : InstArgs :=
  { runArgs false "clone" "map" none with
    area := some ⟨⟨x, 0, 0⟩, ⟨x, 0, 0⟩⟩, offset := some ⟨d, 0, 0⟩ }

theorem clone_toy {x y d : Int} (v : Nat) (hv : 25 ≤ v ∧ v ≤ 29) (h1 : ValidKey x) (h2 : ValidKey (x + 1))
    (hx : -31000 ≤ y ∧ y ≤ 31000) (hd : -62000 ≤ d ∧ d ≤ 62000) (hyd : -31000 ≤ y + d ∧ y + d ≤ 31000) :
    ∃ t' evs, Completes (editEnv (pairMap x (Toy.block v))) (cloneArgs y d) (pairMap x (Toy.block v)) t' evs := by
  refine C47_clone_completes _ (cloneArgs y d) _ ⟨⟨y, 0, 0⟩, ⟨y, 0, 0⟩⟩ ⟨d, 0, 0⟩ (editEnv_ok _) (fun _ => rfl)
    (editEnv_file _) ⟨_, rfl⟩ (pairMap_good h1 h2 _) ?_ rfl rfl ?_ rfl rfl ?_ (by intro h; cases h)
    (pairMap_all (Toy.block_wf v hv) (toy_tame v))
  · rintro (⟨h, -⟩ | ⟨a, h, h'⟩ | ⟨o, h, h'⟩ | ⟨n, h, -⟩)
    · cases h
    · cases h
      refine h' ?_
      unfold Within
      simp only
      omega
    · cases h
      refine h' ?_
      unfold Within
      simp only
      omega
    · cases h
  · rw [isValid_iff]
    simp
  · intro h
    refine h ⟨y, 0, 0⟩ ?_ ?_
    · unfold InBox
      simp
    · unfold Within
      simp only
      omega

/-- The hypotheses are met: node (0, 0, 0), which has metadata, is copied to (18, 0, 0). -/
example : ∃ t' evs, Completes (editEnv (pairMap 0 (Toy.block 28))) (cloneArgs 0 18) (pairMap 0 (Toy.block 28)) t' evs ∧
    GoodTable (pairMap 0 (Toy.block 28)) ∧ EnvOk (editEnv (pairMap 0 (Toy.block 28))) ∧
    AllBlocks (Toy.codec id) (pairMap 0 (Toy.block 28)) Tame ∧
    ∃ d' b', (1, d') ∈ t' ∧ Represents (Toy.codec id) d' b' ∧ nodeName b' 2 = some (ascii "a") ∧
      (metaOf b' 2).isSome := by
  have hw := Toy.block_wf 28 (by omega)
  obtain ⟨t', evs, h⟩ := clone_toy (x := 0) (y := 0) (d := 18) 28 (by omega) (by decide) (by decide) (by omega)
    (by omega) (by omega)
  have hg := pairMap_good (x := 0) (by decide) (by decide) (Toy.block 28)
  have ha := pairMap_all (x := 0) hw (P := Tame) (toy_tame 28)
  refine ⟨t', evs, h, hg, editEnv_ok _, ha, ?_⟩
  have hc := C47_clone_partial _ _ _ t' evs _ _ (editEnv_ok _) (fun _ _ => rfl) hg rfl rfl (by decide) rfl
    (ha.mild _) h
  obtain ⟨d', b', g1, g2, -, g3⟩ := hc.good ⟨1, 0, 0⟩ (Toy.data (Toy.block 28)) _ (by unfold ValidBlockPos; decide)
    (by
      show ((1 : Int), _) ∈ _
      unfold pairMap
      simp) (Toy.data_rep hw) rfl
  obtain ⟨g4, -⟩ := g3 2 (by decide)
  have hq : unshift (posAt ⟨1, 0, 0⟩ 2) ⟨18, 0, 0⟩ = ⟨0, 0, 0⟩ := by decide
  rw [hq] at g4
  have hk : keyOf (blockOf ⟨0, 0, 0⟩) = 0 := by decide
  obtain ⟨n1, -, -, n2⟩ := g4 (stored (Toy.block 28)) (by
    unfold InBox
    simp) (by
    show Within _ _
    decide) ⟨by unfold ValidBlockPos; decide, rfl, Toy.data (Toy.block 28), by
      rw [hk]
      unfold pairMap
      simp, Toy.data_rep hw⟩
  refine ⟨d', b', g1, g2, n1 _ (by decide), ?_⟩
  rcases n2 0 (by decide) with n2 | ⟨-, n2⟩
  · rw [n2]
    decide
  · rw [n2]
    decide

/-- The property fails at the edge of the map: the node (-31000, 0, 0) is not copied. -/
theorem C47_false : ∃ (env : Env) (args : InstArgs) (t t' : Table) (evs : List Event) (a : Area) (o : Vec3),
    EnvOk env ∧ (∀ n, env.fail n = false) ∧ GoodTable t ∧ args.command = "clone" ∧ args.area = some a ∧
    a.isValid = true ∧ args.offset = some o ∧ AllBlocks env.codec t Tame ∧
    Completes env args t t' evs ∧
    ¬ Copied env.codec t t t' o (fun p => InBox a.min a.max (unshift p o)) fun _ => True := by
  have hw := Toy.block_wf 28 (by omega)
  obtain ⟨t', evs, h⟩ := clone_toy (x := -1938) (y := -31000) (d := 8) 28 (by omega) (by decide) (by decide)
    (by omega) (by omega) (by omega)
  have hg := pairMap_good (x := -1938) (by decide) (by decide) (Toy.block 28)
  have ha := pairMap_all (x := -1938) hw (P := Tame) (toy_tame 28)
  refine ⟨_, _, _, t', evs, _, _, editEnv_ok _, fun _ => rfl, hg, rfl, rfl, by decide, rfl, ha, h, ?_⟩
  have hc := C47_clone_partial _ _ _ t' evs _ _ (editEnv_ok _) (fun _ _ => rfl) hg rfl rfl (by decide) rfl
    (ha.mild _) h
  intro hfull
  have hin : (keyOf ⟨-1937, 0, 0⟩, Toy.data (Toy.block 28)) ∈ pairMap (-1938) (Toy.block 28) := by
    show ((-1937 : Int), _) ∈ _
    unfold pairMap
    simp
  have hbp : ValidBlockPos ⟨-1937, 0, 0⟩ := by unfold ValidBlockPos; decide
  obtain ⟨d1, b1, g1, g2, -, g3⟩ := hc.good ⟨-1937, 0, 0⟩ _ _ hbp hin (Toy.data_rep hw) rfl
  obtain ⟨d2, b2, f1, f2, -, f3⟩ := hfull.good ⟨-1937, 0, 0⟩ _ _ hbp hin (Toy.data_rep hw) rfl
  have hd : d1 = d2 := by
    have e1 := Table.get?_of_mem hc.nodup g1
    rw [Table.get?_of_mem hc.nodup f1] at e1
    exact (Option.some.inj e1).symm
  subst hd
  rw [represents_unique f2 g2] at f3
  have hq : unshift (posAt ⟨-1937, 0, 0⟩ 0) ⟨8, 0, 0⟩ = ⟨-31000, 0, 0⟩ := by decide
  have g4 := (g3 0 (by decide)).2
  have f4 := (f3 0 (by decide)).1
  rw [hq] at g4 f4
  have e1 := (g4 (fun sb hs => by
    have : ¬ Within 1937 (blockOf ⟨-31000, 0, 0⟩) := by decide
    exact this hs.2.1)).1 _ (by decide : _ = some (ascii "a"))
  have hk : keyOf (blockOf ⟨-31000, 0, 0⟩) = -1938 := by decide
  have e2 := (f4 (stored (Toy.block 28)) (by
    unfold InBox
    simp) trivial ⟨by unfold ValidBlockPos; decide, rfl, Toy.data (Toy.block 28), by
      rw [hk]
      unfold pairMap
      simp, Toy.data_rep hw⟩).1 _ (by decide : _ = some (ascii "air"))
  rw [e1] at e2
  exact absurd e2 (by decide)

/-! ## C48 -/

/-- Whatever the capacity of the cache, and however source and destination overlap, `clone` ends with
every node of the shifted area being what its source was in the map *as it was before the command*. -/
theorem C48_clone_original (env : Env) (args : InstArgs) (cap : Nat) (w w' : World) (t : Table) (a : Area)
    (o : Vec3) (hE : EnvOk env) (hfail : ∀ n, env.fail n = false) (hg : GoodTable t)
    (harea : args.area = some a) (ha : a.isValid = true) (hoff : args.offset = some o)
    (hb : AllBlocks env.codec t (Mild env.build)) (hw : OpenMap w .main t)
    (h : clone env cap args w = (.ok (), w')) :
    ∃ t', OpenMap w' .main t' ∧ Copied env.codec t t t' o (fun p => InBox a.min a.max (unshift p o))
      fun q => Within 1937 (blockOf q) := by
  obtain ⟨⟨⟨dur, cur, tx, cols⟩, itx⟩, h1, rfl, rfl, rfl⟩ := hw
  obtain ⟨t', h3, h4⟩ := clone_copied hE hfail (w := w) (dur := dur) (cols := cols) h1 hg hb harea hoff ha h
  exact ⟨t', ⟨_, h3, rfl, rfl, rfl⟩, h4⟩

/-- Nor does it stop early, if IDs are small. -/
theorem C48_clone_finishes (env : Env) (args : InstArgs) (cap : Nat) (w : World) (t : Table) (a : Area)
    (o : Vec3) (hE : EnvOk env) (hfail : ∀ n, env.fail n = false) (hg : GoodTable t)
    (harea : args.area = some a) (ha : a.isValid = true) (hoff : args.offset = some o)
    (hb : AllBlocks env.codec t Tame) (hw : OpenMap w .main t) :
    ∃ w', clone env cap args w = (.ok (), w') := by
  obtain ⟨⟨⟨dur, cur, tx, cols⟩, itx⟩, h1, rfl, rfl, rfl⟩ := hw
  obtain ⟨w', _, _, h2, -⟩ := clone_run hE hfail (w := w) (dur := dur) (cols := cols) h1 hg hb cap harea hoff ha
  exact ⟨w', h2⟩

/-- The hypotheses are met by an area overlapping its destination, with a cache of one block. -/
example : ∃ (w' : World) (args : InstArgs) (w : World),
    args.area = some ⟨⟨0, 0, 0⟩, ⟨15, 15, 15⟩⟩ ∧ args.offset = some ⟨3, 0, 0⟩ ∧
    OpenMap w .main (pairMap 0 (Toy.block 28)) ∧
    AllBlocks (Toy.codec id) (pairMap 0 (Toy.block 28)) (Mild .debug) ∧
    clone (editEnv (pairMap 0 (Toy.block 28))) 1 args w = (.ok (), w') := by
  have hw := Toy.block_wf 28 (by omega)
  have hg := pairMap_good (x := 0) (by decide) (by decide) (Toy.block 28)
  have ho : OpenMap (World.start.opened .main ⟨pairMap 0 (Toy.block 28), []⟩) .main (pairMap 0 (Toy.block 28)) :=
    ⟨_, rfl, rfl, rfl, rfl⟩
  obtain ⟨w', h1⟩ := C48_clone_finishes (editEnv (pairMap 0 (Toy.block 28)))
    { cloneArgs 0 3 with area := some ⟨⟨0, 0, 0⟩, ⟨15, 15, 15⟩⟩ } 1 _ _ _ _ (editEnv_ok _) (fun _ => rfl) hg
    rfl (by decide) rfl (pairMap_all (x := 0) hw (P := Tame) (toy_tame 28)) ho
  exact ⟨w', _, _, rfl, rfl, ho, pairMap_all hw ((toy_tame 28).mild _), h1⟩

end MapEditr
