import Verif.Proof.Param2
import Verif.Proof.ToyMap
/-!
# Property C37: `setparam2`
-/

namespace MapEditr
open Spec

theorem setParam2_command : command? "setparam2" = some ⟨setParam2, fun a => .ok (setParam2Verify a),
    [.node false, .area false, .invert, .param2]⟩ := rfl

/-- The change of one block. -/
def param2Edit (args : InstArgs) (val : UInt8) (k : Int) (b : MapBlock) : Res (Option MapBlock × Nat) :=
  let nodeId := (args.node.map toBytes).bind fun n => NameIdMap.getId b.nimap n
  if args.node.isSome && nodeId.isNone then .ok (none, 0)
  else (param2Block args.area args.invert nodeId val (Vec3.fromBlockKey k) b).map fun r => (some r.1, r.2)

theorem setParam2_eq (env : Env) (args : InstArgs) (val : UInt8) (hv : args.param2 = some val) :
    setParam2 env args = editCommand env false (toSlice (args.node.map toBytes)) args.area args.invert
      (param2Edit args val) (· + ·) 0 (Msg.count "Set param2 of {} nodes.") := by
  unfold setParam2 editCommand
  rw [hv]
  have : param2Step env args val (args.node.map toBytes) = editStep env false (param2Edit args val) (· + ·) := by
    funext count key
    refine step_eq fun b => ?_
    unfold param2Edit
    simp only
    split
    · rfl
    · cases param2Block args.area args.invert ((args.node.map toBytes).bind fun n => NameIdMap.getId b.nimap n)
        val (Vec3.fromBlockKey key) b with
      | error e => rfl
      | ok r => simp only [Except.map, lift_ok, pure_bind, bind_assoc, writeOpt, incIf, Bool.false_eq_true, if_false]
  rw [← this]
  rfl

/-- What `setparam2` does to a block where the nodes `Q` are chosen by name. -/
def Sets2 (area : Option Area) (invert : Bool) (Q : MapBlock → Nat → Prop)
    [∀ b, DecidablePred (Q b)] (val : UInt8) (bp : Vec3) (b b' : MapBlock) : Prop :=
  SameHead b b' ∧ SameMeta b b' ∧ b'.objects = b.objects ∧ b'.timers = b.timers ∧
  b'.nimap = b.nimap ∧ b'.nd.nodes = b.nd.nodes ∧ b'.nd.param1 = b.nd.param1 ∧
  ∀ i, i < 4096 → b'.nd.param2[i]? =
    if Selected area invert (posAt bp i) ∧ Q b i then some val else b.nd.param2[i]?

theorem setParam2_change (env : Env) (args : InstArgs) (val : UInt8) (t : Table) (ha : AreaOk args.area)
    (Q : MapBlock → Nat → Prop) [∀ b, DecidablePred (Q b)]
    (hQ : AllBlocks env.codec t fun b => ∀ i, Q b i ↔ IsFirst b (args.node.map toBytes) i) :
    Change env.codec (toSlice (args.node.map toBytes)) args.area args.invert (param2Edit args val) t
      (Sets2 args.area args.invert Q val)
      (fun bp b => countNodes fun i => Selected args.area args.invert (posAt bp i) ∧
        Q b i) 0 := by
  have hsame : ∀ (bp : Vec3) (b : MapBlock), (∀ i, i < 4096 → ¬ (Selected args.area args.invert (posAt bp i) ∧
      Q b i)) → Sets2 args.area args.invert Q val bp b b := by
    intro bp b h
    refine ⟨⟨rfl, rfl, rfl, rfl⟩, sameMeta_refl b, rfl, rfl, rfl, rfl, rfl, fun i hi => ?_⟩
    rw [if_neg (h i hi)]
  constructor
  · intro bp d b hbp hd hrep hwf hsel
    unfold param2Edit
    simp only
    have hsome : args.node.isSome = (args.node.map toBytes).isSome := by cases args.node <;> rfl
    rw [hsome, fromBlockKey_keyOf bp hbp]
    have key : ∀ nodeId, (∀ i, i < 4096 → (Q b i ↔ idHit b.nd.nodes nodeId i = true)) →
        ∃ ob, Except.map (fun r => (some r.1, r.2)) (param2Block args.area args.invert nodeId val bp b) =
          (.ok (ob, countNodes fun i => Selected args.area args.invert (posAt bp i) ∧
            Q b i) : Res (Option MapBlock × Nat)) ∧
        (ob = none → Sets2 args.area args.invert Q val bp b b) ∧
        ∀ b', ob = some b' → Wf b' ∧ Sets2 args.area args.invert Q val bp b (stored b') := by
      intro nodeId hit
      obtain ⟨p2, n, f1, f2, f3, f4⟩ := param2Block_spec hwf ha hsel nodeId val
      have hn : n = countNodes fun i => Selected args.area args.invert (posAt bp i) ∧
          Q b i := by
        rw [f4]
        exact countNodes_congr fun i hi => by rw [hit i hi]
      rw [f1, ← hn]
      refine ⟨some (withParam2 b p2), rfl, by simp, ?_⟩
      intro b' hb'
      cases hb'
      refine ⟨wf_withParam2 hwf f2, ⟨rfl, rfl, rfl, rfl⟩, sameMeta_stored hwf.metas.sorted rfl rfl, rfl, rfl, rfl,
        rfl, rfl, ?_⟩
      intro i hi
      refine (f3 i hi).trans ?_
      simp only [hit i hi]
    rcases nodeId_cases hwf (hQ _ _ _ hd hrep) with ⟨h1, h2, h3⟩ | ⟨h1, h2, h3⟩ | ⟨id, h2, h3⟩
    · rw [h1, h2]
      have hz : countNodes (fun i => Selected args.area args.invert (posAt bp i) ∧
          Q b i) = 0 := countNodes_zero fun i _ hi => h3 i hi.2
      rw [hz]
      exact ⟨none, rfl, fun _ => hsame bp b fun i _ hi => h3 i hi.2, by simp⟩
    · rw [h2]
      rw [show ((args.node.map toBytes).isSome && (none : Option Nat).isNone) = false by rw [h1]; rfl]
      simp only [Bool.false_eq_true, if_false]
      exact key none fun i _ => ⟨fun _ => rfl, fun _ => h3 i⟩
    · rw [h2]
      rw [show ((args.node.map toBytes).isSome && (some id).isNone) = false by simp]
      simp only [Bool.false_eq_true, if_false]
      exact key (some id) fun i _ => by rw [h3 i]; unfold idHit; simp
  · intro bp d b hbp hd hrep hwf hno
    have hnone : ∀ i, i < 4096 → ¬ (Selected args.area args.invert (posAt bp i) ∧
        Q b i) := by
      rintro i hi ⟨h1, h2⟩
      rcases hno with h | h
      · exact h _ (posAt_inBlock bp hi) h1
      · exact skipped_isNode hrep h i (isNode_of_first ((hQ _ _ _ hd hrep i).1 h2))
    exact ⟨hsame bp b hnone, countNodes_zero hnone⟩

/-! ## C37 -/

/-- After `setparam2`, the selected nodes (by position, and by name if one is given) have the new
param2 value, and everything else is as it was. -/
theorem C37_setparam2 (env : Env) (args : InstArgs) (t t' : Table) (evs : List Event) (val : UInt8)
    (hE : EnvOk env) (hg : (t.map (·.1)).Nodup) (hc : args.command = "setparam2")
    (hv : args.param2 = some val) (ha : AreaOk args.area)
    (hu : args.node ≠ none → AllBlocks env.codec t UniqueNames)
    (h : Completes env args t t' evs) :
    Edited env.codec args.area args.invert t t' fun bp b b' =>
      SameHead b b' ∧ SameMeta b b' ∧ b'.objects = b.objects ∧ b'.timers = b.timers ∧
      b'.nimap = b.nimap ∧ b'.nd.nodes = b.nd.nodes ∧ b'.nd.param1 = b.nd.param1 ∧
      ∀ i, i < 4096 → b'.nd.param2[i]? =
        if Selected args.area args.invert (posAt bp i) ∧ IsNode b (args.node.map toBytes) i then some val
        else b.nd.param2[i]? :=
  change_edited hE hg ha h hc setParam2_command (by decide) (setParam2_eq env args val hv)
    (setParam2_change env args val t ha (fun b => IsNode b (args.node.map toBytes)) (names_first hu))

/-- It reports the number of nodes set. -/
theorem C37_setparam2_count (env : Env) (args : InstArgs) (t t' : Table) (evs : List Event) (val : UInt8)
    (bs : List (Vec3 × MapBlock)) (hg : GoodTable t) (hc : args.command = "setparam2")
    (hv : args.param2 = some val) (ha : AreaOk args.area)
    (hu : args.node ≠ none → AllBlocks env.codec t UniqueNames)
    (h : Completes env args t t' evs) (hbs : Listed env.codec t bs) :
    Reported evs "Set param2 of {} nodes." (bs.map fun e => countNodes fun i =>
      Selected args.area args.invert (posAt e.1 i) ∧ IsNode e.2 (args.node.map toBytes) i).sum :=
  change_reported hg ha h hc setParam2_command (by decide) (by decide) (setParam2_eq env args val hv)
    (setParam2_change env args val t ha (fun b => IsNode b (args.node.map toBytes)) (names_first hu)) hbs

/-- It completes whenever the database works and the arguments are accepted. -/
theorem C37_setparam2_completes (env : Env) (args : InstArgs) (f : DbFile) (val : UInt8)
    (hE : EnvOk env) (hfail : ∀ n, env.fail n = false) (hfile : mapFile env args.mapPath = some f)
    (hcols : MapColumns f.cols) (hg : GoodTable f.table) (hargs : ¬ BadArgs args)
    (hc : args.command = "setparam2") (hv : args.param2 = some val) (ha : AreaOk args.area)
    (hreq : args.area ≠ none ∨ args.node ≠ none)
    (hin : args.inputMapPath = none) (hconf : args.doConfirmation = true → env.answer = some true) :
    ∃ t' evs, Completes env args f.table t' evs := by
  refine change_completes hfail hE.ord hfile ((colsOk_iff _).2 hcols) hg ha ((verifyArgs_iff args).2 hargs) hc
    setParam2_command (by decide) (res := .ok) ?_ (by simp) hin hconf (setParam2_eq env args val hv)
    (setParam2_change env args val f.table ha (fun b => IsFirst b (args.node.map toBytes)) fun _ _ _ _ _ _ => Iff.rfl)
  show Except.ok (setParam2Verify args) = _
  unfold setParam2Verify
  rw [if_neg]
  intro h
  rw [Bool.and_eq_true, Option.isNone_iff_eq_none, Option.isNone_iff_eq_none] at h
  rcases hreq with hr | hr
  · exact hr h.1
  · exact hr h.2

/-- Set param2 of the nodes `air` outside node (0,0,0). -/
def param2Args : InstArgs :=
  { runArgs false "setparam2" "map" none with
    area := some ⟨⟨0, 0, 0⟩, ⟨0, 0, 0⟩⟩, invert := true, node := some "air", param2 := some 7 }

theorem toy_unique (v : Nat) : UniqueNames (stored (Toy.block v)) := by
  intro i j n hi hj
  have h1 := SMap.get?_some_mem hi
  have h2 := SMap.get?_some_mem hj
  have he : (stored (Toy.block v)).nimap = [(0, ascii "air"), (1, ascii "a")] := rfl
  rw [he] at h1 h2
  simp only [List.mem_cons, List.not_mem_nil, or_false, Prod.mk.injEq] at h1 h2
  rcases h1 with ⟨rfl, rfl⟩ | ⟨rfl, rfl⟩ <;> rcases h2 with ⟨rfl, h2⟩ | ⟨rfl, h2⟩ <;>
    first | rfl | exact absurd h2 (by decide)

/-- The hypotheses are met. -/
example : ∃ t' evs, Completes (editEnv (toyMap (Toy.block 29))) param2Args (toyMap (Toy.block 29)) t' evs ∧
    GoodTable (toyMap (Toy.block 29)) ∧ AllBlocks (Toy.codec id) (toyMap (Toy.block 29)) UniqueNames := by
  have hw := Toy.block_wf 29 (by omega)
  obtain ⟨t', evs, h⟩ := C37_setparam2_completes (editEnv (toyMap (Toy.block 29))) param2Args _ 7
    (editEnv_ok _) (fun _ => rfl) (editEnv_file _) ⟨_, rfl⟩ (toyMap_good _)
    (by rw [← verifyArgs_iff]; decide) rfl rfl (by intro a h; cases h; decide) (.inl (by decide)) rfl
    (by intro h; cases h)
  exact ⟨t', evs, h, toyMap_good _, toyMap_all hw (toy_unique 29)⟩

end MapEditr
