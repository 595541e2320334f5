import Verif.Proof.EditMetas
import Verif.Props.DeleteMeta
import Verif.Props.Block
/-!
# Property C41: `setmetavar`
-/

namespace MapEditr
open Spec

theorem setMetaVar_command : command? "setmetavar" = some ⟨setMetaVar,
    fun a => .ok (setMetaVarVerify a), [.key, .value, .delete, .nodes, .area false, .invert]⟩ := rfl

/-- `setmetavar` on one block. -/
def setMetaVarEdit (args : InstArgs) (key : Bytes) (k : Int) (b : MapBlock) : Res (Option MapBlock × Nat) :=
  (metaEdit args (args.nodes.map toBytes) (editVar key (toBytes (args.value.getD "")) args.delete) k b).map
    fun r => (r.1, r.2.sum)

theorem setMetaVar_eq (env : Env) (args : InstArgs) {key : String} (hk : args.key = some key) :
    setMetaVar env args = editCommand env false (args.nodes.map toBytes) args.area args.invert
      (setMetaVarEdit args (toBytes key)) (· + ·) 0 (Msg.count "Set metadata variable of {} nodes.") := by
  unfold setMetaVar editCommand
  have : setMetaVarStep env args (toBytes key) (toBytes (args.value.getD "")) (args.nodes.map toBytes) =
      editStep env false (setMetaVarEdit args (toBytes key)) (· + ·) := by
    funext count bkey
    refine step_eq fun b => ?_
    unfold setMetaVarEdit metaEdit
    simp only
    split
    · rfl
    · cases editMetas args ((args.nodes.map toBytes).filterMap fun n => NameIdMap.getId b.nimap n) bkey
        b.nd.nodes (editVar (toBytes key) (toBytes (args.value.getD "")) args.delete) b.metas with
      | error e => rfl
      | ok r =>
        simp only [Except.map, lift_ok, pure_bind]
        split
        · simp only [bind_assoc, writeOpt, incIf, pure_bind, Bool.false_eq_true, if_false, withMetas]
        · next hany =>
          have h0 : r.2.sum = 0 := by
            rw [List.sum_eq_zero_iff_forall_eq_nat]
            intro x hx
            simp only [List.any_eq_true, not_exists, not_and, decide_eq_true_iff] at hany
            have := hany x hx
            omega
          rw [h0]
          rfl
  rw [← this, hk]
  rfl

/-- The value given, or none when the variable is to be deleted. -/
def newValue (args : InstArgs) : Option Bytes :=
  if args.delete then none else some (toBytes (args.value.getD ""))

theorem varEdit_void {key : Bytes} {value : Option Bytes} {m : NodeMeta} (h : MetaVoid m) :
    MetaVoid (varEdit key value m) := by
  obtain ⟨h1, h2⟩ := h
  unfold varEdit
  cases value <;> exact ⟨by simp [h1], h2⟩

/-- Void metadata stays void. -/
theorem visible_edit {f : NodeMeta → NodeMeta} (hf : ∀ m, MetaVoid m → MetaVoid (f m)) (o : Option NodeMeta) :
    visible ((visible o).map f) = visible (o.map f) := by
  unfold visible
  cases o with
  | none => rfl
  | some m =>
    by_cases hm : MetaVoid m
    · rw [Option.map_some, Option.filter_some, if_neg (by simpa using hm), Option.filter_some,
        if_neg (by simpa using hf m hm)]
      rfl
    · rw [Option.filter_some, if_pos (by simpa using hm)]

/-- Values that could be written fit their length. -/
theorem Saves.vars {env : Env} (hE : EnvOk env) {b : MapBlock} (h : Saves env b) :
    ∀ e ∈ b.metas, ∀ v ∈ e.2.vars, v.2.1.length < 4294967296 := by
  intro e he v hv
  obtain ⟨m, s, hs⟩ := h
  refine Nat.lt_of_not_le fun hl => ?_
  obtain ⟨w, hw⟩ := C24_too_long env.codec (env.ord m) (hE.ord m) b (.inr (.inr ⟨e, he, v, hv, .inr hl⟩))
  rw [hw] at hs
  cases hs

/-- What `setmetavar` does to a block where the nodes `Q` are chosen by name. -/
def VarsSet (args : InstArgs) (key : Bytes) (Q : MapBlock → Nat → Prop) [∀ b, DecidablePred (Q b)] (bp : Vec3)
    (b b' : MapBlock) : Prop :=
  SameHead b b' ∧ SameNodes b b' ∧ b'.objects = b.objects ∧ b'.timers = b.timers ∧
  ∀ i, SavedMeta b
    (if Selected args.area args.invert (posAt bp (i % 4096)) ∧ Q b i then
      visible ((metaOf b i).map (varEdit key (newValue args))) else metaOf b i) (metaOf b' i)

section
variable {args : InstArgs} {key : Bytes} {Q : MapBlock → Nat → Prop} [∀ b, DecidablePred (Q b)]

theorem varsSet_of {bp : Vec3} {b b' : MapBlock} (hwf : Wf b)
    (h : EditedBy (fun i m => if hitBy args Q bp b i then
        (editVar key (toBytes (args.value.getD "")) args.delete m).1 else m) b b') :
    VarsSet args key Q bp b b' := by
  obtain ⟨h1, h2, h3, h4, h5⟩ := h
  refine ⟨h1, h2, h3, h4, fun i => ?_⟩
  have h6 := h5 i
  have h7 : (if Selected args.area args.invert (posAt bp (i % 4096)) ∧ Q b i then
        visible ((metaOf b i).map (varEdit key (newValue args))) else metaOf b i) =
      visible ((SMap.get? b.metas i).map (fun m => if hitBy args Q bp b i then
      (editVar key (toBytes (args.value.getD "")) args.delete m).1 else m)) := by
    have hmv : metaOf b i = visible (SMap.get? b.metas i) := rfl
    split
    · next hh =>
      have hh : hitBy args Q bp b i := hh
      rw [hmv, visible_edit fun m h => varEdit_void h]
      cases hg : SMap.get? b.metas i with
      | none => rfl
      | some m =>
        rw [Option.map_some, Option.map_some, if_pos hh,
          editVar_eq _ _ _ (hwf.metas.metas _ (SMap.get?_some_mem hg)).sorted]
        rfl
    · next hh =>
      have hh : ¬ hitBy args Q bp b i := hh
      rw [hmv]
      cases hg : SMap.get? b.metas i with
      | none => rfl
      | some m => rw [Option.map_some, if_neg hh]
  rw [h7]
  exact h6

theorem varsSet_sum {bp : Vec3} {b : MapBlock} (hwf : Wf b) :
    ((b.metas.filter fun e => hitBy args Q bp b e.1).map fun e =>
      (editVar key (toBytes (args.value.getD "")) args.delete e.2).2).sum =
    (b.metas.filter fun e => (Selected args.area args.invert (posAt bp (e.1 % 4096)) ∧ Q b e.1) ∧
      HasVar key e.2).length := by
  have hs : ∀ e ∈ b.metas, (editVar key (toBytes (args.value.getD "")) args.delete e.2).2 =
      if HasVar key e.2 then 1 else 0 := by
    intro e he
    rw [editVar_eq _ _ _ (hwf.metas.metas e he).sorted]
  have : ∀ l : MetaList, (∀ e ∈ l, e ∈ b.metas) →
    ((l.filter fun e => hitBy args Q bp b e.1).map fun e =>
      (editVar key (toBytes (args.value.getD "")) args.delete e.2).2).sum =
    (l.filter fun e => (Selected args.area args.invert (posAt bp (e.1 % 4096)) ∧ Q b e.1) ∧
      HasVar key e.2).length := by
    intro l
    induction l with
    | nil => intro _; rfl
    | cons e l ih =>
      intro hl
      have ih' := ih fun x hx => hl x (List.mem_cons_of_mem _ hx)
      rw [List.filter_cons, List.filter_cons]
      by_cases h1 : hitBy args Q bp b e.1
      · rw [if_pos (by simpa using h1), List.map_cons, List.sum_cons, ih', hs e (hl e List.mem_cons_self)]
        by_cases h2 : HasVar key e.2
        · rw [if_pos h2, if_pos (by simpa using ⟨h1, h2⟩), List.length_cons]
          omega
        · rw [if_neg h2, if_neg (by simp; exact fun _ _ => h2)]
          omega
      · rw [if_neg (by simpa using h1), ih', if_neg]
        simp only [decide_eq_true_iff]
        exact fun hc => h1 hc.1
  exact this b.metas fun _ h => h

/-- The change of one block, if the tests of all entries succeed. -/
theorem setMetaVar_block {bp : Vec3} {b : MapBlock} (hbp : ValidBlockPos bp) (hwf : Wf b)
    (hQ : ∀ i, Q b i ↔ AmongFirst b (args.nodes.map toBytes) i)
    (hok : (args.nodes ≠ [] → MetaInside b) ∨ ∃ r, setMetaVarEdit args key (keyOf bp) b = .ok r) :
    ∃ ob, setMetaVarEdit args key (keyOf bp) b = .ok (ob, (b.metas.filter fun e =>
        (Selected args.area args.invert (posAt bp (e.1 % 4096)) ∧ Q b e.1) ∧ HasVar key e.2).length) ∧
      (ob = none → VarsSet args key Q bp b b) ∧
      ∀ b', ob = some b' → ((toBytes (args.value.getD "")).length < 4294967296 ∨
          ∀ e ∈ b'.metas, ∀ v ∈ e.2.vars, v.2.1.length < 4294967296) →
        Wf b' ∧ VarsSet args key Q bp b (stored b') := by
  obtain ⟨ob, h1, h2, h3⟩ := metaEdit_spec (args := args) (nodes := args.nodes.map toBytes)
    (edit := editVar key (toBytes (args.value.getD "")) args.delete) hbp hwf hQ
    (by
      rcases hok with hok | ⟨r, hok⟩
      · exact .inl fun hne => hok (by intro h; rw [h] at hne; exact hne rfl)
      · right
        unfold setMetaVarEdit at hok
        cases hr : metaEdit args (args.nodes.map toBytes)
            (editVar key (toBytes (args.value.getD "")) args.delete) (keyOf bp) b with
        | error x => rw [hr] at hok; cases hok
        | ok r' => exact ⟨r', rfl⟩)
    (by
      intro e he h0
      unfold editVar at h0 ⊢
      split at h0
      · split at h0 <;> cases h0
      · next hg => rfl)
  refine ⟨ob, ?_, fun h => varsSet_of hwf (h2 h), fun b' hb' hfit => ?_⟩
  · unfold setMetaVarEdit
    rw [h1]
    simp only [Except.map]
    rw [varsSet_sum hwf]
  · obtain ⟨h4, h5⟩ := h3 b' hb'
    refine ⟨?_, varsSet_of hwf h5⟩
    rw [h4]
    refine metaEdit_wf hwf fun e he hh => ?_
    have hw := hwf.metas.metas e he
    have hmem : (e.1, (editVar key (toBytes (args.value.getD "")) args.delete e.2).1) ∈ b'.metas := by
      rw [h4]
      exact List.mem_map.2 ⟨e, he, by rw [if_pos hh]⟩
    rw [editVar_eq _ _ _ hw.sorted] at hmem ⊢
    simp only at hmem ⊢
    by_cases hhas : HasVar key e.2
    · refine metaWf_varEdit hw fun v hv => ?_
      split at hv
      · cases hv
      · next hdel =>
        cases hv
        rcases hfit with hfit | hfit
        · exact hfit
        · obtain ⟨x, hx, hxk⟩ := hhas
          have h6 := hfit _ hmem (x.1, (toBytes (args.value.getD ""), x.2.2)) (by
            unfold varEdit
            simp only [hdel, if_false, Bool.false_eq_true]
            exact List.mem_map.2 ⟨x, hx, by rw [if_pos hxk]⟩)
          exact h6
    · have hno : ∀ x ∈ e.2.vars, x.1 ≠ key := fun x hx hk => hhas ⟨x, hx, hk⟩
      have hsame : varEdit key (if args.delete then none else some (toBytes (args.value.getD ""))) e.2 = e.2 := by
        unfold varEdit
        cases args.delete with
        | true =>
          simp only [if_true]
          rw [List.filter_eq_self.2 fun x hx => by simpa using hno x hx]
        | false =>
          simp only [Bool.false_eq_true, if_false]
          have : (e.2.vars.map fun x => if x.1 = key then (x.1, (toBytes (args.value.getD ""), x.2.2)) else x) =
              e.2.vars := by
            conv => rhs; rw [← List.map_id e.2.vars]
            exact List.map_congr_left fun x hx => if_neg (hno x hx)
          rw [this]
      rw [hsame]
      exact hw

theorem setMetaVar_effect {env : Env} (hE : EnvOk env) {t : Table}
    (hQ : AllBlocks env.codec t fun b => ∀ i, Q b i ↔ AmongFirst b (args.nodes.map toBytes) i) :
    Effect env (args.nodes.map toBytes) args.area args.invert (setMetaVarEdit args key) t (VarsSet args key Q)
      (fun bp b => (b.metas.filter fun e =>
        (Selected args.area args.invert (posAt bp (e.1 % 4096)) ∧ Q b e.1) ∧ HasVar key e.2).length) 0 := by
  constructor
  · intro bp d b hbp hd hrep hwf hsel ob n hok hsave
    obtain ⟨ob', h1, h2, h3⟩ := setMetaVar_block (key := key) hbp hwf (hQ _ _ _ hd hrep) (.inr ⟨_, hok⟩)
    rw [h1] at hok
    cases hok
    exact ⟨rfl, h2, fun b' hb' => h3 b' hb' (.inr ((hsave b' hb').vars hE))⟩
  · intro bp d b hbp hd hrep hwf hno
    obtain ⟨h1, h2⟩ := editedBy_skip (args := args)
      (edit := editVar key (toBytes (args.value.getD "")) args.delete) (hQ _ _ _ hd hrep) hrep hno
    refine ⟨varsSet_of hwf h1, ?_⟩
    rw [← varsSet_sum hwf, h2]
    rfl

end

/-! ## C41 -/

/-- After `setmetavar`, every selected node that had the variable has the new value with the same
private mark (or lacks the variable, with `--delete`); everything else is as it was.  (For node numbers
from 4096 on see C40.) -/
theorem C41_setmetavar (env : Env) (args : InstArgs) (t t' : Table) (evs : List Event) (key : String)
    (hE : EnvOk env) (hg : (t.map (·.1)).Nodup) (hc : args.command = "setmetavar") (ha : AreaOk args.area)
    (hk : args.key = some key)
    (hu : args.nodes ≠ [] → AllBlocks env.codec t UniqueNames)
    (h : Completes env args t t' evs) :
    Edited env.codec args.area args.invert t t' fun bp b b' =>
      SameHead b b' ∧ SameNodes b b' ∧ b'.objects = b.objects ∧ b'.timers = b.timers ∧
      ∀ i, SavedMeta b
        (if Selected args.area args.invert (posAt bp (i % 4096)) ∧ AmongNodes b (args.nodes.map toBytes) i then
          visible ((metaOf b i).map (varEdit (toBytes key)
            (if args.delete then none else some (toBytes (args.value.getD "")))))
          else metaOf b i) (metaOf b' i) :=
  effect_edited hE hg ha h hc setMetaVar_command (by decide) (setMetaVar_eq env args hk)
    (setMetaVar_effect (Q := fun b => AmongNodes b (args.nodes.map toBytes)) hE (lists_first hu))

/-- It reports the number of variables changed. -/
theorem C41_setmetavar_count (env : Env) (args : InstArgs) (t t' : Table) (evs : List Event) (key : String)
    (bs : List (Vec3 × MapBlock)) (hE : EnvOk env) (hg : GoodTable t) (hc : args.command = "setmetavar")
    (ha : AreaOk args.area) (hk : args.key = some key)
    (hu : args.nodes ≠ [] → AllBlocks env.codec t UniqueNames)
    (h : Completes env args t t' evs) (hbs : Listed env.codec t bs) :
    Reported evs "Set metadata variable of {} nodes." (bs.map fun e => (e.2.metas.filter fun m =>
      (Selected args.area args.invert (posAt e.1 (m.1 % 4096)) ∧ AmongNodes e.2 (args.nodes.map toBytes) m.1) ∧
      HasVar (toBytes key) m.2).length).sum :=
  effect_reported hg ha h hc setMetaVar_command (by decide) (by decide) (setMetaVar_eq env args hk)
    (setMetaVar_effect (Q := fun b => AmongNodes b (args.nodes.map toBytes)) hE (lists_first hu)) hbs

/-- It completes whenever the database works and the arguments are accepted, if the value fits its
32-bit length and, where nodes are named, metadata belongs to nodes. -/
theorem C41_setmetavar_completes (env : Env) (args : InstArgs) (f : DbFile) (key : String)
    (hE : EnvOk env) (hfail : ∀ n, env.fail n = false) (hfile : mapFile env args.mapPath = some f)
    (hcols : MapColumns f.cols) (hg : GoodTable f.table) (hargs : ¬ BadArgs args)
    (hr : ¬ CommandRefuses args) (hc : args.command = "setmetavar") (ha : AreaOk args.area)
    (hk : args.key = some key) (hv : (toBytes (args.value.getD "")).length < 4294967296)
    (hin : args.inputMapPath = none) (hconf : args.doConfirmation = true → env.answer = some true)
    (hm : args.nodes ≠ [] → AllBlocks env.codec f.table MetaInside) :
    ∃ t' evs, Completes env args f.table t' evs := by
  refine edit_completes hfail hE.ord hfile ((colsOk_iff _).2 hcols) hg ha ((verifyArgs_iff args).2 hargs) hc
    setMetaVar_command (by decide) (res := setMetaVarVerify args) rfl ?_ hin hconf (setMetaVar_eq env args hk) ?_
  · intro e he
    unfold setMetaVarVerify at he
    refine hr (.inr (.inr (.inr (.inr (.inr (.inl ⟨hc, ?_⟩))))))
    split at he
    · next h1 => left; simpa using h1
    · split at he
      · next h2 => right; left; simpa [Option.isSome_iff_ne_none] using h2
      · split at he
        · next h3 => right; right; simpa using h3
        · cases he
  · intro bp d b hbp hd hrep hwf hsel
    obtain ⟨ob, h1, -, h2⟩ := setMetaVar_block (key := toBytes key)
      (Q := fun b => AmongFirst b (args.nodes.map toBytes)) hbp hwf
      (fun _ => Iff.rfl) (.inl fun hn => hm hn _ _ _ hd hrep)
    exact ⟨ob, _, h1, fun b' hb' => (h2 b' hb' (.inl hv)).1⟩

/-! ## Example -/

/-- Set variable `k` of the node at (0,0,0). -/
def setVarArgs : InstArgs :=
  { metaArgs "setmetavar" with key := some "k", value := some "new" }

/-- The hypotheses are met, and a variable is set. -/
example : ∃ t' evs, Completes (editEnv (toyMap (Toy.block 29))) setVarArgs (toyMap (Toy.block 29)) t' evs ∧
    GoodTable (toyMap (Toy.block 29)) ∧ AllBlocks (Toy.codec id) (toyMap (Toy.block 29)) UniqueNames ∧
    AllBlocks (Toy.codec id) (toyMap (Toy.block 29)) MetaInside ∧
    Reported evs "Set metadata variable of {} nodes." 1 := by
  have hw := Toy.block_wf 29 (by omega)
  have h1 := toyMap_all hw (toy_unique 29)
  have h2 := toyMap_all hw (metaInside_stored (toy_metaInside 29))
  have ha : AreaOk setVarArgs.area := by intro a h; cases h; decide
  have hv : (toBytes (setVarArgs.value.getD "")).length < 4294967296 := by decide
  obtain ⟨t', evs, h⟩ := C41_setmetavar_completes (editEnv (toyMap (Toy.block 29))) setVarArgs _ "k"
    (editEnv_ok _) (fun _ => rfl) (editEnv_file _) ⟨_, rfl⟩ (toyMap_good _)
    (by rw [← verifyArgs_iff]; decide)
    (by unfold CommandRefuses; simp [setVarArgs, metaArgs, runArgs]) rfl ha rfl hv rfl (by intro h; cases h)
    (fun _ => h2)
  have h3 := C41_setmetavar_count _ _ _ _ _ "k" _ (editEnv_ok _) (toyMap_good _) rfl ha rfl (fun _ => h1) h (toyMap_listed hw)
  rw [List.map_cons, List.map_nil, List.sum_cons] at h3
  exact ⟨t', evs, h, toyMap_good _, h1, h2, h3⟩

/-- What an edit does to variables: the private mark stays. -/
example : varEdit (ascii "k") (some (ascii "new")) ⟨[(ascii "k", (ascii "v", true)), (ascii "l", (ascii "", false))],
      ascii "EndInventory\n"⟩ = ⟨[(ascii "k", (ascii "new", true)), (ascii "l", (ascii "", false))],
      ascii "EndInventory\n"⟩ ∧
    varEdit (ascii "k") none ⟨[(ascii "k", (ascii "v", true)), (ascii "l", (ascii "", false))],
      ascii "EndInventory\n"⟩ = ⟨[(ascii "l", (ascii "", false))], ascii "EndInventory\n"⟩ := by
  decide

end MapEditr
