import Verif.Proof.Objects
import Verif.Proof.ToyMap
import Verif.Proof.Effect
/-!
# Property C43: `deleteobjects`
-/

namespace MapEditr
open Spec

theorem deleteObjects_command : command? "deleteobjects" = some ⟨deleteObjects,
    fun a => .ok (deleteObjectsVerify a), [.object, .items, .area false, .invert]⟩ := rfl

/-- The change of one block. -/
def deleteObjectsEdit (bd : Build) (args : InstArgs) (_ : Int) (b : MapBlock) : Res (Option MapBlock × Nat) :=
  (removeRev (canDelete bd args.area args.invert (entityFor args) (itemsFor args)) b.objects).map fun r =>
    if r.2 > 0 then (some { b with objects := r.1 }, r.2) else (none, 0)

theorem deleteObjects_eq (env : Env) (args : InstArgs) :
    deleteObjects env args = editCommand env false (toSlice (entityFor args)) args.area args.invert
      (deleteObjectsEdit env.build args) (· + ·) 0 (Msg.count "Deleted {} objects.") := by
  have he : (if args.items.isSome then some ITEM_ENT_NAME else args.object.map toBytes) = entityFor args := by
    unfold entityFor ITEM_ENT_NAME
    cases args.items <;> rfl
  unfold deleteObjects editCommand
  rw [he]
  have : deleteObjectsStep env args (entityFor args) (itemsFor args) =
      editStep env false (deleteObjectsEdit env.build args) (· + ·) := by
    funext count key
    refine step_eq fun b => ?_
    unfold deleteObjectsEdit
    cases removeRev (canDelete env.build args.area args.invert (entityFor args) (itemsFor args)) b.objects with
    | error e => rfl
    | ok r =>
      simp only [Except.map, lift_ok, pure_bind]
      split
      · simp only [bind_assoc, writeOpt, incIf, pure_bind, Bool.false_eq_true, if_false]
      · rfl
  rw [← this]
  rfl

/-- What `deleteobjects` does to a block. -/
def ObjectsDeleted (args : InstArgs) (bp : Vec3) (b b' : MapBlock) : Prop :=
  SameHead b b' ∧ SameNodes b b' ∧ SameMeta b b' ∧ b'.timers = b.timers ∧
  Without (ObjectGoes args bp) b.objects b'.objects

/-- Blocks left out by the query hold no such entity. -/
theorem skipped_entity {c : Codec} {d : Bytes} {b : MapBlock} (hrep : Represents c d b)
    {entity : Option Bytes} (h : nameKeeps ((toSlice entity).map string16) d = false)
    {o : StaticObject} (ho : o ∈ b.objects) :
    ¬ ∀ name, entity = some name → ∃ data, EntityIs o name data := by
  intro hall
  cases entity with
  | none => rw [show (toSlice none).map string16 = [] from rfl, nameKeeps_nil] at h; cases h
  | some name =>
    obtain ⟨data, -, -, -, junk, he⟩ := hall name rfl
    by_cases hv : b.version ≤ 28
    · have : str16 name <:+: d := by
        refine List.IsInfix.trans ⟨[1], str32 data ++ junk, ?_⟩ (object_infix hrep hv ho)
        rw [he]; simp
      have h : nameKeeps ([name].map string16) d = false := h
      rw [nameKeeps_of_infix (List.mem_singleton.2 rfl) (by rw [string16_eq]; exact this)] at h
      cases h
    · rw [nameKeeps_29 hrep hv] at h
      cases h

open Classical in
theorem deleteObjects_edit {bd : Build} {args : InstArgs} {bp : Vec3} {b : MapBlock} {k : Int} (hwf : Wf b)
    (hargs : ¬ BadArgs args) (hsel : ∃ p, InBlock bp p ∧ Selected args.area args.invert p)
    (hn : (∃ r, deleteObjectsEdit bd args k b = .ok r) ∨ (bd = .debug → args.area ≠ none → ObjectsNear b)) :
    ∃ ob, deleteObjectsEdit bd args k b = .ok (ob, (b.objects.filter fun o => ObjectGoes args bp o).length) ∧
      (ob = none → ∀ o ∈ b.objects, ¬ ObjectGoes args bp o) ∧
      ∀ b', ob = some b' → b' = { b with objects := b.objects.filter fun o => ¬ ObjectGoes args bp o } := by
  have ha : ∀ a, args.area = some a → Within 31000 a.min ∧ Within 31000 a.max := by
    intro a h
    refine Classical.byContradiction fun hc => hargs (.inr (.inl ⟨a, h, hc⟩))
  have hdel := removeRev_eq (del := canDelete bd args.area args.invert (entityFor args) (itemsFor args))
    (P := ObjectGoes args bp) (l := b.objects) (by
      intro o ho
      have hg : decide (ObjectSelected args.area args.invert (entityFor args) (itemsFor args) o)
          = decide (ObjectGoes args bp o) := by
        rw [decide_eq_decide]
        exact ⟨fun h => ⟨hsel, h⟩, fun h => h.2⟩
      rcases hn with ⟨r, hr⟩ | hn
      · unfold deleteObjectsEdit at hr
        obtain ⟨x, hx⟩ : ∃ x, removeRev (canDelete bd args.area args.invert (entityFor args) (itemsFor args))
            b.objects = .ok x := by
          cases h : removeRev (canDelete bd args.area args.invert (entityFor args) (itemsFor args)) b.objects with
          | error e => rw [h] at hr; cases hr
          | ok x => exact ⟨x, rfl⟩
        obtain ⟨y, hy⟩ := removeRev_ok hx o ho
        rw [hy, canDelete_any (hwf.objs.2 o ho) ha hy, hg]
      · rw [canDelete_works (hwf.objs.2 o ho) ha fun hb hne => hn hb hne o ho, hg])
  unfold deleteObjectsEdit
  rw [hdel]
  simp only [Except.map]
  split
  · exact ⟨_, rfl, nofun, fun b' hb' => by cases hb'; rfl⟩
  · next hne =>
    have hz : (b.objects.filter fun o => decide (ObjectGoes args bp o)).length = 0 := by omega
    rw [hz]
    refine ⟨none, rfl, fun _ o ho hc => ?_, nofun⟩
    rw [List.length_eq_zero_iff, List.filter_eq_nil_iff] at hz
    exact hz o ho (decide_eq_true hc)

open Classical in
theorem deleteObjects_effect (env : Env) (args : InstArgs) (t : Table) (hargs : ¬ BadArgs args) :
    Effect env (toSlice (entityFor args)) args.area args.invert (deleteObjectsEdit env.build args) t
      (ObjectsDeleted args) (fun bp b => (b.objects.filter fun o => ObjectGoes args bp o).length) 0 := by
  have hsame : ∀ (bp : Vec3) (b : MapBlock), (∀ o ∈ b.objects, ¬ ObjectGoes args bp o) →
      ObjectsDeleted args bp b b ∧ (b.objects.filter fun o => ObjectGoes args bp o).length = 0 := by
    intro bp b h
    refine ⟨⟨⟨rfl, rfl, rfl, rfl⟩, ⟨rfl, rfl⟩, sameMeta_refl b, rfl, without_self h⟩, ?_⟩
    rw [filter_none h]
    rfl
  constructor
  · intro bp d b hbp hd hrep hwf hsel ob n hedit _
    obtain ⟨ob', h1, h2, h3⟩ := deleteObjects_edit hwf hargs hsel (.inl ⟨_, hedit⟩)
    rw [h1] at hedit
    cases hedit
    refine ⟨rfl, fun h => (hsame bp b (h2 h)).1, fun b' hb' => ?_⟩
    cases h3 b' hb'
    have hsub : (b.objects.filter fun o => ¬ ObjectGoes args bp o).Sublist b.objects := List.filter_sublist
    refine ⟨⟨hwf.ver, hwf.flags, hwf.light, hwf.light_old, hwf.widths, hwf.nodes, hwf.metas,
      ⟨Nat.lt_of_le_of_lt hsub.length_le hwf.objs.1, fun o ho => hwf.objs.2 o (hsub.subset ho)⟩, hwf.time,
      hwf.nimap, hwf.timers⟩, ⟨rfl, rfl, rfl, rfl⟩, ⟨rfl, rfl⟩, sameMeta_stored hwf.metas.sorted rfl rfl, rfl, ?_⟩
    exact without_filter _ _
  · intro bp d b hbp hd hrep hwf hno
    refine hsame bp b ?_
    rintro o ho ⟨⟨p, h1, h2⟩, -, h3⟩
    rcases hno with h | h
    · exact h p h1 h2
    · refine skipped_entity hrep h ho fun name hname => ?_
      obtain ⟨data, h4, -⟩ := h3 name hname
      exact ⟨data, h4⟩

/-! ## C43 -/

/-- After `deleteobjects`, a block that has selected nodes holds the objects not selected, in the
same order (in the other blocks nothing is deleted); everything else is as it was.  Objects that are
no entity of the given name are kept: they are not selected. -/
theorem C43_deleteobjects (env : Env) (args : InstArgs) (t t' : Table) (evs : List Event)
    (hE : EnvOk env) (hg : (t.map (·.1)).Nodup) (hc : args.command = "deleteobjects") (ha : AreaOk args.area)
    (h : Completes env args t t' evs) :
    Edited env.codec args.area args.invert t t' fun bp b b' =>
      SameHead b b' ∧ SameNodes b b' ∧ SameMeta b b' ∧ b'.timers = b.timers ∧
      Without (ObjectGoes args bp) b.objects b'.objects :=
  effect_edited hE hg ha h hc deleteObjects_command (by decide) (deleteObjects_eq env args)
    (deleteObjects_effect env args t (completes_args h (by rw [hc]; decide)))

open Classical in
/-- It reports the number of deleted objects. -/
theorem C43_deleteobjects_count (env : Env) (args : InstArgs) (t t' : Table) (evs : List Event)
    (bs : List (Vec3 × MapBlock)) (hg : GoodTable t) (hc : args.command = "deleteobjects")
    (ha : AreaOk args.area) (h : Completes env args t t' evs) (hbs : Listed env.codec t bs) :
    Reported evs "Deleted {} objects."
      (bs.map fun e => (e.2.objects.filter fun o => ObjectGoes args e.1 o).length).sum :=
  effect_reported hg ha h hc deleteObjects_command (by decide) (by decide) (deleteObjects_eq env args)
    (deleteObjects_effect env args t (completes_args h (by rw [hc]; decide))) hbs

open Classical in
/-- It completes whenever the database works and the arguments are accepted; in a debug build object
positions near the greatest 32-bit number make it panic if there is an area. -/
theorem C43_deleteobjects_completes (env : Env) (args : InstArgs) (f : DbFile)
    (hE : EnvOk env) (hfail : ∀ n, env.fail n = false) (hfile : mapFile env args.mapPath = some f)
    (hcols : MapColumns f.cols) (hg : GoodTable f.table) (hargs : ¬ BadArgs args)
    (hc : args.command = "deleteobjects") (ha : AreaOk args.area)
    (hone : args.object = none ∨ args.items = none)
    (hin : args.inputMapPath = none) (hconf : args.doConfirmation = true → env.answer = some true)
    (hn : env.build = .debug → args.area ≠ none → AllBlocks env.codec f.table ObjectsNear) :
    ∃ t' evs, Completes env args f.table t' evs := by
  refine edit_completes hfail hE.ord hfile ((colsOk_iff _).2 hcols) hg ha ((verifyArgs_iff args).2 hargs) hc
    deleteObjects_command (by decide) (res := .ok) ?_ (by simp) hin hconf (deleteObjects_eq env args) ?_
  · show Except.ok (deleteObjectsVerify args) = _
    unfold deleteObjectsVerify
    rcases hone with h | h <;> rw [h] <;> simp
  · intro bp d b hbp hd hrep hwf hsel
    obtain ⟨ob, h1, -, h3⟩ := deleteObjects_edit (bd := env.build) hwf hargs hsel
      (.inr fun hb hne => hn hb hne _ _ _ hd hrep)
    refine ⟨ob, _, h1, fun b' hb' => ?_⟩
    cases h3 b' hb'
    have hsub : (b.objects.filter fun o => ¬ ObjectGoes args bp o).Sublist b.objects := List.filter_sublist
    exact ⟨hwf.ver, hwf.flags, hwf.light, hwf.light_old, hwf.widths, hwf.nodes, hwf.metas,
      ⟨Nat.lt_of_le_of_lt hsub.length_le hwf.objs.1, fun o ho => hwf.objs.2 o (hsub.subset ho)⟩, hwf.time,
      hwf.nimap, hwf.timers⟩

theorem toy_objectsNear (v : Nat) : ObjectsNear (stored (Toy.block v)) := by
  intro o ho
  have : o ∈ [(⟨7, ⟨-10, 20, 30⟩, ascii "x"⟩ : StaticObject)] := ho
  rw [List.mem_singleton] at this
  subst this
  decide

/-- Delete all objects in an area. -/
def objectArgs : InstArgs :=
  { runArgs false "deleteobjects" "map" none with
    area := some ⟨⟨0, 0, 0⟩, ⟨0, 0, 0⟩⟩ }

/-- The hypotheses are met, and an object is deleted. -/
example : ∃ t' evs, Completes (editEnv (toyMap (Toy.block 29))) objectArgs (toyMap (Toy.block 29)) t' evs ∧
    GoodTable (toyMap (Toy.block 29)) ∧ AllBlocks (Toy.codec id) (toyMap (Toy.block 29)) ObjectsNear ∧
    Reported evs "Deleted {} objects." 1 := by
  have hw := Toy.block_wf 29 (by omega)
  have h2 := toyMap_all hw (toy_objectsNear 29)
  have ha : AreaOk objectArgs.area := by intro a h; cases h; decide
  obtain ⟨t', evs, h⟩ := C43_deleteobjects_completes (editEnv (toyMap (Toy.block 29))) objectArgs _
    (editEnv_ok _) (fun _ => rfl) (editEnv_file _) ⟨_, rfl⟩ (toyMap_good _)
    (by rw [← verifyArgs_iff]; decide) rfl ha (.inl rfl) rfl (by intro h; cases h) (fun _ _ => h2)
  have h3 := C43_deleteobjects_count _ _ _ _ _ _ (toyMap_good _) rfl ha h (toyMap_listed hw)
  rw [List.map_cons, List.map_nil, List.sum_cons] at h3
  have h4 : ObjectGoes objectArgs ⟨0, 0, 0⟩ ⟨7, ⟨-10, 20, 30⟩, ascii "x"⟩ := by
    refine ⟨⟨⟨0, 0, 0⟩, by unfold InBlock; decide, by decide⟩, ⟨⟨0, 0, 0⟩, by unfold AtNode; decide, by decide⟩, ?_⟩
    intro name hname
    cases hname
  have h5 : (stored (Toy.block 29)).objects = [⟨7, ⟨-10, 20, 30⟩, ascii "x"⟩] := rfl
  simp only [h5, List.filter_cons, h4, decide_true, if_true, List.filter_nil, List.length_singleton, List.sum_nil,
    Nat.add_zero] at h3
  exact ⟨t', evs, h, toyMap_good _, h2, h3⟩

/-- A dropped item is recognised by its item name. -/
example : ObjectSelected none false (some (ascii "__builtin:item")) [ascii "default:stone"]
    ⟨7, ⟨0, 0, 0⟩, 1 :: (str16 (ascii "__builtin:item") ++
      (str32 (ascii "return {itemstring=\"default:stone 5\", age=3}") ++ [0]))⟩ := by
  refine ⟨⟨⟨0, 0, 0⟩, by unfold AtNode; decide, trivial⟩, ?_⟩
  rintro name hname
  cases hname
  refine ⟨ascii "return {itemstring=\"default:stone 5\", age=3}", ⟨rfl, by decide, by decide, [0], rfl⟩, .inr
    ⟨_, List.mem_singleton.2 rfl, ?_⟩⟩
  rw [itemName_iff]
  decide

end MapEditr
