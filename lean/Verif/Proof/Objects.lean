import Verif.Proof.Metas
import Verif.Proof.Checked
import Verif.Props.Items
import Verif.Spec.Objects
import Verif.Spec.Runs
/-! # Lemmas: objects chosen by `deleteobjects` -/

namespace MapEditr
open Spec
set_option linter.unusedSimpArgs false
set_option linter.unusedVariables false

theorem upTo_takeWhile (s : Bytes) : UpTo (s.takeWhile fun c => !(c == 32 || c == 34)) s := by
  have hall : ∀ c ∈ s.takeWhile (fun c => !(c == 32 || c == 34)), c ≠ 32 ∧ c ≠ 34 := by
    intro c hc
    have := List.all_eq_true.1 (List.all_takeWhile (p := fun c : UInt8 => !(c == 32 || c == 34)) (l := s)) c hc
    simp only [Bool.not_eq_true', Bool.or_eq_false_iff, beq_eq_false_iff_ne] at this
    exact this
  refine ⟨fun h => (hall _ h).1 rfl, fun h => (hall _ h).2 rfl, ?_⟩
  have h1 := List.takeWhile_append_dropWhile (p := fun c : UInt8 => !(c == 32 || c == 34)) (l := s)
  cases h2 : s.dropWhile fun c => !(c == 32 || c == 34) with
  | nil => rw [h2, List.append_nil] at h1; exact .inl h1.symm
  | cons c r =>
    right
    refine ⟨c, r, ?_, by rw [h2] at h1; exact h1.symm⟩
    have h3 := List.head_dropWhile_not (fun c : UInt8 => !(c == 32 || c == 34)) (l := s) (by rw [h2]; simp)
    simp only [h2, List.head_cons] at h3
    by_cases hc : c = 32
    · exact .inl hc
    · right; simpa [hc] using h3

theorem search_firstAt {pat data : Bytes} (hp : pat ≠ []) {i : Nat} (h : searchIn pat data = some i) :
    FirstAt pat (data.take i) (data.drop (i + pat.length)) data := by
  obtain ⟨⟨t, h1⟩, h2⟩ := (searchIn_some hp).1 h
  have hle : i ≤ data.length := by
    rcases Nat.lt_or_ge data.length i with hlt | hge
    · rw [List.drop_of_length_le (by omega)] at h1
      exact absurd (List.append_eq_nil_iff.1 h1).1 hp
    · exact hge
  have h3 : data.drop (i + pat.length) = t := by
    rw [← List.drop_drop, ← h1, List.drop_left]
  refine ⟨?_, fun j hj => h2 j (by rw [List.length_take] at hj; omega)⟩
  rw [h3, List.append_assoc, h1, List.take_append_drop]

theorem itemName_get (data : Bytes) : ItemName data (getItemName data) := by
  unfold getItemName
  split
  · next hr =>
    have hr := List.isPrefixOf_iff_prefix.1 hr
    unfold getItemNameStart
    cases h1 : searchIn ITEM_NAME_PAT_NEW data with
    | some i => exact .new hr (search_firstAt (by decide) h1) (upTo_takeWhile _)
    | none =>
      have h1 := (searchIn_none (by decide)).1 h1
      simp only
      cases h2 : searchIn ITEM_NAME_PAT_OLD data with
      | some i => exact .old hr h1 (search_firstAt (by decide) h2) (upTo_takeWhile _)
      | none => exact .unknown hr h1 ((searchIn_none (by decide)).1 h2)
  · next hr => exact .plain fun h => hr (List.isPrefixOf_iff_prefix.2 h)

theorem itemName_iff {data name : Bytes} : ItemName data name ↔ getItemName data = name := by
  constructor
  · intro h
    cases h with
    | new h1 h2 h3 => exact C44_new_table h1 h2 h3
    | old h1 h2 h3 h4 => exact C44_old_table h1 h2 h3 h4
    | unknown h1 h2 h3 =>
      unfold getItemName getItemNameStart
      rw [if_pos (List.isPrefixOf_iff_prefix.2 h1)]
      rw [show ITEM_NAME_PAT_NEW = ascii "itemstring=\"" from rfl,
        show ITEM_NAME_PAT_OLD = ascii "[\"itemstring\"] = \"" from rfl,
        (searchIn_none (by decide)).2 h2, (searchIn_none (by decide)).2 h3]
    | plain h => exact C44_plain_partial h
  · rintro rfl
    exact itemName_get data

theorem entityIs_iff {o : StaticObject} {name data : Bytes} :
    EntityIs o name data ↔ LuaEntity.deserialize o = .ok ⟨name, data⟩ := by
  rw [luaEntity_iff]
  rfl

theorem np_luaEntity (o : StaticObject) : NoPanic (LuaEntity.deserialize o) := by
  unfold LuaEntity.deserialize
  exact np_ite (np_err _) (np_bind (np_rdU8 _) fun _ => np_ite (np_err _) (np_bind (np_rdStr16 _) fun _ =>
    np_bind (np_rdStr32 _) fun _ => np_pure _))

/-- The result is right, or wraps around far below the map while the position is far above it. -/
theorem roundPos_any {bd : Build} {v r : Int} (h1 : -2147483648 ≤ v) (h2 : v < 2147483648)
    (h : roundPos bd v = .ok r) : r = (v + 5000) / 10000 ∨ (r < -31000 ∧ 31000 < (v + 5000) / 10000) := by
  unfold roundPos i32 at h
  split at h
  · cases h
    exact .inl rfl
  · cases bd with
    | debug => cases h
    | release =>
      cases h
      right
      unfold wrapI32
      omega

theorem roundPos_works {bd : Build} {v : Int} (h1 : -2147483648 ≤ v) (h : bd = .debug → v ≤ 2147478647) :
    ∃ r, roundPos bd v = .ok r := by
  unfold roundPos i32
  split
  · exact ⟨_, rfl⟩
  · cases bd with
    | debug =>
      have := h rfl
      omega
    | release => exact ⟨_, rfl⟩

/-- The node an object is at. -/
theorem atNode_iff {o : StaticObject} {p : Vec3} : AtNode o p ↔
    p = ⟨(o.fPos.x + 5000) / 10000, (o.fPos.y + 5000) / 10000, (o.fPos.z + 5000) / 10000⟩ := by
  obtain ⟨x, y, z⟩ := p
  unfold AtNode
  simp only [Vec3.mk.injEq]
  omega

/-- The tests after the position has been looked at. -/
def objTail (entity : Option Bytes) (items : List Bytes) (o : StaticObject) (inArea : Bool) : Res Bool :=
  if !inArea then return false
  else
    match entity with
    | none => return true
    | some name =>
      match LuaEntity.deserialize o with
      | .error (.panic w) => .error (.panic w)
      | .error (.err _) => return false
      | .ok le =>
        if !(le.name == name) then return false
        else if !items.isEmpty && !(items.any fun n => n == getItemName le.data) then
          return false
        else return true

theorem canDelete_split (bd : Build) (area : Option Area) (invert : Bool) (entity : Option Bytes)
    (items : List Bytes) (o : StaticObject) : canDelete bd area invert entity items o = (do
      let inArea ← (match area with
        | some a => do
          let x ← roundPos bd o.fPos.x
          let y ← roundPos bd o.fPos.y
          let z ← roundPos bd o.fPos.z
          pure (a.contains ⟨x, y, z⟩ != invert)
        | none => (.ok true : Res Bool))
      objTail entity items o inArea) := by
  unfold canDelete
  cases area with
  | none => rfl
  | some a => simp only [bind_assoc]; rfl

open Classical in
theorem objTail_eq (entity : Option Bytes) (items : List Bytes) (o : StaticObject) (P : Prop) :
    objTail entity items o (decide P) = .ok (decide (P ∧ ∀ name, entity = some name →
      ∃ data, EntityIs o name data ∧ (items = [] ∨ ∃ item ∈ items, ItemName data item))) := by
  unfold objTail
  by_cases hP : P
  · rw [decide_eq_true hP]
    simp only [Bool.not_true, Bool.false_eq_true, if_false, hP, true_and]
    cases entity with
    | none =>
      rw [decide_eq_true (by intro name h; cases h)]
      rfl
    | some name =>
      simp only
      have key : (∀ n, some name = some n → ∃ data, EntityIs o n data ∧
          (items = [] ∨ ∃ item ∈ items, ItemName data item)) ↔ ∃ data, EntityIs o name data ∧
          (items = [] ∨ ∃ item ∈ items, ItemName data item) :=
        ⟨fun h => h name rfl, fun h n hn => by cases hn; exact h⟩
      cases hd : LuaEntity.deserialize o with
      | error e =>
        have hno : ¬ ∃ data, EntityIs o name data ∧ (items = [] ∨ ∃ item ∈ items, ItemName data item) := by
          rintro ⟨data, h, -⟩
          rw [entityIs_iff, hd] at h
          cases h
        cases e with
        | panic w => exact absurd hd (np_luaEntity o w)
        | err e =>
          rw [decide_eq_false (fun h => hno (key.1 h))]
          rfl
      | ok le =>
        simp only
        by_cases hname : le.name = name
        · subst hname
          simp only [beq_self_eq_true, Bool.not_true, Bool.false_eq_true, if_false]
          by_cases hi : items = [] ∨ getItemName le.data ∈ items
          · have hc : (!items.isEmpty && !(items.any fun n => n == getItemName le.data)) = false := by
              rcases hi with rfl | hi
              · rfl
              · have : (items.any fun n => n == getItemName le.data) = true := by
                  rw [List.any_eq_true]; exact ⟨_, hi, by simp⟩
                rw [this]; simp
            rw [hc, decide_eq_true (key.2 ⟨le.data, entityIs_iff.2 hd, hi.imp id fun h =>
              ⟨_, h, itemName_iff.2 rfl⟩⟩)]
            rfl
          · have hc : (!items.isEmpty && !(items.any fun n => n == getItemName le.data)) = true := by
              rw [not_or] at hi
              rw [Bool.and_eq_true]
              refine ⟨by simpa using hi.1, ?_⟩
              rw [Bool.not_eq_true', List.any_eq_false]
              intro x hx he
              exact hi.2 (by rw [← beq_iff_eq.1 he]; exact hx)
            rw [hc, decide_eq_false]
            · rfl
            · intro h
              obtain ⟨data, h1, h2⟩ := key.1 h
              rw [entityIs_iff, hd] at h1
              have hle : le.data = data := by rw [Except.ok.inj h1]
              subst hle
              refine hi (h2.imp id ?_)
              rintro ⟨item, h3, h4⟩
              rw [itemName_iff.1 h4]
              exact h3
        · have : (le.name == name) = false := beq_eq_false_iff_ne.2 hname
          rw [this, decide_eq_false]
          · rfl
          · intro h
            obtain ⟨data, h1, h2⟩ := key.1 h
            rw [entityIs_iff, hd] at h1
            cases h1
            exact hname rfl
  · rw [decide_eq_false hP, decide_eq_false fun h => hP h.1]
    rfl

/-- The tests of an object, as far as its position goes. -/
def objInArea (bd : Build) (area : Option Area) (invert : Bool) (o : StaticObject) : Res Bool :=
  match area with
  | some a => do
    let x ← roundPos bd o.fPos.x
    let y ← roundPos bd o.fPos.y
    let z ← roundPos bd o.fPos.z
    pure (a.contains ⟨x, y, z⟩ != invert)
  | none => .ok true

open Classical in
theorem objInArea_eq {bd : Build} {area : Option Area} {invert : Bool} {o : StaticObject} (hf : ObjFits o)
    (ha : ∀ a, area = some a → Within 31000 a.min ∧ Within 31000 a.max) {x : Bool}
    (h : objInArea bd area invert o = .ok x) : x = decide (∃ p, AtNode o p ∧ Selected area invert p) := by
  have key : (∃ p, AtNode o p ∧ Selected area invert p) ↔ inSel area invert
      ⟨(o.fPos.x + 5000) / 10000, (o.fPos.y + 5000) / 10000, (o.fPos.z + 5000) / 10000⟩ = true := by
    rw [inSel_iff]
    constructor
    · rintro ⟨p, h1, h2⟩; rw [atNode_iff.1 h1] at h2; exact h2
    · intro h; exact ⟨_, atNode_iff.2 rfl, h⟩
  cases area with
  | none =>
    cases h
    rw [decide_eq_true (key.2 rfl)]
  | some a =>
    obtain ⟨-, f1, f2, f3, -⟩ := hf
    obtain ⟨⟨g1, g2, g3⟩, k1, k2, k3⟩ := ha a rfl
    unfold objInArea at h
    simp only at h
    obtain ⟨x1, h1, h⟩ := bind_ok_iff.1 h
    obtain ⟨x2, h2, h⟩ := bind_ok_iff.1 h
    obtain ⟨x3, h3, h⟩ := bind_ok_iff.1 h
    cases h
    have e1 := roundPos_any f1.1 f1.2 h1
    have e2 := roundPos_any f2.1 f2.2 h2
    have e3 := roundPos_any f3.1 f3.2 h3
    rw [Bool.eq_iff_iff, decide_eq_true_iff, key]
    unfold inSel
    have : a.contains ⟨x1, x2, x3⟩ = a.contains
        ⟨(o.fPos.x + 5000) / 10000, (o.fPos.y + 5000) / 10000, (o.fPos.z + 5000) / 10000⟩ := by
      unfold Area.contains
      rw [decide_eq_decide]
      simp only
      omega
    rw [this]

theorem objInArea_works {bd : Build} {area : Option Area} {invert : Bool} {o : StaticObject} (hf : ObjFits o)
    (hn : bd = .debug → area ≠ none → o.fPos.x ≤ 2147478647 ∧ o.fPos.y ≤ 2147478647 ∧ o.fPos.z ≤ 2147478647) :
    ∃ x, objInArea bd area invert o = .ok x := by
  cases area with
  | none => exact ⟨_, rfl⟩
  | some a =>
    obtain ⟨-, f1, f2, f3, -⟩ := hf
    obtain ⟨x1, h1⟩ := roundPos_works f1.1 fun hb => (hn hb (by simp)).1
    obtain ⟨x2, h2⟩ := roundPos_works f2.1 fun hb => (hn hb (by simp)).2.1
    obtain ⟨x3, h3⟩ := roundPos_works f3.1 fun hb => (hn hb (by simp)).2.2
    unfold objInArea
    simp only
    rw [h1, h2, h3]
    exact ⟨_, rfl⟩

open Classical in
theorem canDelete_any {bd : Build} {area : Option Area} {invert : Bool} {entity : Option Bytes}
    {items : List Bytes} {o : StaticObject} (hf : ObjFits o)
    (ha : ∀ a, area = some a → Within 31000 a.min ∧ Within 31000 a.max) {x : Bool}
    (h : canDelete bd area invert entity items o = .ok x) :
    x = decide (ObjectSelected area invert entity items o) := by
  rw [canDelete_split] at h
  obtain ⟨y, h1, h2⟩ := bind_ok_iff.1 h
  rw [objInArea_eq hf ha h1, objTail_eq] at h2
  cases h2
  rw [decide_eq_decide]
  rfl

open Classical in
theorem canDelete_works {bd : Build} {area : Option Area} {invert : Bool} {entity : Option Bytes}
    {items : List Bytes} {o : StaticObject} (hf : ObjFits o)
    (ha : ∀ a, area = some a → Within 31000 a.min ∧ Within 31000 a.max)
    (hn : bd = .debug → area ≠ none → o.fPos.x ≤ 2147478647 ∧ o.fPos.y ≤ 2147478647 ∧ o.fPos.z ≤ 2147478647) :
    canDelete bd area invert entity items o = .ok (decide (ObjectSelected area invert entity items o)) := by
  obtain ⟨x, h⟩ := objInArea_works (invert := invert) hf hn
  have : ∃ y, canDelete bd area invert entity items o = .ok y := by
    have e : canDelete bd area invert entity items o = (objInArea bd area invert o >>= objTail entity items o) :=
      canDelete_split ..
    rw [e, h, res_bind_ok, objInArea_eq hf ha h, objTail_eq]
    exact ⟨_, rfl⟩
  obtain ⟨y, hy⟩ := this
  rw [hy, canDelete_any hf ha hy]

end MapEditr
