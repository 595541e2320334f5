import Verif.Spec.Format
/-!
# Minetest's inventory text

An inventory is a sequence of lines, each ended by a newline, closed by the line `EndInventory`
(Minetest `Inventory::serialize`).
-/

namespace MapEditr.Spec

/-- The word `EndInventory`. -/
def endWord : Bytes := "EndInventory".toList.map fun ch => UInt8.ofNat ch.toNat

/-- The text of an inventory with these lines. -/
def invText (lines : List Bytes) : Bytes := lines.flatMap (fun l => l ++ [10]) ++ endInv

/-- Lines contain no newline. -/
def Lines (lines : List Bytes) : Prop := ∀ l ∈ lines, (10 : UInt8) ∉ l

/-- What follows the item name in a line: nothing, or a space and more. -/
def Tail (tail : Bytes) : Prop := tail = [] ∨ ∃ r, tail = 32 :: r

/-- An item line `Item <item>...` with `tail` after the item name. -/
def ItemLine (item tail line : Bytes) : Prop :=
  Tail tail ∧ line = ascii "Item " ++ item ++ tail

/-- The shortest way to write count and wear, from a tail `[ count [ wear [ metadata]]]`: wear is
left out if `0`, and then the count if `1`. -/
inductive ShortTail : Bytes → Bytes → Prop
  | none : ShortTail [] []
  | count (c : Bytes) : 32 ∉ c → ShortTail (32 :: c) (if c = ascii "1" then [] else 32 :: c)
  | wear (c w rest : Bytes) : 32 ∉ c → 32 ∉ w → Tail rest →
      ShortTail (32 :: c ++ 32 :: w ++ rest)
        (if w = ascii "0" then (if c = ascii "1" then [] else 32 :: c) else 32 :: c ++ 32 :: w)

/-- The line an item line becomes: `Empty` if there is no new item; otherwise the new item with the
old tail, or with `delMeta` only count and wear. -/
def NewLine (newItem : Bytes) (delMeta : Bool) (tail line' : Bytes) : Prop :=
  (newItem = [] ∧ line' = ascii "Empty") ∨
  (newItem ≠ [] ∧ delMeta = false ∧ line' = ascii "Item " ++ newItem ++ tail) ∨
  (newItem ≠ [] ∧ delMeta = true ∧ ∃ s, ShortTail tail s ∧ line' = ascii "Item " ++ newItem ++ s)

/-- Two lists of lines, edited line by line; `n` counts the item lines. -/
inductive LinesEdit (item newItem : Bytes) (delMeta : Bool) : List Bytes → List Bytes → Nat → Prop
  | nil : LinesEdit item newItem delMeta [] [] 0
  | item (tail l l' : Bytes) : ItemLine item tail l → NewLine newItem delMeta tail l' →
      LinesEdit item newItem delMeta ls ls' n →
      LinesEdit item newItem delMeta (l :: ls) (l' :: ls') (n + 1)
  | other (l : Bytes) : (¬ ∃ tail, ItemLine item tail l) → LinesEdit item newItem delMeta ls ls' n →
      LinesEdit item newItem delMeta (l :: ls) (l :: ls') n

/-- Lines as text. -/
def linesText (lines : List Bytes) : Bytes := lines.flatMap fun l => l ++ [10]

/-! ## Item entities -/

/-- `data` holds `pat`, for the first time, after `pre` and before `rest`. -/
def FirstAt (pat pre rest data : Bytes) : Prop :=
  data = pre ++ pat ++ rest ∧ ∀ i, i < pre.length → ¬ pat <+: data.drop i

/-- `name` is the part of `s` up to the first space or quote. -/
def UpTo (name s : Bytes) : Prop :=
  32 ∉ name ∧ 34 ∉ name ∧ (s = name ∨ ∃ c r, (c = 32 ∨ c = 34) ∧ s = name ++ c :: r)

end MapEditr.Spec
