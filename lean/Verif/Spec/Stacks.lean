import Verif.Spec.Metas
/-!
# Replacing items in an inventory, as a function

`LinesEdit` says line by line what an inventory becomes; here the same is computed.
-/

namespace MapEditr.Spec
open MapEditr

/-- The lines of a text.  (What follows the last newline is left out.) -/
def textLines : Bytes → List Bytes
  | [] => []
  | c :: s =>
    if c = 10 then [] :: textLines s
    else match textLines s with
      | [] => []
      | l :: ls => (c :: l) :: ls

/-- Count and wear in their shortest form, from what follows the name of an item.  There is a space first. -/
def shortTail : Bytes → Bytes
  | [] => []
  | _ :: r =>
    let count := r.takeWhile (· ≠ 32)
    let more := r.dropWhile (· ≠ 32)
    let wear := (more.drop 1).takeWhile (· ≠ 32)
    if more = [] ∨ wear = ascii "0" then (if count = ascii "1" then [] else 32 :: count)
    else 32 :: count ++ 32 :: wear

/-- A line of an inventory after stacks of `item` have been replaced. -/
def lineEdit (item newItem : Bytes) (delMeta : Bool) (line : Bytes) : Bytes :=
  if IsStack item line then
    let tail := line.drop (5 + item.length)
    if newItem = [] then ascii "Empty"
    else ascii "Item " ++ newItem ++ (if delMeta then shortTail tail else tail)
  else line

/-- Metadata after stacks of `item` have been replaced in the inventory. -/
def stacksEdit (item newItem : Bytes) (delMeta : Bool) (m : NodeMeta) : NodeMeta :=
  { m with inv := linesText ((textLines m.inv).map (lineEdit item newItem delMeta)) }

/-- An inventory as Minetest writes it, in which no stack contains the word `EndInventory`. -/
def PlainInv (inv : Bytes) : Prop :=
  ∃ lines, InvLines inv lines ∧ ∀ l ∈ lines, ascii "Item " <+: l → ¬ endWord <:+: l

end MapEditr.Spec
