import Verif.Spec.Map
import Verif.Spec.Inventory
import Verif.Spec.Runs
/-!
# Edits of node metadata
-/

namespace MapEditr.Spec
open MapEditr

/-- Metadata holding nothing counts as absent. -/
def visible (m : Option NodeMeta) : Option NodeMeta := m.filter fun m => decide (¬ MetaVoid m)

/-- The variable `key` removed (`none`) or given another value, if it is there; it keeps its private
mark, and everything else stays as it is. -/
def varEdit (key : Bytes) (value : Option Bytes) (m : NodeMeta) : NodeMeta :=
  { m with vars := match value with
    | none => m.vars.filter fun e => e.1 ≠ key
    | some v => m.vars.map fun e => if e.1 = key then (e.1, (v, e.2.2)) else e }

/-- The metadata has the variable. -/
def HasVar (key : Bytes) (m : NodeMeta) : Prop := ∃ e ∈ m.vars, e.1 = key

instance (key : Bytes) (m : NodeMeta) : Decidable (HasVar key m) := by unfold HasVar; infer_instance

/-- An inventory as Minetest writes it: lines, and `EndInventory`; no line is empty. -/
def InvLines (inv : Bytes) (lines : List Bytes) : Prop :=
  inv = invText lines ∧ Lines lines ∧ ∀ l ∈ lines, l ≠ []

/-- The inventory with the stacks of `item` replaced, line by line; `n` counts them.  The rest of the
metadata stays as it is. -/
def InvEdit (item newItem : Bytes) (delMeta : Bool) (m m' : NodeMeta) (n : Nat) : Prop :=
  m'.vars = m.vars ∧ ∃ lines lines', InvLines m.inv lines ∧ InvLines m'.inv lines' ∧
    LinesEdit item newItem delMeta lines lines' n

/-- The new item name: that given, nothing if items are to be deleted, or else the old one. -/
def newItemOf (args : InstArgs) (item : Bytes) : Bytes :=
  (args.newItem.map toBytes).getD (if args.delete then [] else item)

/-- All inventories are lines, and no stack of `item` contains the word `EndInventory`. -/
def InvsGood (item : Bytes) (b : MapBlock) : Prop :=
  ∀ e ∈ b.metas, ∃ lines, InvLines e.2.inv lines ∧
    ∀ l ∈ lines, ∀ tail, ItemLine item tail l → ¬ endWord <:+: tail

/-- The line is a stack of `item`. -/
def IsStack (item line : Bytes) : Prop :=
  line = ascii "Item " ++ item ∨ (ascii "Item " ++ item ++ [32]) <+: line

instance (item line : Bytes) : Decidable (IsStack item line) := by unfold IsStack; infer_instance

/-- `cnt` counts the stacks of `item` in an inventory. -/
def CountsStacks (item : Bytes) (cnt : Bytes → Nat) : Prop :=
  ∀ inv lines, InvLines inv lines → cnt inv = (lines.filter fun l => IsStack item l).length

/-- The run reported exactly these two numbers. -/
def Reported2 (evs : List Event) (what : String) (n m : Nat) : Prop :=
  .log .info (.count2 what n m) ∈ evs ∧
  ∀ n' m', .log .info (.count2 what n' m') ∈ evs → n' = n ∧ m' = m

end MapEditr.Spec
