import Verif.Model.Instance
import Verif.Spec.Geometry
/-!
# What is on disk, which arguments are refused, use of the database layer
-/

namespace MapEditr.Spec
open MapEditr

/-- State of the main map's connection after some statements: those that succeeded take effect. -/
def replay (t : Table) (tr : List Did) : Conn :=
  tr.foldl (fun c d => if d.db = .main ∧ d.ok = true then c.step d.stmt else c) ⟨t, t, false, []⟩

/-- What the main map file holds if the program stops after these statements: what was committed. -/
def onDisk (t : Table) (tr : List Did) : Table := (replay t tr).durable

/-- A statement that can change a map file. -/
def Changes (s : Sql) : Prop :=
  (∃ k d, s = .put k d) ∨ (∃ k, s = .del k) ∨ s = .commit ∨ s = .vacuum

/-- The columns of a Minetest map. -/
def MapColumns (cols : List Col) : Prop :=
  ∃ rest, cols = ⟨"pos", "INT", 1⟩ :: ⟨"data", "BLOB", 0⟩ :: rest

/-! ## Arguments -/

/-- All coordinates within `±n`. -/
def Within (n : Int) (p : Vec3) : Prop := (-n ≤ p.x ∧ p.x ≤ n) ∧ (-n ≤ p.y ∧ p.y ≤ n) ∧ (-n ≤ p.z ∧ p.z ≤ n)

/-- Lower-case letters, digits and underscores. -/
def ModChars (s : List Char) : Prop := ∀ c ∈ s, c ∈ "abcdefghijklmnopqrstuvwxyz0123456789_".toList
/-- Letters, digits and underscores. -/
def ItemChars (s : List Char) : Prop := ∀ c ∈ s,
  c ∈ "abcdefghijklmnopqrstuvwxyzABCDEFGHIJKLMNOPQRSTUVWXYZ0123456789_".toList

/-- The form of names: `air`, `ignore`, or `mod:item`. -/
def NameForm (name : String) : Prop :=
  name = "air" ∨ name = "ignore" ∨ ∃ m i, name.toList = m ++ ':' :: i ∧ ModChars m ∧ ItemChars i

/-- All names given. -/
def allNames (args : InstArgs) : List String :=
  args.node.toList ++ args.nodes ++ args.newNode.toList ++ args.object.toList ++ args.item.toList ++
  args.items.getD [] ++ args.newItem.toList

/-- Arguments no command accepts. -/
def BadArgs (args : InstArgs) : Prop :=
  (args.invert = true ∧ args.area = none) ∨
  (∃ a, args.area = some a ∧ ¬ (Within 31000 a.min ∧ Within 31000 a.max)) ∨
  (∃ o, args.offset = some o ∧ ¬ Within 62000 o) ∨
  (∃ n ∈ allNames args, ¬ NameForm n)

/-- No node of the box, moved by `o`, is in the map. -/
def MovedOut (a : Area) (o : Vec3) : Prop :=
  ∀ p, InBox a.min a.max p → ¬ Within 31000 ⟨p.x + o.x, p.y + o.y, p.z + o.z⟩

/-- Arguments the command itself does not accept. -/
def CommandRefuses (args : InstArgs) : Prop :=
  (args.command = "clone" ∧ ∃ a o, args.area = some a ∧ args.offset = some o ∧ MovedOut a o) ∨
  (args.command = "deleteobjects" ∧ args.object ≠ none ∧ args.items ≠ none) ∨
  (args.command = "replacenodes" ∧ args.node = args.newNode) ∨
  (args.command = "replaceininv" ∧
    ((args.newItem = none ∧ args.delete = false ∧ args.deleteMeta = false) ∨
     (args.newItem ≠ none ∧ args.delete = true) ∨
     (args.item = args.newItem ∧ args.deleteMeta = false))) ∨
  (args.command = "overlay" ∧
    ((args.invert = true ∧ ∃ o, args.offset = some o ∧ o ≠ ⟨0, 0, 0⟩) ∨
     MovedOut (args.area.getD ⟨⟨-31000, -31000, -31000⟩, ⟨31000, 31000, 31000⟩⟩)
       (args.offset.getD ⟨0, 0, 0⟩))) ∨
  (args.command = "setmetavar" ∧
    ((args.value = none ∧ args.delete = false) ∨ (args.value ≠ none ∧ args.delete = true) ∨
     args.value = some "")) ∨
  (args.command = "setparam2" ∧ args.area = none ∧ args.node = none)

/-- A position as the user writes it. -/
def posText (p : Vec3) : String := "(" ++ toString p.x ++ ", " ++ toString p.y ++ ", " ++ toString p.z ++ ")"

/-- Names that must be valid, with what to say otherwise. -/
def nameReasons (what : String) (names : List String) : List (Prop × String) :=
  names.map fun n => (¬ NameForm n, "Invalid " ++ what ++ " name: " ++ n)

/-- Everything that can be wrong with the arguments of any command, with what to say about it, in order
of importance. -/
def generalReasons (args : InstArgs) : List (Prop × String) :=
  [(args.invert = true ∧ args.area = none, "Cannot invert without a specified area.")] ++
  args.area.toList.flatMap (fun a => [a.min, a.max].map fun p =>
    (¬ Within 31000 p, "Area corner is outside map bounds: " ++ posText p ++ ".")) ++
  args.offset.toList.map (fun o =>
    (¬ Within 62000 o, "Offset cannot be larger than 62000 nodes in any direction.")) ++
  nameReasons "node" args.node.toList ++ nameReasons "node" args.nodes ++ nameReasons "node" args.newNode.toList ++
  nameReasons "object" args.object.toList ++
  nameReasons "item" args.item.toList ++ nameReasons "item" (args.items.getD []) ++
  nameReasons "item" args.newItem.toList

/-- The same for what depends on the command. -/
def commandReasons (args : InstArgs) : List (Prop × String) :=
  [(args.command = "clone" ∧ ∃ a o, args.area = some a ∧ args.offset = some o ∧ MovedOut a o,
      "Destination area is outside map bounds."),
   (args.command = "deleteobjects" ∧ args.object ≠ none ∧ args.items ≠ none,
      "Cannot use both --obj and --items."),
   (args.command = "replacenodes" ∧ args.node = args.newNode, "node and new_node must be different."),
   (args.command = "replaceininv" ∧ args.newItem = none ∧ args.delete = false ∧ args.deleteMeta = false,
      "new_item is required unless --delete or --deletemeta is used."),
   (args.command = "replaceininv" ∧ args.newItem ≠ none ∧ args.delete = true,
      "Cannot delete items if new_item is specified."),
   (args.command = "replaceininv" ∧ args.item = args.newItem ∧ args.deleteMeta = false,
      "item and new_item cannot be the same."),
   (args.command = "overlay" ∧ args.invert = true ∧ ∃ o, args.offset = some o ∧ o ≠ ⟨0, 0, 0⟩,
      "Inverted selections cannot be offset."),
   (args.command = "overlay" ∧ MovedOut (args.area.getD ⟨⟨-31000, -31000, -31000⟩, ⟨31000, 31000, 31000⟩⟩)
        (args.offset.getD ⟨0, 0, 0⟩), "Destination area is outside map bounds."),
   (args.command = "setmetavar" ∧ args.value = none ∧ args.delete = false,
      "value is required unless deleting the variable."),
   (args.command = "setmetavar" ∧ args.value ≠ none ∧ args.delete = true,
      "value cannot be used when deleting the variable."),
   (args.command = "setmetavar" ∧ args.value = some "", "Metadata value cannot be empty."),
   (args.command = "setparam2" ∧ args.area = none ∧ args.node = none, "An area and/or node is required.")]

/-- `t` is what to say about the first thing that is wrong. -/
def FirstOf (l : List (Prop × String)) (t : String) : Prop :=
  ∃ pre c post, l = pre ++ (c, t) :: post ∧ c ∧ ∀ x ∈ pre, ¬ x.1

/-- The commands. -/
def commandNames : List String :=
  ["clone", "deleteblocks", "deletemeta", "deleteobjects", "deletetimers", "fill", "replacenodes",
   "replaceininv", "overlay", "setmetavar", "setparam2", "vacuum"]

/-- What the command-line parser ensures. -/
structure Parsed (args : InstArgs) : Prop where
  known : args.command ∈ commandNames
  area : ∀ a, args.area = some a → a.isValid = true
  clone : args.command = "clone" → args.area ≠ none ∧ args.offset ≠ none

/-! ## The database layer -/

/-- Calls of `MapDatabase`. -/
inductive Call
  | rows
  | get (k : Int)
  | set (k : Int) (d : Bytes)
  | delete (k : Int)
  | commit
  | vacuum

/-- Make a call on the main map, ignoring its answer. -/
def call (env : Env) : Call → Run Unit
  | .rows => do let _ ← iterRows env .main
  | .get k => do let _ ← getBlock env .main k
  | .set k d => do let _ ← setBlock env .main k d
  | .delete k => do let _ ← deleteBlock env .main k
  | .commit => do let _ ← commitIfNeeded env .main
  | .vacuum => do let _ ← dbVacuum env .main

/-- The writes among the calls, applied to a table. -/
def writes (t : Table) : List Call → Table
  | [] => t
  | .set k d :: cs => writes (t.put k d) cs
  | .delete k :: cs => writes (t.del k) cs
  | _ :: cs => writes t cs

end MapEditr.Spec
