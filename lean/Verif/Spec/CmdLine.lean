import Verif.Model.CmdLine
/-!
# Command lines

What `clap` guarantees about the command lines it accepts, and what should become of the arguments.
-/

namespace MapEditr.Spec
open MapEditr

/-- As many values as there should be. -/
def CountOk : Values → List String → Prop
  | .flag, vs => vs = []
  | .exactly n, vs => vs.length = n
  | .atLeast n, vs => n ≤ vs.length

instance (v : Values) (vs : List String) : Decidable (CountOk v vs) := by
  unfold CountOk; split <;> exact inferInstance

/-- The contract of `clap`: a command line for a subcommand with the arguments `ts` that is accepted
has nothing but defined arguments (and `--yes`), each at most once and with the right number of values;
everything required is there, and everything that something else requires. -/
structure Accepted (ts : List ArgType) (m : Matches) : Prop where
  once : (m.map (·.1)).Nodup
  known : ∀ e ∈ m, e.1 = "yes" ∨ ∃ d ∈ ts.flatMap argDefs, d.name = e.1 ∧ CountOk d.values e.2
  required : ∀ d ∈ ts.flatMap argDefs, d.required = true → ∃ e ∈ m, e.1 = d.name
  needs : ∀ d ∈ ts.flatMap argDefs, (∃ e ∈ m, e.1 = d.name) → ∀ r ∈ d.needs, ∃ e ∈ m, e.1 = r

/-- A field that holds the one value of an argument. -/
def Holds (m : Matches) (name : String) (field : Option String) : Prop :=
  (∀ s, (name, [s]) ∈ m → field = some s) ∧ ((∀ vs, (name, vs) ∉ m) → field = none)

/-- A field that tells whether an argument is given. -/
def Tells (m : Matches) (name : String) (field : Bool) : Prop := field = true ↔ ∃ vs, (name, vs) ∈ m

/-- The number written by a string of decimal digits (given as numbers 0..9, most significant
first). -/
def number (ds : List Nat) : Nat := ds.foldl (fun n d => 10 * n + d) 0

/-- `s` is a decimal integer with value `n`: an optional sign and at least one digit. -/
def Decimal (s : List Char) (n : Int) : Prop :=
  ∃ ds : List Nat, ds ≠ [] ∧ (∀ d ∈ ds, d < 10) ∧
    let txt := ds.map fun d => Char.ofNat (48 + d)
    ((s = txt ∨ s = '+' :: txt) ∧ n = number ds) ∨ (s = '-' :: txt ∧ n = -(number ds : Int))

/-- `s` is a decimal integer of 32 bits with value `n`. -/
def I32 (s : String) (n : Int) : Prop := Decimal s.toList n ∧ -2147483648 ≤ n ∧ n ≤ 2147483647

/-- `v` is the position written as `a b c`. -/
def Pos (a b c : String) (v : Vec3) : Prop := I32 a v.x ∧ I32 b v.y ∧ I32 c v.z

/-- The box with the opposite corners `v` and `w`. -/
def Corners (a : Area) (v w : Vec3) : Prop :=
  a.min = ⟨min v.x w.x, min v.y w.y, min v.z w.z⟩ ∧ a.max = ⟨max v.x w.x, max v.y w.y, max v.z w.z⟩

/-- The argument is given, but its values are not a position. -/
def Malformed (m : Matches) (name : String) : Prop :=
  ∃ vs, (name, vs) ∈ m ∧ ¬ ∃ a b c v, vs = [a, b, c] ∧ Pos a b c v

/-- The argument reaches the command. -/
def Carries (m : Matches) (args : InstArgs) : ArgType → Prop
  | .inputMapPath => Holds m "input_map" args.inputMapPath
  | .area _ =>
    (∀ a b c d e f, ("p1", [a, b, c]) ∈ m → ("p2", [d, e, f]) ∈ m → ∃ v w B, Pos a b c v ∧ Pos d e f w ∧
      args.area = some B ∧ Corners B v w) ∧
    ((∀ vs, ("p1", vs) ∉ m) → args.area = none)
  | .invert => Tells m "invert" args.invert
  | .offset _ =>
    (∀ a b c, ("offset", [a, b, c]) ∈ m → ∃ v, Pos a b c v ∧ args.offset = some v) ∧
    ((∀ vs, ("offset", vs) ∉ m) → args.offset = none)
  | .node _ => Holds m "node" args.node
  | .nodes => (∀ vs, ("nodes", vs) ∈ m → args.nodes = vs) ∧ ((∀ vs, ("nodes", vs) ∉ m) → args.nodes = [])
  | .newNode => Holds m "new_node" args.newNode
  | .object => Holds m "object" args.object
  | .item => Holds m "item" args.item
  | .items => (∀ vs, ("items", vs) ∈ m → args.items = some vs) ∧ ((∀ vs, ("items", vs) ∉ m) → args.items = none)
  | .newItem => Holds m "new_item" args.newItem
  | .delete => Tells m "delete" args.delete
  | .deleteMeta => Tells m "delete_meta" args.deleteMeta
  | .key => Holds m "key" args.key
  | .value => Holds m "value" args.value
  | .param2 => ∀ s, ("param2", [s]) ∈ m → ∃ v : UInt8, Decimal s.toList v.toNat ∧ args.param2 = some v

/-- What a command cannot do without. -/
def Needs (args : InstArgs) : Prop :=
  match args.command with
  | "clone" => args.area.isSome ∧ args.offset.isSome
  | "deleteblocks" => args.area.isSome
  | "fill" => args.area.isSome ∧ args.newNode.isSome
  | "replacenodes" => args.node.isSome ∧ args.newNode.isSome
  | "replaceininv" => args.item.isSome
  | "overlay" => args.inputMapPath.isSome
  | "setmetavar" => args.key.isSome
  | "setparam2" => args.param2.isSome
  | _ => True

/-! ## The manual -/

/-- How an argument is written in the manual. -/
inductive Written
  /-- `<name>`, or `[name]` if optional. -/
  | plain (required : Bool)
  /-- `--long` with so many values. -/
  | option (long : String) (required : Bool) (values : Values)
  deriving DecidableEq

open Written in
/-- The usage lines of `Manual.md`. -/
def manual : List (String × List Written) :=
  let p1 := fun r => option "p1" r (.exactly 3)
  let p2 := fun r => option "p2" r (.exactly 3)
  let invert := option "invert" false .flag
  let node := option "node" false (.exactly 1)
  let nodes := option "nodes" false (.atLeast 1)
  [ ("clone", [p1 true, p2 true, option "offset" true (.exactly 3)]),
    ("deleteblocks", [p1 true, p2 true, invert]),
    ("deletemeta", [node, p1 false, p2 false, invert]),
    ("deleteobjects", [option "obj" false (.exactly 1), option "items" false (.atLeast 0),
      p1 false, p2 false, invert]),
    ("deletetimers", [node, p1 false, p2 false, invert]),
    ("fill", [p1 true, p2 true, invert, plain true]),
    ("overlay", [plain true, p1 false, p2 false, invert, option "offset" false (.exactly 3)]),
    ("replaceininv", [plain true, plain false, option "delete" false .flag, option "deletemeta" false .flag,
      nodes, p1 false, p2 false, invert]),
    ("replacenodes", [plain true, plain true, p1 false, p2 false, invert]),
    ("setmetavar", [plain true, plain false, option "delete" false .flag, nodes, p1 false, p2 false, invert]),
    ("setparam2", [node, p1 false, p2 false, invert, plain true]),
    ("vacuum", []) ]

/-- How a defined argument is written. -/
def written (d : ArgDef) : Written :=
  match d.long with
  | none => .plain d.required
  | some l => .option l d.required d.values

end MapEditr.Spec
