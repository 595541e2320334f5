import Verif.Model.Instance
/-!
# Command line

Models the pure parts of `src/cmd_line.rs`: which arguments are defined, how matches become
`InstArgs`, number parsing, and the answer to the prompt.  The `clap` library is represented by its
result: for every *defined* argument name, the values that were given (`none` if absent).
-/

namespace MapEditr

/-- How many values an argument takes. -/
inductive Values
  /-- None: only whether it is given counts. -/
  | flag
  /-- `number_of_values(n)`; 1 for positional arguments and `takes_value(true)`. -/
  | exactly (n : Nat)
  /-- `min_values(n)`. -/
  | atLeast (n : Nat)
  deriving DecidableEq, Repr

/-- An `Arg` of `clap`: name, `--long` (`none` for a positional argument), whether it is required,
its values, and what else must be given with it. -/
structure ArgDef where
  name : String
  long : Option String
  required : Bool
  values : Values
  needs : List String := []
  deriving DecidableEq, Repr

/-- `to_cmd_line_args`, `src/cmd_line.rs:26-117`.  Left out: help texts, names of values, and
`allow_hyphen_values`, which lets values begin with `-`. -/
def argDefs : ArgType → List ArgDef
  | .area r => [⟨"p1", some "p1", r, .exactly 3, ["p2"]⟩, ⟨"p2", some "p2", r, .exactly 3, ["p1"]⟩]
  | .inputMapPath => [⟨"input_map", none, true, .exactly 1, []⟩]
  | .invert => [⟨"invert", some "invert", false, .flag, []⟩]
  | .offset r => [⟨"offset", some "offset", r, .exactly 3, []⟩]
  | .node r => if r then [⟨"node", none, true, .exactly 1, []⟩] else [⟨"node", some "node", false, .exactly 1, []⟩]
  | .nodes => [⟨"nodes", some "nodes", false, .atLeast 1, []⟩]
  | .newNode => [⟨"new_node", none, true, .exactly 1, []⟩]
  | .object => [⟨"object", some "obj", false, .exactly 1, []⟩]
  | .item => [⟨"item", none, true, .exactly 1, []⟩]
  | .items => [⟨"items", some "items", false, .atLeast 0, []⟩]
  | .newItem => [⟨"new_item", none, false, .exactly 1, []⟩]
  | .delete => [⟨"delete", some "delete", false, .flag, []⟩]
  | .deleteMeta => [⟨"delete_meta", some "deletemeta", false, .flag, []⟩]
  | .key => [⟨"key", none, true, .exactly 1, []⟩]
  | .value => [⟨"value", none, false, .exactly 1, []⟩]
  | .param2 => [⟨"param2", none, true, .exactly 1, []⟩]

/-- The names passed to `Arg::with_name`. -/
def argNames (t : ArgType) : List String := (argDefs t).map (·.name)

/-- What `clap` reports for a command line: name and values of each argument that is present. -/
abbrev Matches := List (String × List String)

namespace Matches

/-- `values_of`. -/
def valuesOf (m : Matches) (name : String) : Option (List String) :=
  (m.find? fun e => e.1 == name).map (·.2)

/-- `value_of`: the first value. -/
def valueOf (m : Matches) (name : String) : Option String :=
  (m.valuesOf name).bind (·.head?)

/-- `is_present`. -/
def isPresent (m : Matches) (name : String) : Bool := (m.valuesOf name).isSome

end Matches

/-- The value of a decimal digit. -/
def digit? (c : Char) : Option Nat := if '0' ≤ c && c ≤ '9' then some (c.toNat - 48) else none

/-- The value of a non-empty string of decimal digits. -/
def digits? (s : List Char) : Option Nat :=
  if s.isEmpty then none
  else s.foldl (fun acc c => acc.bind fun n => (digit? c).map fun d => 10 * n + d) (some 0)

/-- An optional sign, and the rest. -/
def splitSign : List Char → Bool × List Char
  | '-' :: t => (true, t)
  | '+' :: t => (false, t)
  | l => (false, l)

/-- Apply the sign and check the range. -/
def toI32 (neg : Bool) (n : Nat) : Option Int :=
  let v : Int := if neg then -(n : Int) else n
  if -2147483648 ≤ v ∧ v ≤ 2147483647 then some v else none

/-- `str::parse::<i32>` (standard library): optional sign, digits, in range. -/
def parseI32 (s : String) : Option Int :=
  let (neg, ds) := splitSign s.toList
  (digits? ds).bind (toI32 neg)

/-- `str::parse::<u8>` (standard library). -/
def parseU8 (s : String) : Option UInt8 :=
  let ds :=
    match s.toList with
    | '+' :: t => t
    | l => l
  (digits? ds).bind fun n => if n < 256 then some (UInt8.ofNat n) else none

/-- `arg_to_pos`, `src/cmd_line.rs:13-23`. -/
def argToPos (vals : List String) : Option Vec3 :=
  match vals with
  | [a, b, c] => do return ⟨← parseI32 a, ← parseI32 b, ← parseI32 c⟩
  | _ => none

/-- `.map(f).transpose().context(e)?`. -/
def optArg (e : String) (o : Option α) (f : α → Option β) : Except String (Option β) :=
  match o with
  | none => .ok none
  | some a =>
    match f a with
    | some b => .ok (some b)
    | none => .error e

/-- `if let Some(..) = p1 && p2 { Area::from_unsorted(..) }`, `src/cmd_line.rs:168-172`. -/
def areaOf (p1 p2 : Option Vec3) : Option Area :=
  match p1, p2 with
  | some a, some b => some (Area.fromUnsorted a b)
  | _, _ => none

/-- The construction of `InstArgs`, `src/cmd_line.rs:155-193`. -/
def toInstArgs (yes : Bool) (cmd map : String) (m : Matches) : Except String InstArgs := do
  let p1 ← optArg "Invalid p1 value." (m.valuesOf "p1") argToPos
  let p2 ← optArg "Invalid p2 value." (m.valuesOf "p2") argToPos
  let area := areaOf p1 p2
  let offset ← optArg "Invalid offset value." (m.valuesOf "offset") argToPos
  let param2 ← optArg "Invalid param2 value." (m.valueOf "param2_val") parseU8
  return {
    doConfirmation := !yes
    command := cmd
    mapPath := map
    inputMapPath := m.valueOf "input_map"
    area
    invert := m.isPresent "invert"
    offset
    node := m.valueOf "node"
    nodes := (m.valuesOf "nodes").getD []
    newNode := m.valueOf "new_node"
    object := m.valueOf "object"
    item := m.valueOf "item"
    items := m.valuesOf "items"
    newItem := m.valueOf "new_item"
    delete := m.isPresent "delete"
    deleteMeta := m.isPresent "delete_meta"
    key := m.valueOf "key"
    value := m.valueOf "value"
    param2 }

/-- `char::is_whitespace` (standard library: Unicode `White_Space`). -/
def isWhitespace (c : Char) : Bool :=
  let n := c.toNat
  (9 ≤ n && n ≤ 13) || n == 0x20 || n == 0x85 || n == 0xA0 || n == 0x1680
    || (0x2000 ≤ n && n ≤ 0x200A) || n == 0x2028 || n == 0x2029 || n == 0x202F || n == 0x205F
    || n == 0x3000

/-- `str::trim`. -/
def trim (s : List Char) : List Char :=
  ((s.dropWhile isWhitespace).reverse.dropWhile isWhitespace).reverse

/-- `to_ascii_lowercase` on a character. -/
def asciiLower (c : Char) : Char := if 'A' ≤ c && c ≤ 'Z' then Char.ofNat (c.toNat + 32) else c

/-- `get_confirmation`, `src/cmd_line.rs:250-256`, on the line that was read (empty at end of
input). -/
def confirms (line : List Char) : Bool := (trim line).map asciiLower == ['y']

end MapEditr
