import Verif.Spec.Map
import Verif.Spec.Copy
/-!
# Which rows a command looks at, what it skips, and its progress
-/

namespace MapEditr.Spec
open MapEditr

/-- The text search keeps this data: there is nothing to search for, it is in a format that cannot be
searched (above version 28 data is compressed as a whole), or one of the names occurs in it, preceded
by its length. -/
def Mentions (names : List Bytes) (d : Bytes) : Prop :=
  names = [] ∨ (∀ v, d.head? = some v → 28 < v.toNat) ∨ ∃ n ∈ names, str16 n <:+: d

/-- The row is that of a block with a selected node. -/
def RowTouched (area : Option Area) (invert : Bool) (r : Int × Bytes) : Prop :=
  ∃ bp, ValidBlockPos bp ∧ keyOf bp = r.1 ∧ ∃ p, InBlock bp p ∧ Selected area invert p

/-- The row is that of a block all of whose nodes are selected. -/
def RowInside (area : Option Area) (invert : Bool) (r : Int × Bytes) : Prop :=
  ∃ bp, ValidBlockPos bp ∧ keyOf bp = r.1 ∧ ∀ p, InBlock bp p → Selected area invert p

/-- `rows` are the rows of `t` that satisfy `P`. -/
def TheRows (t : Table) (P : Int × Bytes → Prop) (rows : Table) : Prop :=
  rows.Sublist t ∧ ∀ r, r ∈ rows ↔ r ∈ t ∧ P r

/-- The data cannot be decoded. -/
def Unreadable (c : Codec) (r : Int × Bytes) : Prop := ∀ b, ¬ Represents c r.2 b

/-- The run reports `n` skipped blocks, which for 0 means to say nothing. -/
def SkipReport (evs : List Event) (n : Nat) : Prop :=
  ∀ m, .log .info (.count "Skipped {} invalid/unsupported mapblocks." m) ∈ evs ↔ m = n ∧ 0 < n

/-- Rows that are not selected (`Sel`) and rows that cannot be decoded keep their bytes. -/
structure KeepsRows (c : Codec) (t t' : Table) (Sel : Int × Bytes → Prop) : Prop where
  outside : ∀ r ∈ t, ¬ Sel r → r ∈ t'
  bad : ∀ r ∈ t, Unreadable c r → r ∈ t'

/-- Rows that are not selected (`Sel`) and rows that cannot be decoded keep their bytes, and the
selected ones among the latter, if they satisfy `Cnt`, are reported as skipped. -/
structure KeepsBytes (c : Codec) (t t' : Table) (evs : List Event) (Sel Cnt : Int × Bytes → Prop) :
    Prop where
  outside : ∀ r ∈ t, ¬ Sel r → r ∈ t'
  bad : ∀ r ∈ t, Unreadable c r → r ∈ t'
  counted : ∀ rows, TheRows t (fun r => Sel r ∧ Unreadable c r ∧ Cnt r) rows → SkipReport evs rows.length

/-- A row of the input map of which `overlay` must merge a part, but cannot decode one of the two blocks
(`t` is the main map). -/
def PartLost (c : Codec) (t : Table) (area : Option Area) (invert : Bool) (r : Int × Bytes) : Prop :=
  RowTouched area invert r ∧ ¬ RowInside area invert r ∧
    ∃ d, (r.1, d) ∈ t ∧ GenData c d ∧ (Unreadable c r ∨ Unreadable c (r.1, d))

/-- A run of the program that ended normally ("Done."); the main map held `t`, and `w` is the state at
the end. -/
def EndsWell (env : Env) (args : InstArgs) (t : Table) (w : World) : Prop :=
  ∃ f m, mapFile env args.mapPath = some f ∧ f.table = t ∧
    computeThread env args World.start = (.ok (.ok ()), w) ∧
    .log .info (.text "Done.") ∈ w.events ∧ w.dbs .main = some m

/-- Progress: as many blocks are done as there were to do, namely the selected ones. -/
def AllDone (s : Status) (t : Table) (Sel : Int × Bytes → Prop) : Prop :=
  ∀ rows, TheRows t Sel rows → s.total = rows.length ∧ s.done = rows.length

end MapEditr.Spec
