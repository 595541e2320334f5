import Verif.Spec.Crash
import Verif.Spec.Copy
import Verif.Spec.Geometry
/-!
# What in a map makes the copying commands crash

Only node IDs matter.  For every block that gives nodes, all its IDs are raised beyond those of the block that
takes them; in the end the name table is tidied.
-/

namespace MapEditr.Spec
open MapEditr

/-- `c` is the 16-bit sum of `a` and `b`.  If the sum needs more bits, a debug build has none, and a release build
drops the upper bits. -/
def Sum16 (bd : Build) (a b c : Nat) : Prop := c = (a + b) % 65536 ∧ (bd = .debug → a + b < 65536)

/-- The greatest of these IDs. -/
def Top (ids : Nat → Prop) (m : Nat) : Prop := ids m ∧ ∀ id, ids id → id ≤ m

/-- What matters of a block that takes nodes: which IDs its name table has, and which ID each node has. -/
structure Draft where
  ids : Nat → Prop
  node : Nat → Nat → Prop

/-- These of a block. -/
def draftOf (b : MapBlock) : Draft := ⟨fun id => ∃ n, (id, n) ∈ b.nimap, fun i id => b.nd.nodes[i]? = some id⟩

/-- Taking nodes of `src` leads from `D` to `D'`.  `Moved i j` means that node `j` of `src` becomes node `i`. -/
def Joins (bd : Build) (src : MapBlock) (Moved : Nat → Nat → Prop) (D D' : Draft) : Prop :=
  ∃ m base, Top D.ids m ∧ Sum16 bd m 1 base ∧
    (∀ e ∈ src.nimap, ∃ c, Sum16 bd e.1 base c) ∧
    (∀ i j id, Moved i j → src.nd.nodes[j]? = some id → ∃ c, Sum16 bd id base c) ∧
    (∀ c, D'.ids c ↔ D.ids c ∨ ∃ e ∈ src.nimap, Sum16 bd e.1 base c) ∧
    ∀ i c, D'.node i c ↔ (∃ j id, Moved i j ∧ src.nd.nodes[j]? = some id ∧ Sum16 bd id base c) ∨
      ((∀ j, ¬ Moved i j) ∧ D.node i c)

/-- The name table can be tidied: it has IDs, the greatest of them is not 65535, and no node has a greater one. -/
def Tidies (D : Draft) : Prop := ∃ m, Top D.ids m ∧ m ≠ 65535 ∧ ∀ i id, D.node i id → id ≤ m

/-- Taking nodes of the blocks at the positions of a list, one after the other.  `Src q b`: there is a block `b`
at `q` to take nodes from. -/
inductive Drawn (bd : Build) (Src : Vec3 → MapBlock → Prop) (Moved : Vec3 → Nat → Nat → Prop) :
    List Vec3 → Draft → Draft → Prop
  | nil (D) : Drawn bd Src Moved [] D D
  | skip {q qs D D'} : (∀ b, ¬ Src q b) → Drawn bd Src Moved qs D D' → Drawn bd Src Moved (q :: qs) D D'
  | join {q qs b D D1 D'} : Src q b → Joins bd b (Moved q) D D1 → Drawn bd Src Moved qs D1 D' →
      Drawn bd Src Moved (q :: qs) D D'

/-- Nodes `p` with `Sel p`, of the block `b` at `bp`, cannot be replaced by nodes `p - o` of the map `src`: the
blocks that `p - o` are in, in z-y-x order, cannot be taken from, or the name table cannot be tidied afterwards. -/
def CopyStuck (bd : Build) (c : Codec) (src : Table) (o : Vec3) (Sel : Vec3 → Prop) (bp : Vec3) (b : MapBlock) : Prop :=
  Generated b ∧ (∃ p, InBlock bp p ∧ Sel p) ∧
  ∀ qs D, qs.Pairwise ZyxLt → (∀ q, q ∈ qs ↔ ∃ p, InBlock bp p ∧ Sel p ∧ InBlock q (unshift p o)) →
    Drawn bd (fun q sb => Within 1937 q ∧ Shows c src (posAt q 0) sb)
      (fun q i j => i < 4096 ∧ j < 4096 ∧ Sel (posAt bp i) ∧ shift (posAt q j) o = posAt bp i) qs (draftOf b) D →
    ¬ Tidies D

/-- The same for copying without offset, of a block that is selected in part: nodes in the area are taken from the
block `sb` of the other map or, inverted, nodes of `b` are put into that. -/
def PartStuck (bd : Build) (c : Codec) (src : Table) (a : Area) (invert : Bool) (bp : Vec3) (b : MapBlock) : Prop :=
  Generated b ∧ Partly (some a) invert bp ∧ ∃ sd sb, (keyOf bp, sd) ∈ src ∧ Represents c sd sb ∧
  ∀ D, Joins bd (if invert then b else sb) (fun i j => i < 4096 ∧ i = j ∧ InBox a.min a.max (posAt bp i))
      (draftOf (if invert then sb else b)) D → ¬ Tidies D

/-- Everything beside the blocks is in order, for a command that copies from the map `g` to the map `f`.  (`clone`
copies within one map.) -/
structure CopySet (env : Env) (args : InstArgs) (f g : DbFile) : Prop where
  ok : EnvOk env
  works : ∀ n, env.fail n = false
  file : mapFile env args.mapPath = some f
  cols : MapColumns f.cols
  good : GoodTable f.table
  accepted : ¬ BadArgs args
  command : ¬ CommandRefuses args
  area : AreaOk args.area
  confirmed : args.doConfirmation = true → env.answer = some true
  kind : (args.command = "clone" ∧ args.inputMapPath = none ∧ f = g ∧ args.area ≠ none ∧ args.offset ≠ none) ∨
    (args.command = "overlay" ∧ (∃ p, args.inputMapPath = some p ∧ mapFile env p = some g) ∧ MapColumns g.cols ∧
      GoodTable g.table)

/-- The copying command crashes at this block. -/
def StuckCopy (bd : Build) (c : Codec) (src : Table) (args : InstArgs) (bp : Vec3) (b : MapBlock) : Prop :=
  if args.command = "overlay" ∧ args.offset.getD ⟨0, 0, 0⟩ = ⟨0, 0, 0⟩ then
    ∃ a, args.area = some a ∧ PartStuck bd c src a args.invert bp b
  else
    CopyStuck bd c src (args.offset.getD ⟨0, 0, 0⟩)
      (fun p => Selected args.area false (unshift p (args.offset.getD ⟨0, 0, 0⟩))) bp b

end MapEditr.Spec
