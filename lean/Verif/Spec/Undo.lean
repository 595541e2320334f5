import Verif.Spec.Copy
import Verif.Spec.Oracle
/-!
# What it means that a change can be undone
-/

namespace MapEditr.Spec
open MapEditr

/-- `t'` is `t`, except for selected nodes of generated blocks.  Every row of `t` keeps its bytes, or is
generated and entirely selected (and may be changed in any way, or be gone), or is a readable generated
block of which some nodes are selected, and the others are as before.  (With `invert`, what is stored
beside the nodes may have changed too, except the version.)  There are no new rows. -/
structure Confined (c : Codec) (area : Option Area) (invert : Bool) (t t' : Table) : Prop where
  nodup : (t'.map (·.1)).Nodup
  keys : ∀ k ∈ t'.map (·.1), k ∈ t.map (·.1)
  rows : ∀ bp d, ValidBlockPos bp → (keyOf bp, d) ∈ t →
    (keyOf bp, d) ∈ t' ∨
    (Whole area invert bp ∧ GenData c d) ∨
    (Partly area invert bp ∧ ∃ d' b b', (keyOf bp, d') ∈ t' ∧ Represents c d b ∧ Represents c d' b' ∧
      Generated b' ∧ b'.version = b.version ∧ (invert = false → SameRest b b') ∧
      ∀ i, i < 4096 → ¬ Selected area invert (posAt bp i) → NodeAs b' i b i)

/-- With `args`, `old` is laid over the selected nodes of a map, and no statement of the run fails. -/
structure Restores (env : Env) (args : InstArgs) (area : Option Area) (invert : Bool) (old : Table) : Prop where
  ok : EnvOk env
  works : DbWorks env args
  command : args.command = "overlay"
  input : ∃ p g, args.inputMapPath = some p ∧ mapFile env p = some g ∧ g.table = old
  area : args.area = area
  invert : args.invert = invert
  offset : args.offset = none ∨ args.offset = some ⟨0, 0, 0⟩

end MapEditr.Spec
