import Verif.Spec.Metas
import Verif.Spec.Objects
import Verif.Spec.Format
/-!
# Blocks with nothing to do
-/

namespace MapEditr.Spec

/-- Rows of readable blocks in which there is nothing to do keep their bytes. -/
def IdleKept (c : Codec) (t t' : Table) (Todo : Vec3 → MapBlock → Prop) : Prop :=
  ∀ bp d b, ValidBlockPos bp → (keyOf bp, d) ∈ t → Represents c d b → ¬ Todo bp b → (keyOf bp, d) ∈ t'

/-- Some line of the text is a stack of the item. -/
def HoldsItem (item inv : Bytes) : Prop :=
  ∃ lines last, Lines lines ∧ (10 : UInt8) ∉ last ∧ inv = linesText lines ++ last ∧
    ∃ l ∈ lines ++ [last], IsStack item l

end MapEditr.Spec
