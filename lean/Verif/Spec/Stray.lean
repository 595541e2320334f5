import Verif.Spec.Map
/-! # Spec: rows whose key belongs to no block

The column `pos` holds any 64-bit integer. -/

namespace MapEditr.Spec

/-- A 64-bit integer. -/
def Is64 (k : Int) : Prop := -9223372036854775808 ≤ k ∧ k ≤ 9223372036854775807

/-- The block that a row with key `k` is taken for: of the number that Minetest would split into coordinates, 56 bits are
looked at. -/
def TakenFor (k : Int) (bp : Vec3) : Prop :=
  (-2048 ≤ bp.x ∧ bp.x < 2048) ∧ (-2048 ≤ bp.y ∧ bp.y < 2048) ∧ (-2147483648 ≤ bp.z ∧ bp.z < 2147483648) ∧
    (k - keyOf bp) % 72057594037927936 = 0

/-- Rows are changed as `R` says of the blocks that they are taken for; those taken for a block without a selected node keep
their exact bytes. -/
structure EditedAs (c : Codec) (area : Option Area) (invert : Bool) (t t' : Table)
    (R : Vec3 → MapBlock → MapBlock → Prop) : Prop where
  outside : ∀ k bp d, ValidBlockPos bp → TakenFor k bp → (k, d) ∈ t →
    (∀ p, InBlock bp p → ¬ Selected area invert p) → (k, d) ∈ t'
  good : ∀ k bp d b, ValidBlockPos bp → TakenFor k bp → (k, d) ∈ t → Represents c d b →
    ∃ d' b', (k, d') ∈ t' ∧ Represents c d' b' ∧ R bp b b'

end MapEditr.Spec
