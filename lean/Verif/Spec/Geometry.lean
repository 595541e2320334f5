import Verif.Model.Spatial
/-!
# Specification vocabulary for positions, boxes and blocks

Nothing here is used by the model; it says in plain arithmetic what areas and blocks *mean*.
-/

namespace MapEditr.Spec

/-- `p` lies in the box with least corner `lo` and greatest corner `hi` (inclusive). -/
def InBox (lo hi p : Vec3) : Prop :=
  lo.x ≤ p.x ∧ p.x ≤ hi.x ∧ lo.y ≤ p.y ∧ p.y ≤ hi.y ∧ lo.z ≤ p.z ∧ p.z ≤ hi.z

instance (lo hi p : Vec3) : Decidable (InBox lo hi p) := by unfold InBox; infer_instance

/-- Node `p` is one of the 16×16×16 nodes of the block at block position `bp`. -/
def InBlock (bp p : Vec3) : Prop :=
  bp.x * 16 ≤ p.x ∧ p.x < bp.x * 16 + 16 ∧ bp.y * 16 ≤ p.y ∧ p.y < bp.y * 16 + 16
    ∧ bp.z * 16 ≤ p.z ∧ p.z < bp.z * 16 + 16

instance (bp p : Vec3) : Decidable (InBlock bp p) := by unfold InBlock; infer_instance

/-- Block positions that have a key: all coordinates in -2048..2047. -/
def ValidBlockPos (v : Vec3) : Prop :=
  -2048 ≤ v.x ∧ v.x ≤ 2047 ∧ -2048 ≤ v.y ∧ v.y ≤ 2047 ∧ -2048 ≤ v.z ∧ v.z ≤ 2047

instance (v : Vec3) : Decidable (ValidBlockPos v) := by unfold ValidBlockPos; infer_instance

/-- The database key of a block position, as documented for Minetest: `x + 4096 y + 4096² z`. -/
def keyOf (v : Vec3) : Int := v.x + 4096 * v.y + 16777216 * v.z

/-- Keys of valid block positions: an interval of 4096³ integers. -/
def ValidKey (k : Int) : Prop := -34368129024 ≤ k ∧ k ≤ 34351347711

instance (k : Int) : Decidable (ValidKey k) := by unfold ValidKey; infer_instance

/-- Block position containing node `p`. -/
def blockOf (p : Vec3) : Vec3 := ⟨p.x / 16, p.y / 16, p.z / 16⟩

/-- Index of node `p` within its block: `x + 16 y + 256 z` in block-local coordinates. -/
def idxOf (p : Vec3) : Nat := (p.x % 16 + 16 * (p.y % 16) + 256 * (p.z % 16)).toNat

/-- `p` translated by `v`. -/
def shift (p v : Vec3) : Vec3 := ⟨p.x + v.x, p.y + v.y, p.z + v.z⟩

/-- `p` translated by `-v`. -/
def unshift (p v : Vec3) : Vec3 := ⟨p.x - v.x, p.y - v.y, p.z - v.z⟩

/-- z-y-x order (x fastest): the order in which areas are visited. -/
def ZyxLt (a b : Vec3) : Prop :=
  a.z < b.z ∨ (a.z = b.z ∧ (a.y < b.y ∨ (a.y = b.y ∧ a.x < b.x)))

end MapEditr.Spec
