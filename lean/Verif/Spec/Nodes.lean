import Verif.Spec.Format
import Verif.Spec.Geometry
/-!
# What the nodes of a block are

A node's content as the game shows it: its *name* (not its numeric ID), its two parameters and its
metadata.  Metadata holding nothing counts as absent.
-/

namespace MapEditr.Spec
open MapEditr

/-- Name of node number `i` of a block, if its ID has one. -/
def nodeName (b : MapBlock) (i : Nat) : Option Bytes :=
  match b.nd.nodes[i]? with
  | some id => SMap.get? b.nimap id
  | none => none

/-- Every node ID has a name. -/
def Named (b : MapBlock) : Prop := ∀ id ∈ b.nd.nodes, ∃ name, SMap.get? b.nimap id = some name

/-- Metadata of node number `i`, holding something. -/
def metaOf (b : MapBlock) (i : Nat) : Option NodeMeta :=
  (SMap.get? b.metas i).filter fun m => decide (¬ MetaVoid m)

/-- Blocks as Minetest writes them: every node ID is named, IDs are small (Minetest numbers them
0, 1, 2, ... up to at most 4095; 7280 is the largest bound for which eight merges cannot overflow
16 bits). -/
structure Sane (b : MapBlock) : Prop where
  named : Named b
  small : ∀ e ∈ b.nimap, e.1 ≤ 7280

/-- No node ID is greater than all IDs of the name table. -/
def Covered (b : MapBlock) : Prop := ∀ id ∈ b.nd.nodes, ∃ e ∈ b.nimap, id ≤ e.1

/-- IDs are small. -/
def SmallIds (b : MapBlock) : Prop := ∀ e ∈ b.nimap, e.1 ≤ 7280

/-- Metadata indices leave some room.  (Node metadata is indexed by 16 bits, of which Minetest uses the
lower 12; 65536 entries would overflow their 16-bit count.) -/
def MetaRoom (b : MapBlock) : Prop := ∀ e ∈ b.metas, e.1 < 61440

/-- Blocks that can be merged with others: the IDs cannot overflow, nor the count of metadata. -/
structure Tame (b : MapBlock) : Prop where
  covered : Covered b
  small : SmallIds b
  room : MetaRoom b

/-- Blocks for which merging, if it finishes, gives the right result: a release build does not notice
when IDs overflow. -/
structure Mild (bd : Build) (b : MapBlock) : Prop where
  room : MetaRoom b
  small : bd = .release → SmallIds b

theorem Tame.mild {b : MapBlock} (h : Tame b) (bd : Build) : Mild bd b := ⟨h.room, fun _ => h.small⟩

/-- The name table is in order: IDs are 0, 1, 2, ..., no name is there twice, and every ID is that of some
node.  Every node has a name, unless none has. -/
structure Tidy (b : MapBlock) : Prop where
  ids : b.nimap.map (·.1) = List.range b.nimap.length
  names : (b.nimap.map (·.2)).Nodup
  used : ∀ e ∈ b.nimap, e.1 ∈ b.nd.nodes
  named : b.nimap ≠ [] → ∀ id ∈ b.nd.nodes, id < b.nimap.length

/-- The box of local positions of a block. -/
def Local (p : Vec3) : Prop := InBox ⟨0, 0, 0⟩ ⟨15, 15, 15⟩ p

instance (p : Vec3) : Decidable (Local p) := by unfold Local; infer_instance

/-- `a` is a non-empty box inside a block. -/
def LocalArea (a : Area) : Prop :=
  0 ≤ a.min.x ∧ a.min.x ≤ a.max.x ∧ a.max.x ≤ 15 ∧ 0 ≤ a.min.y ∧ a.min.y ≤ a.max.y ∧ a.max.y ≤ 15
    ∧ 0 ≤ a.min.z ∧ a.min.z ≤ a.max.z ∧ a.max.z ≤ 15

instance (a : Area) : Decidable (LocalArea a) := by unfold LocalArea; infer_instance

/-- Two boxes inside a block, of the same size. -/
def SameSize (a b : Area) : Prop :=
  a.max.x - a.min.x = b.max.x - b.min.x ∧ a.max.y - a.min.y = b.max.y - b.min.y
    ∧ a.max.z - a.min.z = b.max.z - b.min.z

instance (a b : Area) : Decidable (SameSize a b) := by unfold SameSize; infer_instance

/-- The position in `sa` corresponding to `p` in `da`. -/
def back (sa da : Area) (p : Vec3) : Vec3 :=
  ⟨p.x - da.min.x + sa.min.x, p.y - da.min.y + sa.min.y, p.z - da.min.z + sa.min.z⟩

end MapEditr.Spec
