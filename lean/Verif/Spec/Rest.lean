import Verif.Spec.Every
import Verif.Spec.Objects
/-!
# What every command means for what is beside the nodes

A block holds nodes (see `Spec/Exec`), and beside them objects and a few numbers.
-/

namespace MapEditr.Spec
open MapEditr

/-- What a block holds beside its nodes. -/
structure BlockRest where
  version : Nat
  flags : Nat
  lighting : Nat
  timestamp : Nat
  objects : List StaticObject

/-- The part of the block that does not belong to a node. -/
def restAt (b : MapBlock) : BlockRest := ⟨b.version, b.flags, b.lighting, b.timestamp, b.objects⟩

/-- A map without its nodes, block by block. -/
abbrev Rests := Vec3 → Option BlockRest

/-- The map has a readable block at `bp`, and `r` is beside its nodes. -/
def HasRest (c : Codec) (t : Table) (bp : Vec3) (r : BlockRest) : Prop :=
  ValidBlockPos bp ∧ ∃ d b, (keyOf bp, d) ∈ t ∧ Represents c d b ∧ r = restAt b

open Classical in
/-- What is beside the nodes of a map. -/
noncomputable def restsOf (c : Codec) (t : Table) : Rests := fun bp =>
  if h : ∃ r, HasRest c t bp r then some (Classical.choose h) else none

open Classical in
/-- What the command makes of `W`; `S` belongs to the map given as input. -/
noncomputable def restMeaning (args : InstArgs) (S W : Rests) : Rests := fun bp =>
  match args.command with
  | "deleteobjects" => (W bp).map fun r => { r with objects := r.objects.filter fun o => ¬ ObjectGoes args bp o }
  | "deleteblocks" => if Whole args.area args.invert bp then none else W bp
  | "overlay" =>
    if args.offset.getD ⟨0, 0, 0⟩ ≠ ⟨0, 0, 0⟩ then W bp
    else if Whole args.area args.invert bp then
      match S bp with
      | some r => some r
      | none => W bp
    else if Touched args.area args.invert bp ∧ args.invert then
      match S bp, W bp with
      | some r, some _ => some r
      | _, w => w
    else W bp
  | _ => W bp

end MapEditr.Spec
