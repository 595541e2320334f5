import Verif.Spec.Program
import Verif.Spec.Objects
/-!
# When the program comes to its end
-/

namespace MapEditr.Spec
open MapEditr

/-- What Minetest makes sure of, beside `Usual`: metadata and timers belong to nodes of the block, inventories are
lines, and objects are somewhere near the map. -/
structure InPlace (b : MapBlock) : Prop where
  plain : PlainInvs b
  metas : MetaInside b
  timers : TimersInside b
  objects : ObjectsNear b

/-- A map as Minetest writes it. -/
structure MapOk (c : Codec) (K : Nat) (f : DbFile) : Prop where
  cols : MapColumns f.cols
  good : GoodTable f.table
  usual : AllBlocks c f.table (Usual K)
  place : AllBlocks c f.table InPlace

/-- The command line is not refused: positions can be read, and the arguments make sense. -/
structure NotRefused (l : CmdLine) : Prop where
  p1 : ¬ Malformed l.matches_ "p1"
  p2 : ¬ Malformed l.matches_ "p2"
  offset : ¬ Malformed l.matches_ "offset"
  args : ∀ args, toInstArgs l.yes l.name l.map l.matches_ = .ok args → ¬ BadArgs args ∧ ¬ CommandRefuses args

end MapEditr.Spec
