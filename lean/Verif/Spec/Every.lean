import Verif.Spec.Exec
/-!
# What every command means, if inventories are as Minetest writes them
-/

namespace MapEditr.Spec
open MapEditr

/-- All inventories in the block are as Minetest writes them. -/
def PlainInvs (b : MapBlock) : Prop := ∀ e ∈ b.metas, PlainInv e.2.inv

/-- Arguments as the command line gives them, of any command. -/
structure AnyArgs (args : InstArgs) : Prop where
  needs : Needs args
  area : AreaOk args.area
  /-- names fit into the map -/
  name : ∀ n, args.newNode = some n → (toBytes n).length < 65536
  /-- the name put into inventories does not contain the word `EndInventory` -/
  item : args.command = "replaceininv" → ¬ endWord <:+: newItemOf args (toBytes (args.item.getD ""))

end MapEditr.Spec
