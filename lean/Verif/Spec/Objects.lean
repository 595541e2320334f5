import Verif.Spec.Map
import Verif.Spec.Inventory
/-!
# Objects

Where an object is, what kind of entity it is, and which item a dropped item holds.
-/

namespace MapEditr.Spec
open MapEditr

/-- The object is at node `p`: nearest to its centre (positions are stored in 1/10000 nodes; halfway
counts as the greater one). -/
def AtNode (o : StaticObject) (p : Vec3) : Prop :=
  (10000 * p.x - 5000 ≤ o.fPos.x ∧ o.fPos.x < 10000 * p.x + 5000) ∧
  (10000 * p.y - 5000 ≤ o.fPos.y ∧ o.fPos.y < 10000 * p.y + 5000) ∧
  (10000 * p.z - 5000 ≤ o.fPos.z ∧ o.fPos.z < 10000 * p.z + 5000)

/-- The object is a Lua entity (type 7) with this name and stored data. -/
def EntityIs (o : StaticObject) (name data : Bytes) : Prop :=
  o.objType = 7 ∧ name.length < 65536 ∧ data.length < 4294967296 ∧
  ∃ junk, o.data = 1 :: (str16 name ++ (str32 data ++ junk))

/-- The item name in the data of a dropped item: in a serialized table (beginning with `return`) the
item string's name, in the new or else the old notation; otherwise the data itself (see C44). -/
inductive ItemName : Bytes → Bytes → Prop
  | new : ascii "return" <+: data → FirstAt (ascii "itemstring=\"") pre rest data → UpTo name rest →
      ItemName data name
  | old : ascii "return" <+: data → (∀ i, ¬ ascii "itemstring=\"" <+: data.drop i) →
      FirstAt (ascii "[\"itemstring\"] = \"") pre rest data → UpTo name rest → ItemName data name
  | unknown : ascii "return" <+: data → (∀ i, ¬ ascii "itemstring=\"" <+: data.drop i) →
      (∀ i, ¬ ascii "[\"itemstring\"] = \"" <+: data.drop i) → ItemName data []
  | plain : ¬ ascii "return" <+: data → ItemName data data

/-- The object is selected by position, by entity name, and among dropped items by item name. -/
def ObjectSelected (area : Option Area) (invert : Bool) (entity : Option Bytes) (items : List Bytes)
    (o : StaticObject) : Prop :=
  (∃ p, AtNode o p ∧ Selected area invert p) ∧
  ∀ name, entity = some name → ∃ data, EntityIs o name data ∧
    (items = [] ∨ ∃ item ∈ items, ItemName data item)

/-- Object positions stay away from the greatest 32-bit number by half a node. -/
def ObjectsNear (b : MapBlock) : Prop :=
  ∀ o ∈ b.objects, o.fPos.x ≤ 2147478647 ∧ o.fPos.y ≤ 2147478647 ∧ o.fPos.z ≤ 2147478647

/-- Some node of the block is selected. -/
def Touched (area : Option Area) (invert : Bool) (bp : Vec3) : Prop :=
  ∃ p, InBlock bp p ∧ Selected area invert p

/-- The entity name searched for: with `--items` dropped items, otherwise the one given. -/
def entityFor (args : InstArgs) : Option Bytes :=
  match args.items with
  | some _ => some (ascii "__builtin:item")
  | none => args.object.map toBytes

/-- The item names given. -/
def itemsFor (args : InstArgs) : List Bytes := (args.items.getD []).map toBytes

/-- The objects of a block that are deleted. -/
def ObjectGoes (args : InstArgs) (bp : Vec3) (o : StaticObject) : Prop :=
  Touched args.area args.invert bp ∧
  ObjectSelected args.area args.invert (entityFor args) (itemsFor args) o

end MapEditr.Spec
