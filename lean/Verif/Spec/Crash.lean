import Verif.Spec.Runs
import Verif.Spec.Objects
import Verif.Spec.Skips
/-!
# What in a map makes the program crash
-/

namespace MapEditr.Spec
open MapEditr

/-- The worker of this run ends in a panic. -/
def Crashes (env : Env) (args : InstArgs) : Prop :=
  ∃ e w, computeThread env args World.start = (.error e, w)

/-- A command that works on one map and changes each block by itself, with all arguments it requires (the parser
sees to that). -/
structure OneMap (args : InstArgs) : Prop where
  known : args.command ∈ commandNames
  one : args.command ≠ "clone" ∧ args.command ≠ "overlay" ∧ args.inputMapPath = none
  area : args.command = "fill" → args.area ≠ none
  newNode : args.command = "fill" ∨ args.command = "replacenodes" → args.newNode ≠ none
  node : args.command = "replacenodes" → args.node ≠ none
  key : args.command = "setmetavar" → args.key ≠ none
  item : args.command = "replaceininv" → args.item ≠ none
  param2 : args.command = "setparam2" → args.param2 ≠ none

/-- Everything beside the blocks is in order: the database works and has the right columns, the arguments are
accepted and confirmed, and what they say can be written into a block. -/
structure AllSet (env : Env) (args : InstArgs) (f : DbFile) : Prop where
  ok : EnvOk env
  works : ∀ n, env.fail n = false
  file : mapFile env args.mapPath = some f
  cols : MapColumns f.cols
  good : GoodTable f.table
  accepted : ¬ BadArgs args
  command : ¬ CommandRefuses args
  area : AreaOk args.area
  one : OneMap args
  confirmed : args.doConfirmation = true → env.answer = some true
  name : ∀ n, args.newNode = some n → (toBytes n).length < 65536
  value : ∀ v, args.value = some v → (toBytes v).length < 4294967296

/-- Some readable block of the table, at a valid position and with data `d`, satisfies `T`. -/
def SomeBlock (c : Codec) (t : Table) (T : Vec3 → Bytes → MapBlock → Prop) : Prop :=
  ∃ bp d b, ValidBlockPos bp ∧ (keyOf bp, d) ∈ t ∧ Represents c d b ∧ T bp d b

/-- The name table of the block has this name. -/
def Lists (b : MapBlock) (n : Bytes) : Prop := ∃ e ∈ b.nimap, e.2 = n

/-- There is metadata with a number that no node has, and the number without its upper four bits is that of a
selected node. -/
def StrayMeta (area : Option Area) (invert : Bool) (bp : Vec3) (b : MapBlock) : Prop :=
  ∃ e ∈ b.metas, 4096 ≤ e.1 ∧ Selected area invert (posAt bp (e.1 % 4096))

/-- The same of timers. -/
def StrayTimer (area : Option Area) (invert : Bool) (bp : Vec3) (b : MapBlock) : Prop :=
  ∃ t ∈ b.timers, 4096 ≤ t.pos ∧ Selected area invert (posAt bp (t.pos % 4096))

/-- An object that is half a node or less away from the greatest coordinate a 32-bit number can have. -/
def FarObject (b : MapBlock) : Prop :=
  ∃ o ∈ b.objects, 2147478647 < o.fPos.x ∨ 2147478647 < o.fPos.y ∨ 2147478647 < o.fPos.z

/-- Some nodes of the block are in the area and some are not. -/
def Split (a : Area) (bp : Vec3) : Prop :=
  (∃ p, InBlock bp p ∧ InBox a.min a.max p) ∧ ∃ p, InBlock bp p ∧ ¬ InBox a.min a.max p

/-- The name table does not suffice to fill a part of the block with `node`: it is empty; or with the new name it
has the ID 65535; or some node to be kept has an ID beyond it. -/
def FillStuck (a : Area) (invert : Bool) (node : Bytes) (bp : Vec3) (b : MapBlock) : Prop :=
  b.nimap = [] ∨ (∃ e ∈ b.nimap, e.1 = 65535) ∨ (¬ Lists b node ∧ ∃ e ∈ b.nimap, e.1 = 65534) ∨
  ∃ i id, i < 4096 ∧ ¬ Selected (some a) invert (posAt bp i) ∧ b.nd.nodes[i]? = some id ∧
    (∀ e ∈ b.nimap, e.1 < id) ∧ (¬ Lists b node → ∀ e ∈ b.nimap, e.1 + 1 < id)

/-- Node ID 65535 is in the way of replacing `old` by `new` in a block: it must be counted up, for a new name in a
part of the block; or it is the ID of `old`, which is to be removed from the name table. -/
def ReplaceStuck (area : Option Area) (invert : Bool) (old new : Bytes) (bp : Vec3) (b : MapBlock) : Prop :=
  Lists b old ∧ (∃ p, InBlock bp p ∧ Selected area invert p) ∧
  ((¬ Lists b new ∧ (∃ p, InBlock bp p ∧ ¬ Selected area invert p) ∧ ∃ e ∈ b.nimap, e.1 = 65535) ∨
   (Lists b new ∧ FirstId b old 65535 ∧
    ∀ i, i < 4096 → b.nd.nodes[i]? = some 65535 → Selected area invert (posAt bp i)))

/-- The command crashes at this block, whose data is `d`. -/
def Stuck (bd : Build) (args : InstArgs) (bp : Vec3) (d : Bytes) (b : MapBlock) : Prop :=
  (args.command = "deletemeta" ∧ (∃ n, args.node = some n ∧ Lists b (toBytes n)) ∧
    StrayMeta args.area args.invert bp b) ∨
  (args.command = "deletetimers" ∧ (∃ n, args.node = some n ∧ Lists b (toBytes n)) ∧
    StrayTimer args.area args.invert bp b) ∨
  ((args.command = "setmetavar" ∨ args.command = "replaceininv") ∧ (∃ n ∈ args.nodes, Lists b (toBytes n)) ∧
    StrayMeta args.area args.invert bp b) ∨
  (args.command = "deleteobjects" ∧ bd = .debug ∧ args.area ≠ none ∧
    (∃ p, InBlock bp p ∧ Selected args.area args.invert p) ∧
    (∀ e, entityFor args = some e → Mentions [e] d) ∧ FarObject b) ∨
  (args.command = "fill" ∧ ∃ a n, args.area = some a ∧ args.newNode = some n ∧ Split a bp ∧
    FillStuck a args.invert (toBytes n) bp b) ∨
  (args.command = "replacenodes" ∧ bd = .debug ∧ ∃ old new, args.node = some old ∧ args.newNode = some new ∧
    ReplaceStuck args.area args.invert (toBytes old) (toBytes new) bp b)

/-- A block as the game writes it: metadata and timers belong to nodes, objects are not at the end of the number
range, all IDs of nodes are named, and no ID is 65534 or 65535. -/
structure Ordinary (b : MapBlock) : Prop where
  metas : ∀ e ∈ b.metas, e.1 < 4096
  timers : ∀ t ∈ b.timers, t.pos < 4096
  objects : ∀ o ∈ b.objects, o.fPos.x ≤ 2147478647 ∧ o.fPos.y ≤ 2147478647 ∧ o.fPos.z ≤ 2147478647
  named : ∀ id ∈ b.nd.nodes, ∃ e ∈ b.nimap, e.1 = id
  ids : ∀ e ∈ b.nimap, e.1 ≤ 65533

end MapEditr.Spec
