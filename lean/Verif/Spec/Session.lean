import Verif.Spec.Stacks
import Verif.Spec.CmdLine
/-!
# What a command does to a single node, and to a map after other commands

A map is looked at here as its nodes: each position holds at most one node, with name, parameters, metadata
and timers.  How nodes are numbered, grouped into blocks and stored is left out.
-/

namespace MapEditr.Spec
open MapEditr

/-- Everything stored about one node. -/
structure NodeView where
  /-- its name, not its numeric ID -/
  name : Option Bytes
  param1 : Option UInt8
  param2 : Option UInt8
  /-- metadata, if it holds something -/
  md : Option NodeMeta
  /-- timers: timeout and elapsed time -/
  timers : List (Nat × Nat)
  deriving DecidableEq

/-- Node number `i` of a block.  Block versions below 28 have no private marks, so marks are not looked at
there. -/
def viewAt (b : MapBlock) (i : Nat) : NodeView where
  name := nodeName b i
  param1 := b.nd.param1[i]?
  param2 := b.nd.param2[i]?
  md := if b.version < 28 then (metaOf b i).map publish else metaOf b i
  timers := (b.timers.filter fun t => t.pos = i).map fun t => (t.timeout, t.elapsed)

/-- The map has the node `v` at `p` (in a readable block). -/
def HasNode (c : Codec) (t : Table) (p : Vec3) (v : NodeView) : Prop :=
  ∃ bp d b i, ValidBlockPos bp ∧ (keyOf bp, d) ∈ t ∧ Represents c d b ∧ i < 4096 ∧ posAt bp i = p ∧ v = viewAt b i

/-- The node has the given name; if none is given, any node will do. -/
def NodeView.OfKind (v : NodeView) (node : Option String) : Prop :=
  ∀ n, node = some n → v.name = some (toBytes n)

/-- The node has one of the given names; if none is given, any node will do. -/
def NodeView.OfKinds (v : NodeView) (nodes : List String) : Prop :=
  nodes = [] ∨ ∃ n ∈ nodes, v.name = some (toBytes n)

instance (v : NodeView) (node : Option String) : Decidable (v.OfKind node) :=
  match node with
  | none => .isTrue (by intro n h; cases h)
  | some n =>
    if h : v.name = some (toBytes n) then .isTrue (by intro m hm; cases hm; exact h)
    else .isFalse fun hc => h (hc n rfl)

instance (v : NodeView) (nodes : List String) : Decidable (v.OfKinds nodes) := by
  unfold NodeView.OfKinds; infer_instance

/-- What a command makes of the node `v` at `p`. -/
def edit (args : InstArgs) (p : Vec3) (v : NodeView) : NodeView :=
  if Selected args.area args.invert p then
    match args.command with
    | "fill" => { v with name := args.newNode.map toBytes }
    | "replacenodes" => if v.name = args.node.map toBytes then { v with name := args.newNode.map toBytes } else v
    | "setparam2" => if v.OfKind args.node then { v with param2 := args.param2 } else v
    | "deletemeta" => if v.OfKind args.node then { v with md := none } else v
    | "deletetimers" => if v.OfKind args.node then { v with timers := [] } else v
    | "setmetavar" =>
      if v.OfKinds args.nodes then
        { v with md := visible (v.md.map (varEdit (toBytes (args.key.getD ""))
          (if args.delete then none else some (toBytes (args.value.getD ""))))) }
      else v
    | "replaceininv" =>
      if v.OfKinds args.nodes then
        { v with md := v.md.map (stacksEdit (toBytes (args.item.getD ""))
          (newItemOf args (toBytes (args.item.getD ""))) args.deleteMeta) }
      else v
    | _ => v
  else v

/-- The commands that change every node by itself, without a word about inventories (for `replaceininv` see C96). -/
def nodeCommands : List String :=
  ["fill", "replacenodes", "setparam2", "deletemeta", "deletetimers", "setmetavar", "deleteobjects",
   "deleteblocks", "vacuum"]

/-- The node at `p` stays in the map: `deleteblocks` only removes blocks of which every node is selected. -/
def Remains (args : InstArgs) (p : Vec3) : Prop :=
  args.command = "deleteblocks" → ∃ bp q, InBlock bp p ∧ InBlock bp q ∧ ¬ Selected args.area args.invert q

/-- Several runs of the program, one after the other, on the same map.  Libraries, answers and the order in
which hash maps are iterated may differ from run to run; only the compression format may not. -/
inductive Session (c : Codec) : List InstArgs → Table → Table → Prop
  | nil : Session c [] t t
  | cons : EnvOk env → env.codec = c → Completes env args t t' evs → Session c l t' t'' →
      Session c (args :: l) t t''

/-- Arguments as the command line gives them, of one of the commands in `nodeCommands`. -/
structure NodeArgs (args : InstArgs) : Prop where
  command : args.command ∈ nodeCommands
  needs : Needs args
  area : AreaOk args.area
  /-- names fit into the map -/
  name : ∀ n, args.newNode = some n → (toBytes n).length < 65536

/-- What Minetest makes sure of: every ID has one name, every name one ID, and IDs are below some bound
(Minetest uses 0 to 4095). -/
structure Fine (K : Nat) (b : MapBlock) : Prop where
  unique : UniqueNames b
  named : Named b
  small : ∀ e ∈ b.nimap, e.1 ≤ K

/-- The parts of a node. -/
inductive NodePart
  | name | param2 | md | timers | nothing

/-- The part of a node that a command changes. -/
def partChanged (command : String) : NodePart :=
  match command with
  | "setparam2" => .param2
  | "deletemeta" => .md
  | "setmetavar" => .md
  | "replaceininv" => .md
  | "deletetimers" => .timers
  | "fill" => .name
  | "replacenodes" => .name
  | _ => .nothing

/-- Each of two commands does the same, whether the other has been there before or not. -/
def Independent (a a' : InstArgs) : Prop := ∀ p v, edit a' p (edit a p v) = edit a p (edit a' p v)

end MapEditr.Spec
