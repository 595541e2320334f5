import Verif.Spec.Session
import Verif.Spec.Copy
import Verif.Spec.Oracle
/-!
# What every command means

A map is a partial function from positions to nodes, and a command makes another such function of it.
Nothing is said here about blocks being stored, numbered or compressed; that nodes are grouped in blocks of
16 x 16 x 16 matters only for blocks that are removed or replaced as a whole, and for what is beside the nodes.
-/

namespace MapEditr.Spec
open MapEditr

instance (m : Int) (p : Vec3) : Decidable (Within m p) := by unfold Within; infer_instance

/-- A map as its nodes. -/
abbrev Nodes := Vec3 → Option NodeView

open Classical in
/-- The nodes of a map (there is at most one at each position, see C94). -/
noncomputable def nodesOf (c : Codec) (t : Table) : Nodes := fun p =>
  if h : ∃ v, HasNode c t p v then some (Classical.choose h) else none

/-- All nodes of the block of `p` are selected. -/
def blockWhole (area : Option Area) (invert : Bool) (p : Vec3) : Bool :=
  (List.range 4096).all fun i => Selected area invert (posAt (blockOf p) i)

/-- No node of the block of `p` is selected. -/
def blockSpared (area : Option Area) (invert : Bool) (p : Vec3) : Bool :=
  (List.range 4096).all fun i => ¬ Selected area invert (posAt (blockOf p) i)

/-- The node at `p` after nodes of `S` have been moved by `o` into `W`: nodes only change where there is
one before.  Timers do not move. -/
def copiedNode (area : Option Area) (o : Vec3) (S W : Nodes) (p : Vec3) : Option NodeView :=
  match W p with
  | none => none
  | some v =>
    -- source blocks beyond ±1937 are not read (see `C47_false`, `C51_false`)
    if Selected area false (unshift p o) ∧ Within 1937 (blockOf (unshift p o)) then
      match S (unshift p o) with
      | some u => some { u with timers := v.timers }
      | none => some v
    else some v

/-- The node at `p` after `S` has been laid over `W`.  Blocks that are selected as a whole are replaced or
added; in blocks selected in part, nodes change where there is one in both maps. -/
def laidNode (area : Option Area) (invert : Bool) (S W : Nodes) (p : Vec3) : Option NodeView :=
  if blockWhole area invert p then
    match S p with
    | some u => some u
    | none => W p
  else if blockSpared area invert p then W p
  else
    match S p, W p with
    | some u, some v =>
      some { (if Selected area invert p then u else v) with timers := if invert then u.timers else v.timers }
    | _, w => w

/-- What the command makes of the map `W`; `S` is the map given as input. -/
def meaning (args : InstArgs) (S W : Nodes) : Nodes := fun p =>
  match args.command with
  | "clone" => copiedNode args.area (args.offset.getD ⟨0, 0, 0⟩) W W p
  | "overlay" =>
    if args.offset.getD ⟨0, 0, 0⟩ = ⟨0, 0, 0⟩ then laidNode args.area args.invert S W p
    else copiedNode args.area (args.offset.getD ⟨0, 0, 0⟩) S W p
  | "deleteblocks" => if blockWhole args.area args.invert p then none else W p
  | _ => (W p).map (edit args p)

/-- The command has something to do at `p`, if there is a node. -/
def Touches (args : InstArgs) (p : Vec3) : Prop :=
  match args.command with
  | "clone" => Selected args.area false (unshift p (args.offset.getD ⟨0, 0, 0⟩))
  | "overlay" =>
    if args.offset.getD ⟨0, 0, 0⟩ = ⟨0, 0, 0⟩ then ∃ q, InBlock (blockOf p) q ∧ Selected args.area args.invert q
    else Selected args.area false (unshift p (args.offset.getD ⟨0, 0, 0⟩))
  | _ => Selected args.area args.invert p

/-- The commands with a meaning here: all but `replaceininv`. -/
def execCommands : List String := "clone" :: "overlay" :: nodeCommands

/-- Arguments as the command line gives them. -/
structure ExecArgs (args : InstArgs) : Prop where
  command : args.command ∈ execCommands
  needs : Needs args
  area : AreaOk args.area
  /-- names fit into the map -/
  name : ∀ n, args.newNode = some n → (toBytes n).length < 65536

/-- Blocks as present-day Minetest writes them: every ID has one name and every name one ID, the block has been
generated, its version is 28 or 29, and metadata belongs to nodes. -/
structure Usual (K : Nat) (b : MapBlock) : Prop where
  fine : Fine K b
  gen : Generated b
  modern : 28 ≤ b.version
  room : MetaRoom b

/-- A map given as input: all its blocks can be read. -/
structure Source (c : Codec) (K : Nat) (s : Table) : Prop where
  good : GoodTable s
  usual : AllBlocks c s (Usual K)
  readable : ∀ r ∈ s, ∃ b, Represents c r.2 b

/-- A run of the program that ended normally.  `s` is the map given as input, if the command needs one; then
and for `clone` no statement fails. -/
def Ran (c : Codec) (args : InstArgs) (s t t' : Table) : Prop :=
  ∃ env evs, EnvOk env ∧ env.codec = c ∧ Completes env args t t' evs ∧
    (args.command = "clone" ∨ args.command = "overlay" → DbWorks env args) ∧
    (args.command = "overlay" → ∃ p g, args.inputMapPath = some p ∧ mapFile env p = some g ∧ g.table = s)

/-- Several runs, one after the other, on the same map, each with a map given as input. -/
inductive RanAll (c : Codec) : List (InstArgs × Table) → Table → Table → Prop
  | nil : RanAll c [] t t
  | cons : Ran c args s t t' → RanAll c l t' t'' → RanAll c ((args, s) :: l) t t''

end MapEditr.Spec
