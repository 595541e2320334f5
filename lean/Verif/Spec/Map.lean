import Verif.Spec.BlockData
import Verif.Spec.Nodes
import Verif.Model.Instance
/-!
# What a map is, and what it means that a run edits it

A map file is a list of rows (key, data).  These definitions say which nodes a command line selects,
what a completed run is, and how two maps correspond.
-/

namespace MapEditr.Spec
open MapEditr

/-- Node `p` is selected: inside the area, or with `invert` outside; without area, every node is. -/
def Selected (area : Option Area) (invert : Bool) (p : Vec3) : Prop :=
  match area with
  | none => True
  | some a => InBox a.min a.max p ↔ invert = false

instance (area : Option Area) (invert : Bool) (p : Vec3) : Decidable (Selected area invert p) := by
  unfold Selected; split <;> infer_instance

/-- The least corner is below the greatest one (areas made from two corners are, see C03). -/
def AreaOk (area : Option Area) : Prop := ∀ a, area = some a → a.isValid = true

/-- A table as Minetest keeps it: keys are unique and belong to blocks of the map. -/
structure GoodTable (t : Table) : Prop where
  nodup : (t.map (·.1)).Nodup
  valid : ∀ r ∈ t, ValidKey r.1

instance {t : Table} : Coe (GoodTable t) (t.map (·.1)).Nodup := ⟨GoodTable.nodup⟩

/-- Node number `i` of the block at `bp`. -/
def posAt (bp : Vec3) (i : Nat) : Vec3 :=
  ⟨bp.x * 16 + ((i % 16 : Nat) : Int), bp.y * 16 + ((i / 16 % 16 : Nat) : Int),
   bp.z * 16 + ((i / 256 : Nat) : Int)⟩

/-- The numbers below 4096 satisfying `P`, counted. -/
def countNodes (P : Nat → Prop) [DecidablePred P] : Nat := ((List.range 4096).filter fun i => P i).length

/-- `bs` are the readable blocks of `t`, with their keys, in row order. -/
inductive Readable (c : Codec) : Table → List (Int × MapBlock) → Prop
  | nil : Readable c [] []
  | good : Represents c d b → Readable c t bs → Readable c ((k, d) :: t) ((k, b) :: bs)
  | bad : (∀ b, ¬ Represents c d b) → Readable c t bs → Readable c ((k, d) :: t) bs

/-- `bs` are the readable blocks of `t`, with their positions, in row order. -/
def Listed (c : Codec) (t : Table) (bs : List (Vec3 × MapBlock)) : Prop :=
  Readable c t (bs.map fun e => (keyOf e.1, e.2)) ∧ ∀ e ∈ bs, ValidBlockPos e.1

/-- Map `i` is open in its transaction, and holds `t`. -/
def OpenMap (w : World) (i : DbId) (t : Table) : Prop :=
  ∃ m, w.dbs i = some m ∧ m.conn.cur = t ∧ m.conn.inTx = true ∧ m.inTransaction = true

/-- The assumptions on the libraries: compression contract, encoders accept whole buffers, hash maps
are iterated in some order that lists every entry once. -/
structure EnvOk (env : Env) : Prop where
  codec : env.codec.Lawful
  full : env.codec.FullWrites
  ord : ∀ n, (env.ord n).Lawful

/-- A run of the program that ended normally ("Done."): the main map held `t` before and holds `t'`
afterwards, and the messages in `evs` were sent. -/
def Completes (env : Env) (args : InstArgs) (t t' : Table) (evs : List Event) : Prop :=
  ∃ f w m, mapFile env args.mapPath = some f ∧ f.table = t ∧
    computeThread env args World.start = (.ok (.ok ()), w) ∧ w.events = evs ∧
    .log .info (.text "Done.") ∈ evs ∧ w.dbs .main = some m ∧ m.conn.durable = t'

/-- The run reported exactly this number. -/
def Reported (evs : List Event) (what : String) (n : Nat) : Prop :=
  .log .info (.count what n) ∈ evs ∧ ∀ m, .log .info (.count what m) ∈ evs → m = n

/-- `t'` is `t` with readable blocks changed as `R` says; unreadable blocks, and blocks without a
selected node, keep their exact bytes; no block appears or disappears. -/
structure Edited (c : Codec) (area : Option Area) (invert : Bool) (t t' : Table)
    (R : Vec3 → MapBlock → MapBlock → Prop) : Prop where
  nodup : (t'.map (·.1)).Nodup
  keys : ∀ k, k ∈ t'.map (·.1) ↔ k ∈ t.map (·.1)
  bad : ∀ k d, (k, d) ∈ t → (∀ b, ¬ Represents c d b) → (k, d) ∈ t'
  outside : ∀ bp d, ValidBlockPos bp → (keyOf bp, d) ∈ t →
    (∀ p, InBlock bp p → ¬ Selected area invert p) → (keyOf bp, d) ∈ t'
  good : ∀ bp d b, ValidBlockPos bp → (keyOf bp, d) ∈ t → Represents c d b →
    ∃ d' b', (keyOf bp, d') ∈ t' ∧ Represents c d' b' ∧ R bp b b'

/-- Block data with a name table in order. -/
def TidyData (c : Codec) (d : Bytes) : Prop := ∃ b, Represents c d b ∧ Tidy b

/-- Every readable block satisfies `P`. -/
def AllBlocks (c : Codec) (t : Table) (P : MapBlock → Prop) : Prop :=
  ∀ k d b, (k, d) ∈ t → Represents c d b → P b

/-! ## Parts of a block that stay the same -/

/-- Metadata as it is after the block has been saved again: the same, except that block versions
below 28 cannot store private marks. -/
def SavedMeta (b : MapBlock) (m m' : Option NodeMeta) : Prop :=
  m' = m ∨ (b.version < 28 ∧ m' = m.map publish)

/-- All metadata stays the same. -/
def SameMeta (b b' : MapBlock) : Prop := ∀ i, SavedMeta b (metaOf b i) (metaOf b' i)

/-- Version, flags, lighting and timestamp stay the same. -/
def SameHead (b b' : MapBlock) : Prop :=
  b'.version = b.version ∧ b'.flags = b.flags ∧ b'.lighting = b.lighting ∧
  b'.timestamp = b.timestamp

/-- All node names stay the same. -/
def SameNames (b b' : MapBlock) : Prop := ∀ i, nodeName b' i = nodeName b i

/-- Everything but the nodes' names and IDs stays the same. -/
def SameButNodes (b b' : MapBlock) : Prop :=
  SameHead b b' ∧ SameMeta b b' ∧ b'.objects = b.objects ∧ b'.timers = b.timers ∧
  b'.nd.param1 = b.nd.param1 ∧ b'.nd.param2 = b.nd.param2

/-! ## Nodes chosen by name -/

/-- No two IDs have the same name. -/
def UniqueNames (b : MapBlock) : Prop :=
  ∀ i j n, SMap.get? b.nimap i = some n → SMap.get? b.nimap j = some n → i = j

/-- Node number `i` has the given name; if none is given, any node will do. -/
def IsNode (b : MapBlock) (node : Option Bytes) (i : Nat) : Prop :=
  ∀ n, node = some n → nodeName b i = some n

/-- Node number `i` has one of the given names; if none is given, any node will do. -/
def AmongNodes (b : MapBlock) (nodes : List Bytes) (i : Nat) : Prop :=
  nodes = [] ∨ ∃ n ∈ nodes, nodeName b i = some n

/-- `id` is the least ID with the name `n`. -/
def FirstId (b : MapBlock) (n : Bytes) (id : Nat) : Prop :=
  SMap.get? b.nimap id = some n ∧ ∀ j, j < id → SMap.get? b.nimap j ≠ some n

/-- Node number `i` has the least ID with the given name; if none is given, any node will do.  The
same as `IsNode` where no name is twice in the table. -/
def IsFirst (b : MapBlock) (node : Option Bytes) (i : Nat) : Prop :=
  ∀ n, node = some n → ∃ id, b.nd.nodes[i]? = some id ∧ FirstId b n id

/-- Node number `i` has the least ID with one of the given names; if none is given, any node will do. -/
def AmongFirst (b : MapBlock) (nodes : List Bytes) (i : Nat) : Prop :=
  nodes = [] ∨ ∃ n ∈ nodes, ∃ id, b.nd.nodes[i]? = some id ∧ FirstId b n id

instance (b : MapBlock) (n : Bytes) (id : Nat) : Decidable (FirstId b n id) :=
  inferInstanceAs (Decidable (_ ∧ _))

instance (b : MapBlock) (n : Bytes) (i : Nat) : Decidable (∃ id, b.nd.nodes[i]? = some id ∧ FirstId b n id) :=
  match b.nd.nodes[i]? with
  | none => .isFalse fun ⟨_, h, _⟩ => nomatch h
  | some id =>
    if h : FirstId b n id then .isTrue ⟨id, rfl, h⟩
    else .isFalse fun ⟨_, h1, h2⟩ => h (Option.some.inj h1 ▸ h2)

instance (b : MapBlock) (node : Option Bytes) (i : Nat) : Decidable (IsFirst b node i) :=
  match node with
  | none => .isTrue (by intro n h; cases h)
  | some n =>
    if h : ∃ id, b.nd.nodes[i]? = some id ∧ FirstId b n id then .isTrue (by intro m hm; cases hm; exact h)
    else .isFalse fun hc => h (hc n rfl)

instance (b : MapBlock) (nodes : List Bytes) (i : Nat) : Decidable (AmongFirst b nodes i) := by
  unfold AmongFirst; infer_instance

instance (b : MapBlock) (node : Option Bytes) (i : Nat) : Decidable (IsNode b node i) :=
  match node with
  | none => .isTrue (by intro n h; cases h)
  | some n =>
    if h : nodeName b i = some n then .isTrue (by intro m hm; cases hm; exact h)
    else .isFalse fun hc => h (hc n rfl)

instance (b : MapBlock) (nodes : List Bytes) (i : Nat) : Decidable (AmongNodes b nodes i) := by
  unfold AmongNodes; infer_instance

/-! ## Parts of a block beside the nodes -/

/-- Metadata belongs to nodes of the block. -/
def MetaInside (b : MapBlock) : Prop := ∀ e ∈ b.metas, e.1 < 4096

/-- Timers belong to nodes of the block. -/
def TimersInside (b : MapBlock) : Prop := ∀ t ∈ b.timers, t.pos < 4096

/-- Nodes, parameters and their names stay the same. -/
def SameNodes (b b' : MapBlock) : Prop := b'.nd = b.nd ∧ b'.nimap = b.nimap

/-- `l'` is `l` without the elements satisfying `P`, in the same order. -/
inductive Without (P : α → Prop) : List α → List α → Prop
  | nil : Without P [] []
  | drop : P a → Without P l l' → Without P (a :: l) l'
  | keep : ¬ P a → Without P l l' → Without P (a :: l) (a :: l')

end MapEditr.Spec
