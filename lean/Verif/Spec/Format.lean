import Verif.Model.MapBlock
/-!
# The block format, described independently of the reader and writer

A grammar: which byte strings are a length-prefixed string, a name table, a metadata list, ...,
and when the parts of a block fit their fields.  Nothing here mentions readers, cursors or errors.
-/

namespace MapEditr.Spec

/-- Big-endian digits. -/
def be16 (n : Nat) : Bytes := [UInt8.ofNat (n / 256), UInt8.ofNat n]
def be32 (n : Nat) : Bytes :=
  [UInt8.ofNat (n / 16777216), UInt8.ofNat (n / 65536), UInt8.ofNat (n / 256), UInt8.ofNat n]
/-- Two's complement. -/
def beI32 (n : Int) : Bytes := be32 (if n < 0 then (n + 4294967296).toNat else n.toNat)

/-- Strings with a 16-bit / 32-bit length. -/
def str16 (d : Bytes) : Bytes := be16 d.length ++ d
def str32 (d : Bytes) : Bytes := be32 d.length ++ d

/-- `EndInventory` and a newline. -/
def endInv : Bytes := "EndInventory\n".toList.map fun ch => UInt8.ofNat ch.toNat

/-- An inventory as it is delimited in a metadata list: it ends with the first `EndInventory\n`. -/
def Framed (inv : Bytes) : Prop :=
  ∃ pre, inv = pre ++ endInv ∧ ∀ i, i < pre.length → ¬ endInv <+: inv.drop i

/-- One metadata variable in the file: name, value, private byte (absent before version 2). -/
structure RawVar where
  name : Bytes
  val : Bytes
  priv : Nat

def RawVar.Fits (v : RawVar) : Prop :=
  v.name.length < 65536 ∧ v.val.length < 4294967296 ∧ v.priv < 256

def RawVar.bytes (ver : Nat) (v : RawVar) : Bytes :=
  str16 v.name ++ str32 v.val ++ (if 2 ≤ ver then [UInt8.ofNat v.priv] else [])

/-- One metadata entry in the file. -/
structure RawMeta where
  pos : Nat
  vars : List RawVar
  inv : Bytes

def RawMeta.Fits (m : RawMeta) : Prop :=
  m.pos < 65536 ∧ m.vars.length < 4294967296 ∧ (∀ v ∈ m.vars, v.Fits) ∧ Framed m.inv

def RawMeta.bytes (ver : Nat) (m : RawMeta) : Bytes :=
  be16 m.pos ++ be32 m.vars.length ++ m.vars.flatMap (RawVar.bytes ver) ++ m.inv

/-- A metadata list in the file. -/
structure RawMetaList where
  ver : Nat
  entries : List RawMeta

def RawMetaList.Fits (l : RawMetaList) : Prop :=
  l.ver ≤ 2 ∧ l.entries.length < 65536 ∧ (l.ver = 0 → l.entries = []) ∧ ∀ m ∈ l.entries, m.Fits

def RawMetaList.bytes (l : RawMetaList) : Bytes :=
  UInt8.ofNat l.ver ::
    (if l.ver = 0 then [] else be16 l.entries.length ++ l.entries.flatMap (RawMeta.bytes l.ver))

/-- The variables an entry stands for: the last one of a name counts; the private mark is a
non-zero byte. -/
def RawMeta.value (ver : Nat) (m : RawMeta) : NodeMeta :=
  ⟨m.vars.foldl (fun vs v => vs.insert v.name (v.val, decide (2 ≤ ver) && decide (v.priv ≠ 0))) [],
   m.inv⟩

def RawMetaList.value (l : RawMetaList) : MetaList :=
  l.entries.foldl (fun ms m => ms.insert m.pos (m.value l.ver)) []

/-- Static objects. -/
def ObjFits (o : StaticObject) : Prop :=
  o.objType < 256 ∧ (-2147483648 ≤ o.fPos.x ∧ o.fPos.x < 2147483648) ∧
  (-2147483648 ≤ o.fPos.y ∧ o.fPos.y < 2147483648) ∧
  (-2147483648 ≤ o.fPos.z ∧ o.fPos.z < 2147483648) ∧ o.data.length < 65536

def objBytes (o : StaticObject) : Bytes :=
  UInt8.ofNat o.objType :: (beI32 o.fPos.x ++ beI32 o.fPos.y ++ beI32 o.fPos.z ++ str16 o.data)

def ObjsFit (l : List StaticObject) : Prop := l.length < 65536 ∧ ∀ o ∈ l, ObjFits o
def objsBytes (l : List StaticObject) : Bytes := 0 :: (be16 l.length ++ l.flatMap objBytes)

/-- Node timers. -/
def TimerFits (t : NodeTimer) : Prop :=
  t.pos < 65536 ∧ t.timeout < 4294967296 ∧ t.elapsed < 4294967296

def timerBytes (t : NodeTimer) : Bytes := be16 t.pos ++ be32 t.timeout ++ be32 t.elapsed

def TimersFit (l : List NodeTimer) : Prop := l.length < 65536 ∧ ∀ t ∈ l, TimerFits t
def timersBytes (l : List NodeTimer) : Bytes := 10 :: (be16 l.length ++ l.flatMap timerBytes)

/-- Name table entries in the file; the last one of an ID counts. -/
def NameFits (e : Nat × Bytes) : Prop := e.1 < 65536 ∧ e.2.length < 65536
def nameBytes (e : Nat × Bytes) : Bytes := be16 e.1 ++ str16 e.2
def NamesFit (l : List (Nat × Bytes)) : Prop := l.length < 65536 ∧ ∀ e ∈ l, NameFits e
def namesBytes (l : List (Nat × Bytes)) : Bytes := 0 :: (be16 l.length ++ l.flatMap nameBytes)
def namesValue (l : List (Nat × Bytes)) : NameIdMap := l.foldl (fun m e => m.insert e.1 e.2) []

/-- Node arrays. -/
def NodesFit (nd : NodeData) : Prop :=
  nd.nodes.length = 4096 ∧ (∀ n ∈ nd.nodes, n < 65536) ∧ nd.param1.length = 4096 ∧
  nd.param2.length = 4096
def nodesBytes (nd : NodeData) : Bytes := nd.nodes.flatMap be16 ++ nd.param1 ++ nd.param2

/-! ## Blocks in memory -/

/-- Metadata of one node fits its fields. -/
structure MetaWf (m : NodeMeta) : Prop where
  sorted : SMap.Sorted m.vars
  count : m.vars.length < 4294967296
  names : ∀ e ∈ m.vars, e.1.length < 65536 ∧ e.2.1.length < 4294967296
  inv : Framed m.inv

/-- A metadata list fits its fields. -/
structure MetasWf (l : MetaList) : Prop where
  sorted : SMap.Sorted l
  count : l.length < 65536
  keys : ∀ e ∈ l, e.1 < 65536
  metas : ∀ e ∈ l, MetaWf e.2

/-- A name table fits its fields. -/
structure NimapWf (m : NameIdMap) : Prop where
  sorted : SMap.Sorted m
  fits : NamesFit m

/-- A block whose every part fits the format: what the program can represent and re-save. -/
structure Wf (b : MapBlock) : Prop where
  ver : 25 ≤ b.version ∧ b.version ≤ 29
  flags : b.flags < 256
  light : b.lighting < 65536
  light_old : b.version < 27 → b.lighting = 65535
  widths : b.contentWidth = 2 ∧ b.paramsWidth = 2
  nodes : NodesFit b.nd
  metas : MetasWf b.metas
  objs : ObjsFit b.objects
  time : b.timestamp < 4294967296
  nimap : NimapWf b.nimap
  timers : TimersFit b.timers

/-- Metadata with no variables and no inventory lists. -/
def MetaVoid (m : NodeMeta) : Prop := m.vars = [] ∧ m.inv = endInv

instance (m : NodeMeta) : Decidable (MetaVoid m) := inferInstanceAs (Decidable (_ ∧ _))

/-- Remove the metadata entries that hold nothing. -/
def dropVoid (l : MetaList) : MetaList := l.filter fun e => ¬ MetaVoid e.2

/-- Forget all private marks. -/
def publish (m : NodeMeta) : NodeMeta := ⟨m.vars.map fun e => (e.1, (e.2.1, false)), m.inv⟩

/-- What a saved block holds: void metadata is dropped, and blocks below version 28 have no
private marks. -/
def stored (b : MapBlock) : MapBlock :=
  { b with metas := if 28 ≤ b.version then dropVoid b.metas
                    else (dropVoid b.metas).map fun e => (e.1, publish e.2) }

/-- Some metadata variable is private. -/
def HasPrivate (b : MapBlock) : Prop := ∃ e ∈ b.metas, ∃ v ∈ e.2.vars, v.2.2 = true

/-- Versions below 28 have no private marks. -/
def Public (b : MapBlock) : Prop := b.version < 28 → ¬ HasPrivate b

end MapEditr.Spec
