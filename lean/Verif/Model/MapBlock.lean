import Verif.Model.ByteIO
import Verif.Model.SMap
import Verif.Model.Spatial
/-!
# The mapblock format

Models `src/map_block/{map_block,node_data,metadata,static_object,node_timer,name_id_map}.rs`.
`u8`/`u16`/`u32` values are `Nat`s; `MapBlock.Wf` records the ranges.
-/

namespace MapEditr

/-! ## Node data, `src/map_block/node_data.rs` -/

/-- `NODE_COUNT`, `src/map_block/node_data.rs:8-9`. -/
def NODE_COUNT : Nat := 4096

/-- `NodeData`, `src/map_block/node_data.rs:12-17`. -/
structure NodeData where
  nodes : List Nat
  param1 : Bytes
  param2 : Bytes
  deriving DecidableEq, Repr

/-- `BigEndian::read_u16_into`. -/
def u16sOf : Bytes → List Nat
  | a :: b :: t => (a.toNat * 256 + b.toNat) :: u16sOf t
  | _ => []

/-- `BigEndian::write_u16_into`. -/
def bytesOfU16s (l : List Nat) : Bytes := l.flatMap encU16

/-- `NodeData::deserialize`, `src/map_block/node_data.rs:20-37`. -/
def rdNodeData : P NodeData := fun s => do
  let (nb, s) ← rdN (NODE_COUNT * 2) s
  let (p1, s) ← rdN NODE_COUNT s
  let (p2, s) ← rdN NODE_COUNT s
  return (⟨u16sOf nb, p1, p2⟩, s)

/-- `NodeData::decompress`, `src/map_block/node_data.rs:39-55`. -/
def decompressNodeData (c : Codec) : P NodeData := fun s =>
  match c.zlibDec s with
  | none => badData
  | some (d, n) => do
    let (nd, left) ← rdNodeData d
    -- "Fail if there is leftover compressed data."
    if left.isEmpty then return (nd, s.drop n) else badData

/-- `NodeData::serialize`, `src/map_block/node_data.rs:57-66` (`write_u16_into` asserts that the
lengths agree). -/
def NodeData.serialize (nd : NodeData) : Wr := do
  rassert (nd.nodes.length == NODE_COUNT) "write_u16_into: lengths differ"
  return [.all (bytesOfU16s nd.nodes), .all nd.param1, .all nd.param2]

/-! ## Metadata, `src/map_block/metadata.rs` -/

/-- `END_STR`, `src/map_block/metadata.rs:12`. -/
def END_STR : Bytes := ascii "EndInventory\n"

/-- Contents of the `vars` hash map: name ↦ (value, private). -/
abbrev Vars := SMap Bytes (Bytes × Bool)

/-- `NodeMetadata`, `src/map_block/metadata.rs:16-19`. -/
structure NodeMeta where
  vars : Vars
  inv : Bytes
  deriving DecidableEq, Repr

/-- `NodeMetadataList`, `src/map_block/metadata.rs:82`. -/
abbrev MetaList := SMap Nat NodeMeta

/-- Iteration order of the `vars` hash map of the node with index `pos`: any permutation
(`HashMap` uses a random state). -/
abbrev VarOrd := Nat → Vars → Vars

/-- An iteration order visits every entry exactly once. -/
def VarOrd.Lawful (ord : VarOrd) : Prop := ∀ pos v, (ord pos v).Perm v

/-- The private mark, stored since metadata version 2, `src/map_block/metadata.rs:32-34`. -/
def rdPriv (version : Nat) : P Bool := fun s =>
  if version ≥ 2 then do
    let (p, s) ← rdU8 s
    return (decide (p ≠ 0), s)
  else .ok (false, s)

/-- Body of the variable loop, `src/map_block/metadata.rs:29-36`. -/
def rdVar (version : Nat) (vars : Vars) : P Vars := fun s => do
  let (name, s) ← rdStr16 s
  let (val, s) ← rdStr32 s
  let (priv, s) ← rdPriv version s
  return (vars.insert name (val, priv), s)

/-- `NodeMetadata::deserialize`, `src/map_block/metadata.rs:22-49`. -/
def rdMeta (version : Nat) : P NodeMeta := fun s => do
  let (varCount, s) ← rdU32 s
  let (vars, s) ← loopP (rdVar version) varCount [] s
  match searchIn END_STR s with
  | none => badData
  | some e => do
    let (inv, s) ← rdN (e + END_STR.length) s
    return (⟨vars, inv⟩, s)

/-- Body of the variable loop of `serialize`, `src/map_block/metadata.rs:54-60`. -/
def wrVar (version : Nat) (v : Bytes × (Bytes × Bool)) : Wr := do
  let a ← wrStr16 v.1
  let b ← wrStr32 v.2.1
  let p := if version ≥ 2 then wrAll (encU8 (if v.2.2 then 1 else 0)) else []
  return a ++ b ++ p

/-- `NodeMetadata::serialize`, `src/map_block/metadata.rs:51-63`; `ord` is the hash-map order. -/
def NodeMeta.serialize (m : NodeMeta) (ord : Vars → Vars) (version : Nat) : Wr := do
  let vs ← wrEach (wrVar version) (ord m.vars)
  return wrAll (encU32 m.vars.length) ++ vs ++ wrAll m.inv

/-- `NodeMetadata::is_empty`, `src/map_block/metadata.rs:66-68`. -/
def NodeMeta.isEmpty (m : NodeMeta) : Bool := m.vars.isEmpty && END_STR.isPrefixOf m.inv

/-- Body of the loop, `src/map_block/metadata.rs:97-101`. -/
def rdMetaEntry (version : Nat) (l : MetaList) : P MetaList := fun s => do
  let (pos, s) ← rdU16 s
  let (m, s) ← rdMeta version s
  return (l.insert pos m, s)

/-- Number of entries, absent in version 0, `src/map_block/metadata.rs:91-94`. -/
def rdMetaCount (version : Nat) : P Nat := fun s =>
  if version = 0 then .ok (0, s) else rdU16 s

/-- `NodeMetadataList::deserialize`, `src/map_block/metadata.rs:85-104`. -/
def rdMetaList : P MetaList := fun s => do
  let (version, s) ← rdU8 s
  if version > 2 then .error (.err .invalidSubVersion)
  else do
    let (count, s) ← rdMetaCount version s
    loopP (rdMetaEntry version) count [] s

/-- `NodeMetadataList::decompress`, `src/map_block/metadata.rs:106-125`.  The check for leftover
compressed data never triggers, because the decoder was already read to its end; bytes of the
decompressed buffer after the list are ignored. -/
def decompressMetaList (c : Codec) : P MetaList := fun s =>
  match c.zlibDec s with
  | none => badData
  | some (d, n) => do
    let (l, _) ← rdMetaList d
    return (l, s.drop n)

/-- Body of the loop of `serialize`, `src/map_block/metadata.rs:137-142`. -/
def wrMetaEntry (ord : VarOrd) (version : Nat) (e : Nat × NodeMeta) : Wr :=
  if e.2.isEmpty then .ok []
  else do
    let m ← e.2.serialize (ord e.1) version
    return wrAll (encU16 e.1) ++ m

/-- `NodeMetadataList::serialize`, `src/map_block/metadata.rs:127-144`. -/
def wrMetaList (ord : VarOrd) (l : MetaList) (blockVersion : Nat) : Wr :=
  let count := (l.filter fun e => !e.2.isEmpty).length
  if count = 0 then .ok (wrAll (encU8 0))
  else do
    let version := if blockVersion ≥ 28 then 2 else 1
    let es ← wrEach (wrMetaEntry ord version) l
    return wrAll (encU8 version) ++ wrAll (encU16 count) ++ es

/-! ## Static objects, `src/map_block/static_object.rs` -/

/-- `StaticObject`, `src/map_block/static_object.rs:7-11`. -/
structure StaticObject where
  objType : Nat
  fPos : Vec3
  data : Bytes
  deriving DecidableEq, Repr

/-- `StaticObject::deserialize`, `src/map_block/static_object.rs:14-23`. -/
def rdObject : P StaticObject := fun s => do
  let (ty, s) ← rdU8 s
  let (x, s) ← rdI32 s
  let (y, s) ← rdI32 s
  let (z, s) ← rdI32 s
  let (data, s) ← rdStr16 s
  return (⟨ty, ⟨x, y, z⟩, data⟩, s)

/-- `StaticObject::serialize`, `src/map_block/static_object.rs:25-31`. -/
def wrObject (o : StaticObject) : Wr := do
  let d ← wrStr16 o.data
  return wrAll (encU8 o.objType) ++ wrAll (encI32 o.fPos.x) ++ wrAll (encI32 o.fPos.y)
    ++ wrAll (encI32 o.fPos.z) ++ d

/-- `deserialize_objects`, `src/map_block/static_object.rs:38-54`. -/
def rdObjects : P (List StaticObject) := fun s => do
  let (version, s) ← rdU8 s
  if version ≠ 0 then .error (.err .invalidSubVersion)
  else do
    let (count, s) ← rdU16 s
    loopP (fun l s => do let (o, s) ← rdObject s; return (l ++ [o], s)) count [] s

/-- `serialize_objects`, `src/map_block/static_object.rs:57-64`. -/
def wrObjects (l : List StaticObject) : Wr := do
  let os ← wrEach wrObject l
  return wrAll (encU8 0) ++ wrAll (encU16 l.length) ++ os

/-- `LuaEntityData`, `src/map_block/static_object.rs:71-74`. -/
structure LuaEntity where
  name : Bytes
  data : Bytes
  deriving DecidableEq, Repr

/-- `LuaEntityData::deserialize`, `src/map_block/static_object.rs:77-90`. -/
def LuaEntity.deserialize (o : StaticObject) : Res LuaEntity := do
  if o.objType ≠ 7 then .error (.err .invalidFeature)
  else do
    let (v, s) ← rdU8 o.data
    if v ≠ 1 then .error (.err .invalidSubVersion)
    else do
      let (name, s) ← rdStr16 s
      let (data, _) ← rdStr32 s
      return ⟨name, data⟩

/-! ## Node timers, `src/map_block/node_timer.rs` -/

/-- `NodeTimer`, `src/map_block/node_timer.rs:6-10`. -/
structure NodeTimer where
  pos : Nat
  timeout : Nat
  elapsed : Nat
  deriving DecidableEq, Repr

/-- Body of the loop, `src/map_block/node_timer.rs:28-33`. -/
def rdTimer : P NodeTimer := fun s => do
  let (pos, s) ← rdU16 s
  let (timeout, s) ← rdU32 s
  let (elapsed, s) ← rdU32 s
  return (⟨pos, timeout, elapsed⟩, s)

/-- `deserialize_timers`, `src/map_block/node_timer.rs:16-36`. -/
def rdTimers : P (List NodeTimer) := fun s => do
  let (len, s) ← rdU8 s
  if len ≠ 10 then .error (.err .invalidFeature)
  else do
    let (count, s) ← rdU16 s
    loopP (fun l s => do let (t, s) ← rdTimer s; return (l ++ [t], s)) count [] s

/-- Body of the loop, `src/map_block/node_timer.rs:43-47`. -/
def wrTimer (t : NodeTimer) : Wr :=
  .ok (wrAll (encU16 t.pos) ++ wrAll (encU32 t.timeout) ++ wrAll (encU32 t.elapsed))

/-- `serialize_timers`, `src/map_block/node_timer.rs:39-48`. -/
def wrTimers (l : List NodeTimer) : Wr := do
  let ts ← wrEach wrTimer l
  return wrAll (encU8 10) ++ wrAll (encU16 l.length) ++ ts

/-! ## Name-ID map, `src/map_block/name_id_map.rs` -/

/-- `NameIdMap`, `src/map_block/name_id_map.rs:9`. -/
abbrev NameIdMap := SMap Nat Bytes

/-- Body of the loop, `src/map_block/name_id_map.rs:21-25`. -/
def rdNimapEntry (m : NameIdMap) : P NameIdMap := fun s => do
  let (id, s) ← rdU16 s
  let (name, s) ← rdStr16 s
  return (m.insert id name, s)

/-- `NameIdMap::deserialize`, `src/map_block/name_id_map.rs:12-28`. -/
def rdNimap : P NameIdMap := fun s => do
  let (version, s) ← rdU8 s
  if version ≠ 0 then .error (.err .invalidSubVersion)
  else do
    let (count, s) ← rdU16 s
    loopP rdNimapEntry count [] s

/-- Body of the loop, `src/map_block/name_id_map.rs:34-37`. -/
def wrNimapEntry (e : Nat × Bytes) : Wr := do
  let n ← wrStr16 e.2
  return wrAll (encU16 e.1) ++ n

/-- `NameIdMap::serialize`, `src/map_block/name_id_map.rs:30-38`. -/
def wrNimap (m : NameIdMap) : Wr := do
  let es ← wrEach wrNimapEntry m
  return wrAll (encU8 0) ++ wrAll (encU16 m.length) ++ es

/-- `NameIdMap::get_id`, `src/map_block/name_id_map.rs:41-45`: the least ID with that name. -/
def NameIdMap.getId (m : NameIdMap) (name : Bytes) : Option Nat :=
  match m with
  | [] => none
  | (k, v) :: t => if v == name then some k else NameIdMap.getId t name

/-- `NameIdMap::get_max_id`, `src/map_block/name_id_map.rs:48-50`. -/
def NameIdMap.maxId (m : NameIdMap) : Option Nat := m.getLast?.map (·.1)

/-- Body of the loop of `remove_shift`, `src/map_block/name_id_map.rs:56-58`.  `k - 1` wraps for
`k = 0`, which is reached only in release builds (see `removeShift`). -/
def NameIdMap.shiftOne (m : NameIdMap) (k : Nat) : NameIdMap :=
  match SMap.get? m k with
  | some name => (SMap.erase m k).insert ((k + 65535) % 65536) name
  | none => m

/-- `NameIdMap::remove_shift`, `src/map_block/name_id_map.rs:53-60`.  The range bound is evaluated
once, after the removal; `id + 1` can overflow only for `id = 65535`. -/
def NameIdMap.removeShift (b : Build) (m : NameIdMap) (id : Nat) : Res NameIdMap := do
  let m := SMap.erase m id
  let lo ← u16 b (id + 1)
  let hi := (NameIdMap.maxId m).getD 0
  return ((List.range' lo (hi + 1 - lo)).foldl NameIdMap.shiftOne m)

/-! ## Mapblock, `src/map_block/map_block.rs` -/

/-- `MapBlock`, `src/map_block/map_block.rs:44-56`. -/
structure MapBlock where
  version : Nat
  flags : Nat
  lighting : Nat
  contentWidth : Nat
  paramsWidth : Nat
  nd : NodeData
  metas : MetaList
  objects : List StaticObject
  timestamp : Nat
  nimap : NameIdMap
  timers : List NodeTimer
  deriving DecidableEq, Repr

/-- `is_valid_generated`, `src/map_block/map_block.rs:18-40`. -/
def isValidGenerated (c : Codec) (src : Bytes) : Bool :=
  match src with
  | v :: f :: t =>
    if v.toNat < 25 ∨ v.toNat > 29 then false
    else if v.toNat ≥ 29 then
      match c.zstdHead (f :: t) with
      | some fl => fl &&& 8 == 0
      | none => false
    else f &&& 8 == 0
  | _ => false

/-- Lighting flags, stored since version 27, `src/map_block/map_block.rs:76-78`. -/
def rdLight (version : Nat) : P Nat := fun s =>
  if version ≥ 27 then rdU16 s else .ok (0xFFFF, s)

/-- `MapBlock::deserialize` for versions 25..28: everything after the version byte,
`src/map_block/map_block.rs:75-130` with `version < 29`. -/
def rdBody28 (c : Codec) (version : Nat) (s : Bytes) : Res MapBlock := do
  let (flags, s) ← rdU8 s
  let (lighting, s) ← rdLight version s
  let (cw, s) ← rdU8 s
  let (pw, s) ← rdU8 s
  if cw ≠ 2 ∨ pw ≠ 2 then .error (.err .invalidFeature)
  else do
    let (nd, s) ← decompressNodeData c s
    let (metas, s) ← decompressMetaList c s
    let (objects, s) ← rdObjects s
    let (timestamp, s) ← rdU32 s
    let (nimap, s) ← rdNimap s
    let (timers, _) ← rdTimers s
    return { version, flags, lighting, contentWidth := cw, paramsWidth := pw, nd, metas, objects,
             timestamp, nimap, timers }

/-- `MapBlock::deserialize` for version 29: the decompressed data,
`src/map_block/map_block.rs:75-130` with `version >= 29`. -/
def rdBody29 (version : Nat) (s : Bytes) : Res MapBlock := do
  let (flags, s) ← rdU8 s
  let (lighting, s) ← rdU16 s
  let (timestamp, s) ← rdU32 s
  let (nimap, s) ← rdNimap s
  let (cw, s) ← rdU8 s
  let (pw, s) ← rdU8 s
  if cw ≠ 2 ∨ pw ≠ 2 then .error (.err .invalidFeature)
  else do
    let (nd, s) ← rdNodeData s
    let (metas, s) ← rdMetaList s
    let (objects, s) ← rdObjects s
    let (timers, _) ← rdTimers s
    return { version, flags, lighting, contentWidth := cw, paramsWidth := pw, nd, metas, objects,
             timestamp, nimap, timers }

/-- `MapBlock::deserialize`, `src/map_block/map_block.rs:59-131`.  The interleaved tests of
`version >= 29` are separated into `rdBody28` and `rdBody29`. -/
def deserialize (c : Codec) (src : Bytes) : Res MapBlock := do
  let (version, s) ← rdU8 src
  if version < 25 ∨ version > 29 then .error (.err .invalidBlockVersion)
  else if version ≥ 29 then
    match c.zstdDec s with
    | none => badData
    | some d => rdBody29 version d
  else rdBody28 c version s

/-- `MapBlock::serialize` for version 29, the data given to the encoder,
`src/map_block/map_block.rs:146-155`. -/
def wrBody29 (ord : VarOrd) (b : MapBlock) : Wr := do
  let ni ← wrNimap b.nimap
  let nd ← b.nd.serialize
  let ml ← wrMetaList ord b.metas b.version
  let os ← wrObjects b.objects
  let ts ← wrTimers b.timers
  return wrAll (encU8 b.flags) ++ wrAll (encU16 b.lighting) ++ wrAll (encU32 b.timestamp) ++ ni
    ++ wrAll (encU8 b.contentWidth) ++ wrAll (encU8 b.paramsWidth) ++ nd ++ ml ++ os ++ ts

/-- `MapBlock::serialize` for versions 25..28, `src/map_block/map_block.rs:159-172`.
`NodeData::compress` and `NodeMetadataList::compress` run their writer into an encoder. -/
def wrBody28 (c : Codec) (ord : VarOrd) (b : MapBlock) : Res Bytes := do
  let nd ← b.nd.serialize
  let ml ← wrMetaList ord b.metas b.version
  let os ← wrObjects b.objects
  let ni ← wrNimap b.nimap
  let ts ← wrTimers b.timers
  return encU8 b.flags ++ (if b.version ≥ 27 then encU16 b.lighting else [])
    ++ encU8 b.contentWidth ++ encU8 b.paramsWidth
    ++ c.zlibEnc (c.emit nd) ++ c.zlibEnc (c.emit ml)
    ++ flat os ++ encU32 b.timestamp ++ flat ni ++ flat ts

/-- `MapBlock::serialize`, `src/map_block/map_block.rs:133-178`. -/
def serialize (c : Codec) (ord : VarOrd) (b : MapBlock) : Res Bytes := do
  rassert (decide (25 ≤ b.version ∧ b.version ≤ 29)) "Invalid mapblock version."
  if b.version ≥ 29 then do
    let body ← wrBody29 ord b
    return encU8 b.version ++ c.zstdEnc (c.emit body)
  else do
    let body ← wrBody28 c ord b
    return encU8 b.version ++ body

end MapEditr
