import Verif.Model.MapBlock
import Verif.Model.Machine
/-!
# The decoder with its buffers and positions

A second rendering of `src/map_block/*.rs`, closer to the machine than `Model/ByteIO` and `Model/MapBlock`:

* a cursor is a slice and a position, and positions are `usize`/`u64` (`src/map_block/mod.rs:56`,
  `src/map_block/metadata.rs:42,107,122`, `src/map_block/node_data.rs:40,52`);
* `vec_with_len` (`src/map_block/mod.rs:43-47`, `unsafe`) gives a buffer that holds whatever was in memory;
* a decompressor gives out its data in pieces of any size;
* sizes of buffers and capacities asked for are recorded.

C106 shows that none of this matters.
-/

namespace MapEditr.Raw

/-- `Cursor<&[u8]>`. -/
structure Cur where
  data : Bytes
  pos : Nat
  deriving DecidableEq, Repr

/-- The bytes not yet read: none, if the position is past the end. -/
def Cur.rest (c : Cur) : Bytes := c.data.drop c.pos

/-- A `ZlibDecoder` in use: what it will still give out, and at the end `total_in()`, or an I/O error. -/
structure Zlib where
  left : Bytes
  fin : Option Nat
  deriving DecidableEq, Repr

/-- What has been asked of memory. -/
structure Heap where
  /-- Sizes in bytes of the buffers made by `vec_with_len`, in order. -/
  bufs : List Nat := []
  /-- Capacities, in entries, of collections made by `with_capacity`. -/
  caps : List Nat := []
  /-- Bytes that came out of a decompressor into a buffer of its own. -/
  inflated : Nat := 0
  /-- Calls of `read` on a decompressor. -/
  reads : Nat := 0
  deriving DecidableEq, Repr

/-- What the program has no say in. -/
structure Outside where
  build : Build
  codec : Codec
  /-- What uninitialised memory holds: byte `i` of the `k`-th buffer. -/
  junk : Nat → Nat → UInt8
  /-- How many bytes the `k`-th `read` of a decompressor gives at most (at least one, if there are any). -/
  cut : Nat → Nat
  /-- How much room `read_to_end` offers at the `k`-th `read` (at least one byte). -/
  room : Nat → Nat
  /-- What a decompressor gives out before it fails. -/
  early : Bytes → Bytes

/-- Functions with a reader `ρ`. -/
def M (ρ : Type) (α : Type) : Type := ρ → Heap → Res α × ρ × Heap

instance : Monad (M ρ) where
  pure a := fun r h => (.ok a, r, h)
  bind m f := fun r h => match m r h with
    | (.ok a, r, h) => f a r h
    | (.error e, r, h) => (.error e, r, h)

/-- A result that needs no reader. -/
def lift (x : Res α) : M ρ α := fun r h => (x, r, h)

/-- `Err(e)`. -/
def fail (e : MbErr) : M ρ α := lift (.error (.err e))

/-- `if c { m } else { m' }` as the value of a variable. -/
def either (c : Bool) (m m' : M ρ α) : M ρ α := if c then m else m'

/-- The reader itself. -/
def reader : M ρ ρ := fun r h => (.ok r, r, h)

/-! ## Memory -/

/-- `vec_with_len::<u8>`, `src/map_block/mod.rs:43-47`: memory as it is. -/
def vecWithLen (o : Outside) (n : Nat) : M ρ Bytes := fun r h =>
  (.ok ((List.range n).map (o.junk h.bufs.length)), r, { h with bufs := h.bufs ++ [n] })

/-- `vec_with_len::<u16>`. -/
def vecWithLen16 (o : Outside) (n : Nat) : M ρ (List Nat) := fun r h =>
  (.ok ((List.range n).map fun i => (o.junk h.bufs.length (2 * i)).toNat * 256 + (o.junk h.bufs.length (2 * i + 1)).toNat), r,
    { h with bufs := h.bufs ++ [2 * n] })

/-- `Vec::with_capacity`, `HashMap::with_capacity`. -/
def withCapacity (n : Nat) : M ρ Unit := fun r h => (.ok (), r, { h with caps := h.caps ++ [n] })

/-- A buffer after its beginning was overwritten. -/
def copyInto (buf bs : Bytes) : Bytes := bs ++ buf.drop bs.length

/-! ## Readers -/

/-- `Cursor::read_exact`: fills the buffer, or fails. -/
def readExact (buf : Bytes) : M Cur Bytes := fun c h =>
  if c.rest.length < buf.length then (badData, c, h)
  else (.ok (copyInto buf (c.rest.take buf.length)), { c with pos := c.pos + buf.length }, h)

/-- One `read` of a decompressor into a buffer of `n` bytes: what it puts at the beginning of it. -/
def readSome (o : Outside) (n : Nat) : M Zlib Bytes := fun z h =>
  match z.left with
  | [] => match z.fin with
    | none => (badData, z, { h with reads := h.reads + 1 })
    | some _ => (.ok [], z, { h with reads := h.reads + 1 })
  | l =>
    let k := min (max 1 (o.cut h.reads)) n
    (.ok (l.take k), { z with left := l.drop k }, { h with reads := h.reads + 1 })

/-- `Read::read_exact` as std provides it: reads until the buffer is full. -/
def readExactLoop (o : Outside) : Nat → Bytes → M Zlib Bytes
  | _, [] => pure []
  | 0, _ => fail .badData
  | n + 1, buf => do
    let got ← readSome o buf.length
    if got = [] then fail .badData
    else do
      let more ← readExactLoop o n (buf.drop got.length)
      return got ++ more

/-- `decoder.read_exact(&mut buf)`. -/
def readExactZ (o : Outside) (buf : Bytes) : M Zlib Bytes := readExactLoop o buf.length buf

/-- `decoder.read_to_end(&mut buf)`. -/
def readToEndLoop (o : Outside) : Nat → M Zlib Bytes
  | 0 => return []
  | n + 1 => fun z h => (do
    let got ← readSome o (max 1 (o.room h.reads))
    if got = [] then return []
    else do
      let more ← readToEndLoop o n
      return got ++ more : M Zlib Bytes) z h

/-- Counts what came out of a decompressor. -/
def inflated (d : Bytes) : M ρ Bytes := fun r h => (.ok d, r, { h with inflated := h.inflated + d.length })

/-- `decoder.read_to_end(&mut buf)`. -/
def readToEnd (o : Outside) : M Zlib Bytes := fun z h => (readToEndLoop o (z.left.length + 1) >>= inflated) z h

/-- `src.read_u8()?`. -/
def rdU8 : M Cur Nat := do
  let b ← readExact [0]
  return (b.getD 0 0).toNat

/-- `src.read_u16::<BigEndian>()?`. -/
def rdU16 : M Cur Nat := do
  let b ← readExact [0, 0]
  return (b.getD 0 0).toNat * 256 + (b.getD 1 0).toNat

/-- `src.read_u32::<BigEndian>()?`. -/
def rdU32 : M Cur Nat := do
  let b ← readExact [0, 0, 0, 0]
  return ((b.getD 0 0).toNat * 256 + (b.getD 1 0).toNat) * 65536 + ((b.getD 2 0).toNat * 256 + (b.getD 3 0).toNat)

/-- `src.read_i32::<BigEndian>()?`. -/
def rdI32 : M Cur Int := do
  let a ← rdU32
  return if a < 2147483648 then (a : Int) else (a : Int) - 4294967296

/-- `try_read_n`, `src/map_block/mod.rs:53-64`: the subtraction is of `usize`. -/
def tryReadN (o : Outside) (n : Nat) : M Cur Bytes := do
  let c ← reader
  let d ← lift (Checked.u64sub o.build c.data.length c.pos)
  if d < n then fail .badData
  else do
    let bytes ← vecWithLen o n
    readExact bytes

/-- `read_string16`, `src/map_block/mod.rs:67-70`. -/
def rdStr16 (o : Outside) : M Cur Bytes := do
  let n ← rdU16
  tryReadN o n

/-- `read_string32`, `src/map_block/mod.rs:73-76`. -/
def rdStr32 (o : Outside) : M Cur Bytes := do
  let n ← rdU32
  tryReadN o n

/-- `for _ in 0..n { ... }`. -/
def loop (f : β → M ρ β) : Nat → β → M ρ β
  | 0, b => pure b
  | n + 1, b => do
    let b ← f b
    loop f n b

/-! ## Node data -/

/-- `BigEndian::read_u16_into`: overwrites all of `dst`, and asserts that the lengths agree. -/
def readU16Into (src : Bytes) (dst : List Nat) : Res (List Nat) :=
  if src.length = 2 * dst.length then .ok (go src dst)
  else .error (.panic "read_u16_into: lengths differ")
where
  /-- The loop. -/
  go : Bytes → List Nat → List Nat
    | a :: b :: s, _ :: t => (a.toNat * 256 + b.toNat) :: go s t
    | _, t => t

/-- `BigEndian::write_u16_into`: overwrites all of `dst`, and asserts that the lengths agree. -/
def writeU16Into (src : List Nat) (dst : Bytes) : Res Bytes :=
  if dst.length = 2 * src.length then .ok (go src dst)
  else .error (.panic "write_u16_into: lengths differ")
where
  /-- The loop. -/
  go : List Nat → Bytes → Bytes
    | n :: s, _ :: _ :: t => byte (n / 256) :: byte n :: go s t
    | _, t => t

/-- `NodeData::deserialize`, `src/map_block/node_data.rs:20-37`, with any reader. -/
def rdNodeData (o : Outside) (fill : Bytes → M ρ Bytes) : M ρ NodeData := do
  let nodeBytes ← vecWithLen o (NODE_COUNT * 2)
  let nodeBytes ← fill nodeBytes
  let nodes ← vecWithLen16 o NODE_COUNT
  let nodes ← lift (readU16Into nodeBytes nodes)
  let param1 ← vecWithLen o NODE_COUNT
  let param1 ← fill param1
  let param2 ← vecWithLen o NODE_COUNT
  let param2 ← fill param2
  return ⟨nodes, param1, param2⟩

/-- `ZlibDecoder::new(src)`. -/
def decoder (o : Outside) (s : Bytes) : Zlib :=
  match o.codec.zlibDec s with
  | some (d, n) => ⟨d, some n⟩
  | none => ⟨o.early s, none⟩

/-- A function on a decoder that reads from the cursor; then `src.set_position(start + total_in)` (`u64`). -/
def inflate (o : Outside) (m : M Zlib α) : M Cur α := fun c h =>
  match m (decoder o c.rest) h with
  | (.error e, _, h) => (.error e, c, h)
  | (.ok a, z, h) => match Checked.u64 o.build (c.pos + z.fin.getD 0) with
    | .error e => (.error e, c, h)
    | .ok p => (.ok a, { c with pos := p }, h)

/-- `if decoder.read(&mut [0])? > 0 { return Err(BadData) }`. -/
def noMore (o : Outside) : M Zlib Unit := do
  let got ← readSome o 1
  if got = [] then return ()
  else fail .badData

/-- `NodeData::decompress`, `src/map_block/node_data.rs:39-55`. -/
def decompressNodeData (o : Outside) : M Cur NodeData := inflate o do
  let nd ← rdNodeData o (readExactZ o)
  noMore o
  return nd

/-- `NodeData::serialize`, `src/map_block/node_data.rs:57-66`: the bytes written. -/
def serializeNodes (o : Outside) (nd : NodeData) : M ρ Bytes := do
  let nodeBytes ← vecWithLen o (NODE_COUNT * 2)
  let nodeBytes ← lift (writeU16Into nd.nodes nodeBytes)
  return nodeBytes ++ nd.param1 ++ nd.param2

/-! ## Metadata -/

/-- The variable loop, `src/map_block/metadata.rs:29-36`. -/
def rdVar (o : Outside) (version : Nat) (vars : Vars) : M Cur Vars := do
  let name ← rdStr16 o
  let val ← rdStr32 o
  let priv ← either (version ≥ 2) (do
    let p ← rdU8
    return decide (p ≠ 0)) (pure false)
  return SMap.insert vars name (val, priv)

/-- `&src.get_ref()[src.position() as usize ..]`: panics if the position is past the end. -/
def restOf : M Cur Bytes := do
  let c ← reader
  if c.pos ≤ c.data.length then return c.rest
  else lift (.error (.panic "slice index out of range"))

/-- `NodeMetadata::deserialize`, `src/map_block/metadata.rs:22-49`. -/
def rdMeta (o : Outside) (version : Nat) : M Cur NodeMeta := do
  let varCount ← rdU32
  withCapacity (min varCount 64)
  let vars ← loop (rdVar o version) varCount []
  let rest ← restOf
  match searchIn END_STR rest with
  | none => fail .badData
  | some e => do
    let n ← lift (Checked.u64 o.build (e + END_STR.length))
    let inv ← vecWithLen o n
    let inv ← readExact inv
    return ⟨vars, inv⟩

/-- `NodeMetadataList::deserialize`, `src/map_block/metadata.rs:85-104`. -/
def rdMetaList (o : Outside) : M Cur MetaList := do
  let version ← rdU8
  if version > 2 then fail .invalidSubVersion
  else do
    let count ← either (version = 0) (pure 0) rdU16
    loop (fun l => do
      let pos ← rdU16
      let m ← rdMeta o version
      return SMap.insert l pos m) count []

/-- `Cursor::new(buf.as_slice())` and a function on it. -/
def onSlice (buf : Bytes) (m : M Cur α) : M ρ α := fun r h =>
  match m ⟨buf, 0⟩ h with
  | (x, _, h) => (x, r, h)

/-- `NodeMetadataList::decompress`, `src/map_block/metadata.rs:106-125`. -/
def decompressMetaList (o : Outside) : M Cur MetaList := inflate o do
  let buf ← readToEnd o
  let l ← onSlice buf (rdMetaList o)
  noMore o
  return l

/-! ## Objects, timers, names -/

/-- `StaticObject::deserialize`, `src/map_block/static_object.rs:14-23`. -/
def rdObject (o : Outside) : M Cur StaticObject := do
  let ty ← rdU8
  let x ← rdI32
  let y ← rdI32
  let z ← rdI32
  let data ← rdStr16 o
  return ⟨ty, ⟨x, y, z⟩, data⟩

/-- `deserialize_objects`, `src/map_block/static_object.rs:38-54`. -/
def rdObjects (o : Outside) : M Cur (List StaticObject) := do
  let version ← rdU8
  if version ≠ 0 then fail .invalidSubVersion
  else do
    let count ← rdU16
    withCapacity (min count 64)
    loop (fun l => do
      let x ← rdObject o
      return l ++ [x]) count []

/-- `LuaEntityData::deserialize`, `src/map_block/static_object.rs:77-90`, on a cursor of its own. -/
def luaEntity (o : Outside) (x : StaticObject) : M ρ LuaEntity := do
  if x.objType ≠ 7 then fail .invalidFeature
  else onSlice x.data do
    let v ← rdU8
    if v ≠ 1 then fail .invalidSubVersion
    else do
      let name ← rdStr16 o
      let data ← rdStr32 o
      return ⟨name, data⟩

/-- `deserialize_timers`, `src/map_block/node_timer.rs:16-36`. -/
def rdTimers : M Cur (List NodeTimer) := do
  let len ← rdU8
  if len ≠ 10 then fail .invalidFeature
  else do
    let count ← rdU16
    withCapacity (min count 4096)
    loop (fun l => do
      let pos ← rdU16
      let timeout ← rdU32
      let elapsed ← rdU32
      return l ++ [⟨pos, timeout, elapsed⟩]) count []

/-- `NameIdMap::deserialize`, `src/map_block/name_id_map.rs:12-28`. -/
def rdNimap (o : Outside) : M Cur NameIdMap := do
  let version ← rdU8
  if version ≠ 0 then fail .invalidSubVersion
  else do
    let count ← rdU16
    loop (fun m => do
      let id ← rdU16
      let name ← rdStr16 o
      return SMap.insert m id name) count []

/-! ## Mapblocks -/

/-- `if version >= 29 { zstd::stream::decode_all(raw_crs)?; Cursor::new(..) } else { raw_crs }`,
`src/map_block/map_block.rs:69-73`; what it read is counted. -/
def unpack (o : Outside) (version : Nat) : M Cur Unit := fun c h =>
  if version ≥ 29 then match o.codec.zstdDec c.rest with
    | none => (badData, c, h)
    | some d => (.ok (), ⟨d, 0⟩, { h with inflated := h.inflated + d.length })
  else (.ok (), c, h)

/-- `MapBlock::deserialize`, `src/map_block/map_block.rs:59-131`, in the order of the source.  The local
variables `timestamp` and `nimap` are set at one of two places. -/
def rdBlock (o : Outside) : M Cur MapBlock := do
  let version ← rdU8
  if version < 25 ∨ version > 29 then fail .invalidBlockVersion
  else do
    unpack o version
    let flags ← rdU8
    let lighting ← either (version ≥ 27) rdU16 (pure 0xFFFF)
    let timestamp ← either (version ≥ 29) rdU32 (pure 0)
    let nimap ← either (version ≥ 29) (rdNimap o >>= fun m => pure (some m)) (pure none)
    let contentWidth ← rdU8
    let paramsWidth ← rdU8
    if contentWidth ≠ 2 ∨ paramsWidth ≠ 2 then fail .invalidFeature
    else do
      let nd ← either (version ≥ 29) (rdNodeData o readExact) (decompressNodeData o)
      let metas ← either (version ≥ 29) (rdMetaList o) (decompressMetaList o)
      let objects ← rdObjects o
      let timestamp ← either (version < 29) rdU32 (pure timestamp)
      let nimap ← either (version < 29) (rdNimap o >>= fun m => pure (some m)) (pure nimap)
      let timers ← rdTimers
      let nimap ← lift (unwrap "nimap" nimap)
      return { version, flags, lighting, contentWidth, paramsWidth, nd, metas, objects, timestamp, nimap, timers }

/-- `MapBlock::deserialize(src)`: the result, and what was asked of memory. -/
def deserialize (o : Outside) (src : Bytes) : Res MapBlock × Heap :=
  match rdBlock o ⟨src, 0⟩ {} with
  | (x, _, h) => (x, h)

end MapEditr.Raw
