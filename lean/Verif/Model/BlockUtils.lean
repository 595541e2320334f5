import Verif.Model.MapBlock
/-!
# Copying between blocks, cleaning name tables

Models `src/block_utils.rs`.
-/

namespace MapEditr

/-- `part_valid`, `src/block_utils.rs:8-11`. -/
def partValid (a : Area) : Bool :=
  decide (a.min.x ≥ 0 ∧ a.min.y ≥ 0 ∧ a.min.z ≥ 0 ∧ a.max.x < 16 ∧ a.max.y < 16 ∧ a.max.z < 16)

/-- `block_parts_valid`, `src/block_utils.rs:7-13`. -/
def blockPartsValid (a b : Area) : Bool :=
  partValid a && partValid b && decide (a.max.sub a.min = b.max.sub b.min)

/-- `x + y * 16 + z * 256` on `i32` (no overflow: small in-block coordinates). -/
def linIdx (p : Vec3) : Int := p.x + p.y * 16 + p.z * 256

/-- `dst[ds ..= de].clone_from_slice(&src[ss ..= se])`.  Slicing panics if the start exceeds the
end by more than one or the end is out of range; `clone_from_slice` panics on unequal lengths. -/
def copySlice (dst src : List α) (ds de ss se : Nat) : Res (List α) := do
  rassert (decide (ds ≤ de + 1 ∧ de + 1 ≤ dst.length)) "slice index"
  rassert (decide (ss ≤ se + 1 ∧ se + 1 ≤ src.length)) "slice index"
  rassert (decide (de + 1 - ds = se + 1 - ss)) "clone_from_slice: lengths differ"
  return dst.take ds ++ ((src.drop ss).take (se + 1 - ss) ++ dst.drop (de + 1))

/-- Body of the loop copying node IDs, `src/block_utils.rs:43-45`. -/
def copyNode (bd : Build) (src : List Nat) (diff : Int) (nimapDiff : Nat) (dst : List Nat)
    (p : Vec3) : Res (List Nat) := do
  let i := linIdx p
  let v ← idx src (asUsize i)
  let v ← u16 bd (v + nimapDiff)
  setIdx dst (asUsize (i + diff)) v

/-- Body of the loop copying `param1` (or `param2`) rows, `src/block_utils.rs:53-64`; `yz` is the
pair of loop variables. -/
def copyRow (src : Bytes) (sa : Area) (diff : Int) (dst : Bytes) (yz : Int × Int) : Res Bytes :=
  let rowStart := yz.1 * 16 + yz.2 * 256
  let start := rowStart + sa.min.x
  let stop := rowStart + sa.max.x
  copySlice dst src (asUsize (start + diff)) (asUsize (stop + diff)) (asUsize start) (asUsize stop)

/-- The loop variables `(y, z)` of the row loops, `src/block_utils.rs:51-52`. -/
def Area.rows (a : Area) : List (Int × Int) :=
  (rangeI a.min.z a.max.z).flatMap fun z => (rangeI a.min.y a.max.y).map fun y => (y, z)

/-- Body of the loop copying name-ID mappings, `src/block_utils.rs:35-37`. -/
def copyName (bd : Build) (nimapDiff : Nat) (m : NameIdMap) (e : Nat × Bytes) : Res NameIdMap := do
  let id ← u16 bd (e.1 + nimapDiff)
  return m.insert id e.2

/-- `merge_blocks`, `src/block_utils.rs:19-67`.  The real code copies `param1` and `param2` row by
row in one loop; here `param1` first, then `param2`. -/
def mergeBlocks (bd : Build) (src dst : MapBlock) (sa da : Area) : Res MapBlock := do
  rassert (blockPartsValid sa da) "block_parts_valid"
  let diff := linIdx (da.min.sub sa.min)
  let mx ← unwrap "get_max_id" (NameIdMap.maxId dst.nimap)
  let nimapDiff ← u16 bd (mx + 1)
  let nimap ← src.nimap.foldlM (copyName bd nimapDiff) dst.nimap
  let nodes ← sa.zyx.foldlM (copyNode bd src.nd.nodes diff nimapDiff) dst.nd.nodes
  let param1 ← sa.rows.foldlM (copyRow src.nd.param1 sa diff) dst.nd.param1
  let param2 ← sa.rows.foldlM (copyRow src.nd.param2 sa diff) dst.nd.param2
  return { dst with nimap, nd := { nodes, param1, param2 } }

/-- `merge_metadata`, `src/block_utils.rs:71-102`. -/
def mergeMetadata (src dst : MetaList) (sa da : Area) : Res MetaList := do
  rassert (blockPartsValid sa da) "block_parts_valid"
  let diff := linIdx (da.min.sub sa.min)
  let toDelete := (dst.map (·.1)).filter fun i => da.contains (Vec3.fromU16Key i)
  let dst := toDelete.foldl SMap.erase dst
  return src.foldl (fun m e =>
    if sa.contains (Vec3.fromU16Key e.1) then m.insert (asU16 ((e.1 : Int) + diff)) e.2 else m) dst

/-- Body of the loop rebuilding the name-ID map, `src/block_utils.rs:118-133`.  The state is
(`new_nimap`, `map`). -/
def cleanStep (bd : Build) (used : List Bool) (st : NameIdMap × List Nat) (e : Nat × Bytes) :
    Res (NameIdMap × List Nat) := do
  let u ← idx used e.1
  if !u then return st
  else
    match NameIdMap.getId st.1 e.2 with
    | some firstId => do
      let map ← setIdx st.2 e.1 firstId
      return (st.1, map)
    | none => do
      let nimap := st.1.insert (asU16 st.1.length) e.2
      let v ← u16sub bd (asU16 nimap.length) 1
      let map ← setIdx st.2 e.1 v
      return (nimap, map)

/-- `clean_name_id_map`, `src/block_utils.rs:106-141`. -/
def cleanNimap (bd : Build) (b : MapBlock) : Res MapBlock := do
  let mx ← unwrap "get_max_id" (NameIdMap.maxId b.nimap)
  let n ← u16 bd (mx + 1)
  let used ← b.nd.nodes.foldlM (fun u id => setIdx u id true) (List.replicate n false)
  let st ← b.nimap.foldlM (cleanStep bd used) ([], List.replicate n 0)
  let nodes ← b.nd.nodes.mapM (idx st.2)
  return { b with nimap := st.1, nd := { b.nd with nodes } }

end MapEditr
