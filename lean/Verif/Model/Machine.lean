import Verif.Model.Instance
import Verif.Model.Checked
/-!
# The program with machine integers

The commands once more, with every computation on coordinates and node indices and every counter done in
the integer type the code uses: `i32` for coordinates, `i64` for block keys, `usize`/`u64` for indices,
volumes and counters.  An overflow panics (debug) or wraps (release).  The definitions of `Verif/Model/{Utils,BlockUtils,
Commands,Copy,Instance}.lean` compute with unbounded integers instead; C88 shows that a run of the
program is the same with both.  What computes neither with coordinates nor with counters is used as it is there.

What is counted in one block is added to the counter of a command at once; the code does so for some
commands and counts one by one for others.  The positions of `for pos in &area` and
`InverseBlockIterator` are computed before the body of the loop runs, not in between.
-/

namespace MapEditr.Checked

/-- The result of a `u64` or `usize` addition or multiplication (64-bit target). -/
def u64 (b : Build) (n : Nat) : Res Nat :=
  if n < 18446744073709551616 then .ok n
  else match b with
    | .debug => .error (.panic "u64 overflow")
    | .release => .ok (n % 18446744073709551616)

/-- The result of a `u64` subtraction. -/
def u64sub (b : Build) (m n : Nat) : Res Nat :=
  if n ≤ m then .ok (m - n)
  else match b with
    | .debug => .error (.panic "u64 overflow")
    | .release => .ok ((m + 18446744073709551616 - n) % 18446744073709551616)

/-! ## Counters, `src/instance.rs` -/

/-- `inc_done`, `src/instance.rs:139-141`. -/
def incDone (b : Build) : Run Unit := fun w =>
  match u64 b (w.status.done + 1) with
  | .ok n => (.ok (), w.setStatus fun st => { st with done := n })
  | .error e => (.error e, w)

/-- `inc_failed`, `src/instance.rs:143-145`. -/
def incFailed (b : Build) : Run Unit := fun w =>
  match u64 b (w.status.failed + 1) with
  | .ok n => (.ok (), w.setStatus fun st => { st with failed := n })
  | .error e => (.error e, w)

/-- `count += n`, e.g. `src/commands/fill.rs:58`. -/
def addTo (b : Build) (count n : Nat) : Run Nat := Run.lift (u64 b (count + n))

/-! ## Iterators, `src/spatial/{area,mod}.rs` -/

/-- `AreaIterator::next`, `src/spatial/area.rs:21-39`. -/
def areaNext (b : Build) (it : AreaIter) : Res (Option Vec3 × AreaIter) :=
  if it.pos.z > it.max.z then .ok (none, it)
  else do
    let x ← i32 b (it.pos.x + 1)
    if x > it.max.x then
      let y ← i32 b (it.pos.y + 1)
      if y > it.max.y then
        let z ← i32 b (it.pos.z + 1)
        return (some it.pos, { it with pos := ⟨it.min.x, it.min.y, z⟩ })
      else return (some it.pos, { it with pos := ⟨it.min.x, y, it.pos.z⟩ })
    else return (some it.pos, { it with pos := ⟨x, it.pos.y, it.pos.z⟩ })

/-- `for p in iterator`, see `AreaIter.drain`. -/
def areaDrain (b : Build) : Nat → AreaIter → Res (List Vec3)
  | 0, _ => .ok []
  | fuel + 1, it => do
    match ← areaNext b it with
    | (none, _) => return []
    | (some p, it') =>
      let r ← areaDrain b fuel it'
      return p :: r

/-- `for pos in &area { .. }`, `src/spatial/area.rs:188-195`. -/
def positions (b : Build) (a : Area) : Res (List Vec3) :=
  areaDrain b (a.volume + 1) (AreaIter.new a.min a.max)

/-- `x + y * 16 + z * 256`, `src/spatial/mod.rs:28,55`, `src/block_utils.rs:30,43,82`. -/
def linIdx (b : Build) (p : Vec3) : Res Int := do
  let y ← i32 b (p.y * 16)
  let xy ← i32 b (p.x + y)
  let z ← i32 b (p.z * 256)
  i32 b (xy + z)

/-- `InverseBlockIterator::new`, `src/spatial/mod.rs:20-34`. -/
def invNew (b : Build) (area : Area) : Res InvIter := do
  rassert (decide (area.min.x ≥ 0 ∧ area.max.x < 16 ∧ area.min.y ≥ 0 ∧ area.max.y < 16
    ∧ area.min.z ≥ 0 ∧ area.max.z < 16)) "InverseBlockIterator::new"
  let skipIdx ← linIdx b area.min
  let d ← i32 b (area.max.x - area.min.x)
  let d ← i32 b (d + 1)
  return { area, idx := 0, canSkip := true, skipPos := area.min, skipIdx := asUsize skipIdx,
           skipLen := asUsize d }

/-- The body of the `while` loop of `next`, `src/spatial/mod.rs:42-56`. -/
def skipOnce (b : Build) (it : InvIter) : Res InvIter := do
  let idx ← u64 b (it.idx + it.skipLen)
  let y ← i32 b (it.skipPos.y + 1)
  if y > it.area.max.y then
    let z ← i32 b (it.skipPos.z + 1)
    if z > it.area.max.z then return { it with idx, canSkip := false }
    else
      let sp : Vec3 := ⟨it.skipPos.x, it.area.min.y, z⟩
      let skipIdx ← linIdx b sp
      return { it with idx, skipPos := sp, skipIdx := asUsize skipIdx }
  else
    let sp : Vec3 := ⟨it.skipPos.x, y, it.skipPos.z⟩
    let skipIdx ← linIdx b sp
    return { it with idx, skipPos := sp, skipIdx := asUsize skipIdx }

/-- The `while` loop of `next`, `src/spatial/mod.rs:41-57`, see `InvIter.skipLoop`. -/
def skipLoop (b : Build) : Nat → InvIter → Res InvIter
  | 0, it => .ok it
  | fuel + 1, it =>
    if it.canSkip && decide (it.idx ≥ it.skipIdx) then do
      let it ← skipOnce b it
      skipLoop b fuel it
    else .ok it

/-- `InverseBlockIterator::next`, `src/spatial/mod.rs:40-66`. -/
def invNext (b : Build) (it : InvIter) : Res (Option Nat × InvIter) := do
  let it ← skipLoop b 257 it
  if it.idx < 4096 then
    let next ← u64 b (it.idx + 1)
    return (some it.idx, { it with idx := next })
  else return (none, it)

/-- `for i in iterator`, see `InvIter.drain`. -/
def invDrain (b : Build) : Nat → InvIter → Res (List Nat)
  | 0, _ => .ok []
  | fuel + 1, it => do
    match ← invNext b it with
    | (none, _) => return []
    | (some i, it') =>
      let r ← invDrain b fuel it'
      return i :: r

/-- `for idx in InverseBlockIterator::new(area)`. -/
def inverseIndices (b : Build) (area : Area) : Res (List Nat) := do
  let it ← invNew b area
  invDrain b 4097 it

/-! ## `src/utils.rs` -/

/-- `block_area`, `src/utils.rs:39-45`. -/
def queryArea (b : Build) (area : Option Area) (invert includePartial : Bool) : Res (Option Area) :=
  match area with
  | none => .ok none
  | some a =>
    if invert == includePartial then toContainedBlockArea b a else .ok (some a.toTouchingBlockArea)

/-- Whether the loop body of `query_keys` reaches `keys.push(key)`, `src/utils.rs:51-69`. -/
def queryKeeps (b : Build) (pats : List Bytes) (blockArea : Option Area) (emptyArea invert : Bool)
    (key : Int) (data : Bytes) : Res Bool := do
  let skipArea ←
    if emptyArea then (.ok false : Res Bool)
    else
      match blockArea with
      | some a => do
        let pos ← fromBlockKey b key
        pure (a.contains pos == invert)
      | none => .ok false
  let skipName :=
    match data with
    | v :: _ => decide (v.toNat ≤ 28) && !pats.isEmpty && !(pats.any fun s => (searchIn s data).isSome)
    | [] => false
  return !skipArea && !skipName

/-- Loop body of `query_keys`, `src/utils.rs:51-75`. -/
def queryStep (keep : Int → Bytes → Res Bool) (keys : List Int) (row : (Int × Bytes) × Nat) :
    Run (List Int) := do
  let kept ← Run.lift (keep row.1.1 row.1.2)
  if kept then
    let keys := keys ++ [row.1.1]
    if row.2 &&& 1023 == 0 then setTotal keys.length
    return keys
  else return keys

/-- `query_keys`, `src/utils.rs:14-82`. -/
def queryKeys (env : Env) (i : DbId) (searchStrs : List Bytes) (area : Option Area)
    (invert includePartial : Bool) : Run (List Int) := do
  setState .querying
  let pats := searchStrs.map string16
  let blockArea ← Run.lift (queryArea env.build area invert includePartial)
  let emptyArea := area.isSome && blockArea.isNone
  let keys ←
    if !emptyArea || invert then do
      let rows ← iterRows env i
      rows.zipIdx.foldlM (queryStep (queryKeeps env.build pats blockArea emptyArea invert)) []
    else pure []
  setTotal keys.length
  setState .ignore
  return keys

/-! ## `src/block_utils.rs` -/

/-- `block_parts_valid`, `src/block_utils.rs:7-13`; `&&` evaluates the subtractions only if both parts
are valid. -/
def blockPartsValid (bd : Build) (a b : Area) : Res Bool :=
  if partValid a && partValid b then do
    let p ← vsub bd a.max a.min
    let q ← vsub bd b.max b.min
    return decide (p = q)
  else .ok false

/-- Body of the loop copying node IDs, `src/block_utils.rs:43-45`. -/
def copyNode (bd : Build) (src : List Nat) (diff : Int) (nimapDiff : Nat) (dst : List Nat)
    (p : Vec3) : Res (List Nat) := do
  let i ← linIdx bd p
  let v ← idx src (asUsize i)
  let v ← u16 bd (v + nimapDiff)
  let j ← i32 bd (i + diff)
  setIdx dst (asUsize j) v

/-- Body of the loop copying rows, `src/block_utils.rs:53-64`. -/
def copyRow (bd : Build) (src : Bytes) (sa : Area) (diff : Int) (dst : Bytes) (yz : Int × Int) :
    Res Bytes := do
  let y ← i32 bd (yz.1 * 16)
  let z ← i32 bd (yz.2 * 256)
  let rowStart ← i32 bd (y + z)
  let start ← i32 bd (rowStart + sa.min.x)
  let stop ← i32 bd (rowStart + sa.max.x)
  let dstart ← i32 bd (start + diff)
  let dstop ← i32 bd (stop + diff)
  copySlice dst src (asUsize dstart) (asUsize dstop) (asUsize start) (asUsize stop)

/-- `merge_blocks`, `src/block_utils.rs:19-67`. -/
def mergeBlocks (bd : Build) (src dst : MapBlock) (sa da : Area) : Res MapBlock := do
  let valid ← blockPartsValid bd sa da
  rassert valid "block_parts_valid"
  let offset ← vsub bd da.min sa.min
  let diff ← linIdx bd offset
  let mx ← unwrap "get_max_id" (NameIdMap.maxId dst.nimap)
  let nimapDiff ← u16 bd (mx + 1)
  let nimap ← src.nimap.foldlM (copyName bd nimapDiff) dst.nimap
  let nodes ← sa.zyx.foldlM (copyNode bd src.nd.nodes diff nimapDiff) dst.nd.nodes
  let param1 ← sa.rows.foldlM (copyRow bd src.nd.param1 sa diff) dst.nd.param1
  let param2 ← sa.rows.foldlM (copyRow bd src.nd.param2 sa diff) dst.nd.param2
  return { dst with nimap, nd := { nodes, param1, param2 } }

/-- Body of the loop copying metadata, `src/block_utils.rs:96-100`.  The index is a `u16`. -/
def copyMeta (bd : Build) (sa : Area) (diff : Int) (m : MetaList) (e : Nat × NodeMeta) : Res MetaList :=
  if sa.contains (Vec3.fromU16Key e.1) then do
    let j ← i32 bd ((asU16 e.1 : Int) + diff)
    return m.insert (asU16 j) e.2
  else .ok m

/-- `merge_metadata`, `src/block_utils.rs:71-102`. -/
def mergeMetadata (bd : Build) (src dst : MetaList) (sa da : Area) : Res MetaList := do
  let valid ← blockPartsValid bd sa da
  rassert valid "block_parts_valid"
  let offset ← vsub bd da.min sa.min
  let diff ← linIdx bd offset
  let toDelete := (dst.map (·.1)).filter fun i => da.contains (Vec3.fromU16Key i)
  let dst := toDelete.foldl SMap.erase dst
  src.foldlM (copyMeta bd sa diff) dst

/-! ## Parts of blocks -/

/-- `a.contains_block(pos) != a.touches_block(pos)`. -/
def partly (b : Build) (a : Area) (pos : Vec3) : Res Bool := do
  let c ← containsBlock b a pos
  let t ← touchesBlock b a pos
  return c != t

/-- `area.filter(|a| a.contains_block(pos) != a.touches_block(pos))`, e.g.
`src/commands/replace_nodes.rs:25-26`. -/
def partArea (b : Build) (area : Option Area) (pos : Vec3) : Res (Option Area) :=
  match area with
  | none => .ok none
  | some a => do
    let p ← partly b a pos
    return if p then some a else none

/-- `(z * 256 + y * 16 + x) as usize`, `src/commands/fill.rs:18-22`, `src/commands/set_param2.rs:34-39`. -/
def rowIdx (b : Build) (p : Vec3) : Res Nat := do
  let z ← i32 b (p.z * 256)
  let y ← i32 b (p.y * 16)
  let zy ← i32 b (z + y)
  let i ← i32 b (zy + p.x)
  return asUsize i

/-! ## fill, `src/commands/fill.rs` -/

/-- `fill_area`, `src/commands/fill.rs:11-27`. -/
def fillArea (b : Build) (nodes : List Nat) (id : Nat) (area : Area) (invert : Bool) : Res (List Nat) :=
  if invert then do
    let is ← inverseIndices b area
    is.foldlM (fun l i => setIdx l i id) nodes
  else
    area.zyx.foldlM (fun l p => do setIdx l (← rowIdx b p) id) nodes

/-- The change of one block, `src/commands/fill.rs:48-64`. -/
def fillBlock (bd : Build) (area : Area) (invert : Bool) (node : Bytes) (pos : Vec3) (b : MapBlock) :
    Res (MapBlock × Nat) := do
  let p ← partly bd area pos
  if p then do
    let part ← relBlockOverlap bd area pos
    let part ← unwrap "rel_block_overlap" part
    let (id, nimap) ← fillId bd b.nimap node
    let nodes ← fillArea bd b.nd.nodes id part invert
    let b ← cleanNimap bd { b with nimap, nd := { b.nd with nodes } }
    let v ← volume bd part
    return (b, v.toNat)
  else
    return ({ b with nd := { b.nd with nodes := b.nd.nodes.map fun _ => 0 }
                     nimap := SMap.insert [] 0 node }, b.nd.nodes.length)

/-- Body of the loop of `fill`, `src/commands/fill.rs:40-67`. -/
def fillStep (env : Env) (area : Area) (invert : Bool) (node : Bytes) (count : Nat) (key : Int) :
    Run Nat := do
  incDone env.build
  let pos ← Run.lift (fromBlockKey env.build key)
  let data ← expect (← getBlock env .main key)
  match ← Run.okOr (deserialize env.codec data) with
  | none =>
    incFailed env.build
    return count
  | some block =>
    let (block, n) ← Run.lift (fillBlock env.build area invert node pos block)
    let count ← addTo env.build count n
    expect (← setBlock env .main key (← ser env block))
    return count

/-- `fill`, `src/commands/fill.rs:30-71`. -/
def fill (env : Env) (args : InstArgs) : Run Unit := do
  let area ← Run.unwrap args.area
  let node := toBytes (← Run.unwrap args.newNode)
  let keys ← queryKeys env .main [] (some area) args.invert true
  beginEditing
  let count ← keys.foldlM (fillStep env area args.invert node) 0
  endEditing
  logInfo (.count "{} nodes filled." count)

/-! ## replacenodes, `src/commands/replace_nodes.rs` -/

/-- `(pos.x + 16 * (pos.y + 16 * pos.z)) as usize`, `src/commands/replace_nodes.rs:44`. -/
def nestedIdx (b : Build) (p : Vec3) : Res Nat := do
  let z ← i32 b (16 * p.z)
  let yz ← i32 b (p.y + z)
  let yz ← i32 b (16 * yz)
  let i ← i32 b (p.x + yz)
  return asUsize i

/-- The part of `do_replace` for partly selected blocks, `src/commands/replace_nodes.rs:28-63`. -/
def replacePart (bd : Build) (b : MapBlock) (part : Area) (invert : Bool) (old : Nat)
    (newNode : Bytes) : Res (MapBlock × Nat) := do
  let (newId, needed) ←
    match NameIdMap.getId b.nimap newNode with
    | some id => (.ok (id, false) : Res (Nat × Bool))
    | none => do
      let mx ← unwrap "get_max_id" (NameIdMap.maxId b.nimap)
      let n ← u16 bd (mx + 1)
      pure (n, true)
  let is ←
    if invert then inverseIndices bd part
    else do
      let ps ← positions bd part
      ps.mapM (nestedIdx bd)
  let (nodes, replaced) ← is.foldlM (replaceAt old newId) (b.nd.nodes, 0)
  let nimap := if needed && decide (replaced > 0) then SMap.insert b.nimap newId newNode else b.nimap
  if !(nodes.contains old) then do
    let nodes := nodes.map fun id => if id > old then id - 1 else id
    let nimap ← NameIdMap.removeShift bd nimap old
    return ({ b with nimap, nd := { b.nd with nodes } }, replaced)
  else return ({ b with nimap, nd := { b.nd with nodes } }, replaced)

/-- `do_replace`, `src/commands/replace_nodes.rs:10-94`. -/
def doReplace (bd : Build) (b : MapBlock) (key : Int) (old : Nat) (newNode : Bytes)
    (area : Option Area) (invert : Bool) : Res (MapBlock × Nat) := do
  let pos ← fromBlockKey bd key
  match ← partArea bd area pos with
  | some a => do
    let part ← relBlockOverlap bd a pos
    let part ← unwrap "rel_block_overlap" part
    replacePart bd b part invert old newNode
  | none => replaceWhole bd b old newNode

/-- Body of the loop of `replace_nodes`, `src/commands/replace_nodes.rs:107-121`. -/
def replaceStep (env : Env) (args : InstArgs) (oldNode newNode : Bytes) (count : Nat) (key : Int) :
    Run Nat := do
  let data ← expect (← getBlock env .main key)
  match ← Run.okOr (deserialize env.codec data) with
  | none =>
    incFailed env.build
    return count
  | some block =>
    match NameIdMap.getId block.nimap oldNode with
    | some oldId =>
      let (block, n) ← Run.lift (doReplace env.build block key oldId newNode args.area args.invert)
      let count ← addTo env.build count n
      let newData ← ser env block
      expect (← setBlock env .main key newData)
      incDone env.build
      return count
    | none =>
      incDone env.build
      return count

/-- `replace_nodes`, `src/commands/replace_nodes.rs:97-125`. -/
def replaceNodes (env : Env) (args : InstArgs) : Run Unit := do
  let oldNode := toBytes (← Run.unwrap args.node)
  let newNode := toBytes (← Run.unwrap args.newNode)
  let keys ← queryKeys env .main [oldNode] args.area args.invert true
  beginEditing
  let count ← keys.foldlM (replaceStep env args oldNode newNode) 0
  endEditing
  logInfo (.count "{} nodes replaced." count)

/-! ## setparam2, `src/commands/set_param2.rs` -/

/-- `set_param2_partial`, `src/commands/set_param2.rs:10-50`. -/
def setParam2Partial (b : Build) (nd : NodeData) (area : Area) (invert : Bool) (nodeId : Option Nat)
    (val : UInt8) : Res (Bytes × Nat) :=
  if invert then
    match nodeId with
    | some _ => do
      let is ← inverseIndices b area
      is.foldlM (param2At nd.nodes nodeId val) (nd.param2, 0)
    | none => do
      let is ← inverseIndices b area
      let p2 ← is.foldlM (fun l i => setIdx l i val) nd.param2
      let v ← volume b area
      let n ← u64sub b 4096 v.toNat
      return (p2, n)
  else
    area.zyx.foldlM (fun st p => do param2At nd.nodes nodeId val st (← rowIdx b p)) (nd.param2, 0)

/-- The change of one block, `src/commands/set_param2.rs:77-96`. -/
def param2Block (bd : Build) (area : Option Area) (invert : Bool) (nodeId : Option Nat) (val : UInt8)
    (pos : Vec3) (b : MapBlock) : Res (MapBlock × Nat) := do
  let (p2, n) ←
    match ← partArea bd area pos with
    | some a => do
      let part ← relBlockOverlap bd a pos
      let part ← unwrap "rel_block_overlap" part
      setParam2Partial bd b.nd part invert nodeId val
    | none =>
      match nodeId with
      | some _ => (List.range b.nd.param2.length).foldlM (param2At b.nd.nodes nodeId val) (b.nd.param2, 0)
      | none => .ok (b.nd.param2.map fun _ => val, b.nd.param2.length)
  return ({ b with nd := { b.nd with param2 := p2 } }, n)

/-- Body of the loop of `set_param2`, `src/commands/set_param2.rs:63-99`. -/
def param2Step (env : Env) (args : InstArgs) (val : UInt8) (node : Option Bytes) (count : Nat)
    (key : Int) : Run Nat := do
  incDone env.build
  let pos ← Run.lift (fromBlockKey env.build key)
  let data ← expect (← getBlock env .main key)
  match ← Run.okOr (deserialize env.codec data) with
  | none =>
    incFailed env.build
    return count
  | some block =>
    let nodeId := node.bind fun n => NameIdMap.getId block.nimap n
    if args.node.isSome && nodeId.isNone then return count
    else
      let (block, n) ← Run.lift (param2Block env.build args.area args.invert nodeId val pos block)
      let count ← addTo env.build count n
      expect (← setBlock env .main key (← ser env block))
      return count

/-- `set_param2`, `src/commands/set_param2.rs:53-104`. -/
def setParam2 (env : Env) (args : InstArgs) : Run Unit := do
  let val ← Run.unwrap args.param2
  let node := args.node.map toBytes
  let keys ← queryKeys env .main (toSlice node) args.area args.invert true
  beginEditing
  let count ← keys.foldlM (param2Step env args val node) 0
  endEditing
  logInfo (.count "Set param2 of {} nodes." count)

/-! ## deleteblocks, `src/commands/delete_blocks.rs` -/

/-- Body of the loop of `delete_blocks`, `src/commands/delete_blocks.rs:12-15`. -/
def deleteBlockStep (env : Env) (key : Int) : Run Unit := do
  incDone env.build
  expect (← deleteBlock env .main key)

/-- `delete_blocks`, `src/commands/delete_blocks.rs:7-18`. -/
def deleteBlocks (env : Env) (args : InstArgs) : Run Unit := do
  let keys ← queryKeys env .main [] args.area args.invert false
  beginEditing
  forEach keys (deleteBlockStep env)
  endEditing

/-! ## deletemeta, `src/commands/delete_meta.rs` -/

/-- `Vec3::from_block_key(key) * 16`, e.g. `src/commands/delete_meta.rs:40`. -/
def blockCorner (b : Build) (key : Int) : Res Vec3 := do
  let pos ← fromBlockKey b key
  vmulS b pos 16

/-- Loop collecting the indices to delete, `src/commands/delete_meta.rs:43-58`. -/
def metaToDelete (b : Build) (args : InstArgs) (nodeId : Option Nat) (corner : Vec3) (nodes : List Nat) :
    MetaList → Res (List Nat)
  | [] => .ok []
  | (i, _) :: t => do
    let pos ← vadd b (Vec3.fromU16Key i) corner
    let hit ←
      if inSel args.area args.invert pos then nodeIs nodes nodeId i
      else (.ok false : Res Bool)
    let rest ← metaToDelete b args nodeId corner nodes t
    return if hit then i :: rest else rest

/-- Body of the loop of `delete_metadata`, `src/commands/delete_meta.rs:29-67`. -/
def deleteMetaStep (env : Env) (args : InstArgs) (node : Option Bytes) (count : Nat) (key : Int) :
    Run Nat := do
  incDone env.build
  let data ← expect (← getBlock env .main key)
  match ← Run.okOr (deserialize env.codec data) with
  | none =>
    incFailed env.build
    return count
  | some block =>
    let nodeId := node.bind fun n => NameIdMap.getId block.nimap n
    if node.isSome && nodeId.isNone then return count
    else
      let corner ← Run.lift (blockCorner env.build key)
      let del ← Run.lift (metaToDelete env.build args nodeId corner block.nd.nodes block.metas)
      if !del.isEmpty then
        let block := { block with metas := del.foldl SMap.erase block.metas }
        let count ← addTo env.build count del.length
        expect (← setBlock env .main key (← ser env block))
        return count
      else return count

/-- `delete_metadata`, `src/commands/delete_meta.rs:20-72`. -/
def deleteMetadata (env : Env) (args : InstArgs) : Run Unit := do
  let node := args.node.map toBytes
  let keys ← queryKeys env .main (toSlice node) args.area args.invert true
  beginEditing
  let count ← keys.foldlM (deleteMetaStep env args node) 0
  endEditing
  logInfo (.count "Deleted metadata from {} nodes." count)

/-! ## setmetavar, `src/commands/set_meta_var.rs` -/

/-- The loop over metadata, `src/commands/set_meta_var.rs:51-75`,
`src/commands/replace_in_inv.rs:94-115`.  `set_meta_var` adds the corner only if there is an area; the sum
cannot overflow, as a corner is a multiple of 16 and the rest is at most 15. -/
def editMetas (b : Build) (args : InstArgs) (ids : List Nat) (corner : Vec3) (nodes : List Nat)
    (edit : NodeMeta → NodeMeta × Nat) : MetaList → Res (MetaList × List Nat)
  | [] => .ok ([], [])
  | (i, m) :: t => do
    let pos ← vadd b (Vec3.fromU16Key i) corner
    let hit ←
      if inSel args.area args.invert pos then nodeAmong nodes ids i
      else (.ok false : Res Bool)
    let (rest, ns) ← editMetas b args ids corner nodes edit t
    if hit then
      let (m', n) := edit m
      return ((i, m') :: rest, n :: ns)
    else return ((i, m) :: rest, ns)

/-- Body of the loop of `set_meta_var`, `src/commands/set_meta_var.rs:36-80`. -/
def setMetaVarStep (env : Env) (args : InstArgs) (key value : Bytes) (nodes : List Bytes)
    (count : Nat) (bkey : Int) : Run Nat := do
  incDone env.build
  let data ← expect (← getBlock env .main bkey)
  match ← Run.okOr (deserialize env.codec data) with
  | none =>
    incFailed env.build
    return count
  | some block =>
    let ids := nodes.filterMap fun n => NameIdMap.getId block.nimap n
    if !nodes.isEmpty && ids.isEmpty then return count
    else
      let corner ← Run.lift (blockCorner env.build bkey)
      let (metas, ns) ← Run.lift (editMetas env.build args ids corner block.nd.nodes
        (editVar key value args.delete) block.metas)
      if ns.any (· > 0) then
        let count ← addTo env.build count ns.sum
        expect (← setBlock env .main bkey (← ser env { block with metas }))
        return count
      else return count

/-- `set_meta_var`, `src/commands/set_meta_var.rs:24-85`. -/
def setMetaVar (env : Env) (args : InstArgs) : Run Unit := do
  let key := toBytes (← Run.unwrap args.key)
  let value := toBytes (args.value.getD "")
  let nodes := args.nodes.map toBytes
  let keys ← queryKeys env .main nodes args.area args.invert true
  beginEditing
  let count ← keys.foldlM (setMetaVarStep env args key value nodes) 0
  endEditing
  logInfo (.count "Set metadata variable of {} nodes." count)

/-! ## deletetimers, `src/commands/delete_timers.rs` -/

/-- The tests of the loop body, `src/commands/delete_timers.rs:34-47`. -/
def timerHit (b : Build) (args : InstArgs) (nodeId : Option Nat) (corner : Vec3) (nodes : List Nat)
    (t : NodeTimer) : Res Bool := do
  let pos ← vadd b (Vec3.fromU16Key t.pos) corner
  if inSel args.area args.invert pos then nodeIs nodes nodeId t.pos
  else .ok false

/-- Body of the loop of `delete_timers`, `src/commands/delete_timers.rs:19-57`. -/
def deleteTimersStep (env : Env) (args : InstArgs) (node : Option Bytes) (count : Nat) (key : Int) :
    Run Nat := do
  incDone env.build
  let data ← expect (← getBlock env .main key)
  match ← Run.okOr (deserialize env.codec data) with
  | none =>
    incFailed env.build
    return count
  | some block =>
    let nodeId := node.bind fun n => NameIdMap.getId block.nimap n
    if node.isSome && nodeId.isNone then return count
    else
      let corner ← Run.lift (blockCorner env.build key)
      let (timers, n) ← Run.lift
        (removeRev (timerHit env.build args nodeId corner block.nd.nodes) block.timers)
      if n > 0 then
        let count ← addTo env.build count n
        expect (← setBlock env .main key (← ser env { block with timers }))
        return count
      else return count

/-- `delete_timers`, `src/commands/delete_timers.rs:10-62`. -/
def deleteTimers (env : Env) (args : InstArgs) : Run Unit := do
  let node := args.node.map toBytes
  let keys ← queryKeys env .main (toSlice node) args.area args.invert true
  beginEditing
  let count ← keys.foldlM (deleteTimersStep env args node) 0
  endEditing
  logInfo (.count "Deleted {} node timers." count)

/-! ## deleteobjects, `src/commands/delete_objects.rs`

`canDelete` computes with `i32` already. -/

/-- Body of the loop of `delete_objects`, `src/commands/delete_objects.rs:115-139`. -/
def deleteObjectsStep (env : Env) (args : InstArgs) (objName : Option Bytes)
    (itemNames : List Bytes) (count : Nat) (key : Int) : Run Nat := do
  incDone env.build
  let data ← expect (← getBlock env .main key)
  match ← Run.okOr (deserialize env.codec data) with
  | none =>
    incFailed env.build
    return count
  | some block =>
    let (objects, n) ← Run.lift (removeRev
      (canDelete env.build args.area args.invert objName itemNames) block.objects)
    if n > 0 then
      let count ← addTo env.build count n
      expect (← setBlock env .main key (← ser env { block with objects }))
      return count
    else return count

/-- `delete_objects`, `src/commands/delete_objects.rs:100-143`. -/
def deleteObjects (env : Env) (args : InstArgs) : Run Unit := do
  let objName := if args.items.isSome then some ITEM_ENT_NAME else args.object.map toBytes
  let itemNames := (args.items.getD []).map toBytes
  let keys ← queryKeys env .main (toSlice objName) args.area args.invert true
  beginEditing
  let count ← keys.foldlM (deleteObjectsStep env args objName itemNames) 0
  endEditing
  logInfo (.count "Deleted {} objects." count)

/-! ## replaceininv, `src/commands/replace_in_inv.rs` -/

/-- Body of the loop of `replace_in_inv`, `src/commands/replace_in_inv.rs:79-120`. -/
def replaceInInvStep (env : Env) (args : InstArgs) (item newItem : Bytes) (nodes : List Bytes)
    (count : Nat × Nat) (bkey : Int) : Run (Nat × Nat) := do
  incDone env.build
  let data ← expect (← getBlock env .main bkey)
  match ← Run.okOr (deserialize env.codec data) with
  | none =>
    incFailed env.build
    return count
  | some block =>
    let ids := nodes.filterMap fun n => NameIdMap.getId block.nimap n
    if !nodes.isEmpty && ids.isEmpty then return count
    else
      let corner ← Run.lift (blockCorner env.build bkey)
      let (metas, ns) ← Run.lift (editMetas env.build args ids corner block.nd.nodes
        (editInv item newItem args.deleteMeta) block.metas)
      let items ← addTo env.build count.1 ns.sum
      let changed ← addTo env.build count.2 (ns.filter (· > 0)).length
      let count := (items, changed)
      if ns.any (· > 0) then
        expect (← setBlock env .main bkey (← ser env { block with metas }))
        return count
      else return count

/-- `replace_in_inv`, `src/commands/replace_in_inv.rs:66-125`. -/
def replaceInInv (env : Env) (args : InstArgs) : Run Unit := do
  let item := toBytes (← Run.unwrap args.item)
  let newItem := (args.newItem.map toBytes).getD (if args.delete then [] else item)
  let nodes := args.nodes.map toBytes
  let keys ← queryKeys env .main nodes args.area args.invert true
  beginEditing
  let count ← keys.foldlM (replaceInInvStep env args item newItem nodes) (0, 0)
  endEditing
  logInfo (.count2 "Replaced {} itemstacks in {} nodes." count.1 count.2)

/-! ## clone, `src/commands/clone.rs` -/

/-- Copy the part of a source block that is needed for a destination block,
`src/commands/clone.rs:96-105`, `src/commands/overlay.rs:178-187`. -/
def mergeFrag (bd : Build) (srcPart : Area) (offset dstPos srcPos : Vec3) (src dst : MapBlock) :
    Res MapBlock := do
  let frag ← absBlockOverlap bd srcPart srcPos
  let frag ← unwrap "abs_block_overlap" frag
  let corner ← vmulS bd srcPos 16
  let srcRel ← areaSub bd frag corner
  let shifted ← areaAdd bd frag offset
  let dstRel ← relBlockOverlap bd shifted dstPos
  let dstRel ← unwrap "rel_block_overlap" dstRel
  let b ← mergeBlocks bd src dst srcRel dstRel
  let metas ← mergeMetadata bd src.metas b.metas srcRel dstRel
  return { b with metas }

/-- `verify_args`, `src/commands/clone.rs:12-25`. -/
def cloneVerify (bd : Build) (args : InstArgs) : Res ArgResult := do
  let a ← unwrap "area" args.area
  let o ← unwrap "offset" args.offset
  let dst ← areaAdd bd a o
  return if (MAP_AREA.intersection dst).isNone then
    .error "Destination area is outside map bounds." else .ok

/-- `dst_keys.sort_unstable_by_key(..)`, `src/commands/clone.rs:61-63`. -/
def sortKeys (bd : Build) (offset : Vec3) (keys : List Int) : Res (List Int) :=
  if keys.length < 2 then .ok keys
  else do
    let ks ← keys.mapM fun k => do
      let s ← cloneSortKey bd offset k
      pure (s, k)
    return (ks.mergeSort fun a b => decide (a.1 ≤ b.1)).map (·.2)

/-- Body of the loop over source blocks, `src/commands/clone.rs:84-106`. -/
def cloneSrc (env : Env) (srcPart : Area) (offset dstPos : Vec3)
    (st : MapBlock × CacheMap BlockResult) (srcPos : Vec3) : Run (MapBlock × CacheMap BlockResult) := do
  if !srcPos.isValidBlockPos then return st
  else
    let srcKey ← Run.lift (toBlockKey env.build srcPos)
    let (r, cache) ← cloneCached env st.2 srcKey
    match r with
    | some (.ok src) =>
      let dst ← Run.lift (mergeFrag env.build srcPart offset dstPos srcPos src st.1)
      return (dst, cache)
    | _ => return (st.1, cache)

/-- Body of the loop over destination blocks, `src/commands/clone.rs:68-110`. -/
def cloneStep (env : Env) (dstArea : Area) (offset : Vec3) (cache : CacheMap BlockResult)
    (dstKey : Int) : Run (CacheMap BlockResult) := do
  incDone env.build
  let (r, cache) ← cloneCached env cache dstKey
  match r with
  | none => return cache
  | some (.error _) =>
    incFailed env.build
    return cache
  | some (.ok dst) =>
    let dstPos ← Run.lift (fromBlockKey env.build dstKey)
    let dstPart ← Run.lift (absBlockOverlap env.build dstArea dstPos)
    let dstPart ← Run.unwrap dstPart
    let srcPart ← Run.lift (areaSub env.build dstPart offset)
    let ps ← Run.lift (positions env.build srcPart.toTouchingBlockArea)
    let (dst, cache) ← ps.foldlM (cloneSrc env srcPart offset dstPos) (dst, cache)
    let dst ← Run.lift (cleanNimap env.build dst)
    expect (← setBlock env .main dstKey (← ser env dst))
    return cache

/-- `clone`, `src/commands/clone.rs:48-113`. -/
def clone (env : Env) (cap : Nat) (args : InstArgs) : Run Unit := do
  let srcArea ← Run.unwrap args.area
  let offset ← Run.unwrap args.offset
  let dstArea ← Run.lift (areaAdd env.build srcArea offset)
  let keys ← queryKeys env .main [] (some dstArea) false true
  let keys ← Run.lift (sortKeys env.build offset keys)
  beginEditing
  let _ ← keys.foldlM (cloneStep env dstArea offset) (CacheMap.withCapacity cap)
  endEditing

/-! ## overlay, `src/commands/overlay.rs` -/

/-- `verify_args`, `src/commands/overlay.rs:12-32`. -/
def overlayVerify (bd : Build) (args : InstArgs) : Res ArgResult :=
  let zero : Vec3 := ⟨0, 0, 0⟩
  if args.invert && (args.offset.filter fun o => o != zero).isSome then
    .ok (.error "Inverted selections cannot be offset.")
  else do
    let dst ← areaAdd bd (args.area.getD MAP_AREA) (args.offset.getD zero)
    return if (MAP_AREA.intersection dst).isNone then
      .error "Destination area is outside map bounds." else .ok

/-- Copying part of a block, `src/commands/overlay.rs:66-99`. -/
def copyPart (env : Env) (area : Area) (invert : Bool) (key : Int) (pos : Vec3) : Run Unit := do
  match ← getGenerated env .main key with
  | none => return ()
  | some dstData =>
    let srcData ← expect (← getBlock env .input key)
    match ← deser env srcData with
    | .error _ => incFailed env.build
    | .ok src =>
      match ← deser env dstData with
      | .error _ => incFailed env.build
      | .ok dst =>
        let part ← Run.lift (relBlockOverlap env.build area pos)
        let part ← Run.unwrap part
        let (from_, to) := if invert then (dst, src) else (src, dst)
        let b ← Run.lift (mergeBlocks env.build from_ to part part)
        let metas ← Run.lift (mergeMetadata env.build from_.metas b.metas part part)
        let b ← Run.lift (cleanNimap env.build { b with metas })
        expect (← setBlock env .main key (← ser env b))

/-- Whether a block is copied as a whole: `(!invert && area.contains_block(pos)) || (invert &&
!area.touches_block(pos))`, `src/commands/overlay.rs:57-60`. -/
def copiesWhole (b : Build) (a : Area) (invert : Bool) (pos : Vec3) : Res Bool :=
  if invert then do
    let t ← touchesBlock b a pos
    return !t
  else containsBlock b a pos

/-- Body of the loop of `overlay_no_offset`, `src/commands/overlay.rs:52-108`. -/
def overlayStep (env : Env) (area : Option Area) (invert : Bool) (key : Int) : Run Unit := do
  incDone env.build
  match area with
  | some a =>
    let pos ← Run.lift (fromBlockKey env.build key)
    let whole ← Run.lift (copiesWhole env.build a invert pos)
    if whole then copyWhole env key
    else copyPart env a invert key pos
  | none => copyWhole env key

/-- `overlay_no_offset`, `src/commands/overlay.rs:42-111`. -/
def overlayNoOffset (env : Env) (args : InstArgs) : Run Unit := do
  let keys ← queryKeys env .input [] args.area args.invert true
  beginEditing
  keys.foldlM (fun _ k => overlayStep env args.area args.invert k) ()
  endEditing

/-- Body of the loop over source blocks, `src/commands/overlay.rs:168-188`. -/
def overlaySrc (env : Env) (srcPart : Area) (offset dstPos : Vec3)
    (st : MapBlock × CacheMap (Option MapBlock)) (srcPos : Vec3) :
    Run (MapBlock × CacheMap (Option MapBlock)) := do
  if !srcPos.isValidBlockPos then return st
  else
    let srcKey ← Run.lift (toBlockKey env.build srcPos)
    let (r, cache) ← overlayCached env st.2 srcKey
    match r with
    | some src =>
      let dst ← Run.lift (mergeFrag env.build srcPart offset dstPos srcPos src st.1)
      return (dst, cache)
    | none => return (st.1, cache)

/-- `dst_part_abs`, `src/commands/overlay.rs:160-164`; the first argument of `map_or` is always
evaluated. -/
def overlayPart (b : Build) (dstArea : Option Area) (dstPos : Vec3) : Res Area := do
  let lo ← vmulS b dstPos 16
  let hi ← vmulS b dstPos 16
  let hi ← vaddS b hi 15
  let whole ← Area.new lo hi
  match dstArea with
  | none => return whole
  | some a =>
    let p ← absBlockOverlap b a dstPos
    unwrap "unwrap" p

/-- Body of the loop over destination blocks, `src/commands/overlay.rs:147-192`. -/
def overlayOffsetStep (env : Env) (dstArea : Option Area) (offset : Vec3)
    (cache : CacheMap (Option MapBlock)) (dstKey : Int) : Run (CacheMap (Option MapBlock)) := do
  incDone env.build
  let dstPos ← Run.lift (fromBlockKey env.build dstKey)
  match ← getGenerated env .main dstKey with
  | none => return cache
  | some dstData =>
    match ← deser env dstData with
    | .error _ =>
      incFailed env.build
      return cache
    | .ok dst =>
      let dstPart ← Run.lift (overlayPart env.build dstArea dstPos)
      let srcPart ← Run.lift (areaSub env.build dstPart offset)
      let ps ← Run.lift (positions env.build srcPart.toTouchingBlockArea)
      let (dst, cache) ← ps.foldlM (overlaySrc env srcPart offset dstPos) (dst, cache)
      let dst ← Run.lift (cleanNimap env.build dst)
      expect (← setBlock env .main dstKey (← ser env dst))
      return cache

/-- `area.map(|a| a + offset)`, `src/commands/overlay.rs:138`. -/
def shiftArea (b : Build) (area : Option Area) (offset : Vec3) : Res (Option Area) :=
  match area with
  | none => .ok none
  | some a => do
    let a' ← areaAdd b a offset
    return some a'

/-- `overlay_with_offset`, `src/commands/overlay.rs:134-195`. -/
def overlayWithOffset (env : Env) (cap : Nat) (args : InstArgs) : Run Unit := do
  let offset ← Run.unwrap args.offset
  let dstArea ← Run.lift (shiftArea env.build args.area offset)
  let keys ← queryKeys env .main [] dstArea args.invert true
  beginEditing
  let _ ← keys.foldlM (overlayOffsetStep env dstArea offset) (CacheMap.withCapacity cap)
  endEditing

/-- `overlay`, `src/commands/overlay.rs:198-205`. -/
def overlay (env : Env) (cap : Nat) (args : InstArgs) : Run Unit := do
  let _ ← theDb .input
  if args.offset.getD ⟨0, 0, 0⟩ = ⟨0, 0, 0⟩ then overlayNoOffset env args
  else overlayWithOffset env cap args

/-! ## The worker, `src/instance.rs:322-401` -/

/-- `get_commands`, `src/commands/mod.rs:51-73`. -/
def commands (b : Build) : List (String × Command) :=
  [ ("clone", ⟨fun env => clone env BLOCK_CACHE_SIZE, cloneVerify b, [.area true, .offset true]⟩),
    ("deleteblocks", ⟨deleteBlocks, fun _ => .ok .ok, [.area true, .invert]⟩),
    ("deletemeta", ⟨deleteMetadata, fun a => .ok (deleteMetaVerify a), [.node false, .area false, .invert]⟩),
    ("deleteobjects", ⟨deleteObjects, fun a => .ok (deleteObjectsVerify a),
      [.object, .items, .area false, .invert]⟩),
    ("deletetimers", ⟨deleteTimers, fun _ => .ok .ok, [.node false, .area false, .invert]⟩),
    ("fill", ⟨fill, fun _ => .ok .ok, [.area true, .invert, .newNode]⟩),
    ("replacenodes", ⟨replaceNodes, fun a => .ok (replaceNodesVerify a),
      [.node true, .newNode, .area false, .invert]⟩),
    ("replaceininv", ⟨replaceInInv, fun a => .ok (replaceInInvVerify a),
      [.item, .newItem, .delete, .deleteMeta, .nodes, .area false, .invert]⟩),
    ("overlay", ⟨fun env => overlay env BLOCK_CACHE_SIZE, overlayVerify b,
      [.inputMapPath, .area false, .invert, .offset false]⟩),
    ("setmetavar", ⟨setMetaVar, fun a => .ok (setMetaVarVerify a),
      [.key, .value, .delete, .nodes, .area false, .invert]⟩),
    ("setparam2", ⟨setParam2, fun a => .ok (setParam2Verify a),
      [.node false, .area false, .invert, .param2]⟩),
    ("vacuum", ⟨fun env _ => vacuum env, fun _ => .ok .ok, []⟩) ]

/-- `commands[name]`. -/
def command? (b : Build) (name : String) : Option Command :=
  ((commands b).find? fun c => c.1 == name).map (·.2)

/-- `compute_thread`, `src/instance.rs:322-384`. -/
def computeThread (env : Env) (args : InstArgs) : Run (Except String Unit) := do
  match verifyArgs args with
  | some e => return .error e
  | none =>
    let cmd ← Run.unwrap (command? env.build args.command)
    match ← Run.lift (cmd.verify args) with
    | .error e => return .error e
    | res =>
      let warning := match res with | .warning t => some t | _ => none
      let ok ← openMap env .main args.mapPath
      if !ok then return .error "Failed to open main world/map."
      else
        match ← MapDb.new env .main with
        | .error _ => return .error "Main world or map database is invalid."
        | .ok _ =>
          match args.inputMapPath with
          | none => runCommand env args cmd warning
          | some p =>
            let ok ← openMap env .input p
            if !ok then return .error "Failed to open input world/map."
            else
              match ← MapDb.new env .input with
              | .error _ => return .error "Input world or map database is invalid."
              | .ok _ => runCommand env args cmd warning

/-- The closure of `spawn_compute_thread`, `src/instance.rs:395-401`. -/
def worker (env : Env) (args : InstArgs) : Run Unit := do
  match ← computeThread env args with
  | .ok _ => return ()
  | .error e => log .error (.text e)

end MapEditr.Checked
