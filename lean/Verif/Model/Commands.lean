import Verif.Model.Args
import Verif.Model.BlockUtils
/-!
# The block-editing commands

Models `src/commands/{fill,replace_nodes,set_param2,delete_blocks,delete_meta,set_meta_var,
delete_timers,delete_objects,replace_in_inv,vacuum}.rs`.  Counters (`u64`) are unbounded.
`continue` is the early `return`.
-/

namespace MapEditr

/-- `a.contains_block(pos) != a.touches_block(pos)`: the area covers part of the block. -/
def partly (a : Area) (pos : Vec3) : Bool := a.containsBlock pos != a.touchesBlock pos

/-! ## fill, `src/commands/fill.rs` -/

/-- `fill_area`, `src/commands/fill.rs:11-27`: the node IDs afterwards. -/
def fillArea (nodes : List Nat) (id : Nat) (area : Area) (invert : Bool) : Res (List Nat) :=
  if invert then do
    let is ← inverseIndices area
    is.foldlM (fun l i => setIdx l i id) nodes
  else
    area.zyx.foldlM (fun l p => setIdx l (asUsize (p.z * 256 + p.y * 16 + p.x)) id) nodes

/-- `block.nimap.get_id(&node).unwrap_or_else(..)`, `src/commands/fill.rs:51-55`: the ID to fill
with and the name-ID map. -/
def fillId (bd : Build) (m : NameIdMap) (node : Bytes) : Res (Nat × NameIdMap) :=
  match NameIdMap.getId m node with
  | some id => .ok (id, m)
  | none => do
    let mx ← unwrap "get_max_id" (NameIdMap.maxId m)
    let next ← u16 bd (mx + 1)
    return (next, SMap.insert m next node)

/-- The change of one block, `src/commands/fill.rs:48-64`: the new block and the number added to the
count. -/
def fillBlock (bd : Build) (area : Area) (invert : Bool) (node : Bytes) (pos : Vec3) (b : MapBlock) :
    Res (MapBlock × Nat) :=
  if partly area pos then do
    let part ← unwrap "rel_block_overlap" (area.relBlockOverlap pos)
    let (id, nimap) ← fillId bd b.nimap node
    let nodes ← fillArea b.nd.nodes id part invert
    let b ← cleanNimap bd { b with nimap, nd := { b.nd with nodes } }
    return (b, part.volume)
  else
    return ({ b with nd := { b.nd with nodes := b.nd.nodes.map fun _ => 0 }
                     nimap := SMap.insert [] 0 node }, b.nd.nodes.length)

/-- Body of the loop of `fill`, `src/commands/fill.rs:40-67`. -/
def fillStep (env : Env) (area : Area) (invert : Bool) (node : Bytes) (count : Nat) (key : Int) :
    Run Nat := do
  incDone
  let pos := Vec3.fromBlockKey key
  let data ← expect (← getBlock env .main key)
  match ← Run.okOr (deserialize env.codec data) with
  | none =>
    incFailed
    return count
  | some block =>
    let (block, n) ← Run.lift (fillBlock env.build area invert node pos block)
    expect (← setBlock env .main key (← ser env block))
    return count + n

/-- `fill`, `src/commands/fill.rs:30-71`. -/
def fill (env : Env) (args : InstArgs) : Run Unit := do
  let area ← Run.unwrap args.area
  let node := toBytes (← Run.unwrap args.newNode)
  let keys ← queryKeys env .main [] (some area) args.invert true
  beginEditing
  let count ← keys.foldlM (fillStep env area args.invert node) 0
  endEditing
  logInfo (.count "{} nodes filled." count)

/-! ## replacenodes, `src/commands/replace_nodes.rs` -/

/-- Loop body `if nodes[idx] == old_id { .. }`, `src/commands/replace_nodes.rs:37-40,45-48`. -/
def replaceAt (old new : Nat) (st : List Nat × Nat) (i : Nat) : Res (List Nat × Nat) := do
  let v ← idx st.1 i
  if v == old then
    let l ← setIdx st.1 i new
    return (l, st.2 + 1)
  else return st

/-- The part of `do_replace` for partly selected blocks, `src/commands/replace_nodes.rs:28-63`. -/
def replacePart (bd : Build) (b : MapBlock) (part : Area) (invert : Bool) (old : Nat)
    (newNode : Bytes) : Res (MapBlock × Nat) := do
  let (newId, needed) ←
    match NameIdMap.getId b.nimap newNode with
    | some id => (.ok (id, false) : Res (Nat × Bool))
    | none => do
      let mx ← unwrap "get_max_id" (NameIdMap.maxId b.nimap)
      let n ← u16 bd (mx + 1)
      pure (n, true)
  let is ←
    if invert then inverseIndices part
    else (.ok (part.positions.map fun p => asUsize (p.x + 16 * (p.y + 16 * p.z))) : Res (List Nat))
  let (nodes, replaced) ← is.foldlM (replaceAt old newId) (b.nd.nodes, 0)
  let nimap := if needed && decide (replaced > 0) then SMap.insert b.nimap newId newNode else b.nimap
  if !(nodes.contains old) then do
    let nodes := nodes.map fun id => if id > old then id - 1 else id
    let nimap ← NameIdMap.removeShift bd nimap old
    return ({ b with nimap, nd := { b.nd with nodes } }, replaced)
  else return ({ b with nimap, nd := { b.nd with nodes } }, replaced)

/-- The part of `do_replace` for fully selected blocks, `src/commands/replace_nodes.rs:66-92`. -/
def replaceWhole (bd : Build) (b : MapBlock) (old : Nat) (newNode : Bytes) : Res (MapBlock × Nat) :=
  let replaced := (b.nd.nodes.filter fun id => id == old).length
  match NameIdMap.getId b.nimap newNode with
  | some newId => do
    let nimap ← NameIdMap.removeShift bd b.nimap old
    let newId := if newId > old then newId - 1 else newId
    let nodes := b.nd.nodes.map fun id => if id == old then newId else if id > old then id - 1 else id
    return ({ b with nimap, nd := { b.nd with nodes } }, replaced)
  | none => return ({ b with nimap := SMap.insert b.nimap old newNode }, replaced)

/-- `do_replace`, `src/commands/replace_nodes.rs:10-94`. -/
def doReplace (bd : Build) (b : MapBlock) (key : Int) (old : Nat) (newNode : Bytes)
    (area : Option Area) (invert : Bool) : Res (MapBlock × Nat) :=
  let pos := Vec3.fromBlockKey key
  match area.filter fun a => partly a pos with
  | some a => do
    let part ← unwrap "rel_block_overlap" (a.relBlockOverlap pos)
    replacePart bd b part invert old newNode
  | none => replaceWhole bd b old newNode

/-- Body of the loop of `replace_nodes`, `src/commands/replace_nodes.rs:107-121`. -/
def replaceStep (env : Env) (args : InstArgs) (oldNode newNode : Bytes) (count : Nat) (key : Int) :
    Run Nat := do
  let data ← expect (← getBlock env .main key)
  match ← Run.okOr (deserialize env.codec data) with
  | none =>
    incFailed
    return count
  | some block =>
    match NameIdMap.getId block.nimap oldNode with
    | some oldId =>
      let (block, n) ← Run.lift (doReplace env.build block key oldId newNode args.area args.invert)
      let newData ← ser env block
      expect (← setBlock env .main key newData)
      incDone
      return count + n
    | none =>
      incDone
      return count

/-- `replace_nodes`, `src/commands/replace_nodes.rs:97-125`. -/
def replaceNodes (env : Env) (args : InstArgs) : Run Unit := do
  let oldNode := toBytes (← Run.unwrap args.node)
  let newNode := toBytes (← Run.unwrap args.newNode)
  let keys ← queryKeys env .main [oldNode] args.area args.invert true
  beginEditing
  let count ← keys.foldlM (replaceStep env args oldNode newNode) 0
  endEditing
  logInfo (.count "{} nodes replaced." count)

/-- `verify_args`, `src/commands/replace_nodes.rs:128-134`. -/
def replaceNodesVerify (args : InstArgs) : ArgResult :=
  if args.node == args.newNode then .error "node and new_node must be different." else .ok

/-! ## setparam2, `src/commands/set_param2.rs` -/

/-- `if nodes[i] == id { param2[i] = val; count += 1; }` (the test always holds if no node is
given), `src/commands/set_param2.rs:19-22,40-43,87-90`. -/
def param2At (nodes : List Nat) (nodeId : Option Nat) (val : UInt8) (st : Bytes × Nat) (i : Nat) :
    Res (Bytes × Nat) := do
  let hit ←
    match nodeId with
    | none => (.ok true : Res Bool)
    | some id => do
      let v ← idx nodes i
      pure (v == id)
  if hit then
    let l ← setIdx st.1 i val
    return (l, st.2 + 1)
  else return st

/-- `set_param2_partial`, `src/commands/set_param2.rs:10-50`: `param2` and the count.  For an
inverted selection without node the count is computed from the volume (`u64`: `4096 - volume`). -/
def setParam2Partial (nd : NodeData) (area : Area) (invert : Bool) (nodeId : Option Nat)
    (val : UInt8) : Res (Bytes × Nat) :=
  if invert then
    match nodeId with
    | some _ => do
      let is ← inverseIndices area
      is.foldlM (param2At nd.nodes nodeId val) (nd.param2, 0)
    | none => do
      let is ← inverseIndices area
      let p2 ← is.foldlM (fun l i => setIdx l i val) nd.param2
      return (p2, 4096 - area.volume)
  else
    area.zyx.foldlM (fun st p => param2At nd.nodes nodeId val st
      (asUsize (p.z * 256 + p.y * 16 + p.x))) (nd.param2, 0)

/-- The change of one block, `src/commands/set_param2.rs:77-96`. -/
def param2Block (area : Option Area) (invert : Bool) (nodeId : Option Nat) (val : UInt8)
    (pos : Vec3) (b : MapBlock) : Res (MapBlock × Nat) := do
  let (p2, n) ←
    match area.filter fun a => partly a pos with
    | some a => do
      let part ← unwrap "rel_block_overlap" (a.relBlockOverlap pos)
      setParam2Partial b.nd part invert nodeId val
    | none =>
      match nodeId with
      | some _ => (List.range b.nd.param2.length).foldlM (param2At b.nd.nodes nodeId val) (b.nd.param2, 0)
      | none => .ok (b.nd.param2.map fun _ => val, b.nd.param2.length)
  return ({ b with nd := { b.nd with param2 := p2 } }, n)

/-- Body of the loop of `set_param2`, `src/commands/set_param2.rs:63-99`. -/
def param2Step (env : Env) (args : InstArgs) (val : UInt8) (node : Option Bytes) (count : Nat)
    (key : Int) : Run Nat := do
  incDone
  let pos := Vec3.fromBlockKey key
  let data ← expect (← getBlock env .main key)
  match ← Run.okOr (deserialize env.codec data) with
  | none =>
    incFailed
    return count
  | some block =>
    let nodeId := node.bind fun n => NameIdMap.getId block.nimap n
    if args.node.isSome && nodeId.isNone then return count
    else
      let (block, n) ← Run.lift (param2Block args.area args.invert nodeId val pos block)
      expect (← setBlock env .main key (← ser env block))
      return count + n

/-- `set_param2`, `src/commands/set_param2.rs:53-104`. -/
def setParam2 (env : Env) (args : InstArgs) : Run Unit := do
  let val ← Run.unwrap args.param2
  let node := args.node.map toBytes
  let keys ← queryKeys env .main (toSlice node) args.area args.invert true
  beginEditing
  let count ← keys.foldlM (param2Step env args val node) 0
  endEditing
  logInfo (.count "Set param2 of {} nodes." count)

/-- `verify_args`, `src/commands/set_param2.rs:107-113`. -/
def setParam2Verify (args : InstArgs) : ArgResult :=
  if args.area.isNone && args.node.isNone then .error "An area and/or node is required." else .ok

/-! ## deleteblocks, `src/commands/delete_blocks.rs` -/

/-- Body of the loop, `src/commands/delete_blocks.rs:12-15`. -/
def deleteBlockStep (env : Env) (key : Int) : Run Unit := do
  incDone
  expect (← deleteBlock env .main key)

/-- `for key in keys { .. }` without accumulated result. -/
def forEach (l : List α) (f : α → Run Unit) : Run Unit := l.foldlM (fun _ a => f a) ()

/-- `delete_blocks`, `src/commands/delete_blocks.rs:7-18`. -/
def deleteBlocks (env : Env) (args : InstArgs) : Run Unit := do
  let keys ← queryKeys env .main [] args.area args.invert false
  beginEditing
  forEach keys (deleteBlockStep env)
  endEditing

/-! ## Selection of single nodes -/

/-- `if let Some(a) = area { if a.contains(pos) == invert { continue; } }`, e.g.
`src/commands/delete_meta.rs:46-50`: whether the node stays selected. -/
def inSel (area : Option Area) (invert : Bool) (pos : Vec3) : Bool :=
  match area with
  | some a => a.contains pos != invert
  | none => true

/-- `Vec3::from_u16_key(idx) + block_corner`, e.g. `src/commands/delete_meta.rs:40,44`. -/
def absPos (key : Int) (i : Nat) : Vec3 := (Vec3.fromU16Key i).add ((Vec3.fromBlockKey key).mulS 16)

/-- `if let Some(id) = node_id { if nodes[idx] != id { continue; } }`. -/
def nodeIs (nodes : List Nat) (nodeId : Option Nat) (i : Nat) : Res Bool :=
  match nodeId with
  | none => .ok true
  | some id => do
    let v ← idx nodes i
    return v == id

/-! ## deletemeta, `src/commands/delete_meta.rs` -/

/-- `verify_args`, `src/commands/delete_meta.rs:10-17`. -/
def deleteMetaVerify (args : InstArgs) : ArgResult :=
  if args.area.isNone && args.node.isNone then
    .warning "No area or node specified. ALL metadata will be deleted!"
  else .ok

/-- Loop collecting the indices to delete, `src/commands/delete_meta.rs:43-58`. -/
def metaToDelete (args : InstArgs) (nodeId : Option Nat) (key : Int) (nodes : List Nat) :
    MetaList → Res (List Nat)
  | [] => .ok []
  | (i, _) :: t => do
    let hit ←
      if inSel args.area args.invert (absPos key i) then nodeIs nodes nodeId i
      else (.ok false : Res Bool)
    let rest ← metaToDelete args nodeId key nodes t
    return if hit then i :: rest else rest

/-- Body of the loop of `delete_metadata`, `src/commands/delete_meta.rs:29-67`. -/
def deleteMetaStep (env : Env) (args : InstArgs) (node : Option Bytes) (count : Nat) (key : Int) :
    Run Nat := do
  incDone
  let data ← expect (← getBlock env .main key)
  match ← Run.okOr (deserialize env.codec data) with
  | none =>
    incFailed
    return count
  | some block =>
    let nodeId := node.bind fun n => NameIdMap.getId block.nimap n
    if node.isSome && nodeId.isNone then return count
    else
      let del ← Run.lift (metaToDelete args nodeId key block.nd.nodes block.metas)
      if !del.isEmpty then
        let block := { block with metas := del.foldl SMap.erase block.metas }
        expect (← setBlock env .main key (← ser env block))
        return count + del.length
      else return count

/-- `delete_metadata`, `src/commands/delete_meta.rs:20-72`. -/
def deleteMetadata (env : Env) (args : InstArgs) : Run Unit := do
  let node := args.node.map toBytes
  let keys ← queryKeys env .main (toSlice node) args.area args.invert true
  beginEditing
  let count ← keys.foldlM (deleteMetaStep env args node) 0
  endEditing
  logInfo (.count "Deleted metadata from {} nodes." count)

/-! ## setmetavar, `src/commands/set_meta_var.rs` -/

/-- `verify_args`, `src/commands/set_meta_var.rs:10-21`. -/
def setMetaVarVerify (args : InstArgs) : ArgResult :=
  if args.value.isNone && !args.delete then
    .error "value is required unless deleting the variable."
  else if args.value.isSome && args.delete then
    .error "value cannot be used when deleting the variable."
  else if args.value == some "" then .error "Metadata value cannot be empty."
  else .ok

/-- `!node_ids.is_empty() && !node_ids.contains(&nodes[idx])`, negated,
`src/commands/set_meta_var.rs:59-63`, `src/commands/replace_in_inv.rs:102-106`. -/
def nodeAmong (nodes : List Nat) (ids : List Nat) (i : Nat) : Res Bool :=
  if ids.isEmpty then .ok true
  else do
    let v ← idx nodes i
    return ids.contains v

/-- The change of one entry, `src/commands/set_meta_var.rs:65-74`. -/
def editVar (key value : Bytes) (delete : Bool) (m : NodeMeta) : NodeMeta × Nat :=
  match SMap.get? m.vars key with
  | some old =>
    if delete then ({ m with vars := SMap.erase m.vars key }, 1)
    else ({ m with vars := SMap.insert m.vars key (value, old.2) }, 1)
  | none => (m, 0)

/-- `for (&idx, data) in &mut block.metadata { .. }` where selected entries are changed by `edit`,
which also says by how much the count grows: the new list and count.
`src/commands/set_meta_var.rs:51-75`, `src/commands/replace_in_inv.rs:94-115`. -/
def editMetas (args : InstArgs) (ids : List Nat) (bkey : Int) (nodes : List Nat)
    (edit : NodeMeta → NodeMeta × Nat) : MetaList → Res (MetaList × List Nat)
  | [] => .ok ([], [])
  | (i, m) :: t => do
    let hit ←
      if inSel args.area args.invert (absPos bkey i) then nodeAmong nodes ids i
      else (.ok false : Res Bool)
    let (rest, ns) ← editMetas args ids bkey nodes edit t
    if hit then
      let (m', n) := edit m
      return ((i, m') :: rest, n :: ns)
    else return ((i, m) :: rest, ns)

/-- Body of the loop of `set_meta_var`, `src/commands/set_meta_var.rs:36-80`. -/
def setMetaVarStep (env : Env) (args : InstArgs) (key value : Bytes) (nodes : List Bytes)
    (count : Nat) (bkey : Int) : Run Nat := do
  incDone
  let data ← expect (← getBlock env .main bkey)
  match ← Run.okOr (deserialize env.codec data) with
  | none =>
    incFailed
    return count
  | some block =>
    let ids := nodes.filterMap fun n => NameIdMap.getId block.nimap n
    if !nodes.isEmpty && ids.isEmpty then return count
    else
      let (metas, ns) ← Run.lift (editMetas args ids bkey block.nd.nodes
        (editVar key value args.delete) block.metas)
      if ns.any (· > 0) then
        expect (← setBlock env .main bkey (← ser env { block with metas }))
        return count + ns.sum
      else return count

/-- `set_meta_var`, `src/commands/set_meta_var.rs:24-85`. -/
def setMetaVar (env : Env) (args : InstArgs) : Run Unit := do
  let key := toBytes (← Run.unwrap args.key)
  let value := toBytes (args.value.getD "")
  let nodes := args.nodes.map toBytes
  let keys ← queryKeys env .main nodes args.area args.invert true
  beginEditing
  let count ← keys.foldlM (setMetaVarStep env args key value nodes) 0
  endEditing
  logInfo (.count "Set metadata variable of {} nodes." count)

/-! ## deletetimers, `src/commands/delete_timers.rs` -/

/-- `for i in (0..v.len()).rev() { if del(v[i]) { v.remove(i); count += 1; } }`: the remaining
elements and the number removed.  Going from the back, removing `i` does not move the elements still
to be visited. -/
def removeRev (del : α → Res Bool) : List α → Res (List α × Nat)
  | [] => .ok ([], 0)
  | a :: t => do
    let (t', n) ← removeRev del t
    let d ← del a
    return if d then (t', n + 1) else (a :: t', n)

/-- The tests of the loop body, `src/commands/delete_timers.rs:34-47`. -/
def timerHit (args : InstArgs) (nodeId : Option Nat) (key : Int) (nodes : List Nat) (t : NodeTimer) :
    Res Bool :=
  if inSel args.area args.invert (absPos key t.pos) then nodeIs nodes nodeId t.pos
  else .ok false

/-- Body of the loop of `delete_timers`, `src/commands/delete_timers.rs:19-57`. -/
def deleteTimersStep (env : Env) (args : InstArgs) (node : Option Bytes) (count : Nat) (key : Int) :
    Run Nat := do
  incDone
  let data ← expect (← getBlock env .main key)
  match ← Run.okOr (deserialize env.codec data) with
  | none =>
    incFailed
    return count
  | some block =>
    let nodeId := node.bind fun n => NameIdMap.getId block.nimap n
    if node.isSome && nodeId.isNone then return count
    else
      let (timers, n) ← Run.lift (removeRev (timerHit args nodeId key block.nd.nodes) block.timers)
      if n > 0 then
        expect (← setBlock env .main key (← ser env { block with timers }))
        return count + n
      else return count

/-- `delete_timers`, `src/commands/delete_timers.rs:10-62`. -/
def deleteTimers (env : Env) (args : InstArgs) : Run Unit := do
  let node := args.node.map toBytes
  let keys ← queryKeys env .main (toSlice node) args.area args.invert true
  beginEditing
  let count ← keys.foldlM (deleteTimersStep env args node) 0
  endEditing
  logInfo (.count "Deleted {} node timers." count)

/-! ## deleteobjects, `src/commands/delete_objects.rs` -/

/-- `ITEM_ENT_NAME`, `src/commands/delete_objects.rs:11`. -/
def ITEM_ENT_NAME : Bytes := ascii "__builtin:item"
/-- `ITEM_NAME_PAT_OLD`, `src/commands/delete_objects.rs:12`. -/
def ITEM_NAME_PAT_OLD : Bytes := ascii "[\"itemstring\"] = \""
/-- `ITEM_NAME_PAT_NEW`, `src/commands/delete_objects.rs:13`. -/
def ITEM_NAME_PAT_NEW : Bytes := ascii "itemstring=\""

/-- `verify_args`, `src/commands/delete_objects.rs:23-28`. -/
def deleteObjectsVerify (args : InstArgs) : ArgResult :=
  if args.object.isSome && args.items.isSome then .error "Cannot use both --obj and --items."
  else .ok

/-- `get_item_name_start`, `src/commands/delete_objects.rs:31-40`. -/
def getItemNameStart (data : Bytes) : Option Nat :=
  match searchIn ITEM_NAME_PAT_NEW data with
  | some i => some (i + ITEM_NAME_PAT_NEW.length)
  | none =>
    match searchIn ITEM_NAME_PAT_OLD data with
    | some i => some (i + ITEM_NAME_PAT_OLD.length)
    | none => none

/-- `get_item_name`, `src/commands/delete_objects.rs:43-57`.  The first piece of `split` is
everything before the first separator. -/
def getItemName (data : Bytes) : Bytes :=
  if (ascii "return").isPrefixOf data then
    match getItemNameStart data with
    | some i => (data.drop i).takeWhile fun c => !(c == 32 || c == 34)
    | none => []
  else data

/-- `(v + DIV_FAC / 2).div_euclid(DIV_FAC)`, `src/commands/delete_objects.rs:69-71`. -/
def roundPos (bd : Build) (v : Int) : Res Int := do
  let s ← i32 bd (v + 5000)
  return s / 10000

/-- `can_delete`, `src/commands/delete_objects.rs:60-97`. -/
def canDelete (bd : Build) (area : Option Area) (invert : Bool) (objName : Option Bytes)
    (itemNames : List Bytes) (o : StaticObject) : Res Bool := do
  let inArea ←
    match area with
    | some a => do
      let x ← roundPos bd o.fPos.x
      let y ← roundPos bd o.fPos.y
      let z ← roundPos bd o.fPos.z
      pure (a.contains ⟨x, y, z⟩ != invert)
    | none => (.ok true : Res Bool)
  if !inArea then return false
  else
    match objName with
    | none => return true
    | some name =>
      match LuaEntity.deserialize o with
      | .error (.panic w) => .error (.panic w)
      | .error (.err _) => return false
      | .ok le =>
        if !(le.name == name) then return false
        else if !itemNames.isEmpty && !(itemNames.any fun n => n == getItemName le.data) then
          return false
        else return true

/-- Body of the loop of `delete_objects`, `src/commands/delete_objects.rs:115-139`. -/
def deleteObjectsStep (env : Env) (args : InstArgs) (objName : Option Bytes)
    (itemNames : List Bytes) (count : Nat) (key : Int) : Run Nat := do
  incDone
  let data ← expect (← getBlock env .main key)
  match ← Run.okOr (deserialize env.codec data) with
  | none =>
    incFailed
    return count
  | some block =>
    let (objects, n) ← Run.lift (removeRev
      (canDelete env.build args.area args.invert objName itemNames) block.objects)
    if n > 0 then
      expect (← setBlock env .main key (← ser env { block with objects }))
      return count + n
    else return count

/-- `delete_objects`, `src/commands/delete_objects.rs:100-143`. -/
def deleteObjects (env : Env) (args : InstArgs) : Run Unit := do
  let objName := if args.items.isSome then some ITEM_ENT_NAME else args.object.map toBytes
  let itemNames := (args.items.getD []).map toBytes
  let keys ← queryKeys env .main (toSlice objName) args.area args.invert true
  beginEditing
  let count ← keys.foldlM (deleteObjectsStep env args objName itemNames) 0
  endEditing
  logInfo (.count "Deleted {} objects." count)

/-! ## replaceininv, `src/commands/replace_in_inv.rs` -/

/-- `slice.split(|&x| x == sep)`: the pieces between separators. -/
def splitOn (sep : UInt8) : Bytes → List Bytes
  | [] => [[]]
  | c :: t =>
    if c == sep then [] :: splitOn sep t
    else
      match splitOn sep t with
      | p :: ps => (c :: p) :: ps
      | [] => [[c]]

/-- `slice.splitn(n, |&x| x == sep)`: at most `n` pieces, the last one holding the rest. -/
def splitN (sep : UInt8) : Nat → Bytes → List Bytes
  | 0, _ => []
  | 1, s => [s]
  | n + 2, s =>
    match s.idxOf? sep with
    | some i => s.take i :: splitN sep (n + 1) (s.drop (i + 1))
    | none => [s]

/-- The text replacing a matching line (without newline), from the pieces after the item name,
`src/commands/replace_in_inv.rs:28-51`. -/
def newItemLine (parts : List Bytes) (newItem : Bytes) (delMeta : Bool) : Bytes :=
  if newItem.isEmpty then ascii "Empty"
  else
    ascii "Item " ++ newItem ++
    (if delMeta then
      let count := (parts[0]?).getD (ascii "1")
      let wear := (parts[1]?).getD (ascii "0")
      (if count != ascii "1" || wear != ascii "0" then [32] ++ count else []) ++
      (if wear != ascii "0" then [32] ++ wear else [])
    else parts.flatMap fun p => [32] ++ p)

/-- Loop body for one line, `src/commands/replace_in_inv.rs:20-57`: the text for it and whether it
was modified. -/
def replaceLine (item newItem : Bytes) (delMeta : Bool) (line : Bytes) : Bytes × Nat :=
  if line.isEmpty then ([], 0)
  else
    match splitN 32 5 line with
    | w :: i :: parts =>
      if w == ascii "Item" && i == item then (newItemLine parts newItem delMeta ++ [10], 1)
      else (line ++ [10], 0)
    | _ => (line ++ [10], 0)

/-- `do_replace`, `src/commands/replace_in_inv.rs:10-63`. -/
def invReplace (inv item newItem : Bytes) (delMeta : Bool) : Bytes × Nat :=
  let res := (splitOn 10 inv).map (replaceLine item newItem delMeta)
  let mods := (res.map (·.2)).sum
  if mods > 0 then (res.flatMap (·.1), mods) else (inv, mods)

/-- `let i_mods = do_replace(&mut data.inv, ..)`, `src/commands/replace_in_inv.rs:108-114`. -/
def editInv (item newItem : Bytes) (delMeta : Bool) (m : NodeMeta) : NodeMeta × Nat :=
  let r := invReplace m.inv item newItem delMeta
  ({ m with inv := r.1 }, r.2)

/-- Body of the loop of `replace_in_inv`, `src/commands/replace_in_inv.rs:79-120`.  The state is
(`item_mods`, `node_mods`). -/
def replaceInInvStep (env : Env) (args : InstArgs) (item newItem : Bytes) (nodes : List Bytes)
    (count : Nat × Nat) (bkey : Int) : Run (Nat × Nat) := do
  incDone
  let data ← expect (← getBlock env .main bkey)
  match ← Run.okOr (deserialize env.codec data) with
  | none =>
    incFailed
    return count
  | some block =>
    let ids := nodes.filterMap fun n => NameIdMap.getId block.nimap n
    if !nodes.isEmpty && ids.isEmpty then return count
    else
      let (metas, ns) ← Run.lift (editMetas args ids bkey block.nd.nodes
        (editInv item newItem args.deleteMeta) block.metas)
      let count := (count.1 + ns.sum, count.2 + (ns.filter (· > 0)).length)
      if ns.any (· > 0) then
        expect (← setBlock env .main bkey (← ser env { block with metas }))
        return count
      else return count

/-- `replace_in_inv`, `src/commands/replace_in_inv.rs:66-125`. -/
def replaceInInv (env : Env) (args : InstArgs) : Run Unit := do
  let item := toBytes (← Run.unwrap args.item)
  let newItem := (args.newItem.map toBytes).getD (if args.delete then [] else item)
  let nodes := args.nodes.map toBytes
  let keys ← queryKeys env .main nodes args.area args.invert true
  beginEditing
  let count ← keys.foldlM (replaceInInvStep env args item newItem nodes) (0, 0)
  endEditing
  logInfo (.count2 "Replaced {} itemstacks in {} nodes." count.1 count.2)

/-- `verify_args`, `src/commands/replace_in_inv.rs:128-139`. -/
def replaceInInvVerify (args : InstArgs) : ArgResult :=
  if args.newItem.isNone && !args.delete && !args.deleteMeta then
    .error "new_item is required unless --delete or --deletemeta is used."
  else if args.newItem.isSome && args.delete then
    .error "Cannot delete items if new_item is specified."
  else if args.item == args.newItem && !args.deleteMeta then
    .error "item and new_item cannot be the same."
  else .ok

/-! ## vacuum, `src/commands/vacuum.rs` -/

/-- `vacuum`, `src/commands/vacuum.rs:6-20`; the text of the error is from `src/map_database.rs:3-4`. -/
def vacuum (env : Env) : Run Unit := do
  logInfo (.text "Starting vacuum.")
  setShowProgress false
  beginEditing
  let res ← dbVacuum env .main
  endEditing
  match res with
  | .ok _ => logInfo (.text "Completed vacuum.")
  | .error _ => log .error (.text "Vacuum failed: database operation failed.")

end MapEditr
