import Verif.Model.Args
import Verif.Model.BlockUtils
/-!
# The copying commands

Models `src/commands/{clone,overlay}.rs`.
-/

namespace MapEditr

/-- `BLOCK_CACHE_SIZE`, `src/commands/mod.rs:19`. -/
def BLOCK_CACHE_SIZE : Nat := 1024

/-- `MapBlock::deserialize(&d)` kept as a result (a panic still propagates). -/
def deser (env : Env) (d : Bytes) : Run (Except MbErr MapBlock) :=
  match deserialize env.codec d with
  | .ok b => pure (.ok b)
  | .error (.err e) => pure (.error e)
  | .error (.panic w) => Run.lift (.error (.panic w))

/-- `db.get_block(key).ok().filter(|d| is_valid_generated(d))`, `src/commands/clone.rs:38-39`,
`src/commands/overlay.rs:67-70,122-123,151-154`. -/
def getGenerated (env : Env) (i : DbId) (key : Int) : Run (Option Bytes) := do
  match ← getBlock env i key with
  | .ok d => return if isValidGenerated env.codec d then some d else none
  | .error _ => return none

/-- The map area, `src/commands/clone.rs:13-16`, `src/commands/overlay.rs:20-23`. -/
def MAP_AREA : Area := ⟨⟨-MAP_LIMIT, -MAP_LIMIT, -MAP_LIMIT⟩, ⟨MAP_LIMIT, MAP_LIMIT, MAP_LIMIT⟩⟩

/-- Copy the part of a source block that is needed for a destination block,
`src/commands/clone.rs:96-105`, `src/commands/overlay.rs:178-187`. -/
def mergeFrag (bd : Build) (srcPart : Area) (offset dstPos srcPos : Vec3) (src dst : MapBlock) :
    Res MapBlock := do
  let frag ← unwrap "abs_block_overlap" (srcPart.absBlockOverlap srcPos)
  let srcRel := frag.sub (srcPos.mulS 16)
  let dstRel ← unwrap "rel_block_overlap" ((frag.add offset).relBlockOverlap dstPos)
  let b ← mergeBlocks bd src dst srcRel dstRel
  let metas ← mergeMetadata src.metas b.metas srcRel dstRel
  return { b with metas }

/-! ## clone, `src/commands/clone.rs` -/

/-- `verify_args`, `src/commands/clone.rs:12-25`. -/
def cloneVerify (args : InstArgs) : Res ArgResult := do
  let a ← unwrap "area" args.area
  let o ← unwrap "offset" args.offset
  return if (MAP_AREA.intersection (a.add o)).isNone then
    .error "Destination area is outside map bounds." else .ok

/-- What `clone` caches per block: nothing stored or not generated, or the result of decoding. -/
abbrev BlockResult := Option (Except MbErr MapBlock)

/-- `get_cached`, `src/commands/clone.rs:30-45`: the value and the new cache. -/
def cloneCached (env : Env) (cache : CacheMap BlockResult) (key : Int) :
    Run (BlockResult × CacheMap BlockResult) := do
  match cache.get key with
  | some r => return (r, cache)
  | none =>
    match ← getGenerated env .main key with
    | some d =>
      let r ← deser env d
      return (some r, cache.insert key (some r))
    | none => return (none, cache.insert key none)

/-- The key blocks are sorted by, `src/commands/clone.rs:57-63`. -/
def sortKey (offset : Vec3) (k : Int) : Res Int :=
  let dir := offset.map fun v => if v > 0 then -1 else 1
  let off := dir.map fun v => if v == -1 then -1 else 0
  (((Vec3.fromBlockKey k).mul dir).add off).toBlockKey

/-- `dst_keys.sort_unstable_by_key(..)`, `src/commands/clone.rs:61-63`.  Sort keys of different valid
block positions differ, so every sorting algorithm gives the same list.  (Rows with other keys are outside
the tables the theorems are about, see `GoodTable`; for them the model takes the stable order.)  Nothing is
compared, so no sort key is computed, if there are fewer than two keys. -/
def sortKeys (offset : Vec3) (keys : List Int) : Res (List Int) :=
  if keys.length < 2 then .ok keys
  else do
    let ks ← keys.mapM fun k => do
      let s ← sortKey offset k
      pure (s, k)
    return (ks.mergeSort fun a b => decide (a.1 ≤ b.1)).map (·.2)

/-- Body of the loop over source blocks, `src/commands/clone.rs:84-106`. -/
def cloneSrc (env : Env) (srcPart : Area) (offset dstPos : Vec3)
    (st : MapBlock × CacheMap BlockResult) (srcPos : Vec3) : Run (MapBlock × CacheMap BlockResult) := do
  if !srcPos.isValidBlockPos then return st
  else
    let srcKey ← Run.lift srcPos.toBlockKey
    let (r, cache) ← cloneCached env st.2 srcKey
    match r with
    | some (.ok src) =>
      let dst ← Run.lift (mergeFrag env.build srcPart offset dstPos srcPos src st.1)
      return (dst, cache)
    | _ => return (st.1, cache)

/-- Body of the loop over destination blocks, `src/commands/clone.rs:68-110`. -/
def cloneStep (env : Env) (dstArea : Area) (offset : Vec3) (cache : CacheMap BlockResult)
    (dstKey : Int) : Run (CacheMap BlockResult) := do
  incDone
  let (r, cache) ← cloneCached env cache dstKey
  match r with
  | none => return cache
  | some (.error _) =>
    incFailed
    return cache
  | some (.ok dst) =>
    let dstPos := Vec3.fromBlockKey dstKey
    let dstPart ← Run.unwrap (dstArea.absBlockOverlap dstPos)
    let srcPart := dstPart.sub offset
    let (dst, cache) ← srcPart.toTouchingBlockArea.positions.foldlM
      (cloneSrc env srcPart offset dstPos) (dst, cache)
    let dst ← Run.lift (cleanNimap env.build dst)
    expect (← setBlock env .main dstKey (← ser env dst))
    return cache

/-- `clone`, `src/commands/clone.rs:48-113`, with the cache capacity as a parameter. -/
def clone (env : Env) (cap : Nat) (args : InstArgs) : Run Unit := do
  let srcArea ← Run.unwrap args.area
  let offset ← Run.unwrap args.offset
  let dstArea := srcArea.add offset
  let keys ← queryKeys env .main [] (some dstArea) false true
  let keys ← Run.lift (sortKeys offset keys)
  beginEditing
  let _ ← keys.foldlM (cloneStep env dstArea offset) (CacheMap.withCapacity cap)
  endEditing

/-! ## overlay, `src/commands/overlay.rs` -/

/-- `verify_args`, `src/commands/overlay.rs:12-32`. -/
def overlayVerify (args : InstArgs) : ArgResult :=
  let zero : Vec3 := ⟨0, 0, 0⟩
  if args.invert && (args.offset.filter fun o => o != zero).isSome then
    .error "Inverted selections cannot be offset."
  else if (MAP_AREA.intersection ((args.area.getD MAP_AREA).add (args.offset.getD zero))).isNone then
    .error "Destination area is outside map bounds."
  else .ok

/-- `let data = idb.get_block(key).unwrap(); if is_valid_generated(&data) { db.set_block(..) }`,
`src/commands/overlay.rs:61-64,103-106`. -/
def copyWhole (env : Env) (key : Int) : Run Unit := do
  let data ← expect (← getBlock env .input key)
  if isValidGenerated env.codec data then
    expect (← setBlock env .main key data)
  else return ()

/-- Copying part of a block, `src/commands/overlay.rs:66-99`. -/
def copyPart (env : Env) (area : Area) (invert : Bool) (key : Int) : Run Unit := do
  let pos := Vec3.fromBlockKey key
  match ← getGenerated env .main key with
  | none => return ()
  | some dstData =>
    let srcData ← expect (← getBlock env .input key)
    match ← deser env srcData with
    | .error _ => incFailed
    | .ok src =>
      match ← deser env dstData with
      | .error _ => incFailed
      | .ok dst =>
        let part ← Run.unwrap (area.relBlockOverlap pos)
        let (from_, to) := if invert then (dst, src) else (src, dst)
        let b ← Run.lift (mergeBlocks env.build from_ to part part)
        let metas ← Run.lift (mergeMetadata from_.metas b.metas part part)
        let b ← Run.lift (cleanNimap env.build { b with metas })
        expect (← setBlock env .main key (← ser env b))

/-- Body of the loop of `overlay_no_offset`, `src/commands/overlay.rs:52-108`. -/
def overlayStep (env : Env) (area : Option Area) (invert : Bool) (key : Int) : Run Unit := do
  incDone
  match area with
  | some a =>
    let pos := Vec3.fromBlockKey key
    if (!invert && a.containsBlock pos) || (invert && !a.touchesBlock pos) then copyWhole env key
    else copyPart env a invert key
  | none => copyWhole env key

/-- `overlay_no_offset`, `src/commands/overlay.rs:42-111`. -/
def overlayNoOffset (env : Env) (args : InstArgs) : Run Unit := do
  let keys ← queryKeys env .input [] args.area args.invert true
  beginEditing
  keys.foldlM (fun _ k => overlayStep env args.area args.invert k) ()
  endEditing

/-- `get_cached`, `src/commands/overlay.rs:114-129`. -/
def overlayCached (env : Env) (cache : CacheMap (Option MapBlock)) (key : Int) :
    Run (Option MapBlock × CacheMap (Option MapBlock)) := do
  match cache.get key with
  | some r => return (r, cache)
  | none =>
    match ← getGenerated env .input key with
    | some d =>
      let r ← deser env d
      return (r.toOption, cache.insert key r.toOption)
    | none => return (none, cache.insert key none)

/-- Body of the loop over source blocks, `src/commands/overlay.rs:168-188`. -/
def overlaySrc (env : Env) (srcPart : Area) (offset dstPos : Vec3)
    (st : MapBlock × CacheMap (Option MapBlock)) (srcPos : Vec3) :
    Run (MapBlock × CacheMap (Option MapBlock)) := do
  if !srcPos.isValidBlockPos then return st
  else
    let srcKey ← Run.lift srcPos.toBlockKey
    let (r, cache) ← overlayCached env st.2 srcKey
    match r with
    | some src =>
      let dst ← Run.lift (mergeFrag env.build srcPart offset dstPos srcPos src st.1)
      return (dst, cache)
    | none => return (st.1, cache)

/-- Body of the loop over destination blocks, `src/commands/overlay.rs:147-192`. -/
def overlayOffsetStep (env : Env) (dstArea : Option Area) (offset : Vec3)
    (cache : CacheMap (Option MapBlock)) (dstKey : Int) : Run (CacheMap (Option MapBlock)) := do
  incDone
  let dstPos := Vec3.fromBlockKey dstKey
  match ← getGenerated env .main dstKey with
  | none => return cache
  | some dstData =>
    match ← deser env dstData with
    | .error _ =>
      incFailed
      return cache
    | .ok dst =>
      let dstPart ←
        match dstArea with
        | none => (pure ⟨dstPos.mulS 16, (dstPos.mulS 16).addS 15⟩ : Run Area)
        | some a => Run.unwrap (a.absBlockOverlap dstPos)
      let srcPart := dstPart.sub offset
      let (dst, cache) ← srcPart.toTouchingBlockArea.positions.foldlM
        (overlaySrc env srcPart offset dstPos) (dst, cache)
      let dst ← Run.lift (cleanNimap env.build dst)
      expect (← setBlock env .main dstKey (← ser env dst))
      return cache

/-- `overlay_with_offset`, `src/commands/overlay.rs:134-195`. -/
def overlayWithOffset (env : Env) (cap : Nat) (args : InstArgs) : Run Unit := do
  let offset ← Run.unwrap args.offset
  let dstArea := args.area.map fun a => a.add offset
  let keys ← queryKeys env .main [] dstArea args.invert true
  beginEditing
  let _ ← keys.foldlM (overlayOffsetStep env dstArea offset) (CacheMap.withCapacity cap)
  endEditing

/-- `overlay`, `src/commands/overlay.rs:198-205`.  `inst.idb.as_mut().unwrap()` is the check of the
first line (the input map is always given, `src/cmd_line.rs:54-56`). -/
def overlay (env : Env) (cap : Nat) (args : InstArgs) : Run Unit := do
  let _ ← theDb .input
  if args.offset.getD ⟨0, 0, 0⟩ = ⟨0, 0, 0⟩ then overlayNoOffset env args
  else overlayWithOffset env cap args

end MapEditr
