import Verif.Model.Commands
import Verif.Model.Copy
/-!
# Argument checks and the worker thread

Models `src/instance.rs:238-404` and the command table of `src/commands/mod.rs:51-73`.
-/

namespace MapEditr

/-- `c.is_ascii_lowercase() || c.is_ascii_digit() || c == '_'`, `src/instance.rs:270-271`. -/
def isModChar (c : Char) : Bool := ('a' ≤ c && c ≤ 'z') || ('0' ≤ c && c ≤ '9') || c == '_'

/-- `c.is_ascii_alphanumeric() || c == '_'`, `src/instance.rs:272-273`. -/
def isItemChar (c : Char) : Bool :=
  ('a' ≤ c && c ≤ 'z') || ('A' ≤ c && c ≤ 'Z') || ('0' ≤ c && c ≤ '9') || c == '_'

/-- `is_valid_name`, `src/instance.rs:258-275`. -/
def isValidName (name : String) : Bool :=
  if name == "air" || name == "ignore" then true
  else
    let s := name.toList
    match s.idxOf? ':' with
    | none => false
    | some d => (s.take d).all isModChar && (s.drop (d + 1)).all isItemChar

/-- `huge`, `src/instance.rs:249`. -/
def huge (n : Int) : Bool := decide (n < -MAP_LIMIT * 2 ∨ n > MAP_LIMIT * 2)

/-- `verify_name!` and the loops over names, `src/instance.rs:277-298`: the error for the first name
that is not valid. -/
def badName (what : String) (names : List String) : Option String :=
  names.findSome? fun n => if isValidName n then none else some ("Invalid " ++ what ++ " name: " ++ n)

/-- `Vec3::fmt`, `src/spatial/vec3.rs:143-147`. -/
def Vec3.show (p : Vec3) : String := "(" ++ toString p.x ++ ", " ++ toString p.y ++ ", " ++ toString p.z ++ ")"

/-- `verify_args`, `src/instance.rs:238-301`: the error, if any. -/
def verifyArgs (args : InstArgs) : Option String :=
  (if args.area.isNone && args.invert then some "Cannot invert without a specified area." else none)
  <|> (args.area.bind fun a => [a.min, a.max].findSome? fun pos =>
    if pos.isValidNodePos then none else some ("Area corner is outside map bounds: " ++ pos.show ++ "."))
  <|> (args.offset.bind fun o => if huge o.x || huge o.y || huge o.z then
    some ("Offset cannot be larger than " ++ toString (MAP_LIMIT * 2) ++ " nodes in any direction.") else none)
  <|> badName "node" args.node.toList
  <|> badName "node" args.nodes
  <|> badName "node" args.newNode.toList
  <|> badName "object" args.object.toList
  <|> badName "item" args.item.toList
  <|> badName "item" (args.items.getD [])
  <|> badName "item" args.newItem.toList

/-- `ArgType`, `src/instance.rs:14-32`. -/
inductive ArgType
  | inputMapPath
  | area (required : Bool)
  | invert
  | offset (required : Bool)
  | node (required : Bool)
  | nodes
  | newNode
  | object
  | item
  | items
  | newItem
  | delete
  | deleteMeta
  | key
  | value
  | param2
  deriving DecidableEq, Repr

/-- `Command`, `src/commands/mod.rs:43-48`; `verify` answers `Ok` if the command has no check. -/
structure Command where
  func : Env → InstArgs → Run Unit
  verify : InstArgs → Res ArgResult
  args : List ArgType

/-- `get_commands`, `src/commands/mod.rs:51-73`, with the `get_command` functions. -/
def commands : List (String × Command) :=
  [ ("clone", ⟨fun env => clone env BLOCK_CACHE_SIZE, cloneVerify, [.area true, .offset true]⟩),
    ("deleteblocks", ⟨deleteBlocks, fun _ => .ok .ok, [.area true, .invert]⟩),
    ("deletemeta", ⟨deleteMetadata, fun a => .ok (deleteMetaVerify a), [.node false, .area false, .invert]⟩),
    ("deleteobjects", ⟨deleteObjects, fun a => .ok (deleteObjectsVerify a),
      [.object, .items, .area false, .invert]⟩),
    ("deletetimers", ⟨deleteTimers, fun _ => .ok .ok, [.node false, .area false, .invert]⟩),
    ("fill", ⟨fill, fun _ => .ok .ok, [.area true, .invert, .newNode]⟩),
    ("replacenodes", ⟨replaceNodes, fun a => .ok (replaceNodesVerify a),
      [.node true, .newNode, .area false, .invert]⟩),
    ("replaceininv", ⟨replaceInInv, fun a => .ok (replaceInInvVerify a),
      [.item, .newItem, .delete, .deleteMeta, .nodes, .area false, .invert]⟩),
    ("overlay", ⟨fun env => overlay env BLOCK_CACHE_SIZE, fun a => .ok (overlayVerify a),
      [.inputMapPath, .area false, .invert, .offset false]⟩),
    ("setmetavar", ⟨setMetaVar, fun a => .ok (setMetaVarVerify a),
      [.key, .value, .delete, .nodes, .area false, .invert]⟩),
    ("setparam2", ⟨setParam2, fun a => .ok (setParam2Verify a),
      [.node false, .area false, .invert, .param2]⟩),
    ("vacuum", ⟨fun env _ => vacuum env, fun _ => .ok .ok, []⟩) ]

/-- `commands[name]`. -/
def command? (name : String) : Option Command := (commands.find? fun c => c.1 == name).map (·.2)

/-- `path.join("map.sqlite")`, `src/instance.rs:310`: a slash comes between, except after an empty path
or after a slash (`std::path::PathBuf::push` on Unix). -/
def withMapFile (path : String) : String :=
  match path.toList.getLast? with
  | none => path ++ "map.sqlite"
  | some c => if c = '/' then path ++ "map.sqlite" else path ++ "/map.sqlite"

/-- `open_map`, `src/instance.rs:307-316`: which file it opens. -/
def mapFile (env : Env) (path : String) : Option DbFile :=
  match env.fs path with
  | some f => some f
  | none => env.fs (withMapFile path)

/-- `open_map`, `src/instance.rs:304-319`; the result tells whether the map was opened. -/
def openMap (env : Env) (i : DbId) (path : String) : Run Bool := fun w =>
  match mapFile env path with
  | none => (.ok false, w)
  | some f =>
    if env.fail w.trace.length then (.ok false, w.did i .open false)
    else (.ok true, (w.setDb i ⟨Conn.ofFile f, false⟩).did i .open true)

/-- Text of the general warning, `src/instance.rs:358-359`. -/
def GENERAL_WARNING : String :=
  "This tool can permanently damage your Minetest world.\nAlways EXIT Minetest and BACK UP the map database before use."

/-- `inst.status.get_status().blocks_failed`, `src/instance.rs:370`. -/
def getFailed : Run Nat := fun w => (.ok w.status.failed, w)

/-- `compute_thread` from the confirmation on, `src/instance.rs:355-384`. -/
def runCommand (env : Env) (args : InstArgs) (cmd : Command) (warning : Option String) :
    Run (Except String Unit) := do
  if args.doConfirmation then log .warning (.text GENERAL_WARNING)
  match warning with
  | some t => log .warning (.text t)
  | none => pure ()
  let go ← if args.doConfirmation then getConfirmation env else pure true
  if !go then return .ok ()
  else
    cmd.func env args
    let fails ← getFailed
    if fails > 0 then logInfo (.count "Skipped {} invalid/unsupported mapblocks." fails)
    let m ← theDb .main
    let ok ←
      if m.inTransaction then do
        logInfo (.text "Committing...")
        commitIfNeeded env .main
      else pure true
    if ok then
      logInfo (.text "Done.")
      return .ok ()
    else return .error "database operation failed"

/-- `compute_thread`, `src/instance.rs:322-384`.  `.ok (.error e)` is a returned error, `.error` a
panic. -/
def computeThread (env : Env) (args : InstArgs) : Run (Except String Unit) := do
  match verifyArgs args with
  | some e => return .error e
  | none =>
    let cmd ← Run.unwrap (command? args.command)
    match ← Run.lift (cmd.verify args) with
    | .error e => return .error e
    | res =>
      let warning := match res with | .warning t => some t | _ => none
      let ok ← openMap env .main args.mapPath
      if !ok then return .error "Failed to open main world/map."
      else
        match ← MapDb.new env .main with
        | .error _ => return .error "Main world or map database is invalid."
        | .ok _ =>
          match args.inputMapPath with
          | none => runCommand env args cmd warning
          | some p =>
            let ok ← openMap env .input p
            if !ok then return .error "Failed to open input world/map."
            else
              match ← MapDb.new env .input with
              | .error _ => return .error "Input world or map database is invalid."
              | .ok _ => runCommand env args cmd warning

/-- The closure of `spawn_compute_thread`, `src/instance.rs:395-401`. -/
def worker (env : Env) (args : InstArgs) : Run Unit := do
  match ← computeThread env args with
  | .ok _ => return ()
  | .error e => log .error (.text e)

/-- The world when the worker starts. -/
def World.start : World := ⟨fun _ => none, {}, [], [], [{}], []⟩

/-! ## The same cut in two

`computeThread` up to the warnings and after the confirmation; see `computeThread_eq` and
`runCommand_eq`. -/

/-- The part of `computeThread` before `runCommand`, `src/instance.rs:322-353`. -/
def setup (env : Env) (args : InstArgs) : Run (Except String (Command × Option String)) := do
  match verifyArgs args with
  | some e => return .error e
  | none =>
    let cmd ← Run.unwrap (command? args.command)
    match ← Run.lift (cmd.verify args) with
    | .error e => return .error e
    | res =>
      let warning := match res with | .warning t => some t | _ => none
      let ok ← openMap env .main args.mapPath
      if !ok then return .error "Failed to open main world/map."
      else
        match ← MapDb.new env .main with
        | .error _ => return .error "Main world or map database is invalid."
        | .ok _ =>
          match args.inputMapPath with
          | none => return .ok (cmd, warning)
          | some p =>
            let ok ← openMap env .input p
            if !ok then return .error "Failed to open input world/map."
            else
              match ← MapDb.new env .input with
              | .error _ => return .error "Input world or map database is invalid."
              | .ok _ => return .ok (cmd, warning)

/-- `runCommand` after the confirmation, `src/instance.rs:368-383`; the text of the error is from
`src/map_database.rs:3-4`. -/
def finish (env : Env) (args : InstArgs) (cmd : Command) : Run (Except String Unit) := do
  cmd.func env args
  let fails ← getFailed
  if fails > 0 then logInfo (.count "Skipped {} invalid/unsupported mapblocks." fails)
  let m ← theDb .main
  let ok ←
    if m.inTransaction then do
      logInfo (.text "Committing...")
      commitIfNeeded env .main
    else pure true
  if ok then
    logInfo (.text "Done.")
    return .ok ()
  else return .error "database operation failed"

/-- The world with more messages. -/
def World.say (w : World) (es : List Event) : World := { w with events := w.events ++ es, acts := w.acts ++ es.map .tell }

end MapEditr
