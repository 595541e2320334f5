import Verif.Model.Utils
/-!
# Command arguments

Models `InstArgs` (`src/instance.rs:35-56`) and `ArgResult` (`src/commands/mod.rs:22-26`).
-/

namespace MapEditr

/-- `InstArgs`, `src/instance.rs:35-56`. -/
structure InstArgs where
  doConfirmation : Bool
  command : String
  mapPath : String
  inputMapPath : Option String
  area : Option Area
  invert : Bool
  offset : Option Vec3
  node : Option String
  nodes : List String
  newNode : Option String
  object : Option String
  item : Option String
  items : Option (List String)
  newItem : Option String
  delete : Bool
  deleteMeta : Bool
  key : Option String
  value : Option String
  param2 : Option UInt8
  deriving DecidableEq, Repr

/-- `ArgResult`, `src/commands/mod.rs:22-26`. -/
inductive ArgResult
  | ok
  | warning (s : String)
  | error (s : String)
  deriving DecidableEq, Repr

end MapEditr
