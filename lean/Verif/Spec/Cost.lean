import Verif.Model.World
/-! # Spec: what a run asks of the databases -/

namespace MapEditr.Spec

/-- How many statements the program has executed (opening a file included).  A `rollback` is something
SQLite does by itself when a statement fails. -/
def asked (t : List Did) : Nat := (t.filter fun d => decide (d.stmt ≠ .rollback)).length

/-- The blocks a statement writes or deletes. -/
def wrote : Sql → List Int
  | .put k _ => [k]
  | .del k => [k]
  | _ => []

/-- The blocks the program has written or deleted or has tried to, in order. -/
def keysWritten (t : List Did) : List Int := t.flatMap fun d => wrote d.stmt

end MapEditr.Spec
