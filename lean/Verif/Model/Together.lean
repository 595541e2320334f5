import Verif.Model.Locks
/-!
# Several runs of the program at the same time

Each run is a process of its own (`src/main.rs`), so they meet in the files only, where SQLite's locks keep them apart
(`Model/Locks`).  A schedule says in which order their statements come.  A `ROLLBACK` in a schedule is the closing of a
connection, by a run that drops it or by the end of its process, whichever way that comes: SQLite then undoes what is not
committed, and gives back the locks.
-/

namespace MapEditr.Locks

/-- A statement of one of the runs; `spill` and `keep` as in `Company`. -/
structure Turn where
  run : Nat
  did : Did
  spill : Bool
  keep : Bool
  deriving DecidableEq, Repr

/-- The connection of a run to one of its maps. -/
def whose (r : Nat) (i : DbId) : Who := .other (2 * r + if i = .main then 0 else 1)

/-- The file after a statement; `uses` says which maps of which runs are this file. -/
def Turn.act (uses : Nat → DbId → Bool) (f : File) (u : Turn) : File :=
  if u.did.ok && uses u.run u.did.db then (f.step (whose u.run u.did.db) u.spill u.keep u.did.stmt).getD f else f

/-- The file after the statements of several runs. -/
def together (uses : Nat → DbId → Bool) (f : File) (S : List Turn) : File := S.foldl (Turn.act uses) f

/-- The statements of one run. -/
def part (r : Nat) (S : List Turn) : List Did :=
  (S.filter fun u => u.run == r && u.did.stmt != .rollback).map (·.did)

end MapEditr.Locks
