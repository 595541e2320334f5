import Verif.Model.Instance
/-!
# A map file that others use at the same time

In `Model/World` a run has the map for itself.  Here a file has any number of connections, kept apart by SQLite's locks
(https://www.sqlite.org/lockingv3.html; journal mode `DELETE`, which is the default and which Minetest uses):

* whoever reads gets a SHARED lock, whoever writes a RESERVED lock, of which there is one; in a transaction they are kept
  until its end (whether `PRAGMA table_info` gets a lock that is kept depends on the version of SQLite, so either may be
  the case);
* a change reaches the file at `COMMIT`, or at once outside a transaction; that needs an EXCLUSIVE lock, which is not
  given while anybody else has a lock;
* while changes do not fit into memory ("spill") a transaction needs the EXCLUSIVE lock earlier, and keeps it; nobody else
  can read then;
* a statement that does not get its lock fails (`SQLITE_BUSY`; neither the program nor the `sqlite` crate sets a timeout)
  and does nothing.

There is nothing of this in the program itself: it opens the files (`src/instance.rs`, `open_map`), begins a transaction
first thing (`src/map_database.rs`, `MapDatabase::new`) and takes a refused statement for an error.

Left out: PENDING locks, which only keep newcomers out; locks a failing statement may leave behind in an open transaction;
what `open` and `prepare` read of the file.
-/

namespace MapEditr.Locks

/-- Whose connection it is: that of this run to its main map or its input map, or another one. -/
inductive Who
  | us (i : DbId)
  | other (n : Nat)
  deriving DecidableEq, Repr

/-- A file and its locks. -/
structure File where
  /-- What has been committed. -/
  content : Table
  inTx : Who → Bool
  /-- Who has a lock. -/
  readers : List Who
  /-- Who has the RESERVED or EXCLUSIVE lock. -/
  writer : Option Who
  /-- It is the EXCLUSIVE one. -/
  exclusive : Bool
  /-- What those with a lock see: the content, with their own changes. -/
  view : Who → Table

/-- A function with another value at one place. -/
def upd (f : Who → α) (x : Who) (a : α) : Who → α := fun y => if y = x then a else f y

namespace File

/-- A SHARED lock can be had. -/
def canRead (f : File) (x : Who) : Bool := !f.exclusive || f.writer == some x

/-- The RESERVED lock can be had. -/
def canWrite (f : File) (x : Who) : Bool := f.writer == none || f.writer == some x

/-- The EXCLUSIVE lock can be had: nobody else has a lock. -/
def canStore (f : File) (x : Who) : Bool := f.readers.all (· == x)

/-- What a connection sees. -/
def sees (f : File) (x : Who) : Table := if x ∈ f.readers then f.view x else f.content

/-- Get a SHARED lock. -/
def share (f : File) (x : Who) : File :=
  if x ∈ f.readers then f else { f with readers := x :: f.readers, view := upd f.view x f.content }

/-- The end of a transaction. -/
def leave (f : File) (x : Who) : File :=
  { f with
    inTx := upd f.inTx x false
    readers := f.readers.filter fun y => !(y == x)
    writer := if f.writer = some x then none else f.writer
    exclusive := if f.writer = some x then false else f.exclusive }

/-- `INSERT OR REPLACE` or `DELETE`. -/
def change (f : File) (x : Who) (spill : Bool) (g : Table → Table) : Option File :=
  if f.canRead x && f.canWrite x && ((f.inTx x && !spill) || f.canStore x) then
    if f.inTx x then
      let f := f.share x
      some { f with writer := some x, exclusive := f.exclusive || spill, view := upd f.view x (g (f.view x)) }
    else some { f with content := g f.content }
  else none

/-- A statement; `none` if SQLite refuses it. -/
def step (f : File) (x : Who) (spill keep : Bool) : Sql → Option File
  | .open => some f
  | .prepare => some f
  | .begin => if f.inTx x then none else some { f with inTx := upd f.inTx x true }
  | .tableInfo => if f.canRead x then some (if f.inTx x && keep then f.share x else f) else none
  | .selectAll => if f.canRead x then some (if f.inTx x then f.share x else f) else none
  | .select _ => if f.canRead x then some (if f.inTx x then f.share x else f) else none
  | .put k d => f.change x spill (·.put k d)
  | .del k => f.change x spill (·.del k)
  | .commit =>
    if !f.inTx x then none
    else if f.writer = some x then
      if f.canStore x then some { f.leave x with content := f.view x } else none
    else some (f.leave x)
  | .rollback => some (f.leave x)
  | .vacuum => if !f.inTx x && f.canRead x && f.canWrite x && f.canStore x then some f else none

end File

/-- Something another program does to the file. -/
structure Move where
  who : Nat
  stmt : Sql
  spill : Bool
  keep : Bool
  deriving DecidableEq, Repr

/-- Other programs at work.  What SQLite refuses has no effect. -/
def others (f : File) (l : List Move) : File :=
  l.foldl (fun f m => (f.step (.other m.who) m.spill m.keep m.stmt).getD f) f

/-- The company a run is in. -/
structure Company where
  /-- Which of the two maps of the run are this file. -/
  uses : DbId → Bool
  /-- What others do before the `n`-th statement of the run. -/
  before : Nat → List Move
  /-- Whether memory does not suffice at the `n`-th statement of the run. -/
  spill : Nat → Bool
  /-- Whether the `n`-th statement of the run keeps its lock if it is `PRAGMA table_info`. -/
  keep : Nat → Bool

/-- The file after a statement of the run, which comes after `n` others. -/
def Company.turn (c : Company) (s : File × Nat) (d : Did) : File × Nat :=
  let f := others s.1 (c.before s.2)
  (if d.ok && c.uses d.db then (f.step (.us d.db) (c.spill s.2) (c.keep s.2) d.stmt).getD f else f, s.2 + 1)

/-- The file after the statements of a run. -/
def Company.after (c : Company) (f : File) (tr : List Did) : File := (tr.foldl c.turn (f, 0)).1

/-- The file when the next statement comes. -/
def Company.now (c : Company) (f : File) (tr : List Did) : File := others (c.after f tr) (c.before tr.length)

end MapEditr.Locks
