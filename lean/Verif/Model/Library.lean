import Verif.Model.World
/-!
# The map database, one library call at a time

A second rendering of `src/map_database.rs`, closer to SQLite than that in `Model/World`: `bind`, `next`, `read` and
`reset` are calls of their own, each of which may fail, and a prepared statement remembers whether it has been
stepped since it was last reset.

Assumed of SQLite and the `sqlite` crate:

* `sqlite3_bind_*` on a statement that has been stepped and not reset since then is refused (`SQLITE_MISUSE`,
  https://www.sqlite.org/c3ref/bind_blob.html);
* a step of `INSERT` or `DELETE` does all that the statement does, or fails without effect, or fails and undoes the open
  transaction (as in `Model/World`);
* `reset` makes a statement usable again.  It may fail after the step of a `SELECT` that gave a row, and does not fail
  after a step that said that the statement is finished;
* `execute` is one call, as in `Model/World`.

C110 compares the two.
-/

namespace MapEditr.Lib

/-- The prepared statements, `src/map_database.rs:62-68`. -/
inductive Stmt | get | set | del
  deriving DecidableEq, Repr

/-- What the program has no say in: which library calls fail, by number, and which of them undo the open transaction
when they fail. -/
structure Outside where
  fail : Nat → Bool
  undo : Nat → Bool

/-- `MapDatabase`, `src/map_database.rs:62-68`, and what belongs to it in SQLite. -/
structure Db where
  conn : Conn
  inTransaction : Bool
  /-- Whether the statement has been stepped since it was last reset. -/
  stepped : Stmt → Bool
  /-- Library calls so far. -/
  calls : Nat

/-- Functions that return `Result<_, DBError>`. -/
def L (α : Type) : Type := Db → Except DbErr α × Db

instance : Monad L where
  pure a := fun d => (.ok a, d)
  bind m f := fun d => match m d with
    | (.ok a, d) => f a d
    | (.error e, d) => (.error e, d)

/-- `Err(e)`. -/
def err (e : DbErr) : L α := fun d => (.error e, d)

/-- `self.in_transaction`. -/
def flag : L Bool := fun d => (.ok d.inTransaction, d)

/-- `self.in_transaction = b`. -/
def setFlag (b : Bool) : L Unit := fun d => (.ok (), { d with inTransaction := b })

/-! ## Library calls -/

/-- A call that neither looks at the database nor changes it: `prepare`, `read`. -/
def call (o : Outside) : L Unit := fun d =>
  if o.fail d.calls then (.error .databaseError, { d with calls := d.calls + 1 })
  else (.ok (), { d with calls := d.calls + 1 })

/-- A call that runs SQL code: it may fail, and then undo the open transaction. -/
def attempt (o : Outside) (s : Sql) : L Unit := fun d =>
  if o.fail d.calls then
    (.error .databaseError,
      { d with calls := d.calls + 1
               conn := if d.conn.inTx && o.undo d.calls then d.conn.step .rollback else d.conn })
  else (.ok (), { d with calls := d.calls + 1, conn := d.conn.step s })

/-- `conn.execute(..)`. -/
def execute (o : Outside) (s : Sql) : L Unit := fun d =>
  if d.conn.refuses s then (.error .databaseError, { d with calls := d.calls + 1 }) else attempt o s d

/-- `stmt.bind(..)`. -/
def bind (o : Outside) (t : Stmt) : L Unit := fun d =>
  if d.stepped t then (.error .databaseError, { d with calls := d.calls + 1 }) else call o d

/-- `stmt.next()`, for a statement with the values that have been bound. -/
def next (o : Outside) (t : Stmt) (s : Sql) : L Unit := fun d =>
  attempt o s { d with stepped := fun u => if u = t then true else d.stepped u }

/-- `stmt.reset()`; `row` tells whether the last step gave a row. -/
def reset (o : Outside) (t : Stmt) (row : Bool) : L Unit := fun d =>
  let d := { d with stepped := fun u => if u = t then false else d.stepped u }
  if row then call o d else (.ok (), { d with calls := d.calls + 1 })

/-- What `SELECT data FROM blocks WHERE pos = ?` finds. -/
def lookup (k : Int) : L (Option Bytes) := fun d => (.ok (d.conn.cur.get? k), d)

/-- What `SELECT pos, data FROM blocks` finds. -/
def table : L Table := fun d => (.ok d.conn.cur, d)

/-! ## `MapDatabase` -/

/-- `begin_if_needed`, `src/map_database.rs:88-93`. -/
def beginIfNeeded (o : Outside) : L Unit := do
  if !(← flag) then execute o .begin

/-- `commit_if_needed`, `src/map_database.rs:95-101`. -/
def commitIfNeeded (o : Outside) : L Unit := do
  if ← flag then
    execute o .commit
    setFlag false

/-- `MapDatabaseRows::next`, `src/map_database.rs:45-59`, for every row and once more for the end. -/
def readRows (o : Outside) : Table → L Unit
  | [] => attempt o .selectAll
  | _ :: t => do
    attempt o .selectAll
    call o
    call o
    readRows o t

/-- `iter_rows` and the iteration, `src/map_database.rs:103-107,45-59`; every error is a panic. -/
def iterRows (o : Outside) : L Table := do
  beginIfNeeded o
  call o
  let t ← table
  readRows o t
  return t

/-- `get_block`, `src/map_database.rs:109-120`. -/
def getBlock (o : Outside) (k : Int) : L Bytes := do
  beginIfNeeded o
  bind o .get
  next o .get (.select k)
  match ← lookup k with
  | some v => do
    call o
    reset o .get true
    return v
  | none => do
    reset o .get false
    err .missingData

/-- `set_block`, `src/map_database.rs:122-131`. -/
def setBlock (o : Outside) (k : Int) (v : Bytes) : L Unit := do
  beginIfNeeded o
  bind o .set
  bind o .set
  next o .set (.put k v)
  reset o .set false

/-- `delete_block`, `src/map_database.rs:133-139`. -/
def deleteBlock (o : Outside) (k : Int) : L Unit := do
  beginIfNeeded o
  bind o .del
  next o .del (.del k)
  reset o .del false

/-- `vacuum`, `src/map_database.rs:141-145`. -/
def dbVacuum (o : Outside) : L Unit := do
  commitIfNeeded o
  execute o .vacuum

/-! ## Using it -/

/-- A call of one of the functions. -/
inductive Op
  | get (k : Int)
  | put (k : Int) (v : Bytes)
  | del (k : Int)
  | rows
  | commit
  | vacuum
  deriving DecidableEq, Repr

/-- What it gives. -/
inductive Ans
  | data (r : Except DbErr Bytes)
  | unit (r : Except DbErr Unit)
  /-- `none` is a panic. -/
  | rows (t : Option Table)
  deriving DecidableEq, Repr

/-- The call. -/
def Op.run (o : Outside) : Op → Db → Ans × Db
  | .get k, d => let r := getBlock o k d; (.data r.1, r.2)
  | .put k v, d => let r := setBlock o k v d; (.unit r.1, r.2)
  | .del k, d => let r := deleteBlock o k d; (.unit r.1, r.2)
  | .rows, d => let r := iterRows o d; (.rows r.1.toOption, r.2)
  | .commit, d => let r := commitIfNeeded o d; (.unit r.1, r.2)
  | .vacuum, d => let r := dbVacuum o d; (.unit r.1, r.2)

/-- Someone who uses a map database: what they do next, or nothing more, given what they got so far. -/
abbrev Client := List Ans → Option Op

/-- The first `n` calls of a client, after those that gave `as`. -/
def Client.run (o : Outside) (c : Client) : Nat → List Ans → Db → List Ans × Db
  | 0, as, d => (as, d)
  | n + 1, as, d =>
    match c as with
    | none => (as, d)
    | some op => let r := op.run o d; Client.run o c n (as ++ [r.1]) r.2

end MapEditr.Lib
