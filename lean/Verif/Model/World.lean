import Verif.Model.MapBlock
/-!
# The world a command runs in: SQLite files, progress counters, messages to the user

Models `src/map_database.rs`, the status part of `src/instance.rs:59-227`, and what the program uses
of SQLite.  Assumed of SQLite: statements behave as `Conn.step` says, or fail without effect, or fail
and undo the open transaction; `COMMIT` is atomic, and what is not committed when the program stops is
lost.
-/

namespace MapEditr

/-! ## Tables and connections -/

/-- Table `blocks`: rows `(pos, data)` in the order a table scan visits them. -/
abbrev Table := List (Int × Bytes)

namespace Table

/-- `SELECT data FROM blocks WHERE pos = ?`: the first matching row. -/
def get? (t : Table) (k : Int) : Option Bytes := (t.find? fun r => r.1 == k).map (·.2)

/-- `DELETE FROM blocks WHERE pos = ?`. -/
def del (t : Table) (k : Int) : Table := t.filter fun r => !(r.1 == k)

/-- `INSERT OR REPLACE INTO blocks (pos, data) VALUES (?, ?)`: a replaced row is deleted and the new
one gets the next row number. -/
def put (t : Table) (k : Int) (d : Bytes) : Table := t.del k ++ [(k, d)]

end Table

/-- The SQL statements the program executes, `src/map_database.rs`; `open` stands for opening the
file, `prepare` for compiling the three statements of line 75-78.  The program never executes
`rollback`; it stands for SQLite undoing the open transaction on its own (`World.failed`). -/
inductive Sql
  | open
  | begin
  | commit
  | rollback
  | vacuum
  | tableInfo
  | prepare
  | selectAll
  | select (k : Int)
  | put (k : Int) (d : Bytes)
  | del (k : Int)
  deriving DecidableEq, Repr

/-- A column as `PRAGMA table_info` lists it: name, declared type, primary-key index. -/
structure Col where
  name : String
  type : String
  pk : Int
  deriving DecidableEq, Repr

/-- A database file. -/
structure DbFile where
  table : Table
  cols : List Col

/-- A connection: the committed content of the file, the content this connection sees, whether a
transaction is open. -/
structure Conn where
  durable : Table
  cur : Table
  inTx : Bool
  cols : List Col

/-- A new connection to a file. -/
def Conn.ofFile (f : DbFile) : Conn := ⟨f.table, f.table, false, f.cols⟩

/-- Change the visible table; outside a transaction the change is committed at once. -/
def Conn.change (c : Conn) (t : Table) : Conn :=
  if c.inTx then { c with cur := t } else { c with cur := t, durable := t }

/-- Effect of a statement that succeeds. -/
def Conn.step (c : Conn) : Sql → Conn
  | .begin => { c with inTx := true }
  | .commit => { c with durable := c.cur, inTx := false }
  | .rollback => { c with cur := c.durable, inTx := false }
  | .put k d => c.change (c.cur.put k d)
  | .del k => c.change (c.cur.del k)
  | _ => c

/-- Statements SQLite itself refuses: no nested transaction, no `COMMIT` without one, no `VACUUM`
inside one. -/
def Conn.refuses (c : Conn) : Sql → Bool
  | .begin => c.inTx
  | .commit => !c.inTx
  | .vacuum => c.inTx
  | _ => false

/-- The main map and the input map of `overlay`. -/
inductive DbId | main | input
  deriving DecidableEq, Repr

/-- `MapDatabase`, `src/map_database.rs:62-68`. -/
structure MapDb where
  conn : Conn
  inTransaction : Bool

/-- A statement that was executed on a database, and whether it succeeded. -/
structure Did where
  db : DbId
  stmt : Sql
  ok : Bool
  deriving DecidableEq, Repr

/-! ## Status and messages -/

/-- `InstState`, `src/instance.rs:59-65`. -/
inductive InstState | ignore | querying | editing
  deriving DecidableEq, Repr

/-- `InstStatus`, `src/instance.rs:68-87`. -/
structure Status where
  showProgress : Bool := true
  total : Nat := 0
  done : Nat := 0
  failed : Nat := 0
  state : InstState := .ignore
  deriving DecidableEq, Repr

/-- `LogType`, `src/instance.rs:90-94`. -/
inductive LogType | info | warning | error
  deriving DecidableEq, Repr

/-- Log texts.  A number shown to the user is kept as a number, to stand for `{}` in the text;
`Msg.render` shows how it is abbreviated. -/
inductive Msg
  | text (s : String)
  | count (what : String) (n : Nat)
  | count2 (what : String) (m n : Nat)
  deriving DecidableEq, Repr

/-- `ServerEvent`, `src/instance.rs:107-111`. -/
inductive Event
  | log (t : LogType) (m : Msg)
  | newState (s : InstState)
  | confirmRequest
  deriving DecidableEq, Repr

/-! ## The machine -/

/-- Everything outside the program's control. -/
structure Env where
  build : Build
  codec : Codec
  /-- Hash-map iteration order, at the time when `n` statements have been executed. -/
  ord : Nat → VarOrd
  /-- Whether the `n`-th SQL statement fails. -/
  fail : Nat → Bool
  /-- Whether SQLite undoes the open transaction if the `n`-th statement fails. -/
  undo : Nat → Bool
  /-- The files that exist. -/
  fs : String → Option DbFile
  /-- The reply to the confirmation prompt; `none` if the user interface is gone. -/
  answer : Option Bool

/-- What the compute thread does that the user interface can notice. -/
inductive Act
  /-- The counters get this value. -/
  | count (s : Status)
  /-- A message is sent. -/
  | tell (e : Event)
  deriving DecidableEq, Repr

/-- State of a run. -/
structure World where
  dbs : DbId → Option MapDb
  status : Status
  /-- Messages sent to the user interface, in order. -/
  events : List Event
  /-- Statements executed, in order. -/
  trace : List Did
  /-- Every value `status` has had, in order: what the user interface can see of it at any time. -/
  seen : List Status
  /-- Changes of `status` and messages, in the order in which they happened. -/
  acts : List Act

/-- A computation of the worker thread.  The state survives panics and errors. -/
def Run (α : Type) := World → Res α × World

namespace Run

protected def pure (a : α) : Run α := fun w => (.ok a, w)
protected def bind (m : Run α) (f : α → Run β) : Run β := fun w =>
  match m w with
  | (.ok a, w') => f a w'
  | (.error e, w') => (.error e, w')

instance : Monad Run where
  pure := Run.pure
  bind := Run.bind

/-- A pure computation that may fail. -/
def lift (r : Res α) : Run α := fun w => (r, w)

/-- Change the state. -/
def upd (f : World → World) : Run Unit := fun w => (.ok (), f w)

/-- `Option::unwrap`, `Result::unwrap`. -/
def unwrap (o : Option α) : Run α := lift (MapEditr.unwrap "unwrap" o)

/-- `unwrap_or!(result, { .. continue; })`, `src/utils.rs:130-138`: `none` if the result is an
`Err`; panics propagate. -/
def okOr (r : Res α) : Run (Option α) :=
  match r with
  | .ok a => pure (some a)
  | .error (.err _) => pure none
  | .error (.panic w) => lift (.error (.panic w))

end Run

/-! ## `StatusServer`, `src/instance.rs:119-185` -/

/-- Change the counters. -/
@[reducible] def World.setStatus (f : Status → Status) (w : World) : World :=
  { w with
    status := f w.status
    seen := w.seen ++ [f w.status]
    acts := w.acts ++ [.count (f w.status)] }

/-- Send an event to the UI thread (which is still there: it leaves its loop only when the worker is
gone, `src/cmd_line.rs:322-327`; see C60). -/
def send (e : Event) : Run Unit := .upd fun w => { w with events := w.events ++ [e], acts := w.acts ++ [.tell e] }

/-- `set_state`, `src/instance.rs:130-133`. -/
def setState (s : InstState) : Run Unit := do
  .upd (World.setStatus fun st => { st with state := s })
  send (.newState s)

/-- `set_total`, `src/instance.rs:135-137`. -/
def setTotal (n : Nat) : Run Unit := .upd (World.setStatus fun st => { st with total := n })
/-- `inc_done`, `src/instance.rs:139-141`. -/
def incDone : Run Unit := .upd (World.setStatus fun st => { st with done := st.done + 1 })
/-- `inc_failed`, `src/instance.rs:143-145`. -/
def incFailed : Run Unit := .upd (World.setStatus fun st => { st with failed := st.failed + 1 })
/-- `set_show_progress`, `src/instance.rs:147-149`. -/
def setShowProgress (b : Bool) : Run Unit :=
  .upd (World.setStatus fun st => { st with showProgress := b })
/-- `begin_editing`, `src/instance.rs:151-153`. -/
def beginEditing : Run Unit := setState .editing
/-- `end_editing`, `src/instance.rs:155-157`. -/
def endEditing : Run Unit := setState .ignore
/-- `log`, `src/instance.rs:169-184`. -/
def log (t : LogType) (m : Msg) : Run Unit := send (.log t m)
def logInfo (m : Msg) : Run Unit := log .info m

/-- `get_confirmation`, `src/instance.rs:159-167`. -/
def getConfirmation (env : Env) : Run Bool := do
  send .confirmRequest
  return env.answer.getD false

/-! ## `MapDatabase`, `src/map_database.rs` -/

/-- `DBError`, `src/map_database.rs:1-9`. -/
inductive DbErr | databaseError | invalidDatabase | missingData
  deriving DecidableEq, Repr

/-- Replace database `i`. -/
def World.setDb (w : World) (i : DbId) (m : MapDb) : World :=
  { w with dbs := fun j => if j = i then some m else w.dbs j }

/-- Append to the record of executed statements. -/
def World.did (w : World) (i : DbId) (s : Sql) (ok : Bool) : World :=
  { w with trace := w.trace ++ [⟨i, s, ok⟩] }

/-- What a failing statement leaves behind.  After some errors (`SQLITE_FULL`, `SQLITE_IOERR`,
`SQLITE_NOMEM`, ..., also of a `SELECT`) SQLite undoes the whole transaction and closes it, see
https://www.sqlite.org/lang_transaction.html, section 3; the program does not notice that.  It is
recorded after the failed statement.  For the input map this is left out: it is not changed, and there
is no `BEGIN` or `COMMIT` after it is opened, so it would make no difference. -/
def World.failed (w : World) (env : Env) (i : DbId) (s : Sql) : World :=
  match w.dbs i with
  | none => w.did i s false
  | some m =>
    if i = .main ∧ m.conn.inTx = true ∧ env.undo w.trace.length = true then
      ((w.did i s false).setDb i { m with conn := m.conn.step .rollback }).did i .rollback true
    else w.did i s false

/-- Execute a statement on an open connection; the result tells whether it succeeded.  One call
stands for all library calls of the statement (`bind`, `next`, `read`, `reset`): any of them failing
counts as failure of the statement. -/
def exec (env : Env) (i : DbId) (s : Sql) : Run Bool := fun w =>
  match w.dbs i with
  | none => (.error (.panic "no such database"), w)
  | some m =>
    if m.conn.refuses s then (.ok false, w.did i s false)
    else if env.fail w.trace.length then (.ok false, w.failed env i s)
    else (.ok true, (w.setDb i { m with conn := m.conn.step s }).did i s true)

/-- The state of database `i`. -/
def theDb (i : DbId) : Run MapDb := fun w =>
  match w.dbs i with
  | none => (.error (.panic "no such database"), w)
  | some m => (.ok m, w)

/-- `in_transaction = v`. -/
def setFlag (i : DbId) (v : Bool) : Run Unit := do
  let m ← theDb i
  .upd fun w => w.setDb i { m with inTransaction := v }

/-- `begin_if_needed`, `src/map_database.rs:88-93`.  (It never sets `in_transaction`.) -/
def beginIfNeeded (env : Env) (i : DbId) : Run Bool := do
  let m ← theDb i
  if !m.inTransaction then exec env i .begin else return true

/-- `commit_if_needed`, `src/map_database.rs:95-101`. -/
def commitIfNeeded (env : Env) (i : DbId) : Run Bool := do
  let m ← theDb i
  if m.inTransaction then
    let ok ← exec env i .commit
    if ok then
      setFlag i false
      return true
    else return false
  else return true

/-- `iter_rows` with the iteration it is used for, `src/map_database.rs:103-107,45-59`: all rows;
every failure panics (`unwrap`). -/
def iterRows (env : Env) (i : DbId) : Run Table := do
  let ok ← beginIfNeeded env i
  if ok then
    let ok ← exec env i .selectAll
    if ok then
      let m ← theDb i
      return m.conn.cur
    else .unwrap none
  else .unwrap none

/-- `get_block`, `src/map_database.rs:109-120`. -/
def getBlock (env : Env) (i : DbId) (k : Int) : Run (Except DbErr Bytes) := do
  let ok ← beginIfNeeded env i
  if ok then
    let ok ← exec env i (.select k)
    if ok then
      let m ← theDb i
      match m.conn.cur.get? k with
      | some d => return .ok d
      | none => return .error .missingData
    else return .error .databaseError
  else return .error .databaseError

/-- `set_block`, `src/map_database.rs:122-131`. -/
def setBlock (env : Env) (i : DbId) (k : Int) (d : Bytes) : Run (Except DbErr Unit) := do
  let ok ← beginIfNeeded env i
  if ok then
    let ok ← exec env i (.put k d)
    if ok then return .ok () else return .error .databaseError
  else return .error .databaseError

/-- `delete_block`, `src/map_database.rs:133-139`. -/
def deleteBlock (env : Env) (i : DbId) (k : Int) : Run (Except DbErr Unit) := do
  let ok ← beginIfNeeded env i
  if ok then
    let ok ← exec env i (.del k)
    if ok then return .ok () else return .error .databaseError
  else return .error .databaseError

/-- `vacuum`, `src/map_database.rs:141-145`. -/
def dbVacuum (env : Env) (i : DbId) : Run (Except DbErr Unit) := do
  let ok ← commitIfNeeded env i
  if ok then
    let ok ← exec env i .vacuum
    if ok then return .ok () else return .error .databaseError
  else return .error .databaseError

/-- `.unwrap()` on a database result. -/
def expect (r : Except DbErr α) : Run α := .unwrap r.toOption

/-- `block.serialize()` at this moment (the order of hash maps may differ every time). -/
def ser (env : Env) (b : MapBlock) : Run Bytes := fun w =>
  (serialize env.codec (env.ord w.trace.length) b, w)

/-- The checks of `verify_database`, `src/map_database.rs:28-35`.  A missing row makes `read` fail. -/
def colsOk (cols : List Col) : Bool :=
  match cols with
  | a :: b :: _ => a.name == "pos" && a.type == "INT" && a.pk == 1 &&
      b.name == "data" && b.type == "BLOB" && b.pk == 0
  | _ => false

/-- `verify_database`, `src/map_database.rs:18-38`. -/
def verifyDatabase (env : Env) (i : DbId) : Run (Except DbErr Unit) := do
  let ok ← exec env i .tableInfo
  if ok then
    let m ← theDb i
    if colsOk m.conn.cols then return .ok () else return .error .invalidDatabase
  else return .error .databaseError

/-- `MapDatabase::new`, `src/map_database.rs:71-81`. -/
def MapDb.new (env : Env) (i : DbId) : Run (Except DbErr Unit) := do
  let ok ← exec env i .begin
  if ok then
    match ← verifyDatabase env i with
    | .error e => return .error e
    | .ok _ =>
      let ok ← exec env i .prepare
      if ok then
        setFlag i true
        return .ok ()
      else return .error .databaseError
  else return .error .databaseError

end MapEditr
