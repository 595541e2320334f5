import Verif.Model.Instance
/-!
# The two threads

Models how the compute thread (`spawn_compute_thread`, `src/instance.rs:387-404`) and the user
interface (`run_cmd_line`, `src/cmd_line.rs:259-358`) talk to each other.

There are two unbounded channels, `ServerEvent`s to the user interface and answers back.  The compute
thread has two senders for the first: that of its `StatusServer`, which `compute_thread` owns and drops
when it returns or panics, and `raw_event_tx`, which the closure owns.  It also drops the receiver of
the answers with the `StatusServer`.

Of the compute thread only sending, receiving and the call of the command are visible here (`Prog`);
what it does in between does not depend on the other thread.

Not modelled: failure to start the thread.  What is printed is in `Model/Screen.lean`, the mutex around the
progress counters in `Model/Shared.lean` (it is released at the end of the statement that takes it).
-/

namespace MapEditr

/-- What remains to be done by `compute_thread`. -/
inductive Prog
  /-- It returns `Ok(())` (`none`) or an error. -/
  | ret (e : Option String)
  | panic
  /-- `event_tx.send(e).unwrap()`. -/
  | send (e : Event) (k : Prog)
  /-- `event_rx.recv()`; `none` if the sender is gone. -/
  | recv (k : Option Bool → Prog)
  /-- `func(&mut inst)` is called now. -/
  | start (k : Prog)

/-- Sending a list of events. -/
def sendAll (es : List Event) (k : Prog) : Prog := es.foldr .send k

/-- `compute_thread` from the call of the command on, `src/instance.rs:368-383`. -/
def bodyProg (env : Env) (args : InstArgs) (cmd : Command) (w : World) : Prog :=
  .start (match finish env args cmd w with
    | (r, w') => sendAll (w'.events.drop w.events.length) (match r with
      | .ok (.ok ()) => .ret none
      | .ok (.error e) => .ret (some e)
      | .error _ => .panic))

/-- The warnings before the confirmation, `src/instance.rs:356-363`. -/
def warningEvents (args : InstArgs) (wn : Option String) : List Event :=
  (if args.doConfirmation then [.log .warning (.text GENERAL_WARNING)] else []) ++
  (match wn with | some t => [.log .warning (.text t)] | none => [])

/-- `compute_thread`, `src/instance.rs:322-384`, with `get_confirmation`, `src/instance.rs:159-167`. -/
def workerProg (env : Env) (args : InstArgs) : Prog :=
  match setup env args World.start with
  | (.error _, w) => sendAll w.events .panic
  | (.ok (.error e), w) => sendAll w.events (.ret (some e))
  | (.ok (.ok (cmd, wn)), w) =>
    let w := w.say (warningEvents args wn)
    sendAll w.events <|
      if args.doConfirmation then
        .send .confirmRequest <| .recv fun r =>
          if r.getD false then bodyProg { env with answer := r } args cmd (w.say [.confirmRequest])
          else .ret none
      else bodyProg env args cmd w

/-- State of the compute thread. -/
inductive WState
  /-- In `compute_thread`. -/
  | run (p : Prog)
  /-- `compute_thread` has returned or panicked, and the `StatusServer` is gone.  If there is an error,
  it is still to be sent with `raw_event_tx`, `src/instance.rs:396-400`. -/
  | closing (e : Option String)
  /-- `raw_event_tx` is gone too. -/
  | gone

/-- State of the user interface. -/
inductive UState
  /-- In `recv_timeout`, `src/cmd_line.rs:292`. -/
  | idle
  /-- Waiting for input, `get_confirmation`, `src/cmd_line.rs:250-256`. -/
  | asking
  /-- In `handle.join()`, `src/cmd_line.rs:357`. -/
  | joining
  /-- `run_cmd_line` has returned. -/
  | done
  /-- It has panicked. -/
  | dead
  deriving DecidableEq, Repr

/-- State of both threads and the channels. -/
structure Sys where
  worker : WState
  ui : UState
  toUi : List Event
  toWorker : List Bool
  /-- All events ever sent. -/
  sent : List Event
  /-- All messages ever printed by `print_log`, `src/cmd_line.rs:242-247`. -/
  printed : List (LogType × Msg)
  /-- All answers the user gave. -/
  answers : List Bool
  /-- Whether the command was called. -/
  started : Bool

/-- The start: `spawn_compute_thread` has just returned. -/
def Sys.init (p : Prog) : Sys := ⟨.run p, .idle, [], [], [], [], [], false⟩

/-- Whether the user interface still has its ends of the channels (`StatusClient`). -/
def UState.open : UState → Bool
  | .done | .dead => false
  | _ => true

/-- Who moves. -/
inductive Actor
  | worker
  | ui
  /-- The user enters something. -/
  | user (b : Bool)
  /-- `recv_timeout` gives up waiting; the loop goes on. -/
  | tick
  /-- The user interface panics: writing to standard output or reading from standard input fails. -/
  | crash
  deriving DecidableEq, Repr

/-- Send an event to the user interface. -/
def Sys.push (s : Sys) (e : Event) : Sys := { s with toUi := s.toUi ++ [e], sent := s.sent ++ [e] }

/-- A step of the compute thread. -/
def workerStep (s : Sys) : Option Sys :=
  match s.worker with
  | .run (.send e k) =>
    if s.ui.open then some { s.push e with worker := .run k } else some { s with worker := .closing none }
  | .run (.recv k) =>
    match s.toWorker with
    | b :: t => some { s with worker := .run (k (some b)), toWorker := t }
    | [] => if s.ui.open then none else some { s with worker := .run (k none) }
  | .run (.start k) => some { s with worker := .run k, started := true }
  | .run (.ret e) => some { s with worker := .closing e }
  | .run .panic => some { s with worker := .closing none }
  | .closing (some e) =>
    if s.ui.open then some { s.push (.log .error (.text e)) with worker := .closing none }
    else some { s with worker := .closing none }
  | .closing none => some { s with worker := .gone }
  | .gone => none

/-- Whether all senders of events are gone. -/
def WState.isGone : WState → Bool
  | .gone => true
  | _ => false

/-- Whether the receiver of answers is there. -/
def WState.isRunning : WState → Bool
  | .run _ => true
  | _ => false

/-- A step of the user interface, `src/cmd_line.rs:288-357`. -/
def uiStep (s : Sys) : Option Sys :=
  match s.ui with
  | .idle =>
    match s.toUi with
    | .log t m :: rest => some { s with toUi := rest, printed := s.printed ++ [(t, m)] }
    | .newState _ :: rest => some { s with toUi := rest }
    | .confirmRequest :: rest => some { s with toUi := rest, ui := .asking }
    | [] => if s.worker.isGone then some { s with ui := .joining } else none
  | .joining => if s.worker.isGone then some { s with ui := .done } else none
  | _ => none

/-- A step of the whole program; `none` if it is not possible. -/
def step (a : Actor) (s : Sys) : Option Sys :=
  match a with
  | .worker => workerStep s
  | .ui => uiStep s
  | .user b =>
    match s.ui with
    | .asking =>
      if s.worker.isRunning then
        some { s with ui := .idle, toWorker := s.toWorker ++ [b], answers := s.answers ++ [b] }
      else some { s with ui := .dead, answers := s.answers ++ [b], toUi := [] }
    | _ => none
  | .tick =>
    match s.ui, s.toUi with
    | .idle, [] => if s.worker.isGone then none else some s
    | _, _ => none
  | .crash =>
    match s.ui with
    | .idle | .asking => some { s with ui := .dead, toUi := [] }
    | _ => none

end MapEditr
