import Verif.Model.Screen
/-!
# The counters both threads use

`Arc<Mutex<InstStatus>>` and the channel of events, `src/instance.rs:119-227`, one step at a time: taking the lock,
changing or copying what it protects, giving it back, sending, receiving.  A change is not one step: half way the
counters have no value (`none`), and whoever looked at them then would see that.

What the compute thread does is given by `World.acts`: the changes and messages of a run, in order (also of one that
panics: no lock is held then, and C104 shows that the additions made under the lock do not overflow).  The user
interface turns in its loop, `src/cmd_line.rs:288-355`: it receives an event or gives up waiting, and may then copy the
counters.

More can happen here than in the program: the user interface may give up waiting while there are events, may look at
the counters in any turn, and the compute thread does not wait for the answer to its question.
-/

namespace MapEditr.Shared

/-- Who holds the lock. -/
inductive Who | worker | ui
  deriving DecidableEq, Repr

/-- Where the compute thread is in a statement such as `self.status.lock().unwrap().blocks_done += 1`. -/
inductive WPos | outside | locked | writing | written
  deriving DecidableEq, Repr

/-- Where the user interface is in a turn of its loop. -/
inductive UPos
  /-- In `recv_timeout`. -/
  | waiting
  /-- Has received, `src/cmd_line.rs:292-329`. -/
  | turn
  /-- In `get_status`, `src/instance.rs:195-197`: holds the lock. -/
  | locked
  /-- Has made the copy and still holds the lock. -/
  | copied
  deriving DecidableEq, Repr

/-- A turn of the loop: what was received, and what was read if anything was. -/
structure Turn where
  recv : Recv
  read : Option (Option Status)

/-- Both threads. -/
structure State where
  /-- What the compute thread has yet to do; it may be in the middle of the first. -/
  todo : List Act
  worker : WPos
  /-- The protected value; `none` while it is being changed. -/
  value : Option Status
  holder : Option Who
  queue : List Event
  ui : UPos
  /-- The turns so far. -/
  turns : List Turn

/-- The start, `status_link`, `src/instance.rs:210-227`. -/
def State.init (acts : List Act) : State := ⟨acts, .outside, some {}, none, [], .waiting, []⟩

/-- What may happen next. -/
inductive Actor
  | worker
  | ui
  /-- `recv_timeout` gives up. -/
  | timeout
  /-- The turn ends without reading the counters. -/
  | skip
  deriving DecidableEq, Repr

/-- A step of the compute thread, `src/instance.rs:126-149,169-172`. -/
def workerStep (s : State) : Option State :=
  match s.todo with
  | [] => none
  | .tell e :: t => some { s with todo := t, queue := s.queue ++ [e] }
  | .count v :: t =>
    match s.worker with
    | .outside => if s.holder = none then some { s with worker := .locked, holder := some .worker } else none
    | .locked => some { s with worker := .writing, value := none }
    | .writing => some { s with worker := .written, value := some v }
    | .written => some { s with worker := .outside, holder := none, todo := t }

/-- A step of the user interface. -/
def uiStep (s : State) : Option State :=
  match s.ui with
  | .waiting =>
    match s.queue with
    | [] => none
    | e :: q => some { s with ui := .turn, queue := q, turns := s.turns ++ [⟨.event e, none⟩] }
  | .turn => if s.holder = none then some { s with ui := .locked, holder := some .ui } else none
  | .locked =>
    match s.turns.getLast? with
    | some k => some { s with ui := .copied, turns := s.turns.dropLast ++ [{ k with read := some s.value }] }
    | none => none
  | .copied => some { s with ui := .waiting, holder := none }

/-- A step; `none` if it is not possible. -/
def step (a : Actor) (s : State) : Option State :=
  match a with
  | .worker => workerStep s
  | .ui => uiStep s
  | .timeout => if s.ui = .waiting then some { s with ui := .turn, turns := s.turns ++ [⟨.timeout, none⟩] } else none
  | .skip => if s.ui = .turn then some { s with ui := .waiting } else none

/-- States that can be reached. -/
inductive Reach (acts : List Act) : State → Prop
  | init : Reach acts (.init acts)
  | step {s s' : State} (a : Actor) : Reach acts s → Shared.step a s = some s' → Reach acts s'

end MapEditr.Shared

namespace MapEditr

/-- Does the loop body call `get_status`, `src/cmd_line.rs:330-349`? -/
def Ui.reads (u : Ui) (k : Tick) : Bool :=
  let r := u.receive k
  let timed := decide (k.now ≥ r.1.lastUpdate + UPDATE_INTERVAL)
  r.2 == .querying || (r.1.curState == .querying && timed) || r.2 == .editing || (r.1.curState == .editing && timed)

/-- The loop has taken these turns, from time `t0` on, and `u` is the result: it has received what the turns say, and
the counters it used are those read in the turn. -/
inductive Shared.Plays (t0 : Nat) : List Shared.Turn → Ui → Prop
  | init : Plays t0 [] (Ui.init t0)
  | turn {ts : List Shared.Turn} {t : Shared.Turn} {u v : Ui} {k : Tick} : Plays t0 ts u → k.recv = t.recv →
      (u.reads k = true → t.read = some (some k.status)) → u.step k = .ok v → Plays t0 (ts ++ [t]) v

end MapEditr
