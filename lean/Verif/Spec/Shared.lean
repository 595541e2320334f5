import Verif.Model.Shared
/-!
# Spec: what the user interface may see of the counters
-/

namespace MapEditr.Spec

/-- The counters after some acts. -/
def after (s : Status) : List Act → Status
  | [] => s
  | .count v :: t => after v t
  | .tell _ :: t => after s t

/-- The messages among them. -/
def tells : List Act → List Event
  | [] => []
  | .count _ :: t => tells t
  | .tell e :: t => e :: tells t

/-- The values of the counters among them. -/
def counts : List Act → List Status
  | [] => []
  | .count v :: t => v :: counts t
  | .tell _ :: t => counts t

/-- The stages announced among some events. -/
def news : List Event → List InstState
  | [] => []
  | .newState s :: t => s :: news t
  | _ :: t => news t

/-- The stages of a command other than `vacuum`. -/
def STAGES : List InstState := [.querying, .ignore, .editing, .ignore]

/-- The event of a turn. -/
def got : Recv → List Event
  | .event e => [e]
  | .timeout => []

/-- The user interface sees the counters as they were at some time: each turn happens when some number of acts have
been done, no fewer than at the turn before.  By then all events received so far have been sent, and what is read, if
anything, is the value the counters have at that time. -/
inductive Faithful (acts : List Act) : Nat → List Shared.Turn → Prop
  | nil : Faithful acts 0 []
  | turn {n m : Nat} {ts : List Shared.Turn} {t : Shared.Turn} : Faithful acts n ts → n ≤ m → m ≤ acts.length →
      (ts ++ [t]).flatMap (fun t => got t.recv) <+: tells (acts.take m) →
      (t.read = none ∨ t.read = some (some (after {} (acts.take m)))) → Faithful acts m (ts ++ [t])

end MapEditr.Spec
