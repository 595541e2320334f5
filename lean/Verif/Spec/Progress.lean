import Verif.Model.World
/-!
# Spec: progress shown to the user

The user interface may look at the counters at any time (`src/cmd_line.rs:335-347`), also between
two steps of a command and after it has failed.
-/

namespace MapEditr.Spec

/-- A status that makes sense: no more blocks done, or failed, than there are. -/
def StatusOk (s : Status) : Prop := s.done ≤ s.total ∧ s.failed ≤ s.total

/-- What may come after what: no count ever goes down, and once the editing has begun the total
stays. -/
def Later (s s' : Status) : Prop :=
  s.done ≤ s'.done ∧ s.failed ≤ s'.failed ∧ s.total ≤ s'.total ∧
  (s.state = .editing → s'.total = s.total)

/-- A history of statuses as a progress display needs it. -/
def ProgressOk (l : List Status) : Prop := (∀ s ∈ l, StatusOk s) ∧ l.Pairwise Later

/-- The last state announced, `s` if none is. -/
def lastState (es : List Event) (s : InstState) : InstState :=
  es.foldl (fun s e => match e with | .newState s' => s' | _ => s) s

end MapEditr.Spec
