import Verif.Model.Threads
/-! # Executions of the two threads -/

namespace MapEditr.Spec
open MapEditr

/-- States that some interleaving leads to. -/
inductive Reach (s0 : Sys) : Sys → Prop
  | start : Reach s0 s0
  | step (a : Actor) {s s' : Sys} : Reach s0 s → step a s = some s' → Reach s0 s'

/-- The log messages among events. -/
def logsOf : List Event → List (LogType × Msg)
  | [] => []
  | .log t m :: es => (t, m) :: logsOf es
  | _ :: es => logsOf es

/-- Both threads have come to their end. -/
def Finished (s : Sys) : Prop := (s.ui = .done ∨ s.ui = .dead) ∧ s.worker.isGone = true

/-- The parties that must not be kept waiting for ever. -/
inductive Party | worker | ui | user
  deriving DecidableEq

/-- The moves of a party. -/
def Moves : Party → Actor → Prop
  | .worker, .worker => True
  | .ui, .ui => True
  | .user, .user _ => True
  | _, _ => False

/-- The party can move. -/
def Can (p : Party) (s : Sys) : Prop := ∃ a, Moves p a ∧ (step a s).isSome

/-- An infinite execution: at every instant somebody moves, or nobody does. -/
def Execution (s0 : Sys) (x : Nat → Sys) (act : Nat → Option Actor) : Prop :=
  x 0 = s0 ∧ ∀ n, match act n with
    | some a => step a (x n) = some (x (n + 1))
    | none => x (n + 1) = x n

/-- Nobody who can move is kept from it for ever: the scheduler runs both threads, and the user answers
when asked. -/
def Fair (x : Nat → Sys) (act : Nat → Option Actor) : Prop :=
  ∀ p n, Can p (x n) → ∃ m, n ≤ m ∧ ((∃ a, act m = some a ∧ Moves p a) ∨ ¬ Can p (x m))

end MapEditr.Spec
