import Verif.Proof.Progress
import Verif.Props.Runs
/-!
# The progress counters at all times (C72)

The user interface reads the counters whenever it likes, so every value they ever have must make
sense, also in the middle of a command, in one that fails, and in one that is refused.
-/

namespace MapEditr
open Spec

/-- **C72**: whatever the arguments, the map and the failures, at no time are there more blocks done or
failed than blocks in total, no count ever goes down, and the total stays once editing has begun. -/
theorem C72_progress (env : Env) (args : InstArgs) : ProgressOk (worker env args World.start).2.seen :=
  (prog_worker env args).1

/-- The history is complete: it starts with the initial status and ends with the present one. -/
theorem C72_history (env : Env) (args : InstArgs) :
    (worker env args World.start).2.seen.getLast? = some (worker env args World.start).2.status :=
  (prog_worker env args).2

/-- Three blocks, none of which can be decoded. -/
example : (worker (editEnv [(0, [1]), (7, [30]), (-4096, [])]) (runArgs false "deletemeta" "map" none)
      World.start).2.seen.map (fun s => (s.state, s.total, s.done, s.failed)) =
    [(.ignore, 0, 0, 0), (.querying, 0, 0, 0), (.querying, 1, 0, 0), (.querying, 3, 0, 0), (.ignore, 3, 0, 0),
     (.editing, 3, 0, 0), (.editing, 3, 1, 0), (.editing, 3, 1, 1), (.editing, 3, 2, 1), (.editing, 3, 2, 2),
     (.editing, 3, 3, 2), (.editing, 3, 3, 3), (.ignore, 3, 3, 3)] := rfl

/-- The eighth statement fails, and with it the command, at the third block. -/
example : (worker { editEnv [(0, [1]), (7, [30]), (-4096, [])] with fail := fun n => n == 7 }
      (runArgs false "deletemeta" "map" none) World.start).2.seen.map
        (fun s => (s.state, s.total, s.done, s.failed)) =
    [(.ignore, 0, 0, 0), (.querying, 0, 0, 0), (.querying, 1, 0, 0), (.querying, 3, 0, 0), (.ignore, 3, 0, 0),
     (.editing, 3, 0, 0), (.editing, 3, 1, 0), (.editing, 3, 1, 1), (.editing, 3, 2, 1), (.editing, 3, 2, 2),
     (.editing, 3, 3, 2)] := rfl

end MapEditr
