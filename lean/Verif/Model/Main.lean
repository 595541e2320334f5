import Verif.Model.Threads
import Verif.Model.CmdLine
/-!
# The whole program

`main` (`src/main.rs:13-16`) calls `run_cmd_line` (`src/cmd_line.rs:259-358`) and nothing else.
-/

namespace MapEditr

/-- The start of `run_cmd_line`, `src/cmd_line.rs:263-270`: arguments that cannot be parsed are reported
by `print_log`, and the function returns without starting the compute thread. -/
def runCmdLine (env : Env) (yes : Bool) (cmd map : String) (m : Matches) : Sys :=
  match toInstArgs yes cmd map m with
  | .ok args => Sys.init (workerProg env args)
  | .error e => ⟨.gone, .done, [], [], [], [(.error, .text e)], [], false⟩

/-- The exit status, if the process has ended.  `main` returns `()`, so the status is 0 when `run_cmd_line`
returns; the result of `handle.join()` is ignored (`src/cmd_line.rs:357`).  A panic of the main thread ends
the process with status 101 (Rust's runtime). -/
def Sys.exit (s : Sys) : Option Nat :=
  match s.ui with
  | .done => some 0
  | .dead => some 101
  | _ => none

end MapEditr
