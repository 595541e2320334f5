import Verif.Model.Machine
import Verif.Model.Main
/-!
# The whole program with machine integers

`setup`, `finish`, `workerProg` and `runCmdLine` with the commands of `Model/Machine.lean`, whose operations on
coordinates, indices, keys and volumes panic or wrap around as those of the source.
-/

namespace MapEditr.Checked

/-- `compute_thread` before the warnings, `src/instance.rs:322-353`. -/
def setup (env : Env) (args : InstArgs) : Run (Except String (Command × Option String)) := do
  match verifyArgs args with
  | some e => return .error e
  | none =>
    let cmd ← Run.unwrap (command? env.build args.command)
    match ← Run.lift (cmd.verify args) with
    | .error e => return .error e
    | res =>
      let warning := match res with | .warning t => some t | _ => none
      let ok ← openMap env .main args.mapPath
      if !ok then return .error "Failed to open main world/map."
      else
        match ← MapDb.new env .main with
        | .error _ => return .error "Main world or map database is invalid."
        | .ok _ =>
          match args.inputMapPath with
          | none => return .ok (cmd, warning)
          | some p =>
            let ok ← openMap env .input p
            if !ok then return .error "Failed to open input world/map."
            else
              match ← MapDb.new env .input with
              | .error _ => return .error "Input world or map database is invalid."
              | .ok _ => return .ok (cmd, warning)

/-- `compute_thread`, `src/instance.rs:322-384`, with `get_confirmation`, `src/instance.rs:159-167`.  The
commands are those of this namespace, as `setup` returns them. -/
def workerProg (env : Env) (args : InstArgs) : Prog :=
  match setup env args World.start with
  | (.error _, w) => sendAll w.events .panic
  | (.ok (.error e), w) => sendAll w.events (.ret (some e))
  | (.ok (.ok (cmd, wn)), w) =>
    let w := w.say (warningEvents args wn)
    sendAll w.events <|
      if args.doConfirmation then
        .send .confirmRequest <| .recv fun r =>
          if r.getD false then bodyProg { env with answer := r } args cmd (w.say [.confirmRequest])
          else .ret none
      else bodyProg env args cmd w

/-- The start of `run_cmd_line`, `src/cmd_line.rs:263-270`. -/
def runCmdLine (env : Env) (yes : Bool) (cmd map : String) (m : Matches) : Sys :=
  match toInstArgs yes cmd map m with
  | .ok args => Sys.init (workerProg env args)
  | .error e => ⟨.gone, .done, [], [], [], [(.error, .text e)], [], false⟩

end MapEditr.Checked
