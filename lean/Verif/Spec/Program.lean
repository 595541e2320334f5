import Verif.Spec.Every
import Verif.Spec.Rest
import Verif.Spec.Runs
import Verif.Spec.CmdLine
import Verif.Spec.Threads
import Verif.Model.Main
/-!
# What becomes of a map on which the program is used again and again

The program is started with a command line, and may end in any way: refused, declined, failed, with a panic, killed
at any point, or with "Done.".
-/

namespace MapEditr.Spec
open MapEditr

/-- A command line as `clap` gives it to the program. -/
structure CmdLine where
  yes : Bool
  name : String
  map : String
  matches_ : Matches

/-- A command line that `clap` accepts, without words that are longer than a map can hold or contain
`EndInventory`. -/
structure LineOk (l : CmdLine) : Prop where
  accepted : ∃ c, command? l.name = some c ∧ Accepted c.args l.matches_
  words : ∀ e ∈ l.matches_, ∀ v ∈ e.2, (toBytes v).length < 65536 ∧ ¬ endWord <:+: toBytes v

/-- `args` is what was typed. -/
structure Got (l : CmdLine) (args : InstArgs) : Prop where
  name : args.command = l.name
  map : args.mapPath = l.map
  carries : ∃ c, command? l.name = some c ∧ ∀ t ∈ c.args, Carries l.matches_ args t

/-- A use of the program on a map that holds `t`, after which it holds `t'`.  The program was in the state `sys` when
its process ended, and `n` statements had been executed.  `said` tells whether it had come to its end after printing
"Done.".  `s` is the map given as input, if any; for `clone` and `overlay` no statement fails. -/
structure Used (c : Codec) (l : CmdLine) (s : Table) (said : Bool) (t t' : Table) (env : Env) (sys : Sys) (n : Nat) :
    Prop where
  env_ok : EnvOk env
  codec : env.codec = c
  file : ∃ f, mapFile env l.map = some f ∧ f.table = t
  input : ∀ p g, ("input_map", [p]) ∈ l.matches_ → mapFile env p = some g → g.table = s
  works : l.name = "clone" ∨ l.name = "overlay" → ∀ n, env.fail n = false
  state : Reach (runCmdLine env l.yes l.name l.map l.matches_) sys
  /-- refused arguments: the database is not even opened -/
  refused : ∀ e, toInstArgs l.yes l.name l.map l.matches_ = .error e → t' = t
  /-- what has been committed -/
  held : ∀ args, toInstArgs l.yes l.name l.map l.matches_ = .ok args → t' = onDisk t
    ((computeThread { env with answer := if args.doConfirmation then sys.answers.head? else env.answer } args
      World.start).2.trace.take n)
  /-- at the end everything has been executed -/
  ended : said = true → sys.ui = .done ∧ (.info, .text "Done.") ∈ sys.printed ∧
    ∀ args, toInstArgs l.yes l.name l.map l.matches_ = .ok args →
      (computeThread { env with answer := if args.doConfirmation then sys.answers.head? else env.answer } args
        World.start).2.trace.length ≤ n

/-- The program is used several times on the same map. -/
inductive UsedAll (c : Codec) : List (CmdLine × Table × Bool) → Table → Table → Prop
  | nil : UsedAll c [] t t
  | cons : Used c l s said t t' env sys n → UsedAll c ls t' t'' → UsedAll c ((l, s, said) :: ls) t t''

/-- What the uses of the program mean for the contents of the map: each one happens as typed, or not at all; those
that said "Done." happen. -/
inductive Applied (c : Codec) : List (CmdLine × Table × Bool) → Nodes × Rests → Nodes × Rests → Prop
  | nil : Applied c [] V V
  | skip : Applied c ls V V' → Applied c ((l, s, false) :: ls) V V'
  | take : Got l args → Applied c ls (meaning args (nodesOf c s) V.1, restMeaning args (restsOf c s) V.2) V' →
      Applied c ((l, s, said) :: ls) V V'

end MapEditr.Spec
