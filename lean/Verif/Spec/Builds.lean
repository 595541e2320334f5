import Verif.Model.Instance
/-!
# The two ways of compiling the program

`cargo build` makes a program that panics when an integer overflows, `cargo build --release` one that drops the upper
bits.
-/

namespace MapEditr.Spec
open MapEditr

/-- The same surroundings for a program compiled in this way. -/
def built (bd : Build) (env : Env) : Env := { env with build := bd }

/-- A panic because of an integer overflow. -/
def Overflow (r : Res α) : Prop :=
  ∃ type ∈ ["u16", "u64", "i32", "i64"], r = .error (.panic (type ++ " overflow"))

/-- What has been done when the state is `w` is the beginning of what has been done when it is `w'`: the statements
executed, the messages sent and the values the counters have had. -/
structure Before (w w' : World) : Prop where
  trace : w.trace <+: w'.trace
  events : w.events <+: w'.events
  seen : w.seen <+: w'.seen

/-- `m` and `m'` do the same, unless an integer overflows in `m`; until then they did the same. -/
def SameUntilOverflow (m m' : Run α) : Prop :=
  ∀ w, m w = m' w ∨ Overflow (m w).1 ∧ Before (m w).2 (m' w).2

end MapEditr.Spec
