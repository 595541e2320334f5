import Verif.Spec.Screen
/-!
# Spec: what the user reads
-/

namespace MapEditr.Spec

/-- `v` is within 0.51 % of `n`, and the same below a thousand. -/
def Near (n v : Nat) : Prop := 10000 * v ≤ 10051 * n ∧ 9949 * n ≤ 10000 * v ∧ (n < 1000 → v = n)

/-- A numeral for `n` or a number near it. -/
def Numeral (n : Nat) (s : List Char) : Prop := ∃ v, Reads s v ∧ Near n v

/-- The text of a message: each `{}` stands for a number, in order. -/
def MsgText : Msg → List Char → Prop
  | .text s, t => t = s.toList
  | .count what n, t => ∀ a b, what.toList = a ++ ['{', '}'] ++ b → '{' ∉ a ++ b →
      ∃ N, Numeral n N ∧ t = a ++ N ++ b
  | .count2 what m n, t => ∀ a b c, what.toList = a ++ ['{', '}'] ++ b ++ ['{', '}'] ++ c → '{' ∉ a ++ b ++ c →
      ∃ M N, Numeral m M ∧ Numeral n N ∧ t = a ++ M ++ b ++ N ++ c

/-- The name of the kind. -/
def kindName : LogType → String
  | .info => "info"
  | .warning => "warning"
  | .error => "error"

/-- The entry of a message; nothing is said here of messages that have a carriage return in them or end
with a line break. -/
def EntryFor (t : LogType) (m : Msg) (entry : List Char) : Prop :=
  ∃ msg, MsgText m msg ∧ ('\r' ∉ msg → msg.getLast? ≠ some '\n' → entry = logEntry (kindName t) msg)

/-- The messages among the events are on the terminal: all of them, in order, each from the beginning of a
line. -/
inductive Displays : List Char → List Event → Prop
  | nil (out : List Char) : Displays out []
  | other {out : List Char} {es : List Event} {e : Event} : Displays out es → (∀ t m, e ≠ .log t m) →
      Displays out (es ++ [e])
  | log {pre entry post : List Char} {es : List Event} {t : LogType} {m : Msg} : Displays pre es →
      AtLineStart pre → EntryFor t m entry → Displays (pre ++ entry ++ post) (es ++ [.log t m])

/-- There is a line that says `a`, then the number, then `b`. -/
def ShowsLine (out : List Char) (a : String) (n : Nat) (b : String) : Prop :=
  ∃ pre N post, out = pre ++ "info: ".toList ++ a.toList ++ N ++ b.toList ++ ['\n'] ++ post ∧
    AtLineStart pre ∧ Numeral n N

/-- The same with two numbers. -/
def ShowsLine2 (out : List Char) (a : String) (m : Nat) (b : String) (n : Nat) (c : String) : Prop :=
  ∃ pre M N post, out = pre ++ "info: ".toList ++ a.toList ++ M ++ b.toList ++ N ++ c.toList ++ ['\n'] ++ post ∧
    AtLineStart pre ∧ Numeral m M ∧ Numeral n N

end MapEditr.Spec
