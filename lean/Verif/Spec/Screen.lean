import Verif.Model.World
/-!
# Spec: numbers and lines on the terminal
-/

namespace MapEditr.Spec

/-- Suffixes of abbreviated numbers. -/
def SUFFIXES : List (List Char × Nat) := [([], 1), (['k'], 1000), (['M'], 1000000), (['B'], 1000000000),
  (['T'], 1000000000000)]

/-- `s` is a decimal numeral, perhaps with a fraction and a suffix, for the number `v`; for example
`12.3k` for `12300`. -/
def Reads (s : List Char) (v : Nat) : Prop :=
  ∃ (i f : List Char) (suf : List Char × Nat), suf ∈ SUFFIXES ∧ i ≠ [] ∧ (∀ c ∈ i ++ f, c.isDigit = true) ∧
    s = i ++ (if f = [] then [] else '.' :: f) ++ suf.1 ∧
    v * 10 ^ f.length = Nat.ofDigitChars 10 (i ++ f) 0 * suf.2

/-- A progress line: a bar of 25 places, tenths of a percent, two clocks. -/
def progressLine (bars tenths : Nat) (elapsed remaining : List Char) : List Char :=
  "\r[".toList ++ List.replicate bars '=' ++ List.replicate (25 - bars) ' ' ++ "] ".toList ++
    Nat.toDigits 10 (tenths / 10) ++ ['.'] ++ Nat.toDigits 10 (tenths % 10) ++ "% | ".toList ++ elapsed ++
    " elapsed | ".toList ++ remaining ++ " remaining".toList

/-- `x` and `y` differ by at most `e`. -/
def OffBy (e x y : Nat) : Prop := x ≤ y + e ∧ y ≤ x + e

/-- The next place to print at is the beginning of a line. -/
def AtLineStart (out : List Char) : Prop := out = [] ∨ out.getLast? = some '\n'

/-- A log entry: what kind, the message with every further line indented, end of line. -/
def logEntry (kind : String) (msg : List Char) : List Char :=
  kind.toList ++ ": ".toList ++
    msg.flatMap (fun c => if c = '\n' then '\n' :: List.replicate (kind.length + 2) ' ' else [c]) ++ ['\n']

/-- A terminal line and the place of the cursor. -/
structure Term where
  line : List Char
  cursor : Nat
deriving Repr, DecidableEq

/-- Printing a character overwrites the one at the cursor; `\r` moves the cursor to the start of the
line, `\n` begins a new one. -/
def Term.put (t : Term) (c : Char) : Term :=
  if c = '\n' then ⟨[], 0⟩
  else if c = '\r' then ⟨t.line, 0⟩
  else ⟨t.line.take t.cursor ++ c :: t.line.drop (t.cursor + 1), t.cursor + 1⟩

/-- What the last line of the terminal shows. -/
def shownLine (out : List Char) : List Char := (out.foldl Term.put ⟨[], 0⟩).line

end MapEditr.Spec
