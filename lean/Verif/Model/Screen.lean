import Verif.Model.F32
import Verif.Model.Instance
/-!
# What the user sees

Models the printing of `src/cmd_line.rs:196-358` and `fmt_big_num`, `src/utils.rs:162-181`.  Text is a
list of characters.  Writing to standard output does not fail (`Model/Threads.lean` covers that).
-/

namespace MapEditr

/-! ## Numbers -/

/-- `{:.p}` of a float: `d` is its value in units of `10 ^ -p`, rounded. -/
def fixed (p d : Nat) : List Char :=
  if p = 0 then dec d
  else
    let f := dec (d % 10 ^ p)
    dec (d / 10 ^ p) ++ '.' :: (List.replicate (p - f.length) '0' ++ f)

/-- `ABBREVS`, `src/utils.rs:164-169`: literals, before they are rounded to `f32`. -/
def ABBREVS : List (Char × Nat) := [('T', 10 ^ 12), ('B', 10 ^ 9), ('M', 10 ^ 6), ('k', 10 ^ 3)]

/-- `fmt_big_num`, `src/utils.rs:162-181`.  The mantissa `f_num / unit`, at least 1, is in units of
`2 ^ -23`.  `{:.*}` rounds the exact value, ties to even. -/
def fmtBigNum (n : Nat) : List Char :=
  let f := rnd n 1
  match ABBREVS.find? fun u => rnd u.2 1 ≤ f with
  | some (suffix, unit) =>
    let m := rnd (f * 2 ^ 23) (rnd unit 1)
    let places := if m ≥ 100 * 2 ^ 23 then 0 else if m ≥ 10 * 2 ^ 23 then 1 else 2
    fixed places (nearest (m * 10 ^ places) (2 ^ 23)) ++ [suffix]
  | none => dec f

/-! ## Messages -/

/-- `format!`: the parts replace the `{}` in order. -/
def format : List Char → List (List Char) → List Char
  | '{' :: '}' :: t, a :: as => a ++ format t as
  | c :: t, as => c :: format t as
  | [], _ => []

/-- The text of a message. -/
def Msg.render : Msg → List Char
  | .text s => s.toList
  | .count what n => format what.toList [fmtBigNum n]
  | .count2 what m n => format what.toList [fmtBigNum m, fmtBigNum n]

/-- `LogType::fmt`, `src/instance.rs:96-104`. -/
def LogType.show : LogType → List Char
  | .info => "info".toList
  | .warning => "warning".toList
  | .error => "error".toList

/-- Splitting at every `\n`: the first part, and the others. -/
def splitNl : List Char → List Char × List (List Char)
  | [] => ([], [])
  | c :: t =>
    let r := splitNl t
    if c = '\n' then ([], r.1 :: r.2) else (c :: r.1, r.2)

/-- Removing a `\r` at the end. -/
def chopCr (l : List Char) : List Char := if l.getLast? = some '\r' then l.dropLast else l

/-- `str::lines`: the parts ended by `\n` or `\r\n`, and what follows the last one unless empty. -/
def strLines (s : List Char) : List (List Char) :=
  let r := splitNl s
  let all := r.1 :: r.2
  all.dropLast.map chopCr ++ (match all.getLast? with | some [] => [] | some l => [l] | none => [])

/-- `print_log`, `src/cmd_line.rs:242-247`. -/
def logText (t : LogType) (msg : List Char) : List Char :=
  let pre := t.show ++ [':', ' ']
  pre ++ List.intercalate ('\n' :: List.replicate pre.length ' ') (strLines msg) ++ ['\n']

/-! ## Progress -/

/-- `f32` values in this section are in units of `2 ^ -S`. -/
def S : Nat := 150

/-- `Duration::as_secs_f32`, of a duration in nanoseconds. -/
def asSecsF32 (ns : Nat) : Nat :=
  rnd (rnd (ns / 10 ^ 9) 1 * 2 ^ S + rnd (rnd (ns % 10 ^ 9) 1 * 2 ^ S) (10 ^ 9)) 1

/-- `progress`, `src/cmd_line.rs:204-207`. -/
def progressF32 (done total : Nat) : Nat :=
  if total = 0 then 0 else rnd (rnd done 1 * 2 ^ S) (rnd total 1)

/-- `remaining`, `src/cmd_line.rs:209-215`, in whole seconds.  `0.1` is `13421773 * 2 ^ -27`.
`Duration::from_secs_f32` panics for negative numbers and for those of `2 ^ 64` and more; it rounds to
nanoseconds. -/
def remainingSecs (etaNs progress : Nat) : Res (Option Nat) :=
  if progress ≥ 13421773 * 2 ^ (S - 27) then
    let eta := asSecsF32 etaNs
    if progress > 2 ^ S ∧ 0 < eta then .error (.panic "negative duration")
    else
      let r := rnd (rnd (eta * 2 ^ S) progress * rnd (2 ^ S - progress) 1) (2 ^ S)
      if r ≥ 2 ^ 64 * 2 ^ S then .error (.panic "duration too large")
      else .ok (some (nearest (r * 10 ^ 9) (2 ^ S) / 10 ^ 9))
  else .ok none

/-- `TOTAL_BARS`, `src/cmd_line.rs:217`. -/
def TOTAL_BARS : Nat := 25

/-- `print_editing_status`, `src/cmd_line.rs:196-239`: what it prints.  Durations are in nanoseconds. -/
def editingText (done total realNs etaNs : Nat) (showProgress : Bool) : Res (List Char) := do
  if showProgress then
    let progress := progressF32 done total
    let remaining ← remainingSecs etaNs progress
    let numBars := rnd (progress * TOTAL_BARS) 1 / 2 ^ S
    let percent := rnd (progress * 100) 1
    return '\r' :: '[' :: (List.replicate numBars '=' ++ List.replicate (TOTAL_BARS - numBars) ' ') ++
      "] ".toList ++ fixed 1 (nearest (percent * 10) (2 ^ S)) ++ "% | ".toList ++
      fmtDuration (realNs / 10 ^ 9) ++ " elapsed | ".toList ++
      (match remaining with | some s => fmtDuration s | none => "--:--".toList) ++ " remaining".toList
  else return "\rProcessing... ".toList ++ fmtDuration (realNs / 10 ^ 9) ++ " elapsed".toList

/-- The line of the query, `src/cmd_line.rs:335-336`. -/
def queryingText (total : Nat) : List Char :=
  "\rQuerying mapblocks... ".toList ++ dec total ++ " found.".toList

/-! ## The loop -/

/-- Local variables of `run_cmd_line`, `src/cmd_line.rs:275-279`, and everything on the terminal.
Times are in nanoseconds. -/
structure Ui where
  lastUpdate : Nat
  queryingStart : Nat
  editingStart : Nat
  curState : InstState
  needNewline : Bool
  out : List Char

/-- Before the loop, at time `t`. -/
def Ui.init (t : Nat) : Ui := ⟨t, t, t, .ignore, false, []⟩

/-- What `recv_timeout` gives, but for `Disconnected`, which ends the loop. -/
inductive Recv
  | event (e : Event)
  | timeout

/-- `UPDATE_INTERVAL`, `src/cmd_line.rs:273`. -/
def UPDATE_INTERVAL : Nat := 500 * 10 ^ 6

/-- What the loop body meets from outside: the time at its start, what it receives, the status if it
reads it, the time at which it prints, and what the user types if asked (it shows on the terminal). -/
structure Tick where
  now : Nat
  recv : Recv
  status : Status
  printed : Nat
  typed : List Char

/-- `newline_if`, `src/cmd_line.rs:281-286`. -/
def Ui.newlineIf (u : Ui) : Ui :=
  if u.needNewline then { u with out := u.out ++ ['\n'], needNewline := false } else u

/-- Handling of what is received, `src/cmd_line.rs:292-328`, with `get_confirmation`,
`src/cmd_line.rs:250-256`; the second part is `forced_update`. -/
def Ui.receive (u : Ui) (k : Tick) : Ui × InstState :=
  match k.recv with
  | .event (.log t m) =>
    let u := u.newlineIf
    ({ u with out := u.out ++ logText t m.render }, .ignore)
  | .event (.newState s) =>
    let forced := if (u.curState == .ignore) != (s == .ignore) then
      (if u.curState == .ignore then s else u.curState) else .ignore
    let u := if s = .querying then { u with queryingStart := k.now }
      else if s = .editing then { u with editingStart := k.now } else u
    ({ u with curState := s }, forced)
  | .event .confirmRequest =>
    let u := u.newlineIf
    ({ u with out := u.out ++ "Proceed? (Y/n): ".toList ++ k.typed }, .ignore)
  | .timeout => (u, .ignore)

/-- The loop body, `src/cmd_line.rs:288-355`. -/
def Ui.step (u : Ui) (k : Tick) : Res Ui := do
  let r := u.receive k
  let u := r.1
  let forced := r.2
  let timed := decide (k.now ≥ u.lastUpdate + UPDATE_INTERVAL)
  let u ←
    if forced == .querying || (u.curState == .querying && timed) then
      pure { u with out := u.out ++ queryingText k.status.total, lastUpdate := k.now, needNewline := true }
    else if forced == .editing || (u.curState == .editing && timed) then do
      let text ← editingText k.status.done k.status.total (k.printed - u.queryingStart)
        (k.printed - u.editingStart) k.status.showProgress
      pure { u with out := u.out ++ text, lastUpdate := k.now, needNewline := true }
    else pure u
  return if u.curState = .ignore then u.newlineIf else u

end MapEditr
