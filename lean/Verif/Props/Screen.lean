import Verif.Props.ProgressLine
import Verif.Proof.Ui
/-!
# The terminal (C75, C76, C78)

`Ui.step` is the body of the loop in `run_cmd_line`.  What comes from outside is in the `Tick`: times,
events, and the status at the moment it is read.  The only assumption on it is that what the user types
ends with a newline, as `read_line` and the terminal have it, and that the counters are sane (C72).
-/

namespace MapEditr
open Spec

/-! ## Log entries -/

/-- The name of the kind. -/
def LogType.name : LogType → String
  | .info => "info"
  | .warning => "warning"
  | .error => "error"

/-- **C75**, the entry: all of the message is printed, with every further line indented. -/
theorem C75_entry (t : LogType) (m : List Char) (hr : '\r' ∉ m) (h : m.getLast? ≠ some '\n') :
    logText t m = logEntry t.name m := by
  unfold logText logEntry
  have e1 : t.show = t.name.toList := by cases t <;> rfl
  have e2 : (t.show ++ [':', ' ']).length = t.name.length + 2 := by cases t <;> rfl
  have e3 : ": ".toList = [':', ' '] := by decide
  simp only
  rw [e2, e1, e3]
  by_cases hm : m = []
  · subst hm
    rfl
  · rw [strLines_eq hm hr h, splitNl_spec]

/-! ## The loop -/

/-- **C75**: whatever has happened before, a message begins on a line of its own, after at most one
line break, and nothing printed before is lost. -/
theorem C75_log (t0 : Nat) (ks : List Tick) (u u' : Ui) (k : Tick) (t : LogType) (m : Msg)
    (hu : (Ui.init t0).run ks = .ok u) (hks : ∀ k ∈ ks, Typed k) (hk : k.recv = .event (.log t m))
    (h : u.step k = .ok u') :
    ∃ nl rest, u'.out = u.out ++ nl ++ logText t m.render ++ rest ∧ (nl = [] ∨ nl = ['\n']) ∧
      AtLineStart (u.out ++ nl) := by
  obtain ⟨⟨s, h1⟩, _⟩ := step_out h
  obtain ⟨nl, h2, h3⟩ := newlineIf_out u
  refine ⟨nl, s, ?_, h3, ?_⟩
  · rw [h1]
    simp only [Ui.receive, hk, h2]
  · rw [← h2]
    exact newlineIf_ok (run_ok hu (init_ok t0) hks)

/-- The prompt, too, begins on a line of its own. -/
theorem C75_prompt (t0 : Nat) (ks : List Tick) (u u' : Ui) (k : Tick)
    (hu : (Ui.init t0).run ks = .ok u) (hks : ∀ k ∈ ks, Typed k) (hk : k.recv = .event .confirmRequest)
    (h : u.step k = .ok u') :
    ∃ nl rest, u'.out = u.out ++ nl ++ "Proceed? (Y/n): ".toList ++ k.typed ++ rest ∧ (nl = [] ∨ nl = ['\n']) ∧
      AtLineStart (u.out ++ nl) := by
  obtain ⟨⟨s, h1⟩, _⟩ := step_out h
  obtain ⟨nl, h2, h3⟩ := newlineIf_out u
  refine ⟨nl, s, ?_, h3, ?_⟩
  · rw [h1]
    simp only [Ui.receive, hk, h2, List.append_assoc]
  · rw [← h2]
    exact newlineIf_ok (run_ok hu (init_ok t0) hks)

/-- What has been printed stays. -/
theorem C75_keep (u u' : Ui) (k : Tick) (h : u.step k = .ok u') : u.out <+: u'.out := by
  obtain ⟨⟨s, h1⟩, _⟩ := step_out h
  obtain ⟨s', h2⟩ := receive_out u k
  exact ⟨s' ++ s, by rw [h1, h2, List.append_assoc]⟩

/-! ## When progress is shown (C76) -/

/-- The line of a stage. -/
def stageText (u : Ui) (k : Tick) : InstState → Res (List Char)
  | .querying => .ok (queryingText k.status.total)
  | .editing => editingText k.status.done k.status.total (k.printed - u.queryingStart)
      (k.printed - u.editingStart) k.status.showProgress
  | .ignore => .ok []

/-- **C76**: at the beginning of each stage its line is printed at once. -/
theorem C76_begin (u u' : Ui) (k : Tick) (s : InstState) (hu : u.curState = .ignore) (hs : s ≠ .ignore)
    (hk : k.recv = .event (.newState s)) (h : u.step k = .ok u') :
    ∃ text, stageText u' k s = .ok text ∧ u'.out = u.out ++ text ∧ u'.curState = s ∧ u'.lastUpdate = k.now := by
  rw [ui_step_eq] at h
  cases s with
  | ignore => exact absurd rfl hs
  | querying =>
    simp [Ui.receive, hk, hu, Ui.show] at h
    subst h
    exact ⟨_, rfl, rfl, rfl, rfl⟩
  | editing =>
    simp [Ui.receive, hk, hu, Ui.show] at h
    split at h
    · rename_i v hv
      split at hv
      · rename_i text ht
        injection hv with hv
        subst hv
        injection h with h
        simp at h
        subst h
        exact ⟨text, ht, rfl, rfl, rfl⟩
      · cases hv
    · cases h

/-- At the end of each stage its line is printed again, followed by a line break. -/
theorem C76_end (u u' : Ui) (k : Tick) (hu : u.curState ≠ .ignore) (hk : k.recv = .event (.newState .ignore))
    (h : u.step k = .ok u') :
    ∃ text, stageText u' k u.curState = .ok text ∧ u'.out = u.out ++ text ++ ['\n'] ∧ u'.curState = .ignore := by
  rw [ui_step_eq] at h
  cases hc : u.curState with
  | ignore => exact absurd hc hu
  | querying =>
    simp [Ui.receive, hk, hc, Ui.show] at h
    subst h
    exact ⟨_, rfl, by simp [Ui.newlineIf], by simp [Ui.newlineIf]⟩
  | editing =>
    simp [Ui.receive, hk, hc, Ui.show] at h
    split at h
    · rename_i v hv
      split at hv
      · rename_i text ht
        injection hv with hv
        subst hv
        injection h with h
        simp [Ui.newlineIf] at h
        subst h
        exact ⟨text, ht, by simp, rfl⟩
      · cases hv
    · cases h

/-- In between, when nothing is received, it is printed whenever half a second has passed since it was
printed last, and not before. -/
theorem C76_timed (u u' : Ui) (k : Tick) (hu : u.curState ≠ .ignore) (hk : k.recv = .timeout)
    (h : u.step k = .ok u') :
    (k.now < u.lastUpdate + 500000000 ∧ u' = u) ∨
    (u.lastUpdate + 500000000 ≤ k.now ∧ u'.lastUpdate = k.now ∧
      ∃ text, stageText u' k u.curState = .ok text ∧ u'.out = u.out ++ text) := by
  rw [ui_step_eq] at h
  rcases Nat.lt_or_ge k.now (u.lastUpdate + 500000000) with hl | hl
  · left
    refine ⟨hl, ?_⟩
    have hd : ¬ (u.lastUpdate + UPDATE_INTERVAL ≤ k.now) := by
      unfold UPDATE_INTERVAL
      omega
    simp [Ui.receive, hk, Ui.show, hd, hu] at h
    exact h.symm
  · right
    refine ⟨hl, ?_⟩
    have hd : u.lastUpdate + UPDATE_INTERVAL ≤ k.now := by
      unfold UPDATE_INTERVAL
      omega
    cases hc : u.curState with
    | ignore => exact absurd hc hu
    | querying =>
      simp [Ui.receive, hk, hc, Ui.show, hd] at h
      subst h
      exact ⟨rfl, _, rfl, rfl⟩
    | editing =>
      simp [Ui.receive, hk, hc, Ui.show, hd] at h
      split at h
      · rename_i v hv
        split at hv
        · rename_i text ht
          injection hv with hv
          subst hv
          injection h with h
          simp at h
          subst h
          exact ⟨rfl, text, ht, rfl⟩
        · cases hv
      · cases h

/-- Outside the stages no progress is printed. -/
theorem C76_quiet (u u' : Ui) (k : Tick) (hu : u.curState = .ignore) (hn : u.needNewline = false)
    (hk : k.recv = .timeout) (h : u.step k = .ok u') : u' = u := by
  rw [ui_step_eq] at h
  simp [Ui.receive, hk, Ui.show, hu, Ui.newlineIf, hn] at h
  exact h.symm

/-- Nothing of this panics, with the counters any command has at any time (C72). -/
theorem C76_no_panic (env : Env) (args : InstArgs) (u : Ui) (k : Tick)
    (hs : k.status ∈ (worker env args World.start).2.seen) (ht : k.status.total < 2 ^ 64)
    (hp : k.printed < 10 ^ 9 * 2 ^ 58) : ∃ u', u.step k = .ok u' := by
  rw [ui_step_eq]
  have : ∀ v f, ∃ v', Ui.show v k f = .ok v' := by
    intro v f
    unfold Ui.show
    simp only
    obtain ⟨text, h⟩ := C74_run env args k.status hs ht (k.printed - v.queryingStart) (k.printed - v.editingStart)
      (by omega)
    rw [h]
    split
    · exact ⟨_, rfl⟩
    · split
      · exact ⟨_, rfl⟩
      · exact ⟨_, rfl⟩
  obtain ⟨v, hv⟩ := this (u.receive k).1 (u.receive k).2
  rw [hv]
  exact ⟨_, rfl⟩

/-! ## The end (C78) -/

/-- Events met by the ticks. -/
def tickEvents (ks : List Tick) : List Event :=
  ks.filterMap fun k => match k.recv with | .event e => some e | .timeout => none

theorem run_cons (u : Ui) (k : Tick) (ks : List Tick) :
    u.run (k :: ks) = (u.step k).bind fun v => v.run ks := by
  unfold Ui.run
  rw [List.foldlM_cons]
  rfl

theorem step_state {u u' : Ui} {k : Tick} (h : u.step k = .ok u') :
    u'.curState = lastState (tickEvents [k]) u.curState := by
  have hn : ∀ v : Ui, v.newlineIf.curState = v.curState := by
    intro v
    unfold Ui.newlineIf
    split <;> rfl
  have hs : ∀ {v v' : Ui} {f : InstState}, v.show k f = .ok v' → v'.curState = v.curState := by
    intro v v' f h
    unfold Ui.show at h
    simp only at h
    split at h
    · injection h with h; subst h; rfl
    · split at h
      · split at h
        · injection h with h; subst h; rfl
        · cases h
      · injection h with h; subst h; rfl
  have hr : (u.receive k).1.curState = lastState (tickEvents [k]) u.curState := by
    unfold Ui.receive tickEvents
    split <;> rename_i hk <;> simp only [List.filterMap_cons, hk, List.filterMap_nil, lastState, List.foldl_cons,
      List.foldl_nil, hn]
  rw [ui_step_eq] at h
  split at h
  · rename_i v hv
    injection h with h
    subst h
    rw [← hr, ← hs hv]
    split
    · exact hn v
    · rfl
  · cases h

theorem run_state {ks : List Tick} : ∀ {u u' : Ui}, u.run ks = .ok u' → (u.curState = .ignore → u.needNewline = false) →
    u'.curState = lastState (tickEvents ks) u.curState ∧ (u'.curState = .ignore → u'.needNewline = false) := by
  induction ks with
  | nil =>
    intro u u' h hu
    injection h with h
    subst h
    exact ⟨rfl, hu⟩
  | cons k ks ih =>
    intro u u' h hu
    rw [run_cons] at h
    cases h1 : u.step k with
    | error e => rw [h1] at h; cases h
    | ok v =>
      rw [h1] at h
      obtain ⟨h2, h3⟩ := ih h (step_out h1).2.2
      refine ⟨?_, h3⟩
      rw [h2, step_state h1]
      unfold lastState tickEvents
      rw [← List.foldl_append, ← List.filterMap_append]
      rfl

/-- Holds if the last stage has been ended: then the program leaves the cursor at the start of a line.
Missing: errors within a stage, where it is false. -/
theorem C78_end_partial (t0 : Nat) (ks : List Tick) (u : Ui) (hks : ∀ k ∈ ks, Typed k)
    (hu : (Ui.init t0).run ks = .ok u) (hs : lastState (tickEvents ks) .ignore = .ignore) : AtLineStart u.out := by
  obtain ⟨h1, h2⟩ := run_state hu (fun _ => rfl)
  exact run_ok hu (init_ok t0) hks (h2 (h1.trans hs))

/-- A map on which the editing fails at the third block. -/
def failEnv : Env := { editEnv [(0, [1]), (7, [30]), (-4096, [])] with fail := fun n => n == 7 }

/-- What the user interface may meet then. -/
def failTicks : List Tick :=
  let s0 : Status := {}
  let s1 : Status := { total := 3, state := .ignore }
  let s2 : Status := { total := 3, state := .editing }
  [⟨0, .event (.log .warning (.text "No area or node specified. ALL metadata will be deleted!")), s0, 0, []⟩,
   ⟨1, .event (.newState .querying), s0, 1, []⟩, ⟨2, .event (.newState .ignore), s1, 2, []⟩,
   ⟨3, .event (.newState .editing), s2, 3, []⟩]

/-- **C78** fails: when the compute thread has gone and everything it sent has been received, the program
ends; the cursor need not be at the start of a line then, and the shell's prompt, or the message of the
panic, follows the progress line directly. -/
theorem C78_end_false : ¬ ∀ (env : Env) (args : InstArgs) (t0 : Nat) (ks : List Tick) (u : Ui),
    tickEvents ks = (worker env args World.start).2.events →
    (∀ k ∈ ks, k.status ∈ (worker env args World.start).2.seen ∧ Typed k) →
    (Ui.init t0).run ks = .ok u → AtLineStart u.out := by
  intro h
  cases hr : (Ui.init 0).run failTicks with
  | error e =>
    have : (match (Ui.init 0).run failTicks with | .ok _ => true | .error _ => false) = true := by decide +kernel
    rw [hr] at this
    cases this
  | ok u =>
    have h1 := h failEnv (runArgs false "deletemeta" "map" none) 0 failTicks u rfl (by
      intro k hk
      simp only [failTicks, List.mem_cons, List.not_mem_nil, or_false] at hk
      rcases hk with rfl | rfl | rfl | rfl
      · exact ⟨by decide, fun h => by cases h⟩
      · exact ⟨by decide, fun h => by cases h⟩
      · exact ⟨by decide, fun h => by cases h⟩
      · exact ⟨by decide, fun h => by cases h⟩) hr
    have h2 : (match (Ui.init 0).run failTicks with
        | .ok u => u.out.getLast? | .error _ => none) = some 'g' := by decide +kernel
    rw [hr] at h2
    change u.out.getLast? = some 'g' at h2
    rcases h1 with h1 | h1
    · rw [h1] at h2; cases h2
    · rw [h1] at h2; cases h2

/-- A complete run as it appears on the terminal. -/
example : (match (Ui.init 0).run [⟨0, .event (.newState .querying), {}, 0, []⟩,
      ⟨1, .event (.newState .ignore), { total := 3 }, 1, []⟩,
      ⟨2, .event (.newState .editing), { total := 3, state := .editing }, 2, []⟩,
      ⟨600000000, .timeout, { total := 3, done := 1, state := .editing }, 600000000, []⟩,
      ⟨700000000, .event (.log .info (.text "hello")), { total := 3, done := 1, state := .editing }, 700000000, []⟩,
      ⟨1200000000, .event (.newState .ignore), { total := 3, done := 3 }, 1200000000, []⟩,
      ⟨1200000000, .event (.log .info (.count "{} nodes filled." 12345)), { total := 3, done := 3 }, 1200000000, []⟩,
      ⟨1200000000, .event .confirmRequest, { total := 3, done := 3 }, 1200000000, ['y', '\n']⟩] with
    | .ok u => u.out | .error _ => []) =
  ("\rQuerying mapblocks... 0 found.\rQuerying mapblocks... 3 found.\n" ++
   "\r[                         ] 0.0% | 00:00 elapsed | --:-- remaining" ++
   "\r[========                 ] 33.3% | 00:00 elapsed | 00:01 remaining\n" ++
   "info: hello\n" ++
   "\r[=========================] 100.0% | 00:01 elapsed | 00:00 remaining\n" ++
   "info: 12.3k nodes filled.\n" ++
   "Proceed? (Y/n): y\n").toList := by decide +kernel

/-- A message of two lines. -/
example : logText .warning "one\ntwo".toList = "warning: one\n         two\n".toList ∧
    '\r' ∉ "one\ntwo".toList ∧ "one\ntwo".toList.getLast? ≠ some '\n' := by decide

end MapEditr
