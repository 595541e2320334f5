import Verif.Proof.Protocol
import Verif.Props.Skips
/-!
# C60: the prompt

`workerProg env args` is what the compute thread does; `Reach (Sys.init ..)` are the states that any
interleaving of the two threads, any answers and any failure of the user interface lead to.
-/

namespace MapEditr
open Spec

/-- The command is called only if no confirmation was wanted, or the user was asked exactly once and
answered yes. -/
theorem C60_confirmed (env : Env) (args : InstArgs) (s : Sys) (h : Reach (Sys.init (workerProg env args)) s)
    (hs : s.started = true) : args.doConfirmation = false ∨ s.answers = [true] := by
  cases good_reach (workerProg_ready env args) h with
  | before _ _ _ _ _ h1 => rw [h1] at hs; cases hs
  | asked _ _ _ _ _ h1 => rw [h1] at hs; cases hs
  | answered _ _ _ _ _ h1 => rw [h1] at hs; cases hs
  | going _ _ _ _ _ h1 => rw [h1] at hs; cases hs
  | after _ _ _ _ h1 => exact h1 hs

/-- There is no deadlock: whatever happened so far, both threads are at their end, or one of them can go
on, or the user is being asked. -/
theorem C60_no_deadlock (env : Env) (args : InstArgs) (s : Sys)
    (h : Reach (Sys.init (workerProg env args)) s) : Finished s ∨ ∃ p, Can p s :=
  good_can (good_reach (workerProg_ready env args) h)

theorem not_dead {conf : Bool} {a : Actor} {s s' : Sys} (hg : Good conf s) (h : step a s = some s')
    (ha : a ≠ .crash) (hd : s.ui ≠ .dead) : s'.ui ≠ .dead := by
  cases a with
  | crash => exact absurd rfl ha
  | tick => rw [tick_same h]; exact hd
  | worker =>
    have : s'.ui = s.ui := by
      simp only [step, workerStep] at h
      split at h
      · split at h <;> cases h <;> rfl
      · split at h
        · cases h; rfl
        · split at h <;> cases h; rfl
      · cases h; rfl
      · cases h; rfl
      · cases h; rfl
      · split at h <;> cases h <;> rfl
      · cases h; rfl
      · cases h
    rw [this]
    exact hd
  | ui =>
    simp only [step, uiStep] at h
    split at h
    · next hi =>
      split at h
      · cases h; simp [hi]
      · cases h; simp [hi]
      · cases h; simp
      · split at h <;> cases h; simp
    · split at h <;> cases h; simp
    · cases h
  | user b =>
    simp only [step] at h
    split at h
    · next hi =>
      split at h
      · cases h; simp
      · next hr =>
        exfalso
        cases hg with
        | asked hw => exact hr (by rw [hw]; rfl)
        | before hw => exact hr (by rw [hw]; rfl)
        | answered hw => exact hr (by rw [hw]; rfl)
        | going hw => exact hr (by rw [hw]; rfl)
        | after _ _ _ _ _ h5 => rcases h5 with (h5 | h5) | ⟨h5 | h5, -, -⟩ <;> simp [hi] at h5
    · cases h

/-- No side waits for ever: if the scheduler is fair and the user answers, both threads come to their
end, and the user interface returns normally unless reading or printing fails. -/
theorem C60_terminates (env : Env) (args : InstArgs) (x : Nat → Sys) (act : Nat → Option Actor)
    (h : Execution (Sys.init (workerProg env args)) x act) (hf : Fair x act) :
    ∃ n, Finished (x n) ∧ ((∀ m, act m ≠ some .crash) → (x n).ui = .done) := by
  have hg : ∀ s, Reach (Sys.init (workerProg env args)) s → Good args.doConfirmation s :=
    fun s hs => good_reach (workerProg_ready env args) hs
  obtain ⟨n, hn⟩ := execution_ends hg h hf
  refine ⟨n, hn, fun hc => ?_⟩
  have hd : ∀ m, (x m).ui ≠ .dead := by
    intro m
    induction m with
    | zero => rw [h.1]; nofun
    | succ m ih =>
      have hs := h.2 m
      split at hs
      · next a ha =>
        exact not_dead (hg _ (execution_reach h m)) hs (fun e => hc m (by rw [ha, e])) ih
      · rw [hs]; exact ih
  exact hn.1.resolve_right (hd n)

theorem out_plain {p : Prog} (h : Plain p) (r r' : Option Bool) : p.out r = p.out r' := by
  induction p with
  | ret e => cases e <;> rfl
  | panic => rfl
  | send e k ih => exact congrArg (e :: ·) (ih h.2)
  | recv f => cases h
  | start k => cases h

theorem out_ready {p : Prog} (h : Ready false p) (r r' : Option Bool) : p.out r = p.out r' := by
  induction p with
  | ret e => cases e <;> rfl
  | panic => rfl
  | send e k ih =>
    rcases h with h | ⟨-, h, -⟩
    · exact congrArg (e :: ·) (ih h.2)
    · cases h
  | recv f => cases h
  | start k => exact out_plain (p := k) h.2 r r'

/-- At every moment, what was printed is the beginning of what was logged, in the same order. -/
theorem C60_in_order (env : Env) (args : InstArgs) (s : Sys) (h : Reach (Sys.init (workerProg env args)) s) :
    s.printed <+: logsOf s.sent := by
  obtain ⟨⟨l, h1⟩, -⟩ := sent_reach (workerProg_ready env args) h
  exact ⟨l, h1.symm⟩

/-- The same for every answer that agrees with what was answered. -/
theorem printed_with (env : Env) (args : InstArgs) (s : Sys) (h : Reach (Sys.init (workerProg env args)) s)
    (hu : s.ui = .done) (r : Option Bool) (ha : ∀ b, s.answers = [b] → r = some b) :
    s.printed = logsOf (worker { env with answer := if args.doConfirmation then r else env.answer }
      args World.start).2.events := by
  have hr := workerProg_ready env args
  obtain ⟨-, h1⟩ := sent_reach hr h
  obtain ⟨h2, h3⟩ := h1 (by rw [hu]; nofun)
  have hgone : s.worker.isGone = true ∧ s.toUi = [] := by
    cases good_reach hr h with
    | before _ _ _ _ _ _ hi => rcases hi with hi | hi <;> simp [hu] at hi
    | asked _ _ hi => rcases hi with ⟨-, -, -, hi⟩ | ⟨hi, -⟩ | ⟨hi, -⟩ <;> simp [hu] at hi
    | answered _ _ _ _ _ _ hi => rcases hi with hi | hi <;> simp [hu] at hi
    | going _ _ _ _ _ _ hi => rcases hi with hi | hi <;> simp [hu] at hi
    | after _ _ _ _ _ hi =>
      rcases hi with (hi | hi) | ⟨-, hi⟩
      · simp [hu] at hi
      · simp [hu] at hi
      · exact hi
  have hout : ∀ r, s.worker.out r = [] := by
    intro r
    cases hw : s.worker with
    | gone => rfl
    | run p => rw [hw] at hgone; cases hgone.1
    | closing e => rw [hw] at hgone; cases hgone.1
  rw [hgone.2] at h2
  have h4 : s.printed = logsOf s.sent := by
    rw [h2]
    exact (List.append_nil _).symm
  have h3 := h3 r ha
  rw [hout, List.append_nil] at h3
  rw [h4, h3, ← out_worker]
  by_cases hd : args.doConfirmation = true
  · simp only [hd, if_true]
    rw [workerProg_answer env args hd r]
  · rw [Bool.not_eq_true] at hd
    rw [hd] at hr
    simp only [hd, Bool.false_eq_true, if_false]
    rw [out_ready hr r env.answer]

/-- When the user interface returns, it has printed every message of the compute thread (`worker`, with
the answer that was given, if any), once and in order.  This includes the messages before a panic. -/
theorem C60_printed (env : Env) (args : InstArgs) (s : Sys) (h : Reach (Sys.init (workerProg env args)) s)
    (hu : s.ui = .done) :
    s.printed = logsOf (worker { env with answer := if args.doConfirmation then s.answers.head? else env.answer }
      args World.start).2.events :=
  printed_with env args s h hu _ (by intro b hb; rw [hb]; rfl)

/-! ## Examples -/

/-- The state after a sequence of moves. -/
def follow (s : Sys) : List Actor → Option Sys
  | [] => some s
  | a :: as => step a s >>= fun s => follow s as

theorem follow_reach {s0 s s' : Sys} {as : List Actor} (h : Reach s0 s) (hf : follow s as = some s') :
    Reach s0 s' := by
  induction as generalizing s with
  | nil => cases hf; exact h
  | cons a as ih =>
    simp only [follow] at hf
    cases hs : step a s with
    | none => rw [hs] at hf; cases hf
    | some s1 => rw [hs] at hf; exact ih (.step a h hs) hf

/-- A world of one undecodable block. -/
def askArgs : InstArgs := runArgs true "deletemeta" "map" none

/-- All that matters of the state after a sequence of moves. -/
def seen (as : List Actor) : Option (UState × Bool × Bool × List Bool × Nat) :=
  (follow (Sys.init (workerProg (editEnv [(0, [1])]) askArgs)) as).map fun s =>
    (s.ui, s.worker.isGone, s.started, s.answers, s.printed.length)

theorem seen_reach {as : List Actor} {x} (h : seen as = some x) :
    ∃ s, Reach (Sys.init (workerProg (editEnv [(0, [1])]) askArgs)) s ∧ s.ui = x.1 ∧ s.worker.isGone = x.2.1 ∧
      s.started = x.2.2.1 ∧ s.answers = x.2.2.2.1 ∧ s.printed.length = x.2.2.2.2 := by
  unfold seen at h
  rw [Option.map_eq_some_iff] at h
  obtain ⟨s, h1, rfl⟩ := h
  exact ⟨s, follow_reach .start h1, rfl, rfl, rfl, rfl, rfl⟩

/-- Moves of a run in which the user says yes; both threads take turns. -/
def yesMoves : List Actor :=
  [.tick, .worker, .ui, .tick, .worker, .worker, .ui, .ui, .user true, .worker, .worker, .worker, .ui, .tick] ++
  .replicate 9 .worker ++ .replicate 9 .ui

/-- Yes: the command runs, and all six messages are printed. -/
example : ∃ s, Reach (Sys.init (workerProg (editEnv [(0, [1])]) askArgs)) s ∧ s.ui = .done ∧
    s.worker.isGone = true ∧ s.started = true ∧ s.answers = [true] ∧ s.printed.length = 6 :=
  seen_reach (as := yesMoves) (x := (.done, true, true, [true], 6)) (by decide)

/-- No: the two warnings are all there is. -/
example : ∃ s, Reach (Sys.init (workerProg (editEnv [(0, [1])]) askArgs)) s ∧ s.ui = .done ∧
    s.worker.isGone = true ∧ s.started = false ∧ s.answers = [false] ∧ s.printed.length = 2 :=
  seen_reach (as := .replicate 3 .worker ++ .replicate 3 .ui ++ [.user false] ++ .replicate 3 .worker ++
    .replicate 2 .ui) (x := (.done, true, false, [false], 2)) (by decide)

/-- Standard input cannot be read: the compute thread ends all the same, without calling the command. -/
example : ∃ s, Reach (Sys.init (workerProg (editEnv [(0, [1])]) askArgs)) s ∧ s.ui = .dead ∧
    s.worker.isGone = true ∧ s.started = false ∧ s.answers = [] ∧ s.printed.length = 2 :=
  seen_reach (as := .replicate 3 .worker ++ .replicate 3 .ui ++ [.crash] ++ .replicate 3 .worker)
    (x := (.dead, true, false, [], 2)) (by decide)

/-- A sequence of moves that ends with both threads finished is a fair execution. -/
theorem follow_fair {s0 s : Sys} {as : List Actor} (h : follow s0 as = some s)
    (hs : ∀ p, ¬ Can p s) : ∃ x act, Execution s0 x act ∧ Fair x act ∧ ∀ n, act n = as[n]? := by
  have hp : ∀ n, ∃ s', follow s0 (as.take n) = some s' := by
    intro n
    have happ : ∀ l l' : List Actor, ∀ s1 s2, follow s1 (l ++ l') = some s2 → ∃ s', follow s1 l = some s' := by
      intro l
      induction l with
      | nil => intro l' s1 s2 _; exact ⟨s1, rfl⟩
      | cons a t ih =>
        intro l' s1 s2 h
        simp only [List.cons_append, follow] at h ⊢
        cases hs : step a s1 with
        | none => rw [hs] at h; cases h
        | some s3 => rw [hs] at h; exact ih l' s3 s2 h
    exact happ _ (as.drop n) s0 s (by rw [List.take_append_drop]; exact h)
  let x : Nat → Sys := fun n => (follow s0 (as.take n)).getD s0
  have hx : ∀ n, follow s0 (as.take n) = some (x n) := by
    intro n
    obtain ⟨s', h'⟩ := hp n
    simp only [x, h', Option.getD_some]
  have hsnoc : ∀ (l : List Actor) (a : Actor) (s1 : Sys), follow s1 (l ++ [a]) = follow s1 l >>= step a := by
    intro l
    induction l with
    | nil =>
      intro a s1
      simp only [List.nil_append, follow]
      show _ = step a s1
      cases step a s1 <;> rfl
    | cons b t ih =>
      intro a s1
      simp only [List.cons_append, follow]
      cases step b s1 with
      | none => rfl
      | some s2 => exact ih a s2
  refine ⟨x, fun n => as[n]?, ⟨?_, fun n => ?_⟩, ?_, fun _ => rfl⟩
  · have := hx 0
    cases this
    rfl
  · split
    · next a ha =>
      replace ha : as[n]? = some a := ha
      have h1 := hx (n + 1)
      rw [List.take_add_one, ha] at h1
      simp only [Option.toList_some] at h1
      rw [hsnoc, hx n] at h1
      exact h1
    · next ha =>
      replace ha : as[n]? = none := ha
      have h1 := hx (n + 1)
      rw [List.take_add_one, ha] at h1
      simp only [Option.toList_none, List.append_nil] at h1
      rw [hx n] at h1
      exact (Option.some.inj h1).symm
  · intro p n hc
    refine ⟨max n as.length, Nat.le_max_left _ _, .inr ?_⟩
    have h1 := hx (max n as.length)
    rw [List.take_of_length_le (Nat.le_max_right _ _), h] at h1
    rw [← Option.some.inj h1]
    exact hs p

theorem finished_cannot {s : Sys} (hu : s.ui = .done) (hw : s.worker.isGone = true) (p : Party) : ¬ Can p s := by
  rintro ⟨a, ha, h⟩
  cases hg : s.worker with
  | run q => rw [hg] at hw; cases hw
  | closing e => rw [hg] at hw; cases hw
  | gone =>
    cases p <;> cases a <;> first | exact ha | simp [step, workerStep, uiStep, hu, hg] at h

/-- A fair execution without failure. -/
example : ∃ x act, Execution (Sys.init (workerProg (editEnv [(0, [1])]) askArgs)) x act ∧ Fair x act ∧
    ∀ m, act m ≠ some .crash := by
  have h : seen yesMoves = some (.done, true, true, [true], 6) := by decide
  unfold seen at h
  rw [Option.map_eq_some_iff] at h
  obtain ⟨s, h1, h2⟩ := h
  simp only [Prod.mk.injEq] at h2
  obtain ⟨x, act, h3, h4, h5⟩ := follow_fair h1 (finished_cannot h2.1 h2.2.1)
  refine ⟨x, act, h3, h4, fun m hm => ?_⟩
  rw [h5] at hm
  have := List.mem_of_getElem? hm
  revert this
  decide

end MapEditr
