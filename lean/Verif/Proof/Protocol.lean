import Verif.Proof.Threads
/-! # Lemmas: the protocol between the threads -/

namespace MapEditr
open Spec

/-- The user interface is in its loop, or has panicked. -/
def Around (u : UState) : Prop := u = .idle ∨ u = .dead

/-- Where the protocol stands. -/
inductive Good (conf : Bool) (s : Sys) : Prop
  /-- Before the question. -/
  | before {p : Prog} (hw : s.worker = .run p) (hp : Ready conf p) (hu : .confirmRequest ∉ s.toUi)
      (ht : s.toWorker = []) (ha : s.answers = []) (hs : s.started = false) (hi : Around s.ui)
  /-- The question is in the channel, or was asked, or will never be. -/
  | asked {p : Prog} (hw : s.worker = .run p) (hp : Asks p)
      (hu : (∃ l, .confirmRequest ∉ l ∧ s.toUi = l ++ [.confirmRequest] ∧ s.ui = .idle) ∨
        (s.ui = .asking ∧ s.toUi = []) ∨ s.ui = .dead ∧ s.toUi = [])
      (ht : s.toWorker = []) (ha : s.answers = []) (hs : s.started = false)
  /-- The answer is in the channel. -/
  | answered {p : Prog} {b : Bool} (hw : s.worker = .run p) (hp : Asks p) (hu : s.toUi = [])
      (ht : s.toWorker = [b]) (ha : s.answers = [b]) (hs : s.started = false) (hi : Around s.ui)
  /-- The command is about to be called. -/
  | going {k : Prog} (hw : s.worker = .run (.start k)) (hp : Plain k) (hu : s.toUi = [])
      (ht : s.toWorker = []) (ha : s.answers = [true]) (hs : s.started = false) (hi : Around s.ui)
  /-- It was called, or never will be. -/
  | after (hp : ∀ p, s.worker = .run p → Plain p) (hu : .confirmRequest ∉ s.toUi) (ht : s.toWorker = [])
      (ha : s.answers = [] ∨ ∃ b, s.answers = [b]) (hs : s.started = true → conf = false ∨ s.answers = [true])
      (hi : Around s.ui ∨ (s.ui = .joining ∨ s.ui = .done) ∧ s.worker.isGone = true ∧ s.toUi = [])

theorem good_init {conf : Bool} {p : Prog} (h : Ready conf p) : Good conf (Sys.init p) :=
  .before rfl h (by simp [Sys.init]) rfl rfl rfl (.inl rfl)

theorem open_idle {s : Sys} (h : s.ui = .idle) : s.ui.open = true := by rw [h]; rfl
theorem open_dead {s : Sys} (h : s.ui = .dead) : s.ui.open = false := by rw [h]; rfl

theorem good_worker {conf : Bool} {s s' : Sys} (hg : Good conf s) (h : workerStep s = some s') : Good conf s' := by
  cases hg with
  | before hw hp hu ht ha hs hi =>
    rename_i p
    cases p with
    | ret e =>
      rw [workerStep, hw] at h
      cases h
      exact .after (by intro p h; cases h) hu ht (.inl ha) (by simp [hs]) (.inl hi)
    | panic =>
      rw [workerStep, hw] at h
      cases h
      exact .after (by intro p h; cases h) hu ht (.inl ha) (by simp [hs]) (.inl hi)
    | send e k =>
      rcases hi with hi | hi
      · simp only [workerStep, hw, open_idle hi, if_true] at h
        cases h
        rcases hp with ⟨he, hp⟩ | ⟨rfl, -, hp⟩
        · refine .before rfl hp ?_ ht ha hs (.inl hi)
          simp only [Sys.push, List.mem_append, List.mem_singleton, not_or]
          exact ⟨hu, fun h => he h.symm⟩
        · exact .asked rfl hp (.inl ⟨s.toUi, hu, rfl, hi⟩) ht ha hs
      · simp only [workerStep, hw, open_dead hi, Bool.false_eq_true, if_false] at h
        cases h
        exact .after (by intro p h; cases h) hu ht (.inl ha) (by simp [hs]) (.inl (.inr hi))
    | recv f => cases hp
    | start k =>
      rw [workerStep, hw] at h
      cases h
      exact .after (by rintro p h; cases h; exact hp.2) hu ht (.inl ha) (fun _ => .inl hp.1) (.inl hi)
  | asked hw hp hu ht ha hs =>
    rename_i p
    cases p with
    | recv f =>
      simp only [workerStep, hw, ht] at h
      rcases hu with ⟨l, -, -, h1⟩ | ⟨h1, -⟩ | ⟨h1, hu⟩
      · rw [h1] at h
        cases h
      · rw [h1] at h
        cases h
      · simp only [open_dead h1, Bool.false_eq_true, if_false] at h
        cases h
        refine .after ?_ (by simp [hu]) rfl (.inl ha) (by simp [hs]) (.inl (.inr h1))
        intro p h
        cases h
        rw [(hp none).2 (by simp)]
        trivial
    | _ => cases hp
  | answered hw hp hu ht ha hs hi =>
    rename_i p b
    cases p with
    | recv f =>
      simp only [workerStep, hw, ht] at h
      cases h
      cases b with
      | true =>
        obtain ⟨k, h1, h2⟩ := (hp (some true)).1 rfl
        exact .going (by rw [h1]) h2 hu rfl ha hs hi
      | false =>
        refine .after ?_ (by simp [hu]) rfl (.inr ⟨_, ha⟩) (by simp [hs]) (.inl hi)
        intro p h
        cases h
        rw [(hp (some false)).2 (by simp)]
        trivial
    | _ => cases hp
  | going hw hp hu ht ha hs hi =>
    rw [workerStep, hw] at h
    cases h
    exact .after (by rintro p h; cases h; exact hp) (by simp [hu]) ht (.inr ⟨_, ha⟩) (fun _ => .inr ha) (.inl hi)
  | after hp hu ht ha hs hi =>
    cases hw : s.worker with
    | run p =>
      have hi : Around s.ui := by
        rcases hi with hi | ⟨-, hi, -⟩
        · exact hi
        · rw [hw] at hi; cases hi
      have hpl := hp p hw
      cases p with
      | ret e =>
        rw [workerStep, hw] at h
        cases h
        exact .after (by intro p h; cases h) hu ht ha hs (.inl hi)
      | panic =>
        rw [workerStep, hw] at h
        cases h
        exact .after (by intro p h; cases h) hu ht ha hs (.inl hi)
      | send e k =>
        rcases hi with hi | hi
        · simp only [workerStep, hw, open_idle hi, if_true] at h
          cases h
          refine .after ?_ ?_ ht ha hs (.inl (.inl hi))
          · rintro p h
            cases h
            exact hpl.2
          · simp only [Sys.push, List.mem_append, List.mem_singleton, not_or]
            exact ⟨hu, fun h => hpl.1 h.symm⟩
        · simp only [workerStep, hw, open_dead hi, Bool.false_eq_true, if_false] at h
          cases h
          exact .after (by intro p h; cases h) hu ht ha hs (.inl (.inr hi))
      | recv f => cases hpl
      | start k => cases hpl
    | closing e =>
      have hi : Around s.ui := by
        rcases hi with hi | ⟨-, hi, -⟩
        · exact hi
        · rw [hw] at hi; cases hi
      cases e with
      | none =>
        rw [workerStep, hw] at h
        cases h
        exact .after (by intro p h; cases h) hu ht ha hs (.inl hi)
      | some e =>
        rcases hi with hi | hi
        · simp only [workerStep, hw, open_idle hi, if_true] at h
          cases h
          refine .after (by intro p h; cases h) ?_ ht ha hs (.inl (.inl hi))
          simp only [Sys.push, List.mem_append, List.mem_singleton, not_or]
          exact ⟨hu, nofun⟩
        · simp only [workerStep, hw, open_dead hi, Bool.false_eq_true, if_false] at h
          cases h
          exact .after (by intro p h; cases h) hu ht ha hs (.inl (.inr hi))
    | gone =>
      rw [workerStep, hw] at h
      cases h

theorem good_ui {conf : Bool} {s s' : Sys} (hg : Good conf s) (h : uiStep s = some s') : Good conf s' := by
  -- the event received when idle, if it is not a question
  have pop : ∀ {e t}, s.ui = .idle → s.toUi = e :: t → e ≠ .confirmRequest →
      s'.worker = s.worker ∧ s'.ui = .idle ∧ s'.toUi = t ∧ s'.toWorker = s.toWorker ∧ s'.answers = s.answers ∧
      s'.started = s.started := by
    intro e t hi hu he
    simp only [uiStep, hi, hu] at h
    cases e with
    | confirmRequest => exact absurd rfl he
    | log t m => cases h; exact ⟨rfl, rfl, rfl, rfl, rfl, rfl⟩
    | newState m => cases h; exact ⟨rfl, rfl, rfl, rfl, rfl, rfl⟩
  have dead : s.ui ≠ .dead := by
    intro hd
    rw [uiStep, hd] at h
    cases h
  cases hg with
  | before hw hp hu ht ha hs hi =>
    rcases hi with hi | hi
    · cases hq : s.toUi with
      | nil =>
        simp only [uiStep, hi, hq, hw] at h
        cases h
      | cons e t =>
        rw [hq, List.mem_cons, not_or] at hu
        obtain ⟨e1, e2, e3, e4, e5, e6⟩ := pop hi hq (fun he => hu.1 he.symm)
        exact .before (e1.trans hw) hp (by rw [e3]; exact hu.2) (e4.trans ht) (e5.trans ha) (e6.trans hs) (.inl e2)
    · exact absurd hi dead
  | asked hw hp hu ht ha hs =>
    rcases hu with ⟨l, h1, h2, hi⟩ | ⟨hi, -⟩ | ⟨hi, -⟩
    · cases l with
      | nil =>
        simp only [uiStep, hi, h2, List.nil_append] at h
        cases h
        exact .asked hw hp (.inr (.inl ⟨rfl, rfl⟩)) ht ha hs
      | cons e t =>
        rw [List.mem_cons, not_or] at h1
        obtain ⟨e1, e2, e3, e4, e5, e6⟩ := pop hi h2 (fun he => h1.1 he.symm)
        exact .asked (e1.trans hw) hp (.inl ⟨t, h1.2, e3, e2⟩) (e4.trans ht) (e5.trans ha) (e6.trans hs)
    · rw [uiStep, hi] at h
      cases h
    · exact absurd hi dead
  | answered hw hp hu ht ha hs hi =>
    rcases hi with hi | hi
    · simp only [uiStep, hi, hu, hw] at h
      cases h
    · exact absurd hi dead
  | going hw hp hu ht ha hs hi =>
    rcases hi with hi | hi
    · simp only [uiStep, hi, hu, hw] at h
      cases h
    · exact absurd hi dead
  | after hp hu ht ha hs hi =>
    rcases hi with (hi | hi) | ⟨hi | hi, hgone, hq⟩
    · cases hq : s.toUi with
      | nil =>
        simp only [uiStep, hi, hq] at h
        split at h
        · next hgone =>
          cases h
          exact .after hp (by simp) ht ha hs (.inr ⟨.inl rfl, hgone, rfl⟩)
        · cases h
      | cons e t =>
        rw [hq, List.mem_cons, not_or] at hu
        obtain ⟨e1, e2, e3, e4, e5, e6⟩ := pop hi hq (fun he => hu.1 he.symm)
        exact .after (by rw [e1]; exact hp) (by rw [e3]; exact hu.2) (e4.trans ht) (by rw [e5]; exact ha)
          (by rw [e6, e5]; exact hs) (.inl (.inl e2))
    · exact absurd hi dead
    · simp only [uiStep, hi, hgone, if_true] at h
      cases h
      exact .after hp hu ht ha hs (.inr ⟨.inr rfl, hgone, hq⟩)
    · rw [uiStep, hi] at h
      cases h

theorem good_step {conf : Bool} {a : Actor} {s s' : Sys} (hg : Good conf s) (h : step a s = some s') :
    Good conf s' := by
  cases a with
  | worker => exact good_worker hg h
  | ui => exact good_ui hg h
  | user b =>
    cases hg with
    | asked hw hp hu ht ha hs =>
      rcases hu with ⟨l, -, -, hi⟩ | ⟨hi, hu⟩ | ⟨hi, -⟩
      · simp [step, hi] at h
      · simp only [step, hi, hw, WState.isRunning, if_true] at h
        cases h
        exact .answered (b := b) rfl hp hu (by simp [ht]) (by simp [ha]) hs (.inl rfl)
      · simp [step, hi] at h
    | before hw hp hu ht ha hs hi => rcases hi with hi | hi <;> simp [step, hi] at h
    | answered hw hp hu ht ha hs hi => rcases hi with hi | hi <;> simp [step, hi] at h
    | going hw hp hu ht ha hs hi => rcases hi with hi | hi <;> simp [step, hi] at h
    | after hp hu ht ha hs hi =>
      rcases hi with (hi | hi) | ⟨hi | hi, -, -⟩ <;> simp [step, hi] at h
  | tick =>
    have : s' = s := by
      simp only [step] at h
      split at h
      · split at h <;> cases h; rfl
      · cases h
    rw [this]
    exact hg
  | crash =>
    have hs' : s' = { s with ui := .dead, toUi := [] } ∧ (s.ui = .idle ∨ s.ui = .asking) := by
      simp only [step] at h
      split at h
      · next hi => cases h; exact ⟨rfl, .inl hi⟩
      · next hi => cases h; exact ⟨rfl, .inr hi⟩
      · cases h
    obtain ⟨rfl, hi'⟩ := hs'
    cases hg with
    | before hw hp hu ht ha hs hi => exact .before hw hp (by simp) ht ha hs (.inr rfl)
    | asked hw hp hu ht ha hs => exact .asked hw hp (.inr (.inr ⟨rfl, rfl⟩)) ht ha hs
    | answered hw hp hu ht ha hs hi => exact .answered hw hp rfl ht ha hs (.inr rfl)
    | going hw hp hu ht ha hs hi => exact .going hw hp rfl ht ha hs (.inr rfl)
    | after hp hu ht ha hs hi => exact .after hp (by simp) ht ha hs (.inl (.inr rfl))

theorem good_reach {conf : Bool} {p : Prog} (h : Ready conf p) {s : Sys} (hr : Reach (Sys.init p) s) :
    Good conf s := by
  induction hr with
  | start => exact good_init h
  | step a _ hs ih => exact good_step ih hs

/-! ## What is sent and printed -/

theorem logsOf_append (l l' : List Event) : logsOf (l ++ l') = logsOf l ++ logsOf l' := by
  induction l with
  | nil => rfl
  | cons e t ih => cases e <;> simp [logsOf, ih]

/-- What the compute thread still has to send if the answer is `r`. -/
def WState.out (r : Option Bool) : WState → List Event
  | .run p => p.out r
  | .closing (some e) => [.log .error (.text e)]
  | .closing none => []
  | .gone => []

/-- As long as the user interface has not panicked, everything sent was printed or is in the channel,
and what was sent and will be is what the program sends. -/
def Sent (p : Prog) (s : Sys) : Prop :=
  (∃ l, logsOf s.sent = s.printed ++ l) ∧
  (s.ui ≠ .dead → logsOf s.sent = s.printed ++ logsOf s.toUi ∧
    ∀ r, (∀ b, s.answers = [b] → r = some b) → s.sent ++ s.worker.out r = p.out r)

theorem sent_worker {conf : Bool} {p : Prog} {s s' : Sys} (hg : Good conf s) (hs : Sent p s)
    (h : workerStep s = some s') : Sent p s' := by
  obtain ⟨⟨l, h0⟩, h1⟩ := hs
  unfold workerStep at h
  split at h
  · next e k hw =>
    split at h
    · cases h
      refine ⟨⟨l ++ logsOf [e], ?_⟩, fun hd => ?_⟩
      · simp only [Sys.push]
        rw [logsOf_append, h0, List.append_assoc]
      · obtain ⟨h2, h3⟩ := h1 hd
        refine ⟨?_, fun r hr => ?_⟩
        · simp only [Sys.push]
          rw [logsOf_append, logsOf_append, h2, List.append_assoc]
        · rw [← h3 r hr, hw]
          simp [Sys.push, WState.out, Prog.out]
    · next ho =>
      cases h
      refine ⟨⟨l, h0⟩, fun hd => ?_⟩
      -- the channel is closed, but the user interface has not panicked: impossible here
      exfalso
      cases hu : s.ui with
      | done =>
        cases hg with
        | before _ _ _ _ _ _ hi => rcases hi with hi | hi <;> simp [hu] at hi
        | asked _ _ hi => rcases hi with ⟨-, -, -, hi⟩ | ⟨hi, -⟩ | ⟨hi, -⟩ <;> simp [hu] at hi
        | answered _ _ _ _ _ _ hi => rcases hi with hi | hi <;> simp [hu] at hi
        | going _ _ _ _ _ _ hi => rcases hi with hi | hi <;> simp [hu] at hi
        | after _ _ _ _ _ hi =>
          rcases hi with (hi | hi) | ⟨-, hi, -⟩
          · simp [hu] at hi
          · simp [hu] at hi
          · rw [hw] at hi
            cases hi
      | dead => exact hd hu
      | idle => exact ho (by rw [hu]; rfl)
      | asking => exact ho (by rw [hu]; rfl)
      | joining => exact ho (by rw [hu]; rfl)
  · next f hw =>
    split at h
    · next b t ht =>
      cases h
      refine ⟨⟨l, h0⟩, fun hd => ?_⟩
      obtain ⟨h2, h3⟩ := h1 hd
      refine ⟨h2, fun r hr => ?_⟩
      have hb : r = some b := by
        refine hr b ?_
        cases hg with
        | answered _ _ _ h4 h5 =>
          rw [ht] at h4
          cases h4
          exact h5
        | before _ _ _ h4 => rw [ht] at h4; cases h4
        | asked _ _ _ h4 => rw [ht] at h4; cases h4
        | going _ _ _ h4 => rw [ht] at h4; cases h4
        | after _ _ h4 => rw [ht] at h4; cases h4
      rw [← h3 r hr, hw, hb]
      rfl
    · split at h
      · cases h
      · next ho =>
        cases h
        refine ⟨⟨l, h0⟩, fun hd => ?_⟩
        exfalso
        cases hg with
        | before h4 hp =>
          rw [hw] at h4
          cases h4
          cases hp
        | asked _ _ hi =>
          rcases hi with ⟨-, -, -, hi⟩ | ⟨hi, -⟩ | ⟨hi, -⟩
          · exact ho (by rw [hi]; rfl)
          · exact ho (by rw [hi]; rfl)
          · exact hd hi
        | answered _ _ _ _ _ _ hi =>
          rcases hi with hi | hi
          · exact ho (by rw [hi]; rfl)
          · exact hd hi
        | going h4 =>
          rw [hw] at h4
          cases h4
        | after hp => exact hp _ hw
  · next k hw =>
    cases h
    refine ⟨⟨l, h0⟩, fun hd => ⟨(h1 hd).1, fun r hr => ?_⟩⟩
    rw [← (h1 hd).2 r hr, hw]
    rfl
  · next e hw =>
    cases h
    refine ⟨⟨l, h0⟩, fun hd => ⟨(h1 hd).1, fun r hr => ?_⟩⟩
    rw [← (h1 hd).2 r hr, hw]
    cases e <;> rfl
  · next hw =>
    cases h
    refine ⟨⟨l, h0⟩, fun hd => ⟨(h1 hd).1, fun r hr => ?_⟩⟩
    rw [← (h1 hd).2 r hr, hw]
    rfl
  · next e hw =>
    split at h
    · cases h
      refine ⟨⟨l ++ logsOf [.log .error (.text e)], ?_⟩, fun hd => ?_⟩
      · simp only [Sys.push]
        rw [logsOf_append, h0, List.append_assoc]
      · obtain ⟨h2, h3⟩ := h1 hd
        refine ⟨?_, fun r hr => ?_⟩
        · simp only [Sys.push]
          rw [logsOf_append, logsOf_append, h2, List.append_assoc]
        · rw [← h3 r hr, hw]
          simp [Sys.push, WState.out]
    · next ho =>
      cases h
      refine ⟨⟨l, h0⟩, fun hd => ?_⟩
      exfalso
      cases hg with
      | before h4 => rw [hw] at h4; cases h4
      | asked h4 => rw [hw] at h4; cases h4
      | answered h4 => rw [hw] at h4; cases h4
      | going h4 => rw [hw] at h4; cases h4
      | after _ _ _ _ _ hi =>
        rcases hi with (hi | hi) | ⟨-, hi, -⟩
        · exact ho (by rw [hi]; rfl)
        · exact hd hi
        · rw [hw] at hi
          cases hi
  · next hw =>
    cases h
    refine ⟨⟨l, h0⟩, fun hd => ⟨(h1 hd).1, fun r hr => ?_⟩⟩
    rw [← (h1 hd).2 r hr, hw]
    rfl
  · cases h

theorem sent_step {conf : Bool} {p : Prog} {a : Actor} {s s' : Sys} (hg : Good conf s) (hs : Sent p s)
    (h : step a s = some s') : Sent p s' := by
  cases a with
  | worker => exact sent_worker hg hs h
  | ui =>
    obtain ⟨⟨l, h0⟩, h1⟩ := hs
    simp only [step, uiStep] at h
    split at h
    · next hi =>
      obtain ⟨h2, h3⟩ := h1 (by rw [hi]; nofun)
      split at h
      · next t m rest hq =>
        cases h
        rw [hq] at h2
        have h4 : logsOf s.sent = (s.printed ++ [(t, m)]) ++ logsOf rest := by
          rw [h2, List.append_assoc]
          rfl
        exact ⟨⟨_, h4⟩, fun _ => ⟨h4, h3⟩⟩
      · next st rest hq =>
        cases h
        rw [hq] at h2
        exact ⟨⟨_, h2⟩, fun _ => ⟨h2, h3⟩⟩
      · next rest hq =>
        cases h
        rw [hq] at h2
        exact ⟨⟨_, h2⟩, fun _ => ⟨h2, h3⟩⟩
      · split at h
        · cases h
          exact ⟨⟨_, h0⟩, fun _ => ⟨h2, h3⟩⟩
        · cases h
    · next hi =>
      obtain ⟨h2, h3⟩ := h1 (by rw [hi]; nofun)
      split at h
      · cases h
        exact ⟨⟨_, h0⟩, fun _ => ⟨h2, h3⟩⟩
      · cases h
    · cases h
  | user b =>
    obtain ⟨⟨l, h0⟩, h1⟩ := hs
    simp only [step] at h
    split at h
    · next hi =>
      obtain ⟨h2, h3⟩ := h1 (by rw [hi]; nofun)
      split at h
      · cases h
        refine ⟨⟨_, h0⟩, fun _ => ⟨h2, fun r hr => h3 r ?_⟩⟩
        intro b' hb
        refine absurd ?_ (show ¬ s.answers = [b'] from ?_)
        · exact hb
        · intro hb
          cases hg with
          | asked _ _ _ _ h5 => rw [hb] at h5; cases h5
          | before _ _ _ _ _ _ h5 => rcases h5 with h5 | h5 <;> simp [hi] at h5
          | answered _ _ _ _ _ _ h5 => rcases h5 with h5 | h5 <;> simp [hi] at h5
          | going _ _ _ _ _ _ h5 => rcases h5 with h5 | h5 <;> simp [hi] at h5
          | after _ _ _ _ _ h5 => rcases h5 with (h5 | h5) | ⟨h5 | h5, -, -⟩ <;> simp [hi] at h5
      · cases h
        exact ⟨⟨_, h0⟩, fun hd => absurd rfl hd⟩
    · cases h
  | tick =>
    have : s' = s := by
      simp only [step] at h
      split at h
      · split at h <;> cases h; rfl
      · cases h
    rw [this]
    exact hs
  | crash =>
    obtain ⟨⟨l, h0⟩, h1⟩ := hs
    simp only [step] at h
    split at h
    · cases h
      exact ⟨⟨_, h0⟩, fun hd => absurd rfl hd⟩
    · cases h
      exact ⟨⟨_, h0⟩, fun hd => absurd rfl hd⟩
    · cases h

theorem sent_reach {conf : Bool} {p : Prog} (h : Ready conf p) {s : Sys} (hr : Reach (Sys.init p) s) : Sent p s := by
  induction hr with
  | start => exact ⟨⟨[], rfl⟩, fun _ => ⟨rfl, fun r _ => rfl⟩⟩
  | step a hr' hs ih => exact sent_step (good_reach h hr') ih hs

/-! ## Progress -/

/-- Bound for the number of steps. -/
def Prog.size : Prog → Nat
  | .ret _ => 1
  | .panic => 1
  | .send _ k => k.size + 1
  | .recv f => (f none).size + (f (some true)).size + (f (some false)).size + 1
  | .start k => k.size + 1

def WState.weight : WState → Nat
  | .run p => 3 * p.size + 6
  | .closing (some _) => 6
  | .closing none => 2
  | .gone => 0

def UState.weight : UState → Nat
  | .idle => 2
  | .asking => 3
  | .joining => 1
  | .done => 0
  | .dead => 0

def Sys.weight (s : Sys) : Nat := s.worker.weight + 2 * s.toUi.length + s.ui.weight

theorem size_recv (f : Option Bool → Prog) (r : Option Bool) : (f r).size < (Prog.recv f).size := by
  show _ < (f none).size + (f (some true)).size + (f (some false)).size + 1
  rcases r with _ | _ | _ <;> omega

/-- Every step but waiting brings the end nearer. -/
theorem weight_step {a : Actor} {s s' : Sys} (h : step a s = some s') (ha : a ≠ .tick) : s'.weight < s.weight := by
  cases a with
  | worker =>
    simp only [step, workerStep] at h
    split at h
    · next e k hw =>
      split at h <;> cases h
      · simp [Sys.weight, hw, Sys.push, WState.weight, Prog.size]
        omega
      · simp [Sys.weight, hw, WState.weight, Prog.size]
        all_goals omega
    · next f hw =>
      split at h
      · next b t _ =>
        cases h
        have := size_recv f (some b)
        simp only [Sys.weight, hw, WState.weight]
        omega
      · split at h <;> cases h
        have := size_recv f none
        simp only [Sys.weight, hw, WState.weight]
        omega
    · next k hw =>
      cases h
      simp [Sys.weight, hw, WState.weight, Prog.size]
      all_goals omega
    · next e hw =>
      cases h
      cases e <;> simp [Sys.weight, hw, WState.weight, Prog.size] <;> omega
    · next hw =>
      cases h
      simp [Sys.weight, hw, WState.weight, Prog.size]
      all_goals omega
    · next e hw =>
      split at h <;> cases h <;> simp [Sys.weight, hw, Sys.push, WState.weight] <;> omega
    · next hw =>
      cases h
      simp [Sys.weight, hw, WState.weight]
    · cases h
  | ui =>
    simp only [step, uiStep] at h
    split at h
    · next hi =>
      split at h
      · next hq => cases h; simp [Sys.weight, hi, hq, UState.weight]
      · next hq => cases h; simp [Sys.weight, hi, hq, UState.weight]
      · next hq => cases h; simp [Sys.weight, hi, hq, UState.weight]; omega
      · next hq => split at h <;> cases h; simp [Sys.weight, hi, hq, UState.weight]
    · next hi => split at h <;> cases h; simp [Sys.weight, hi, UState.weight]
    · cases h
  | user b =>
    simp only [step] at h
    split at h
    · next hi => split at h <;> cases h <;> simp [Sys.weight, hi, UState.weight] <;> omega
    · cases h
  | tick => exact absurd rfl ha
  | crash =>
    simp only [step] at h
    split at h
    · next hi => cases h; simp [Sys.weight, hi, UState.weight]; omega
    · next hi => cases h; simp [Sys.weight, hi, UState.weight]; omega
    · cases h

theorem tick_same {s s' : Sys} (h : step .tick s = some s') : s' = s := by
  simp only [step] at h
  split at h
  · split at h <;> cases h; rfl
  · cases h

/-- The compute thread can move unless it waits for an answer or is at its end. -/
theorem worker_can {s : Sys} (hr : ∀ f, s.worker ≠ .run (.recv f)) (hg : s.worker.isGone = false) :
    Can .worker s := by
  refine ⟨.worker, trivial, ?_⟩
  simp only [step, workerStep]
  split
  · split <;> rfl
  · next f hw => exact absurd hw (hr f)
  · rfl
  · rfl
  · rfl
  · split <;> rfl
  · rfl
  · next hw =>
    rw [hw] at hg
    cases hg

theorem good_can {conf : Bool} {s : Sys} (hg : Good conf s) : Finished s ∨ ∃ p, Can p s := by
  cases hg with
  | before hw hp =>
    refine .inr ⟨.worker, worker_can (fun f hf => ?_) (by rw [hw]; rfl)⟩
    rw [hf] at hw
    cases hw
    cases hp
  | asked hw hp hu ht ha hs =>
    rename_i p
    rcases hu with ⟨l, -, h1, hi⟩ | ⟨hi, -⟩ | ⟨hi, -⟩
    · refine .inr ⟨.ui, .ui, trivial, ?_⟩
      simp only [step, uiStep, hi]
      split
      · rfl
      · rfl
      · rfl
      · next hq => rw [h1] at hq; simp at hq
    · refine .inr ⟨.user, .user true, trivial, ?_⟩
      simp only [step, hi]
      split <;> rfl
    · cases p with
      | recv f =>
        refine .inr ⟨.worker, .worker, trivial, ?_⟩
        simp [step, workerStep, hw, ht, hi, UState.open]
      | _ => cases hp
  | answered hw hp hu ht ha hs hi =>
    rename_i p b
    cases p with
    | recv f =>
      refine .inr ⟨.worker, .worker, trivial, ?_⟩
      simp [step, workerStep, hw, ht]
    | _ => cases hp
  | going hw =>
    refine .inr ⟨.worker, worker_can (fun f hf => ?_) (by rw [hw]; rfl)⟩
    rw [hf] at hw
    cases hw
  | after hp hu ht ha hs hi =>
    cases hgone : s.worker.isGone with
    | false =>
      refine .inr ⟨.worker, worker_can (fun f hf => hp _ hf) hgone⟩
    | true =>
      rcases hi with (hi | hi) | ⟨hi | hi, -, -⟩
      · refine .inr ⟨.ui, .ui, trivial, ?_⟩
        simp only [step, uiStep, hi]
        split
        · rfl
        · rfl
        · rfl
        · rw [if_pos hgone]
          rfl
      · exact .inl ⟨.inr hi, hgone⟩
      · refine .inr ⟨.ui, .ui, trivial, ?_⟩
        simp [step, uiStep, hi, hgone]
      · exact .inl ⟨.inl hi, hgone⟩

theorem execution_reach {s0 : Sys} {x : Nat → Sys} {act : Nat → Option Actor} (h : Execution s0 x act) (n : Nat) :
    Reach s0 (x n) := by
  induction n with
  | zero => rw [h.1]; exact .start
  | succ n ih =>
    have := h.2 n
    split at this
    · exact .step _ ih this
    · rw [this]; exact ih

theorem execution_weight {s0 : Sys} {x : Nat → Sys} {act : Nat → Option Actor} (h : Execution s0 x act)
    (n d : Nat) : x (n + d) = x n ∨ (x (n + d)).weight < (x n).weight := by
  induction d with
  | zero => exact .inl rfl
  | succ d ih =>
    have := h.2 (n + d)
    have hstep : x (n + d + 1) = x (n + d) ∨ (x (n + d + 1)).weight < (x (n + d)).weight := by
      split at this
      · next a _ =>
        by_cases ha : a = .tick
        · subst ha
          exact .inl (tick_same this)
        · exact .inr (weight_step this ha)
      · exact .inl this
    rw [← Nat.add_assoc]
    rcases hstep with h1 | h1 <;> rcases ih with h2 | h2
    · exact .inl (h1.trans h2)
    · rw [h1]; exact .inr h2
    · rw [← h2]; exact .inr h1
    · exact .inr (Nat.lt_trans h1 h2)

/-- Fair executions come to an end. -/
theorem execution_ends {conf : Bool} {s0 : Sys} (hg : ∀ s, Reach s0 s → Good conf s) {x : Nat → Sys}
    {act : Nat → Option Actor} (h : Execution s0 x act) (hf : Fair x act) : ∃ n, Finished (x n) := by
  have aux : ∀ k n, (x n).weight = k → ∃ n, Finished (x n) := by
    intro k
    induction k using Nat.strongRecOn with
    | _ k ih =>
      intro n hn
      rcases good_can (hg _ (execution_reach h n)) with hfin | ⟨p, hp⟩
      · exact ⟨n, hfin⟩
      · obtain ⟨m, hm, hmove⟩ := hf p n hp
        obtain ⟨d, rfl⟩ := Nat.exists_eq_add_of_le hm
        have hw := execution_weight h n d
        rcases hmove with ⟨a, ha, hpa⟩ | hno
        · have hs := h.2 (n + d)
          rw [ha] at hs
          have ht : a ≠ .tick := by
            rintro rfl
            cases p <;> exact hpa
          have := weight_step hs ht
          refine ih _ ?_ (n + d + 1) rfl
          rcases hw with hw | hw
          · rw [hw] at this; omega
          · omega
        · rcases hw with hw | hw
          · rw [hw] at hno
            exact absurd hp hno
          · exact ih _ (by omega) (n + d) rfl
  exact aux _ 0 rfl

end MapEditr
