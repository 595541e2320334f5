import Verif.Proof.Oracle
import Verif.Props.Runs
/-!
# Property C87: what a run depends on
-/

namespace MapEditr
open Spec

/-- Two runs with the same arguments and files, but other failing statements, or other ones that undo the
transaction when they fail: they are the same in every respect, or they do exactly the same until the
first statement that does not do the same in both. -/
theorem C87_fork (env : Env) (f u : Nat → Bool) (args : InstArgs) :
    worker env args World.start = worker (env.failing f u) args World.start ∨
    Fork env (env.failing f u) (worker env args World.start).2.trace
      (worker (env.failing f u) args World.start).2.trace :=
  (det_worker args).same World.start

/-- So what would happen to statements that are not executed does not matter. -/
theorem C87_agree (env : Env) (f u : Nat → Bool) (args : InstArgs)
    (h : ∀ n, n < (worker env args World.start).2.trace.length → env.fail n = f n)
    (hu : ∀ n, n < (worker env args World.start).2.trace.length → env.fail n = true → env.undo n = u n) :
    worker env args World.start = worker (env.failing f u) args World.start :=
  det_agree (det_worker args) h hu

/-- And as far as the same statements fail in the same way, the same statements are executed. -/
theorem C87_prefix (env : Env) (f u : Nat → Bool) (args : InstArgs) (n : Nat) (h : ∀ k, k < n → env.fail k = f k)
    (hu : ∀ k, k < n → env.fail k = true → env.undo k = u k) :
    (worker env args World.start).2.trace.take n = (worker (env.failing f u) args World.start).2.trace.take n ∧
    ((worker env args World.start).2.trace[n]?).map (fun d => (d.db, d.stmt)) =
      ((worker (env.failing f u) args World.start).2.trace[n]?).map (fun d => (d.db, d.stmt)) := by
  have key : ∀ (p : List Did) (d d' : Did) (r r' : List Did), n ≤ p.length → (d.db, d.stmt) = (d'.db, d'.stmt) →
      (p ++ d :: r).take n = (p ++ d' :: r').take n ∧
      ((p ++ d :: r)[n]?).map (fun d => (d.db, d.stmt)) = ((p ++ d' :: r')[n]?).map (fun d => (d.db, d.stmt)) := by
    intro p d d' r r' hn hd
    rw [List.take_append_of_le_length hn, List.take_append_of_le_length hn]
    refine ⟨rfl, ?_⟩
    rcases Nat.lt_or_eq_of_le hn with hn | rfl
    · rw [List.getElem?_append_left hn, List.getElem?_append_left hn]
    · simpa using hd
  rcases C87_fork env f u args with e | e
  · rw [e]; exact ⟨rfl, rfl⟩
  · generalize (worker env args World.start).2.trace = t at e
    generalize (worker (env.failing f u) args World.start).2.trace = t' at e
    cases e with
    | fails p i s r r' h3 => exact key _ _ _ _ _ (Nat.le_of_not_lt fun hp => h3 (h _ hp)) rfl
    | undoes p s r r' h1 h2 h3 h4 =>
      exact key _ _ _ _ _ (Nat.le_of_not_lt fun hp => absurd ((h3.symm.trans (hu _ hp h1)).trans h4) (by simp)) rfl
    | keeps p s r r' h1 h2 h3 h4 =>
      exact key _ _ _ _ _ (Nat.le_of_not_lt fun hp => absurd ((h3.symm.trans (hu _ hp h1)).trans h4) (by simp)) rfl

theorem worker_trace (env : Env) (args : InstArgs) :
    (worker env args World.start).2.trace = (computeThread env args World.start).2.trace := by
  unfold worker
  rw [run_bind]
  rcases computeThread env args World.start with ⟨r, w⟩
  rcases r with s | e | u <;> rfl

/-- A run in which every statement succeeded is the run with a database that never fails. -/
theorem C87_clean (env : Env) (args : InstArgs) (h : ∀ d ∈ (worker env args World.start).2.trace, d.ok = true) :
    worker env args World.start = worker (env.failing (fun _ => false) fun _ => false) args World.start := by
  rcases C87_fork env (fun _ => false) (fun _ => false) args with e | e
  · exact e
  · generalize (worker env args World.start).2.trace = t at e h
    generalize (worker (env.failing (fun _ => false) fun _ => false) args World.start).2.trace = t' at e
    cases e with
    | fails p i s r r' h3 =>
      have := h ⟨i, s, !env.fail p.length⟩ (by simp)
      simp only [Bool.not_eq_true'] at this
      exact absurd this h3
    | undoes p s r r' => exact absurd (h ⟨.main, s, false⟩ (by simp)) (by simp)
    | keeps p s r r' => exact absurd (h ⟨.main, s, false⟩ (by simp)) (by simp)

/-- In particular, the database worked during a run in which every statement succeeded. -/
theorem C87_works (env : Env) (args : InstArgs) (h : ∀ d ∈ (computeThread env args World.start).2.trace, d.ok = true) :
    DbWorks env args := by
  intro n hn
  obtain ⟨ds, h1, h2⟩ := (det_computeThread (env := env) (f := env.fail) (u := env.undo) args).ext World.start
  rw [h1] at hn h
  have hn : n < ds.length := hn
  rcases h2 n ds[n] (List.getElem?_eq_getElem hn) (h _ (List.mem_append_right _ (List.getElem_mem hn))) with
    this | ⟨-, d, h3, h4⟩
  · rwa [show World.start.trace.length + n = n from Nat.zero_add n] at this
  · exact absurd (h d (List.mem_append_right _ h3)) (by rw [h4]; simp)

/-- A run in which the tenth statement would fail, if there were that many; two runs that part at the
fourth statement; and two runs in which that statement fails, in one of them undoing the transaction. -/
example : (worker (runEnv (fun n => n == 9) none) (runArgs false "vacuum" "map" none) World.start).2.trace.length = 6 ∧
    (worker (runEnv (fun n => n == 3) none) (runArgs false "vacuum" "map" none) World.start).2.trace =
      [⟨.main, .open, true⟩, ⟨.main, .begin, true⟩, ⟨.main, .tableInfo, true⟩, ⟨.main, .prepare, false⟩] ∧
    Fork (runEnv (fun n => n == 3) none) (runEnv (fun _ => false) none)
      (worker (runEnv (fun n => n == 3) none) (runArgs false "vacuum" "map" none) World.start).2.trace
      (worker (runEnv (fun _ => false) none) (runArgs false "vacuum" "map" none) World.start).2.trace ∧
    Fork (runEnv (fun n => n == 3) none) ((runEnv (fun n => n == 3) none).failing (fun n => n == 3) fun _ => true)
      (worker (runEnv (fun n => n == 3) none) (runArgs false "vacuum" "map" none) World.start).2.trace
      (worker ((runEnv (fun n => n == 3) none).failing (fun n => n == 3) fun _ => true)
        (runArgs false "vacuum" "map" none) World.start).2.trace := by
  refine ⟨by decide, by decide, ?_, ?_⟩
  · exact .fails [⟨.main, .open, true⟩, ⟨.main, .begin, true⟩, ⟨.main, .tableInfo, true⟩] .main .prepare []
      [⟨.main, .commit, true⟩, ⟨.main, .vacuum, true⟩] (by decide)
  · exact .keeps [⟨.main, .open, true⟩, ⟨.main, .begin, true⟩, ⟨.main, .tableInfo, true⟩] .prepare [] []
      rfl rfl rfl rfl

end MapEditr
