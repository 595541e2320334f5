import Verif.Props.Oracle
import Verif.Proof.Unread
import Verif.Props.Library
import Verif.Props.Reads
/-!
# C111: failures that depend on what was done before

The model says which statements fail by their numbers (`Env.fail`, `Env.undo`), chosen in advance.  A real database
chooses when the statement comes, and knows all that was done before.  That is no difference.
-/

namespace MapEditr
open Spec

/-- A database that decides whether a statement fails when it comes, given what was done before. -/
abbrev Decides := List Did → DbId → Sql → Bool

/-- What it decides about the `n`-th statement of a run. -/
def Decides.at (D : Decides) (tr : List Did) (n : Nat) : Bool :=
  match tr[n]? with
  | some d => D (tr.take n) d.db d.stmt
  | none => false

/-- What is decided about the first `n` statements. -/
def decided (env : Env) (args : InstArgs) (F U : Decides) : Nat → (Nat → Bool) × (Nat → Bool)
  | 0 => (fun _ => false, fun _ => false)
  | n + 1 =>
    let p := decided env args F U n
    let tr := (worker (env.failing p.1 p.2) args World.start).2.trace
    (fun k => if k = n then F.at tr n else p.1 k, fun k => if k = n then U.at tr n else p.2 k)

theorem decided_succ (env : Env) (args : InstArgs) (F U : Decides) (n k : Nat) :
    (decided env args F U (n + 1)).1 k = (if k = n then F.at (worker (env.failing (decided env args F U n).1
      (decided env args F U n).2) args World.start).2.trace n else (decided env args F U n).1 k) ∧
    (decided env args F U (n + 1)).2 k = (if k = n then U.at (worker (env.failing (decided env args F U n).1
      (decided env args F U n).2) args World.start).2.trace n else (decided env args F U n).2 k) := ⟨rfl, rfl⟩

theorem decided_stays (env : Env) (args : InstArgs) (F U : Decides) (n m k : Nat) (hk : k < n) (hn : n ≤ m) :
    (decided env args F U m).1 k = (decided env args F U n).1 k ∧
      (decided env args F U m).2 k = (decided env args F U n).2 k := by
  induction m with
  | zero => omega
  | succ m ih =>
    rcases Nat.lt_or_eq_of_le hn with h | h
    · have := ih (by omega)
      rw [(decided_succ ..).1, (decided_succ ..).2, if_neg (by omega), if_neg (by omega)]
      exact this
    · subst h; exact ⟨rfl, rfl⟩

/-- C111: for every database that decides about each statement when it comes, by whatever was done before, there are
failures by number under which the run is one with that database: each statement of the run fails if the database says
so (and undoes the transaction then if it says so). -/
theorem C111_adaptive (env : Env) (args : InstArgs) (F U : Decides) : ∃ f u,
    ∀ n d, (worker (env.failing f u) args World.start).2.trace[n]? = some d →
      (F ((worker (env.failing f u) args World.start).2.trace.take n) d.db d.stmt = true → d.stmt ≠ .rollback →
        d.ok = false) ∧
      f n = F ((worker (env.failing f u) args World.start).2.trace.take n) d.db d.stmt ∧
      u n = U ((worker (env.failing f u) args World.start).2.trace.take n) d.db d.stmt := by
  refine ⟨fun n => (decided env args F U (n + 1)).1 n, fun n => (decided env args F U (n + 1)).2 n, fun n d hd => ?_⟩
  generalize hf : (fun n => (decided env args F U (n + 1)).1 n) = f at hd
  generalize hu : (fun n => (decided env args F U (n + 1)).2 n) = u at hd
  have hp := C87_prefix (env.failing f u) (decided env args F U n).1 (decided env args F U n).2 args n
    (fun k hk => by
      show f k = _
      rw [← hf]
      exact (decided_stays env args F U (k + 1) n k (by omega) (by omega)).1.symm)
    (fun k hk _ => by
      show u k = _
      rw [← hu]
      exact (decided_stays env args F U (k + 1) n k (by omega) (by omega)).2.symm)
  have e : (env.failing f u).failing (decided env args F U n).1 (decided env args F U n).2 =
      env.failing (decided env args F U n).1 (decided env args F U n).2 := rfl
  rw [e] at hp
  have hat : ∀ D : Decides, D.at (worker (env.failing (decided env args F U n).1 (decided env args F U n).2) args
      World.start).2.trace n = D ((worker (env.failing f u) args World.start).2.trace.take n) d.db d.stmt := by
    intro D
    have h2 := hp.2
    rw [hd] at h2
    unfold Decides.at
    rw [← hp.1]
    rcases hx : (worker (env.failing (decided env args F U n).1 (decided env args F U n).2) args World.start).2.trace[n]?
      with - | x
    · rw [hx] at h2; cases h2
    · rw [hx] at h2
      simp only [Option.map_some, Option.some.injEq, Prod.mk.injEq] at h2
      rw [h2.1, h2.2]
  have h1 : f n = F ((worker (env.failing f u) args World.start).2.trace.take n) d.db d.stmt := by
    rw [← hf]
    show (decided env args F U (n + 1)).1 n = _
    rw [(decided_succ ..).1, if_pos rfl, hat F]
    subst hf; rfl
  have h2 : u n = U ((worker (env.failing f u) args World.start).2.trace.take n) d.db d.stmt := by
    rw [← hu]
    show (decided env args F U (n + 1)).2 n = _
    rw [(decided_succ ..).2, if_pos rfl, hat U]
    subst hu; rfl
  refine ⟨fun hF hr => ?_, hf ▸ h1, hu ▸ h2⟩
  rw [← h1] at hF
  obtain ⟨ds, e1, e2⟩ := (det_worker (env := env.failing f u) (f := f) (u := u) args).ext World.start
  have e1 : (worker (env.failing f u) args World.start).2.trace = ds := e1
  rw [e1] at hd
  by_cases ho : d.ok = true
  · rcases e2 n d hd ho with h | h
    · rw [show World.start.trace.length + n = n from Nat.zero_add n] at h
      exact absurd (hF.symm.trans h) (by decide)
    · exact absurd h.1 hr
  · simpa using ho

/-- A database of which a read fails (that after `n` statements, if it is one), and from then on all reads of the same map
(C110 says that there are such failures). -/
def spoiled (n : Nat) : Decides := fun tr i s =>
  match s with
  | .select _ => tr.length == n || tr.any fun d => d.db == i && !d.ok && match d.stmt with | .select _ => true | _ => false
  | _ => false

/-- Such runs exist, for every command and every map. -/
example (env : Env) (args : InstArgs) (n : Nat) : ∃ f u, ∀ k d,
    (worker (env.failing f u) args World.start).2.trace[k]? = some d →
      spoiled n ((worker (env.failing f u) args World.start).2.trace.take k) d.db d.stmt = true → d.stmt ≠ .rollback →
      d.ok = false :=
  (C111_adaptive env args (spoiled n) fun _ _ _ => false).elim fun f h => h.elim fun u h => ⟨f, u, fun k d hd => (h k d hd).1⟩

/-- C111: what follows for `clone`, and for `overlay` with an offset: if no block of the main map can be read, nothing is
written and nothing deleted, and no block is counted as failed, so nothing is said about it. -/
theorem C111_unread (env : Env) (args : InstArgs)
    (hcmd : args.command = "clone" ∨ args.command = "overlay" ∧ args.offset.getD ⟨0, 0, 0⟩ ≠ ⟨0, 0, 0⟩)
    (h : ∀ d ∈ (computeThread env args World.start).2.trace, d.db = .main → (∃ k, d.stmt = .select k) → d.ok = false) :
    (∀ d ∈ (computeThread env args World.start).2.trace, (∀ k v, d.stmt ≠ .put k v) ∧ ∀ k, d.stmt ≠ .del k) ∧
    (computeThread env args World.start).2.status.failed = 0 := by
  have hi : Idles (computeThread env args) fun _ => True := by
    refine idles_computeThread env args fun cmd hc => ?_
    rcases hcmd with hcmd | ⟨hcmd, ho⟩
    · rw [hcmd] at hc
      have : command? "clone" = some ⟨fun env => clone env BLOCK_CACHE_SIZE, cloneVerify, [.area true, .offset true]⟩ := rfl
      rw [this] at hc
      cases hc
      exact idles_clone env _ args
    · rw [hcmd] at hc
      have hf : ∀ cmd, command? "overlay" = some cmd → cmd.func = fun env => overlay env BLOCK_CACHE_SIZE :=
        fun cmd h => by cases h; rfl
      rw [hf cmd hc]
      show Idles (overlay env BLOCK_CACHE_SIZE args) _
      unfold overlay
      refine idles_then (idles_theDb _) fun _ => ?_
      rw [if_neg ho]
      exact idles_overlayWithOffset env _ args
  obtain ⟨ds, h1, h2⟩ := hi World.start
  have h1 : (computeThread env args World.start).2.trace = ds := h1
  rw [h1] at h ⊢
  obtain ⟨h3, h4, -⟩ := h2 h
  exact ⟨h3, h4⟩

/-- A map with one row, of which the read fails: the sixth statement. -/
example : (computeThread (cloneFailEnv 5 [(0, [28])]) (cloneArgs 0 1) World.start).2.trace =
    [⟨.main, .open, true⟩, ⟨.main, .begin, true⟩, ⟨.main, .tableInfo, true⟩, ⟨.main, .prepare, true⟩,
      ⟨.main, .selectAll, true⟩, ⟨.main, .select 0, false⟩, ⟨.main, .commit, true⟩] := by decide

end MapEditr
