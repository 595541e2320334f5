import Verif.Proof.Locks
import Verif.Proof.First
import Verif.Props.Rollback
import Verif.Props.Adaptive
/-!
# C114: others use the map at the same time

Other programs may have the map open, too (Minetest should not, but nothing keeps it from it), and the input map of
`overlay` may be the main map.  `Model/Locks` says what SQLite allows then.  All theorems are about runs in which SQLite
does not undo the transaction (see `C55_false` for what happens if it does).
-/

namespace MapEditr
open Spec Locks

/-- What a run did before a statement, how it stood then, and what it did. -/
theorem locks_at {c : Company} {f : File} {b : Bool} {i : DbId} {t : Table} {tr : List Did} (hi : c.uses i = true)
    (hf : Unused f) (hp : (phases b tr).isSome = true) (ha : Allowed c f tr) (hl : LooksAt c f tr i t) {n : Nat} {d : Did}
    (hd : tr[n]? = some d) : ∃ P Q, phases b (tr.take n) = some P ∧ phaseStep b P d = some Q ∧
      Stands (P i) (c.now f (tr.take n)) (.us i) t (sight c.keep i t (tr.take n)).1 ∧
      (sight c.keep i t (tr.take n)).1.cur = seesAlone i t (tr.take n) ∧
      tr.take (n + 1) = tr.take n ++ [d] ∧ (tr.take n).length = n ∧ Allowed c f (tr.take n ++ [d]) ∧
      LooksAt c f (tr.take n ++ [d]) i t := by
  have hlt : n < tr.length := (List.getElem?_eq_some_iff.1 hd).1
  have e : tr.take (n + 1) = tr.take n ++ [d] := by rw [List.take_add_one, hd]; rfl
  have hlen : (tr.take n).length = n := by rw [List.length_take]; omega
  obtain ⟨Q, hQ⟩ := Option.isSome_iff_exists.1 (phases_take hp (n + 1))
  rw [e] at hQ
  obtain ⟨P, hP, hs⟩ := phases_last hQ
  have hA : Allowed c f (tr.take n ++ [d]) := by
    rw [← e]
    intro m x hm
    rw [List.getElem?_take] at hm
    split at hm
    · rw [List.take_take, Nat.min_eq_left (by omega)]
      exact ha m x hm
    · cases hm
  have hL : LooksAt c f (tr.take n ++ [d]) i t := by
    rw [← e]
    intro m hm hfl
    rw [List.length_take] at hm
    rw [List.take_take, Nat.min_eq_left (by omega)]
    refine hl m (by omega) ?_
    unfold FirstLock at hfl ⊢
    rwa [List.take_take, Nat.min_eq_left (by omega), List.take_take, Nat.min_eq_left (by omega), List.getElem?_take,
      if_pos (by omega)] at hfl
  have := stands_same (stands_run hi hf (tr.take n) P hP (allowed_init hA) (looksAt_init hL)) (undisturbed_now _)
  exact ⟨P, Q, hP, hs, this, sight_cur (b := b) _ (by rw [hP]; rfl), e, hlen, hA, hL⟩

/-- What `stands_self` needs. -/
theorem looks_self {c : Company} {f : File} {l : List Did} {i : DbId} {s : Sql} {t : Table} {g : File}
    (hi : c.uses i = true) (hl : LooksAt c f (l ++ [⟨i, s, true⟩]) i t)
    (hg : (c.now f l).step (.us i) (c.spill l.length) (c.keep l.length) s = some g) :
    Who.us i ∉ (c.now f l).readers → Who.us i ∈ g.readers ∨ s = .commit → (c.now f l).content = t := by
  intro h1 h2
  refine looksAt_last hl h1 ?_
  rw [after_snoc, if_pos (by simp [hi]), hg, Option.getD_some]
  exact h2.imp id fun e => by rw [e]

/-- C114: a run reads what it would read if it had the map for itself, the map being what it is when the run gets
its first lock. -/
theorem C114_reads (c : Company) (f : File) (env : Env) (args : InstArgs) (i : DbId) (t : Table)
    (hu : ∀ n, env.undo n = false) (hi : c.uses i = true) (hf : Unused f)
    (ha : Allowed c f (computeThread env args World.start).2.trace)
    (hl : LooksAt c f (computeThread env args World.start).2.trace i t) (n : Nat) (s : Sql)
    (hs : s = .selectAll ∨ ∃ k, s = .select k)
    (hd : (computeThread env args World.start).2.trace[n]? = some ⟨i, s, true⟩) :
    (c.now f ((computeThread env args World.start).2.trace.take n)).sees (.us i) =
      seesAlone i t ((computeThread env args World.start).2.trace.take n) := by
  obtain ⟨P, Q, -, h2, h3, h3', h4, h5, h6, h7⟩ := locks_at hi hf (phases_run hu args) ha hl hd
  obtain ⟨h8, -⟩ := phaseStep_ok h2 rfl
  have h9 : P i = .looking := by
    simp only at h8
    cases hp : P i <;> rw [hp] at h8 <;> rcases hs with rfl | ⟨k, rfl⟩ <;> first | rfl | cases h8
  rw [h9] at h3
  obtain ⟨g, hg⟩ := Option.isSome_iff_exists.1 (allowed_last h6 rfl hi)
  have h10 := looks_self hi h7 hg
  have hm : Who.us i ∈ g.readers := by
    have : (if (c.now f ((computeThread env args World.start).2.trace.take n)).canRead (.us i) then
        some (if (c.now f ((computeThread env args World.start).2.trace.take n)).inTx (.us i) then
          (c.now f ((computeThread env args World.start).2.trace.take n)).share (.us i)
        else c.now f ((computeThread env args World.start).2.trace.take n)) else none) = some g := by
      rcases hs with rfl | ⟨k, rfl⟩ <;> exact hg
    rw [h3.1, if_pos rfl] at this
    split at this
    · cases this; exact (share_readers _ _ _).2 (.inl rfl)
    · cases this
  rw [← h3']
  unfold File.sees
  rcases h3.2 with ⟨b, -, e⟩ | ⟨b, -, d, -⟩
  · rw [if_neg b, e, h10 b (.inl hm)]
  · rw [if_pos b, d]

theorem replay_cur (t : Table) (l : List Did) : (replay t l).cur = seesAlone .main t l := rfl

/-- C114: when the run commits, the file still is what it was when the run got its first lock, and becomes what the run
makes of that if it has the map for itself.  So no change by others is lost, and none gets mixed up with those of the
run. -/
theorem C114_commit (c : Company) (f : File) (env : Env) (args : InstArgs) (t : Table)
    (hu : ∀ n, env.undo n = false) (hi : c.uses .main = true) (hf : Unused f)
    (ha : Allowed c f (computeThread env args World.start).2.trace)
    (hl : LooksAt c f (computeThread env args World.start).2.trace .main t) (n : Nat)
    (hd : (computeThread env args World.start).2.trace[n]? = some ⟨.main, .commit, true⟩) :
    (c.now f ((computeThread env args World.start).2.trace.take n)).content = t ∧
    (c.after f ((computeThread env args World.start).2.trace.take (n + 1))).content =
      onDisk t ((computeThread env args World.start).2.trace.take (n + 1)) := by
  obtain ⟨P, Q, -, h2, h3, h3', h4, h5, h6, h6'⟩ := locks_at hi hf (phases_run hu args) ha hl hd
  obtain ⟨h7, -⟩ := phaseStep_ok h2 rfl
  obtain ⟨g, hg⟩ := Option.isSome_iff_exists.1 (allowed_last h6 rfl hi)
  obtain ⟨-, -, h8⟩ := stands_self h3 h7 hg (looks_self hi h6' hg)
  obtain ⟨h8, h9, -⟩ := h8 rfl
  refine ⟨h8, ?_⟩
  rw [h4, after_snoc, if_pos (by simp [hi]), hg, Option.getD_some, h9, h3']
  unfold onDisk
  rw [replay_snoc, if_pos ⟨rfl, rfl⟩]
  exact (replay_cur _ _).symm

/-- C114: nothing else the run does changes the file. -/
theorem C114_quiet (c : Company) (f : File) (env : Env) (args : InstArgs) (t : Table)
    (hu : ∀ n, env.undo n = false) (hi : c.uses .main = true) (hj : c.uses .input = false) (hf : Unused f)
    (ha : Allowed c f (computeThread env args World.start).2.trace)
    (hl : LooksAt c f (computeThread env args World.start).2.trace .main t) (n : Nat) (d : Did)
    (hd : (computeThread env args World.start).2.trace[n]? = some d) (hc : d ≠ ⟨.main, .commit, true⟩) :
    (c.after f ((computeThread env args World.start).2.trace.take (n + 1))).content =
      (c.now f ((computeThread env args World.start).2.trace.take n)).content := by
  obtain ⟨P, Q, -, h2, h3, h3', h4, h5, h6, h7⟩ := locks_at hi hf (phases_run hu args) ha hl hd
  rw [h4, after_snoc]
  obtain ⟨db, s, ok⟩ := d
  cases ok with
  | false => rfl
  | true =>
    cases db with
    | input => rw [if_neg (by simp [hj])]
    | main =>
      obtain ⟨h8, -⟩ := phaseStep_ok h2 rfl
      obtain ⟨g, hg⟩ := Option.isSome_iff_exists.1 (allowed_last h6 rfl hi)
      rw [if_pos (by simp [hi]), hg, Option.getD_some]
      exact (stands_self h3 h8 hg (looks_self hi h7 hg)).2.1 fun e => hc (by simp only at e; rw [e])

/-- C114: nor does anything it does change the file if that is its input map. -/
theorem C114_input (c : Company) (f : File) (env : Env) (args : InstArgs) (t : Table)
    (hu : ∀ n, env.undo n = false) (hi : c.uses .input = true) (hj : c.uses .main = false) (hf : Unused f)
    (ha : Allowed c f (computeThread env args World.start).2.trace)
    (hl : LooksAt c f (computeThread env args World.start).2.trace .input t) (n : Nat) (d : Did)
    (hd : (computeThread env args World.start).2.trace[n]? = some d) :
    (c.after f ((computeThread env args World.start).2.trace.take (n + 1))).content =
      (c.now f ((computeThread env args World.start).2.trace.take n)).content := by
  obtain ⟨P, Q, -, h2, h3, h3', h4, h5, h6, h7⟩ := locks_at hi hf (phases_run hu args) ha hl hd
  rw [h4, after_snoc]
  obtain ⟨db, s, ok⟩ := d
  cases ok with
  | false => rfl
  | true =>
    cases db with
    | main => rw [if_neg (by simp [hj])]
    | input =>
      obtain ⟨h8, -⟩ := phaseStep_ok h2 rfl
      obtain ⟨g, hg⟩ := Option.isSome_iff_exists.1 (allowed_last h6 rfl hi)
      rw [if_pos (by simp [hi]), hg, Option.getD_some]
      refine (stands_self h3 h8 hg (looks_self hi h7 hg)).2.1 ?_
      rintro rfl
      exact C52_input_unmodified env args _ (List.mem_of_getElem? hd) rfl (by simp [Changes])

/-- Done means committed. -/
theorem commit_last {env : Env} {args : InstArgs} {t t' : Table} {evs : List Event} (hv : args.command ≠ "vacuum")
    (h : Completes env args t t' evs) :
    ∃ l, (computeThread env args World.start).2.trace = l ++ [⟨.main, .commit, true⟩] := by
  obtain ⟨f, w, m, hf, rfl, h, rfl, hd, hm, rfl⟩ := h
  rw [h]
  rw [computeThread_eq, run_bind_iff] at h
  obtain ⟨r, w0, hs, h⟩ := h
  cases r with
  | error e => simp [run_pure] at h
  | ok r =>
    obtain ⟨cmd, wn⟩ := r
    obtain ⟨-, a2, -, a5⟩ := setup_iff.1 hs
    have htx0 : Tx f.table w0 := tx_setup hf a5
    have htx : Tx f.table (w0.say (preEvents args wn)) := htx0
    obtain ⟨f', -, b2, -, -, -, b5⟩ := setupWorld_start a5
    have b2' : OpenAt (w0.say (preEvents args wn)) .main _ _ _ := b2
    simp only at h
    rw [runCommand_eq] at h
    split at h
    · simp only [Prod.mk.injEq] at h
      rw [← h.2] at hd
      have hd : .log .info (.text "Done.") ∈ w0.events ++ preEvents args wn := hd
      rw [b5, List.nil_append] at hd
      exact absurd hd preEvents_not_info
    · have hb' := inv_command (tx_copyFrame env f.table) a2 hv args (w0.say (preEvents args wn))
      rcases hb : cmd.func env args (w0.say (preEvents args wn)) with ⟨r, w2⟩
      rw [hb] at hb'
      cases r with
      | error e =>
        unfold finish at h
        rw [run_bind_err hb] at h
        simp at h
      | ok u =>
        rcases hb'.2 htx with ⟨cur, cols, ho, hr, hk⟩ | ⟨hbad, -⟩ | ⟨-, pre, k, post, hu⟩
        · rw [finish_open hb ho] at h
          split at h
          · simp at h
          · simp only [Prod.mk.injEq, true_and] at h
            subst h
            exact ⟨w2.trace, rfl⟩
        · cases hbad
        · have hun := (inv_command (undoes_frame env) a2 hv args (w0.say (preEvents args wn))).2 _ _ _ b2'
          rw [hb] at hun
          rcases hun (by rw [hu]; simp [undone]) with h1 | h1
          · exact absurd (show undone ∈ w0.trace from h1) (setup_trace a5)
          · rw [finish_lost hb h1] at h
            simp at h

/-- C114: a run other than `vacuum` that comes to its end does in company what it does alone: at its last statement
the file becomes what the run makes of it. -/
theorem C114_done (c : Company) (f : File) (env : Env) (args : InstArgs) (t t' : Table) (evs : List Event)
    (hv : args.command ≠ "vacuum") (h : Completes env args t t' evs)
    (hu : ∀ n, env.undo n = false) (hi : c.uses .main = true) (hf : Unused f)
    (ha : Allowed c f (computeThread env args World.start).2.trace)
    (hl : LooksAt c f (computeThread env args World.start).2.trace .main t) :
    ∃ n, (computeThread env args World.start).2.trace.length = n + 1 ∧
      (c.now f ((computeThread env args World.start).2.trace.take n)).content = t ∧
      (c.after f (computeThread env args World.start).2.trace).content = t' := by
  obtain ⟨l, hl'⟩ := commit_last hv h
  obtain ⟨h1, -⟩ := C55_done_partial env args t t' evs hv h
  have hd : (computeThread env args World.start).2.trace[l.length]? = some ⟨.main, .commit, true⟩ := by
    rw [hl', List.getElem?_append_right (by omega), Nat.sub_self]; rfl
  obtain ⟨h2, h3⟩ := C114_commit c f env args t hu hi hf ha hl l.length hd
  have hlen : (computeThread env args World.start).2.trace.length = l.length + 1 := by rw [hl']; simp
  rw [List.take_of_length_le (Nat.le_of_eq hlen), h1] at h3
  exact ⟨l.length, hlen, h2, h3⟩

/-- C114: if the input map is the main map itself, the run does not change it at all, and if it has written anything it
does not get to commit.  The run must have a lock on its input map by then: because SQLite gives it one at
`PRAGMA table_info`, or because the run has read the input map. -/
theorem C114_self (c : Company) (f : File) (env : Env) (args : InstArgs) (t u : Table)
    (hu : ∀ n, env.undo n = false) (hi : ∀ i, c.uses i = true) (hf : Unused f) (hin : args.inputMapPath ≠ none)
    (hk : (∀ n, c.keep n = true) ∨ ReadsFirst (computeThread env args World.start).2.trace)
    (ha : Allowed c f (computeThread env args World.start).2.trace)
    (hl : LooksAt c f (computeThread env args World.start).2.trace .main t)
    (hl' : LooksAt c f (computeThread env args World.start).2.trace .input u) (n : Nat) (d : Did)
    (hd : (computeThread env args World.start).2.trace[n]? = some d) :
    (c.after f ((computeThread env args World.start).2.trace.take (n + 1))).content =
      (c.now f ((computeThread env args World.start).2.trace.take n)).content ∧
    (d = ⟨.main, .commit, true⟩ → ∀ m < n, ∀ s, (computeThread env args World.start).2.trace[m]? = some ⟨.main, s, true⟩ →
      ¬ WritesRow s) := by
  have hb : args.inputMapPath.isSome = true := by
    cases h : args.inputMapPath with
    | none => exact absurd h hin
    | some p => rfl
  have hp := phases_run hu args
  rw [hb] at hp
  obtain ⟨P, Q, h1, h2, h3, -, h4, h5, h6, h7⟩ := locks_at (hi .main) hf hp ha hl hd
  obtain ⟨P', -, h1', -, h3', -, -, -, -, h7'⟩ := locks_at (hi .input) hf hp ha hl' hd
  rw [h1] at h1'
  cases h1'
  rw [h4, after_snoc]
  obtain ⟨db, s, ok⟩ := d
  cases ok with
  | false => exact ⟨rfl, by simp⟩
  | true =>
    obtain ⟨h8, -, h9⟩ := phaseStep_ok h2 rfl
    obtain ⟨g, hg⟩ := Option.isSome_iff_exists.1 (allowed_last h6 rfl (hi db))
    rw [if_pos (by simp [hi]), hg, Option.getD_some]
    cases db with
    | main =>
      obtain ⟨-, h10, h11⟩ := stands_self h3 h8 hg (looks_self (hi .main) h7 hg)
      by_cases e : s = .commit
      · subst e
        obtain ⟨a1, a2, a3⟩ := h11 rfl
        simp only at h8
        have hm' : P .main = .looking := by
          cases hq : P .main <;> rw [hq] at h8 <;> first | rfl | cases h8
        rw [hm'] at h3
        have h9 := h9 rfl rfl
        rw [h9] at h3'
        have mem : ∀ {m : Nat} {x : Did}, m < n → (computeThread env args World.start).2.trace[m]? = some x →
            x ∈ (computeThread env args World.start).2.trace.take n := fun {m x} hm hx =>
          List.mem_of_getElem? (i := m) (by rw [List.getElem?_take, if_pos hm]; exact hx)
        /- With a lock on the input map nothing can have been written. -/
        have none : ¬ ∃ s, ⟨.main, s, true⟩ ∈ (computeThread env args World.start).2.trace.take n ∧ WritesRow s := by
          rintro ⟨s, hs, hw⟩
          have hrd : (sight c.keep .input u ((computeThread env args World.start).2.trace.take n)).1.rd = true := by
            rcases hk with hk | hk
            · exact sight_kept hk _ P h1 h9
            · obtain ⟨m, hm⟩ := List.getElem?_of_mem hs
              rw [List.getElem?_take] at hm
              split at hm
              · rename_i hmn
                obtain ⟨m', h1, s', h2, h3⟩ := hk m s hm hw
                exact sight_read _ ⟨s', mem (Nat.lt_trans h1 hmn) h2, h3⟩
              · cases hm
          have hr : Who.us .input ∈ (c.now f ((computeThread env args World.start).2.trace.take n)).readers := by
            rcases h3'.2 with ⟨-, -, e⟩ | ⟨b, -⟩
            · rw [e] at hrd; cases hrd
            · exact b
          have hw' : (c.now f ((computeThread env args World.start).2.trace.take n)).writer ≠ some (.us .main) := by
            intro e
            have := a3 e
            rw [canStore_other (x := .us .input) (by simp) hr] at this
            cases this
          have hwr := sight_wrote (keep := c.keep) (t := t) _ ⟨s, hs, hw⟩
          rcases h3.2 with ⟨-, -, e⟩ | ⟨-, -, -, e, -⟩
          · rw [e] at hwr; cases hwr
          · rw [e hw'] at hwr; cases hwr
        refine ⟨?_, fun _ m hm s hs hws => none ⟨s, mem hm hs, hws⟩⟩
        rw [a2, a1]
        rcases h3.2 with ⟨-, -, e⟩ | ⟨-, -, -, -, e⟩
        · rw [e]
        · exact e (sight_unwritten _ none)
      · exact ⟨h10 e, by rintro ⟨⟩; exact absurd rfl e⟩
    | input =>
      refine ⟨?_, by rintro ⟨⟩⟩
      obtain ⟨-, h10, -⟩ := stands_self h3' h8 hg (looks_self (hi .input) h7' hg)
      refine h10 ?_
      rintro rfl
      exact C52_input_unmodified env args _ (List.mem_of_getElem? hd) rfl (by simp [Changes])

/-- C114: `overlay` without an offset reads the input map before it writes anything, so that the second condition of
`C114_self` is met.  (With an offset it need not: if the blocks it would copy from lie outside of the map, it writes
without having looked for them.) -/
theorem C114_reads_first (env : Env) (args : InstArgs) (hc : args.command = "overlay")
    (ho : args.offset.getD ⟨0, 0, 0⟩ = ⟨0, 0, 0⟩) : ReadsFirst (computeThread env args World.start).2.trace := by
  refine readsFirst_run fun cmd h w hw => ?_
  rw [hc] at h
  simp [command?, commands] at h
  subst h
  exact overlay_first ho w hw

/-- C114: a run whose input map is its main map and that has written anything ends with an error. -/
theorem C114_self_stuck (c : Company) (f : File) (env : Env) (args : InstArgs) (t u t₀ t' : Table) (evs : List Event)
    (hv : args.command ≠ "vacuum") (h : Completes env args t₀ t' evs)
    (hu : ∀ n, env.undo n = false) (hi : ∀ i, c.uses i = true) (hf : Unused f) (hin : args.inputMapPath ≠ none)
    (hk : (∀ n, c.keep n = true) ∨ ReadsFirst (computeThread env args World.start).2.trace)
    (ha : Allowed c f (computeThread env args World.start).2.trace)
    (hl : LooksAt c f (computeThread env args World.start).2.trace .main t)
    (hl' : LooksAt c f (computeThread env args World.start).2.trace .input u) (s : Sql) (hw : WritesRow s) :
    ⟨.main, s, true⟩ ∉ (computeThread env args World.start).2.trace := by
  intro hm
  obtain ⟨l, e⟩ := commit_last hv h
  obtain ⟨m, hm⟩ := List.getElem?_of_mem hm
  have hd : (computeThread env args World.start).2.trace[l.length]? = some ⟨.main, .commit, true⟩ := by
    rw [e, List.getElem?_append_right (by omega), Nat.sub_self]; rfl
  refine (C114_self c f env args t u hu hi hf hin hk ha hl hl' _ _ hd).2 rfl m ?_ s hm hw
  have : m < l.length + 1 := by
    have := (List.getElem?_eq_some_iff.1 hm).1
    rw [e] at this
    simpa using this
  rcases Nat.lt_or_eq_of_le (Nat.le_of_lt_succ this) with h | h
  · exact h
  · subst h
    rw [hd] at hm
    cases hm
    rcases hw with ⟨k, b, hw⟩ | ⟨k, hw⟩ <;> cases hw

/-- C114: a run gets its first lock on each map once, so that there is something it looks at. -/
theorem C114_looks (c : Company) (f : File) (env : Env) (args : InstArgs) (i : DbId) (hu : ∀ n, env.undo n = false)
    (hi : c.uses i = true) (ha : Allowed c f (computeThread env args World.start).2.trace) :
    ∃ t, LooksAt c f (computeThread env args World.start).2.trace i t := by
  obtain ⟨P, hP⟩ := Option.isSome_iff_exists.1 (phases_run hu args)
  obtain ⟨t, h, -⟩ := looks_run hi _ P hP ha
  exact ⟨t, h⟩

/-- C114: whatever others do, and whatever fails besides, there is a run in that company. -/
theorem C114_possible (c : Company) (f : File) (env : Env) (args : InstArgs) : ∃ fl : Nat → Bool,
    (∀ n d, (computeThread (env.failing fl fun _ => false) args World.start).2.trace[n]? = some d →
      d.ok = true → d.stmt ≠ .rollback → env.fail n = false) ∧
    Allowed c f (computeThread (env.failing fl fun _ => false) args World.start).2.trace := by
  obtain ⟨fl, u, h⟩ := C111_adaptive env args
    (fun tr i s => env.fail tr.length || (c.uses i && ((c.now f tr).step (.us i) (c.spill tr.length) (c.keep tr.length) s).isNone))
    (fun _ _ _ => false)
  have same : (worker (env.failing fl u) args World.start).2.trace =
      (worker (env.failing fl fun _ => false) args World.start).2.trace := by
    obtain ⟨e1, e2⟩ := C87_prefix (env.failing fl u) fl (fun _ => false) args
      (worker (env.failing fl u) args World.start).2.trace.length (fun _ _ => rfl) (fun k hk _ => by
        obtain ⟨d, hd⟩ : ∃ d, (worker (env.failing fl u) args World.start).2.trace[k]? = some d :=
          ⟨_, List.getElem?_eq_getElem hk⟩
        exact (h k d hd).2.2)
    rw [List.take_length] at e1
    rw [List.getElem?_eq_none (Nat.le_refl _)] at e2
    have : (worker (env.failing fl fun _ => false) args World.start).2.trace.length ≤
        (worker (env.failing fl u) args World.start).2.trace.length := by
      refine Nat.le_of_not_lt fun hlt => ?_
      change none = Option.map _ ((worker (env.failing fl fun _ => false) args World.start).2.trace[_]?) at e2
      rw [List.getElem?_eq_getElem hlt] at e2
      cases e2
    exact e1.trans (List.take_of_length_le this)
  have look : ∀ n d, (computeThread (env.failing fl fun _ => false) args World.start).2.trace[n]? = some d → d.ok = true →
      d.stmt ≠ .rollback → env.fail n = false ∧ (c.uses d.db &&
        ((c.now f ((computeThread (env.failing fl fun _ => false) args World.start).2.trace.take n)).step (.us d.db)
          (c.spill n) (c.keep n) d.stmt).isNone) = false := by
    intro n d hd ho hr
    rw [← worker_trace, ← same] at hd
    have hlen : ((worker (env.failing fl u) args World.start).2.trace.take n).length = n := by
      have := (List.getElem?_eq_some_iff.1 hd).1
      rw [List.length_take]; omega
    have h1 := (h n d hd).1
    rw [hlen] at h1
    rw [← worker_trace, ← same]
    cases hb : (env.fail n || (c.uses d.db && ((c.now f ((worker (env.failing fl u) args World.start).2.trace.take n)).step
        (.us d.db) (c.spill n) (c.keep n) d.stmt).isNone)) with
    | true => exact absurd (h1 hb hr) (by rw [ho]; simp)
    | false => simpa using hb
  refine ⟨fl, fun n d hd ho hr => (look n d hd ho hr).1, fun n d hd ho hu => ?_⟩
  by_cases hr : d.stmt = .rollback
  · rw [hr]; rfl
  · have := (look n d hd ho hr).2
    rw [hu, Bool.true_and] at this
    cases hs : (c.now f ((computeThread (env.failing fl fun _ => false) args World.start).2.trace.take n)).step (.us d.db)
        (c.spill n) (c.keep n) d.stmt with
    | none => rw [hs] at this; cases this
    | some g => rfl

/-- C114: alone, a run is allowed everything it does, whether or not memory suffices. -/
theorem C114_alone (c : Company) (f : File) (env : Env) (args : InstArgs) (i : DbId) (hu : ∀ n, env.undo n = false)
    (hi : ∀ j, c.uses j = true ↔ j = i) (hf : Idle f) (hb : ∀ n, c.before n = []) :
    Allowed c f (computeThread env args World.start).2.trace := by
  obtain ⟨P, hP⟩ := Option.isSome_iff_exists.1 (phases_run hu args)
  exact (lone_run hi hb ⟨by simp [hf.1], by simp [hf.2.1], .inl hf.2.2⟩ _ P hP).2

/-! ## Examples -/

/-- `Allowed`, for concrete runs. -/
theorem allowed_of {c : Company} {f : File} {tr : List Did} (h : (List.range tr.length).all (fun n =>
    match tr[n]? with
    | none => true
    | some d => !d.ok || !c.uses d.db || ((c.now f (tr.take n)).step (.us d.db) (c.spill n) (c.keep n) d.stmt).isSome) = true) :
    Allowed c f tr := by
  intro n d hd ho hu
  have := List.all_eq_true.1 h n (List.mem_range.2 (List.getElem?_eq_some_iff.1 hd).1)
  simp only [hd, ho, hu, Bool.not_true, Bool.false_or] at this
  exact this

/-- `LooksAt`, for concrete runs. -/
theorem looksAt_of {c : Company} {f : File} {tr : List Did} {i : DbId} {t : Table}
    (h : (List.range tr.length).all (fun n =>
      decide (Who.us i ∈ (c.now f (tr.take n)).readers) ||
      !(decide (Who.us i ∈ (c.after f (tr.take (n + 1))).readers) || decide (tr[n]? = some ⟨i, .commit, true⟩)) ||
      decide ((c.now f (tr.take n)).content = t)) = true) : LooksAt c f tr i t := by
  rintro n hn ⟨h1, h2⟩
  have := List.all_eq_true.1 h n (List.mem_range.2 hn)
  simp only [Bool.or_eq_true, decide_eq_true_eq, Bool.not_eq_true', Bool.or_eq_false_iff, decide_eq_false_iff_not] at this
  rcases this with (h | ⟨h, h'⟩) | h
  · exact absurd h h1
  · exact absurd h2 (not_or.2 ⟨h, h'⟩)
  · exact h

/-- A file nobody uses. -/
def idleFile (t : Table) : File := ⟨t, fun _ => false, [], none, false, fun _ => []⟩

/-- Another program writes before the run looks at the map, tries to again while the run is at work, and manages to
afterwards. -/
def busyCompany : Company :=
  { uses := fun i => i == .main
    before := fun n => if n = 0 ∨ n = 9 then [⟨0, .put 2 [28, 0], false, true⟩] else []
    spill := fun _ => false
    keep := fun _ => true }

/-- The `overlay` of `C55_false`, nothing going wrong. -/
def calmEnv : Env := { lostEnv false with undo := fun _ => false }

/-- The hypotheses of the theorems above are met: the other program's first change is part of what the run works on,
its second one fails. -/
example : (∀ n, calmEnv.undo n = false) ∧ busyCompany.uses .main = true ∧ Unused (idleFile [(0, [28, 0]), (1, [28, 0])]) ∧
    Allowed busyCompany (idleFile [(0, [28, 0]), (1, [28, 0])]) (computeThread calmEnv lostArgs World.start).2.trace ∧
    LooksAt busyCompany (idleFile [(0, [28, 0]), (1, [28, 0])]) (computeThread calmEnv lostArgs World.start).2.trace .main
      lostFile.table ∧
    (busyCompany.after (idleFile [(0, [28, 0]), (1, [28, 0])]) (computeThread calmEnv lostArgs World.start).2.trace).content.Perm
      [(1, [28, 1]), (0, [28, 0]), (2, [28, 1])] := by
  refine ⟨fun _ => rfl, rfl, fun i => ⟨rfl, by simp [idleFile], by simp [idleFile]⟩, allowed_of (by decide),
    looksAt_of (by decide), by decide⟩

/-- `overlay` of a map onto itself: the commit, and nothing else, is refused. -/
def selfEnv : Env :=
  { calmEnv with fs := fun p => if p = "map" ∨ p = "other" then some lostFile else none, fail := fun n => n == 15 }

/-- Both maps are the file, and nobody else is there. -/
def selfCompany : Company := ⟨fun _ => true, fun _ => [], fun _ => false, fun _ => true⟩

/-- The hypotheses of `C114_self` are met; rows are written, and the run ends with an error. -/
example : (∀ n, selfEnv.undo n = false) ∧ (∀ i, selfCompany.uses i = true) ∧ Unused (idleFile lostFile.table) ∧
    lostArgs.inputMapPath ≠ none ∧
    Allowed selfCompany (idleFile lostFile.table) (computeThread selfEnv lostArgs World.start).2.trace ∧
    (∀ i, LooksAt selfCompany (idleFile lostFile.table) (computeThread selfEnv lostArgs World.start).2.trace i
      lostFile.table) ∧
    (⟨.main, .put 1 [28, 0], true⟩ : Did) ∈ (computeThread selfEnv lostArgs World.start).2.trace ∧
    (computeThread selfEnv lostArgs World.start).1 = .ok (.error "database operation failed") ∧
    (computeThread selfEnv lostArgs World.start).2.trace.getLast? = some ⟨.main, .commit, false⟩ := by
  refine ⟨fun _ => rfl, fun _ => rfl, fun i => ⟨rfl, by simp [idleFile], by simp [idleFile]⟩, by simp [lostArgs, runArgs],
    allowed_of (by decide), fun i => looksAt_of (by cases i <;> decide), by decide, rfl, by decide⟩

/-- The same if the version of SQLite is one that does not keep the lock of `PRAGMA table_info`. -/
example : let c := { selfCompany with keep := fun _ => false }
    lostArgs.command = "overlay" ∧ lostArgs.offset.getD ⟨0, 0, 0⟩ = ⟨0, 0, 0⟩ ∧
    ReadsFirst (computeThread selfEnv lostArgs World.start).2.trace ∧
    Allowed c (idleFile lostFile.table) (computeThread selfEnv lostArgs World.start).2.trace ∧
    (∀ i, LooksAt c (idleFile lostFile.table) (computeThread selfEnv lostArgs World.start).2.trace i lostFile.table) ∧
    ¬ Allowed c (idleFile lostFile.table)
      (computeThread { selfEnv with fail := fun _ => false } lostArgs World.start).2.trace := by
  refine ⟨rfl, rfl, C114_reads_first _ _ rfl rfl, allowed_of (by decide), fun i => looksAt_of (by cases i <;> decide),
    fun h => ?_⟩
  have := h 15 ⟨.main, .commit, true⟩ (by decide) rfl rfl
  revert this
  decide

/-- Then another program may still write between `PRAGMA table_info` and the first `SELECT`; the run works on that. -/
def lateCompany : Company :=
  { uses := fun i => i == .main
    before := fun n => if n = 4 then [⟨0, .put 2 [28, 0], false, false⟩] else []
    spill := fun _ => false
    keep := fun _ => false }

example : (computeThread calmEnv lostArgs World.start).2.trace[2]? = some ⟨.main, .tableInfo, true⟩ ∧
    Allowed lateCompany (idleFile [(0, [28, 0]), (1, [28, 0])]) (computeThread calmEnv lostArgs World.start).2.trace ∧
    LooksAt lateCompany (idleFile [(0, [28, 0]), (1, [28, 0])]) (computeThread calmEnv lostArgs World.start).2.trace .main
      lostFile.table :=
  ⟨by decide, allowed_of (by decide), looksAt_of (by decide)⟩

/-- Were the commit not refused, it would not be allowed. -/
example : ¬ Allowed selfCompany (idleFile lostFile.table)
    (computeThread { selfEnv with fail := fun _ => false } lostArgs World.start).2.trace := by
  intro h
  have := h 15 ⟨.main, .commit, true⟩ (by decide) rfl rfl
  revert this
  decide

/-- The file is the input map, and another program writes to it before the run looks at it and after the run has. -/
def inputCompany : Company := { busyCompany with uses := fun i => i == .input }

example : inputCompany.uses .input = true ∧ inputCompany.uses .main = false ∧
    Allowed inputCompany (idleFile [(0, [28, 1]), (1, [28, 1])]) (computeThread calmEnv lostArgs World.start).2.trace ∧
    LooksAt inputCompany (idleFile [(0, [28, 1]), (1, [28, 1])]) (computeThread calmEnv lostArgs World.start).2.trace .input
      [(0, [28, 1]), (1, [28, 1]), (2, [28, 0])] :=
  ⟨rfl, rfl, allowed_of (by decide), looksAt_of (by decide)⟩

/-- Another program writes to the map once the run has lost its transaction. -/
def lostCompany : Company :=
  { uses := fun i => i == .main
    before := fun n => if n = 14 then [⟨0, .put 1 [28, 2], false, true⟩] else []
    spill := fun _ => false
    keep := fun _ => true }

/-- If SQLite does undo the transaction, the run of `C55_false` goes on without any lock: another program changes the map,
and the run then overwrites that, before it ends with an error. -/
theorem C114_undo_false : ∃ c f env args t n d k b, c.uses .main = true ∧ c.uses .input = false ∧ Unused f ∧
    Allowed c f (computeThread env args World.start).2.trace ∧
    LooksAt c f (computeThread env args World.start).2.trace .main t ∧
    (∃ e, (computeThread env args World.start).1 = .ok (.error e)) ∧
    (computeThread env args World.start).2.trace[n]? = some d ∧ d ≠ ⟨.main, .commit, true⟩ ∧
    (⟨0, .put k b, false, true⟩ : Move) ∈ c.before n ∧
    (c.now f ((computeThread env args World.start).2.trace.take n)).content.get? k = some b ∧
    (c.after f ((computeThread env args World.start).2.trace.take (n + 1))).content.get? k ≠ some b := by
  refine ⟨lostCompany, idleFile lostFile.table, lostEnv true, lostArgs, lostFile.table, 14, ⟨.main, .put 1 [28, 1], true⟩, 1,
    [28, 2], rfl, rfl, fun i => ⟨rfl, by simp [idleFile], by simp [idleFile]⟩, allowed_of (by decide),
    looksAt_of (by decide), ⟨_, rfl⟩, by decide, by decide, by decide, by decide, by decide⟩

end MapEditr
