import Verif.Proof.Runs
import Verif.Props.Helpers
import Verif.Props.Spatial
import Verif.Spec.Toy
/-!
# Properties C38, C52, C53, C55–C57, C61, C62, C66: runs as a whole
-/

namespace MapEditr
open Spec

/-- Files of the examples: a map with one (unreadable) block, and a file that is not a map. -/
def runFs : String → Option DbFile
  | "map" => some ⟨[(0, [25])], [⟨"pos", "INT", 1⟩, ⟨"data", "BLOB", 0⟩]⟩
  | "other/map.sqlite" => some ⟨[(1, [25, 0, 0])], [⟨"pos", "INT", 1⟩, ⟨"data", "BLOB", 0⟩]⟩
  | "table" => some ⟨[], [⟨"key", "TEXT", 1⟩, ⟨"value", "TEXT", 0⟩]⟩
  | _ => none

/-- Environment of the examples. -/
def runEnv (fail : Nat → Bool) (answer : Option Bool) : Env :=
  ⟨.debug, Toy.codec id, fun _ => Toy.ord, fail, fun _ => false, runFs, answer⟩

/-- Arguments of the examples. -/
def runArgs (confirm : Bool) (command map : String) (input : Option String) : InstArgs :=
  ⟨confirm, command, map, input, none, false, none, none, [], none, none, none, none, none, false, false,
    none, none, none⟩

/-! ## C52 -/

/-- In every run, whatever its outcome, no statement that can change a file is executed on the input
map. -/
theorem C52_input_unmodified (env : Env) (args : InstArgs) :
    ∀ d ∈ (computeThread env args World.start).2.trace, d.db = .input → ¬ Changes d.stmt := by
  have h := ext_run (env := env) (args := args) (P := fun d => d.db = .input → ¬ Changes d.stmt)
    (by simp [Changes]) (by simp [Changes]) (by simp [Changes]) (by simp [Changes]) (by simp [Changes])
    (by simp [Changes]) (by simp) (by simp) (by simp) (by simp) World.start
  obtain ⟨ext, he, hall⟩ := h
  rw [he]
  intro d hd
  rcases hall d hd with h | rfl
  · exact h
  · simp [undone]

/-- Nor does its content change. -/
theorem C52_input_content (env : Env) (args : InstArgs) (p : String) (g : DbFile) (t t' : Table)
    (evs : List Event) (hp : args.inputMapPath = some p) (hg : mapFile env p = some g)
    (hv : args.command ≠ "vacuum") (h : Completes env args t t' evs) :
    ∃ m, (computeThread env args World.start).2.dbs .input = some m ∧ m.conn.durable = g.table ∧
      m.conn.cur = g.table := by
  obtain ⟨f, w, m, h1, h2, h3, h4, h5, -⟩ := h
  rw [h3]
  rw [computeThread_eq, run_bind_iff] at h3
  obtain ⟨r, w0, h3, h6⟩ := h3
  cases r with
  | error e => simp [run_pure] at h6
  | ok r =>
    obtain ⟨cmd, wn⟩ := r
    obtain ⟨-, a2, -, a5⟩ := setup_iff.1 h3
    obtain ⟨f', b1, b2, b3, b4, b5, b6⟩ := setupWorld_start a5
    obtain ⟨g', c1, c2⟩ := b3 p hp
    rw [hg] at c1
    cases c1
    simp only at h6
    rw [runCommand_eq] at h6
    split at h6
    · simp only [Prod.mk.injEq] at h6
      rw [← h6.2]
      exact ⟨_, c2, rfl, rfl⟩
    · cases hb : cmd.func env args (w0.say (preEvents args wn)) with
      | mk r w2 =>
        have hs := inv_command (stays_frame env) a2 hv args (w0.say (preEvents args wn))
        rw [hb] at hs
        have hin := hs.2.2 _ _ _ (show OpenAt (w0.say _) .input _ _ _ from c2)
        cases r with
        | error e =>
          unfold finish at h6
          rw [run_bind_err hb] at h6
          simp at h6
        | ok u =>
          rcases hs.1 _ _ _ (show OpenAt (w0.say _) .main _ _ _ from b2) with ⟨cur, hcur⟩ | hl
          rotate_left
          · rw [finish_lost hb hl] at h6; simp at h6
          rw [finish_open hb hcur] at h6
          split at h6
          · simp at h6
          · simp only [Prod.mk.injEq, true_and] at h6
            subst h6
            exact ⟨_, hin, rfl, rfl⟩

/-- A run of `overlay` that reads the input map and changes the main map only. -/
example : (computeThread (runEnv (fun _ => false) none) (runArgs false "overlay" "map" (some "other"))
      World.start).2.trace.map (fun d => (d.db, d.stmt)) =
    [(.main, .open), (.main, .begin), (.main, .tableInfo), (.main, .prepare),
     (.input, .open), (.input, .begin), (.input, .tableInfo), (.input, .prepare),
     (.input, .selectAll), (.input, .select 1), (.main, .put 1 [25, 0, 0]), (.main, .commit)] := by decide

/-! ## C53 -/

/-- The main map is as it was. -/
def Clean (t : Table) (w : World) (_ : Bool) (w' : World) : Prop :=
  (∀ m, w.dbs .main = some m → m.conn.durable = t ∧ m.conn.cur = t) →
    ∀ m, w'.dbs .main = some m → m.conn.durable = t ∧ m.conn.cur = t

theorem clean_bind {t : Table} {m : Run α} {f : α → Run β} (hm : Inv (Clean t) m)
    (hf : ∀ a, Inv (Clean t) (f a)) : Inv (Clean t) (m >>= f) :=
  inv_trans (fun _ _ _ _ h h' hw => h' (h hw)) hm hf

theorem clean_same {t : Table} {m : Run α} (h : ∀ w, (m w).2.dbs = w.dbs) : Inv (Clean t) m := by
  intro w hw
  rw [h]
  exact hw

theorem clean_theDb {t : Table} (i : DbId) : Inv (Clean t) (theDb i) :=
  clean_same fun w => by rw [theDb_world]

theorem clean_setFlag {t : Table} (v : Bool) : Inv (Clean t) (setFlag .main v) := by
  intro w hw m hm
  cases hd : w.dbs .main with
  | none =>
    have : setFlag .main v w = (.error (.panic "no such database"), w) := by
      unfold setFlag
      exact run_bind_err (by unfold theDb; rw [hd])
    rw [this] at hm
    exact hw m hm
  | some m' =>
    rw [setFlag_run hd, setDb_self] at hm
    cases hm
    exact hw m' hd

theorem clean_exec {t : Table} {env : Env} {s : Sql} (h1 : ∀ k d, s ≠ .put k d) (h2 : ∀ k, s ≠ .del k) :
    Inv (Clean t) (exec env .main s) := by
  intro w hw m hm
  unfold exec at hm
  cases hd : w.dbs .main with
  | none => rw [hd] at hm; exact hw m (hd ▸ hm)
  | some m' =>
    rw [hd] at hm
    simp only at hm
    have h0 := hw m' hd
    split at hm
    · exact hw m hm
    · split at hm
      · rcases failed_cases w env .main s with h | ⟨-, m0, h3, -, -, h⟩ <;> rw [h] at hm
        · exact hw m hm
        · rw [hd] at h3
          cases h3
          rw [did_dbs, setDb_self] at hm
          cases hm
          exact ⟨h0.1, h0.1⟩
      · rw [setDb_did_self] at hm
        cases hm
        cases s with
        | put k d => exact absurd rfl (h1 k d)
        | del k => exact absurd rfl (h2 k)
        | commit => exact ⟨h0.2, h0.2⟩
        | rollback => exact ⟨h0.1, h0.1⟩
        | _ => exact h0

theorem clean_pure {t : Table} (a : α) : Inv (Clean t) (pure a : Run α) := clean_same fun _ => rfl

theorem clean_ite {t : Table} (c : Prop) [Decidable c] {m m' : Run α} (h : Inv (Clean t) m)
    (h' : Inv (Clean t) m') : Inv (Clean t) (if c then m else m') := by split <;> assumption

theorem clean_commit {t : Table} {env : Env} : Inv (Clean t) (commitIfNeeded env .main) := by
  unfold commitIfNeeded
  exact clean_bind (clean_theDb _) fun _ => clean_ite _ (clean_bind (clean_exec (by simp) (by simp)) fun _ =>
    clean_ite _ (clean_bind (clean_setFlag _) fun _ => clean_pure _) (clean_pure _)) (clean_pure _)

theorem clean_vacuum {t : Table} {env : Env} : Inv (Clean t) (vacuum env) := by
  unfold vacuum
  refine clean_bind (clean_same fun _ => rfl) fun _ => clean_bind (clean_same fun _ => rfl) fun _ =>
    clean_bind (clean_same fun _ => rfl) fun _ => clean_bind ?_ fun r =>
    clean_bind (clean_same fun _ => rfl) fun _ => ?_
  · unfold dbVacuum
    exact clean_bind clean_commit fun _ => clean_ite _ (clean_bind (clean_exec (by simp) (by simp)) fun _ =>
      clean_ite _ (clean_pure _) (clean_pure _)) (clean_pure _)
  · cases r <;> exact clean_same fun _ => rfl

theorem clean_finish {t : Table} {env : Env} {args : InstArgs} {cmd : Command}
    (h : Inv (Clean t) (cmd.func env args)) : Inv (Clean t) (finish env args cmd) := by
  unfold finish
  have hend : ∀ ok : Bool, Inv (Clean t) (if ok then do
        logInfo (.text "Done.")
        return .ok ()
      else return .error "database operation failed" : Run (Except String Unit)) := fun ok =>
    clean_ite _ (clean_bind (clean_same fun _ => rfl) fun _ => clean_pure _) (clean_pure _)
  refine clean_bind h fun _ => clean_bind (clean_same fun _ => rfl) fun n => ?_
  have hrest : Inv (Clean t) (do
      let m ← theDb .main
      let ok ←
        if m.inTransaction then do
          logInfo (.text "Committing...")
          commitIfNeeded env .main
        else pure true
      if ok then
        logInfo (.text "Done.")
        return .ok ()
      else return .error "database operation failed" : Run (Except String Unit)) :=
    clean_bind (clean_theDb _) fun m => clean_ite _ (clean_bind (clean_same fun _ => rfl) fun _ =>
      clean_bind clean_commit hend) (clean_bind (clean_pure _) hend)
  exact clean_ite _ (clean_bind (clean_same fun _ => rfl) fun _ => hrest) hrest

theorem command_vacuum {cmd : Command} (h : command? "vacuum" = some cmd) :
    cmd = ⟨fun env _ => vacuum env, fun _ => .ok .ok, []⟩ := by
  have : command? "vacuum" = some ⟨fun env _ => vacuum env, fun _ => .ok .ok, []⟩ := rfl
  rw [this] at h
  exact (Option.some.inj h).symm

/-- However `vacuum` ends and wherever it is interrupted, the map file holds the same rows. -/
theorem C53_vacuum_any_outcome (env : Env) (args : InstArgs) (f : DbFile)
    (hc : args.command = "vacuum") (n : Nat) :
    onDisk f.table ((computeThread env args World.start).2.trace.take n) = f.table := by
  refine onDisk_noWrite ?_ n
  have h := ext_run (env := env) (args := args) (P := NoWrite)
    (by simp [NoWrite]) (by simp [NoWrite]) (by simp [NoWrite]) (by simp [NoWrite]) (by simp [NoWrite])
    (by simp [NoWrite]) (by simp [NoWrite]) (by simp [NoWrite]) (by simp [hc]) (by simp [hc]) World.start
  obtain ⟨ext, he, hall⟩ := h
  rw [he]
  intro d hd
  rcases hall d hd with h | rfl
  · exact h
  · simp [NoWrite, undone]

/-- A completed `vacuum` leaves the table as it is. -/
theorem C53_vacuum (env : Env) (args : InstArgs) (t t' : Table) (evs : List Event)
    (hc : args.command = "vacuum") (h : Completes env args t t' evs) : t' = t := by
  obtain ⟨f, w, m, h1, h2, h3, h4, h5, h6, h7⟩ := h
  rw [computeThread_eq, run_bind_iff] at h3
  obtain ⟨r, w0, h3, h8⟩ := h3
  cases r with
  | error e => simp [run_pure] at h8
  | ok r =>
    obtain ⟨cmd, wn⟩ := r
    obtain ⟨-, a2, -, a5⟩ := setup_iff.1 h3
    obtain ⟨f', b1, b2, -⟩ := setupWorld_start a5
    rw [h1] at b1
    cases b1
    rw [hc] at a2
    have := command_vacuum a2
    subst this
    simp only at h8
    rw [runCommand_eq] at h8
    have hcl : ∀ m, (w0.say (preEvents args wn)).dbs .main = some m →
        m.conn.durable = f.table ∧ m.conn.cur = f.table := by
      intro m hm
      have hm : w0.dbs .main = some m := hm
      rw [b2] at hm
      cases hm
      exact ⟨rfl, rfl⟩
    subst h7
    split at h8
    · simp only [Prod.mk.injEq] at h8
      rw [← h8.2] at h6
      rw [(hcl m h6).1, h2]
    · have := clean_finish (t := f.table) (env := env) (args := args)
        (cmd := ⟨fun env _ => vacuum env, fun _ => .ok .ok, []⟩) clean_vacuum _ hcl m
      rw [h8] at this
      rw [(this h6).1, h2]

/-- `vacuum` completes on a map if no statement fails. -/
example : Completes (runEnv (fun _ => false) none) (runArgs false "vacuum" "map" none) [(0, [25])] [(0, [25])]
    (computeThread (runEnv (fun _ => false) none) (runArgs false "vacuum" "map" none) World.start).2.events :=
  ⟨_, _, _, rfl, rfl, rfl, rfl, by decide, rfl, rfl⟩

example : (computeThread (runEnv (fun _ => false) none) (runArgs false "vacuum" "map" none)
      World.start).2.trace.map (·.stmt) = [.open, .begin, .tableInfo, .prepare, .commit, .vacuum] := by
  decide

/-! ## C55 -/

/-- Wherever a run stops, and however it ends, the main map file holds its original content, or the
run is complete and the file holds its whole result.  (Full claim: this holds without `hu`.  False, see
`C55_false` in `Verif/Props/Rollback.lean`; what `hu` excludes is that during a `clone` or `overlay`
reading a single block of the main map fails in such a way that SQLite undoes the transaction.) -/
theorem C55_all_or_nothing_partial (env : Env) (args : InstArgs) (f : DbFile)
    (hf : mapFile env args.mapPath = some f)
    (hu : args.command = "clone" ∨ args.command = "overlay" → ∀ pre k post,
      (computeThread env args World.start).2.trace ≠
        pre ++ ⟨.main, .select k, false⟩ :: ⟨.main, .rollback, true⟩ :: post) :
    (∀ n, onDisk f.table ((computeThread env args World.start).2.trace.take n) = f.table) ∨
    ∃ t', Completes env args f.table t' (computeThread env args World.start).2.events ∧
      onDisk f.table (computeThread env args World.start).2.trace = t' ∧
      ∀ n, n < (computeThread env args World.start).2.trace.length →
        onDisk f.table ((computeThread env args World.start).2.trace.take n) = f.table := by
  by_cases hv : args.command = "vacuum"
  · exact Or.inl fun n => C53_vacuum_any_outcome env args f hv n
  have early : (∀ r w1, setup env args World.start ≠ (.ok (.ok r), w1)) ∨
      (args.doConfirmation = true ∧ env.answer ≠ some true) →
      ∀ n, onDisk f.table ((computeThread env args World.start).2.trace.take n) = f.table := by
    intro h n
    obtain ⟨ext, he, hall⟩ := ext_early h
    rw [he]
    refine onDisk_noWrite ?_ n
    intro d hd _
    rcases hall d hd with h | h | h | h | h <;> simp [h]
  by_cases hs : ¬ ∃ r w1, setup env args World.start = (.ok (.ok r), w1)
  · exact Or.inl (early (Or.inl fun r w1 h => hs ⟨r, w1, h⟩))
  by_cases hd : args.doConfirmation = true ∧ env.answer ≠ some true
  · exact Or.inl (early (Or.inr hd))
  obtain ⟨⟨cmd, wn⟩, w0, hs⟩ := Classical.not_not.1 hs
  obtain ⟨-, a2, -, a5⟩ := setup_iff.1 hs
  have htx0 : Tx f.table w0 := tx_setup hf a5
  have htx : Tx f.table (w0.say (preEvents args wn)) := htx0
  have hct : computeThread env args World.start = finish env args cmd (w0.say (preEvents args wn)) := by
    rw [computeThread_eq, run_bind_ok hs]
    simp only
    rw [runCommand_eq, if_neg hd]
  rw [hct]
  rcases hb : cmd.func env args (w0.say (preEvents args wn)) with ⟨r, w2⟩
  have hbody : TxGoes (args.command = "clone" ∨ args.command = "overlay") f.table (w0.say (preEvents args wn))
      (okay r) w2 := by
    by_cases hc : args.command = "clone" ∨ args.command = "overlay"
    · have := inv_command (tx_copyFrame env f.table) a2 hv args (w0.say (preEvents args wn))
      rw [hb] at this
      exact ⟨this.1, fun h => (this.2 h).imp_right fun h => h.imp_right fun h => ⟨hc, h.2⟩⟩
    · have := inv_simple (tx_frame env (args.command = "clone" ∨ args.command = "overlay") f.table) a2 hv
        (fun h => hc (Or.inl h)) (fun h => hc (Or.inr h)) args (w0.say (preEvents args wn))
      rw [hb] at this
      exact this
  have hend : ∃ ext, (finish env args cmd (w0.say (preEvents args wn))).2.trace = w2.trace ++ ext := by
    cases r with
    | error e =>
      have : finish env args cmd (w0.say (preEvents args wn)) = (.error e, w2) := by
        unfold finish
        rw [run_bind_err hb]
      exact ⟨[], by rw [this, List.append_nil]⟩
    | ok u =>
      obtain ⟨ext, he, -⟩ := ext_finish (env := env) (args := args) (P := fun _ => True)
        (cmd := ⟨fun _ _ => pure (), cmd.verify, []⟩) (by simp) (ext_pure ()) w2
      have : finish env args cmd (w0.say (preEvents args wn)) =
          finish env args ⟨fun _ _ => pure (), cmd.verify, []⟩ w2 := by
        unfold finish
        rw [run_bind_ok hb, run_bind_ok (show (pure () : Run Unit) w2 = (.ok (), w2) from rfl)]
      exact ⟨ext, by rw [this]; exact he⟩
  rcases hbody.2 htx with ⟨cur, cols, ho, hr, hk⟩ | ⟨hbad, hk⟩ | ⟨hc, pre, k, post, h⟩
  · cases r with
    | error e =>
      have : finish env args cmd (w0.say (preEvents args wn)) = (.error e, w2) := by
        unfold finish
        rw [run_bind_err hb]
      rw [this]
      exact Or.inl hk
    | ok u =>
      have hfin := finish_open hb ho
      rw [hfin]
      split
      · left
        rcases tx_failed (env := env) (s := .commit)
            (w := w2.say (skipEvents w2.status.failed ++ [.log .info (.text "Committing...")]))
            ⟨cur, cols, ho, hr, hk⟩ with ⟨-, -, -, -, h⟩ | ⟨h, -⟩
        · exact h
        · exact h
      · rename_i hfail
        rw [if_neg hfail] at hfin
        right
        refine ⟨cur, ⟨f, _, _, hf, rfl, hct.trans hfin, rfl, ?_, rfl, rfl⟩, ?_, ?_⟩
        · simp [World.say, World.did, World.setDb]
        · show onDisk f.table (w2.trace ++ [⟨.main, .commit, true⟩]) = cur
          unfold onDisk
          rw [replay_snoc, if_pos ⟨rfl, rfl⟩, hr]
          rfl
        · intro n hn
          have hlen : n ≤ w2.trace.length := by
            have : n < (w2.trace ++ [(⟨.main, .commit, true⟩ : Did)]).length := hn
            simp at this
            omega
          show onDisk f.table ((w2.trace ++ [(⟨.main, .commit, true⟩ : Did)]).take n) = f.table
          rw [List.take_append_of_le_length hlen]
          exact hk n
  · cases r with
    | ok u => cases hbad
    | error e =>
      have : finish env args cmd (w0.say (preEvents args wn)) = (.error e, w2) := by
        unfold finish
        rw [run_bind_err hb]
      rw [this]
      exact Or.inl hk
  · obtain ⟨ext, he⟩ := hend
    refine absurd ?_ (hu hc pre k (post ++ ext))
    rw [hct, he, h]
    simp [undone]

/-- Both cases occur: `deleteblocks` on a one-block map without failures, and with a failing commit. -/
example :
    onDisk [(0, [25])] (computeThread (runEnv (fun _ => false) none)
      (runArgs false "deleteblocks" "map" none) World.start).2.trace = [] ∧
    onDisk [(0, [25])] (computeThread (runEnv (fun n => n == 6) none)
      (runArgs false "deleteblocks" "map" none) World.start).2.trace = [(0, [25])] ∧
    (computeThread (runEnv (fun n => n == 6) none)
      (runArgs false "deleteblocks" "map" none) World.start).2.trace.map (·.stmt) =
      [.open, .begin, .tableInfo, .prepare, .selectAll, .del 0, .commit] := by decide

/-! ## C56 -/

/-- If the user has to be asked and does not answer yes (or is gone), only the statements that open
the maps are executed (should one fail, SQLite may undo the transaction), no command reports any
activity, and the map file is unchanged. -/
theorem C56_declined (env : Env) (args : InstArgs) (hc : args.doConfirmation = true)
    (ha : env.answer ≠ some true) :
    (∀ d ∈ (computeThread env args World.start).2.trace,
      d.stmt = .open ∨ d.stmt = .begin ∨ d.stmt = .tableInfo ∨ d.stmt = .prepare ∨ d.stmt = .rollback) ∧
    (∀ s, .newState s ∉ (computeThread env args World.start).2.events) ∧
    (∀ m, .log .info m ∉ (computeThread env args World.start).2.events) ∧
    ∀ t n, onDisk t ((computeThread env args World.start).2.trace.take n) = t := by
  obtain ⟨ext, he, hall⟩ := ext_early (w := World.start) (args := args) (Or.inr ⟨hc, ha⟩)
  have hev : ∃ wn, ∀ e ∈ (computeThread env args World.start).2.events, e ∈ preEvents args wn := by
    have hs := silent_setup env args World.start
    rw [computeThread_eq, run_bind]
    rcases h1 : setup env args World.start with ⟨r, w1⟩
    rw [h1] at hs
    have he : w1.events = [] := hs
    cases r with
    | error e => exact ⟨none, by simp [he]⟩
    | ok r =>
      cases r with
      | error e => exact ⟨none, by simp [run_pure, he]⟩
      | ok q =>
        refine ⟨q.2, ?_⟩
        simp only
        rw [runCommand_eq, if_pos ⟨hc, ha⟩]
        simp [World.say, he]
  obtain ⟨wn, hev⟩ := hev
  refine ⟨by rw [he]; exact hall, ?_, ?_, ?_⟩
  · intro s h
    have := hev _ h
    unfold preEvents at this
    cases wn <;> simp [hc] at this
  · intro m h
    exact preEvents_not_info (hev _ h)
  · intro t n
    rw [he]
    refine onDisk_noWrite ?_ n
    intro d hd _
    rcases hall d hd with h | h | h | h | h <;> simp [h]

/-- With the answer yes the command runs. -/
example :
    (computeThread (runEnv (fun _ => false) (some false)) (runArgs true "deleteblocks" "map" none)
      World.start).2.trace.map (·.stmt) = [.open, .begin, .tableInfo, .prepare] ∧
    (computeThread (runEnv (fun _ => false) (some true)) (runArgs true "deleteblocks" "map" none)
      World.start).2.trace.map (·.stmt) =
      [.open, .begin, .tableInfo, .prepare, .selectAll, .del 0, .commit] := by decide

/-! ## C57 -/

theorem movedOut_iff (a : Area) (o : Vec3) :
    (MAP_AREA.intersection (a.add o)).isNone = true ↔ MovedOut a o := by
  rw [Option.isNone_iff_eq_none, (C09_intersection _ _).2]
  unfold MovedOut InBox Within MAP_AREA MAP_LIMIT Area.add Vec3.add
  simp only
  constructor
  · intro h p hp hw
    exact h ⟨⟨p.x + o.x, p.y + o.y, p.z + o.z⟩, by simp only; omega, by simp only; omega⟩
  · rintro h ⟨p, h1, h2⟩
    refine h ⟨p.x - o.x, p.y - o.y, p.z - o.z⟩ (by simp only; omega) (by simp only; omega)

/-- `o` is the text for the first of the reasons that applies. -/
def Picks (l : List (Prop × String)) (o : Option String) : Prop :=
  match o with
  | none => ∀ x ∈ l, ¬ x.1
  | some t => FirstOf l t

theorem picks_nil : Picks [] none := by simp [Picks]

theorem picks_append {l l' : List (Prop × String)} {o o' : Option String} (h : Picks l o) (h' : Picks l' o') :
    Picks (l ++ l') (o <|> o') := by
  cases o with
  | some t =>
    obtain ⟨pre, c, post, rfl, h2, h3⟩ := h
    exact ⟨pre, c, post ++ l', by simp, h2, h3⟩
  | none =>
    cases o' with
    | none =>
      intro x hx
      rcases List.mem_append.1 hx with hx | hx
      · exact h x hx
      · exact h' x hx
    | some t =>
      obtain ⟨pre, c, post, rfl, h2, h3⟩ := h'
      refine ⟨l ++ pre, c, post, by simp, h2, fun x hx => ?_⟩
      rcases List.mem_append.1 hx with hx | hx
      · exact h x hx
      · exact h3 x hx

theorem picks_if {p : Prop} {b : Bool} {t : String} (h : b = true ↔ p) :
    Picks [(p, t)] (if b then some t else none) := by
  cases b with
  | true => exact ⟨[], p, [], rfl, h.1 rfl, by simp⟩
  | false =>
    intro x hx
    rw [List.mem_singleton] at hx
    subst hx
    exact fun hp => by simpa using h.2 hp

theorem picks_find {α : Type} {p : α → Prop} {b : α → Bool} {t : α → String} (h : ∀ a, b a = true ↔ ¬ p a)
    (l : List α) : Picks (l.map fun a => (p a, t a)) (l.findSome? fun a => if b a then none else some (t a)) := by
  induction l with
  | nil => exact picks_nil
  | cons a l ih =>
    have h1 : Picks [(p a, t a)] (if b a then none else some (t a)) := by
      have := h a
      cases hb : b a with
      | true =>
        intro x hx
        rw [List.mem_singleton] at hx
        subst hx
        exact this.1 hb
      | false =>
        refine ⟨[], _, [], rfl, Classical.byContradiction fun hp => ?_, by simp⟩
        rw [this.2 hp] at hb
        cases hb
    have h2 := picks_append h1 ih
    rw [List.map_cons, List.findSome?_cons]
    cases hb : b a with
    | true => simpa [hb] using h2
    | false => simpa [hb] using h2

theorem picks_names (what : String) (l : List String) : Picks (nameReasons what l) (badName what l) :=
  picks_find (fun n => by rw [C67_names, Classical.not_not]) l

/-- The general checks name the first thing that is wrong. -/
theorem verifyArgs_picks (args : InstArgs) : Picks (generalReasons args) (verifyArgs args) := by
  have hi : (args.area.isNone && args.invert) = true ↔ args.invert = true ∧ args.area = none := by
    simp [Bool.and_eq_true, Option.isNone_iff_eq_none, and_comm]
  have ha : Picks (args.area.toList.flatMap (fun a => [a.min, a.max].map fun p =>
      (¬ Within 31000 p, "Area corner is outside map bounds: " ++ posText p ++ ".")))
      (args.area.bind fun a => [a.min, a.max].findSome? fun pos =>
        if pos.isValidNodePos then none else some ("Area corner is outside map bounds: " ++ pos.show ++ ".")) := by
    cases args.area with
    | none => exact picks_nil
    | some a =>
      simp only [Option.toList_some, List.flatMap_singleton, Option.bind_some]
      exact picks_find (fun p => by rw [validNodePos_iff, Classical.not_not]) [a.min, a.max]
  have ho : Picks (args.offset.toList.map (fun o =>
      (¬ Within 62000 o, "Offset cannot be larger than 62000 nodes in any direction.")))
      (args.offset.bind fun o => if huge o.x || huge o.y || huge o.z then
        some ("Offset cannot be larger than " ++ toString (MAP_LIMIT * 2) ++ " nodes in any direction.")
        else none) := by
    cases args.offset with
    | none => exact picks_nil
    | some o =>
      refine picks_if ?_
      have : (!(huge o.x || huge o.y || huge o.z)) = true ↔ Within 62000 o := by
        unfold Within
        rw [← huge_iff, ← huge_iff, ← huge_iff]
        cases huge o.x <;> cases huge o.y <;> cases huge o.z <;> simp
      rw [← this]
      cases huge o.x <;> cases huge o.y <;> cases huge o.z <;> simp
  unfold generalReasons verifyArgs
  simp only [List.append_assoc]
  exact picks_append (picks_if hi) (picks_append ha (picks_append ho (picks_append (picks_names _ _)
    (picks_append (picks_names _ _) (picks_append (picks_names _ _) (picks_append (picks_names _ _)
    (picks_append (picks_names _ _) (picks_append (picks_names _ _) (picks_names _ _)))))))))

theorem badArgs_iff (args : InstArgs) : BadArgs args ↔ ∃ x ∈ generalReasons args, x.1 := by
  have hn : ∀ what l, (∃ x ∈ nameReasons what l, x.1) ↔ ∃ n ∈ l, ¬ NameForm n := by
    intro what l
    unfold nameReasons
    constructor
    · rintro ⟨x, hx, h⟩
      obtain ⟨n, h1, rfl⟩ := List.mem_map.1 hx
      exact ⟨n, h1, h⟩
    · rintro ⟨n, h1, h2⟩
      exact ⟨_, List.mem_map.2 ⟨n, h1, rfl⟩, h2⟩
  have happ : ∀ (l l' : List (Prop × String)), (∃ x ∈ l ++ l', x.1) ↔ (∃ x ∈ l, x.1) ∨ ∃ x ∈ l', x.1 := by
    intro l l'
    simp only [List.mem_append, or_and_right, exists_or]
  have hns : (∃ n ∈ allNames args, ¬ NameForm n) ↔ (∃ n ∈ args.node.toList, ¬ NameForm n) ∨
      (∃ n ∈ args.nodes, ¬ NameForm n) ∨ (∃ n ∈ args.newNode.toList, ¬ NameForm n) ∨
      (∃ n ∈ args.object.toList, ¬ NameForm n) ∨ (∃ n ∈ args.item.toList, ¬ NameForm n) ∨
      (∃ n ∈ args.items.getD [], ¬ NameForm n) ∨ (∃ n ∈ args.newItem.toList, ¬ NameForm n) := by
    unfold allNames
    simp only [List.mem_append, or_and_right, exists_or, or_assoc]
  have ha : (∃ x ∈ args.area.toList.flatMap (fun a => [a.min, a.max].map fun p =>
      ((¬ Within 31000 p, "Area corner is outside map bounds: " ++ posText p ++ ".") : Prop × String)), x.1) ↔
      ∃ a, args.area = some a ∧ ¬ (Within 31000 a.min ∧ Within 31000 a.max) := by
    cases args.area with
    | none => simp
    | some a =>
      simp only [Option.toList_some, List.flatMap_singleton, List.map_cons, List.map_nil, Option.some.injEq,
        exists_eq_left', List.mem_cons, List.not_mem_nil, or_false, exists_eq_or_imp, exists_eq_left]
      exact Classical.not_and_iff_not_or_not.symm
  have ho : (∃ x ∈ args.offset.toList.map (fun o =>
      ((¬ Within 62000 o, "Offset cannot be larger than 62000 nodes in any direction.") : Prop × String)), x.1) ↔
      ∃ o, args.offset = some o ∧ ¬ Within 62000 o := by
    cases args.offset with
    | none => simp
    | some o => simp
  unfold BadArgs generalReasons
  simp only [happ, hn, hns, ha, ho, or_assoc]
  simp only [List.mem_singleton, exists_eq_left]

theorem verifyArgs_iff (args : InstArgs) : verifyArgs args = none ↔ ¬ BadArgs args := by
  have h := verifyArgs_picks args
  rw [badArgs_iff]
  cases hv : verifyArgs args with
  | none =>
    rw [hv] at h
    simp only [true_iff]
    rintro ⟨x, h1, h2⟩
    exact h x h1 h2
  | some t =>
    rw [hv] at h
    obtain ⟨pre, c, post, h1, h2, -⟩ := h
    simp only [reduceCtorEq, false_iff, Classical.not_not]
    exact ⟨(c, t), by rw [h1]; simp, h2⟩

/-- A known command's own check. -/
theorem commandVerify_iff (args : InstArgs) (hp : Parsed args) :
    ∃ cmd res, command? args.command = some cmd ∧ cmd.verify args = .ok res ∧
      ((∃ e, res = .error e) ↔ CommandRefuses args) := by
  have hk := hp.known
  simp only [commandNames, List.mem_cons, List.not_mem_nil, or_false] at hk
  unfold CommandRefuses
  rcases hk with h | h | h | h | h | h | h | h | h | h | h | h
  · obtain ⟨ha, ho⟩ := hp.clone h
    obtain ⟨a, ha⟩ := Option.ne_none_iff_exists'.1 ha
    obtain ⟨o, ho⟩ := Option.ne_none_iff_exists'.1 ho
    refine ⟨_, _, by rw [h]; rfl, by simp only [cloneVerify, ha, ho, unwrap]; rfl, ?_⟩
    simp only [h, ha, ho]
    have := movedOut_iff a o
    split
    · rename_i hm
      rw [this] at hm
      simpa using hm
    · rename_i hm
      rw [this] at hm
      simpa using hm
  · exact ⟨_, _, by rw [h]; rfl, rfl, by simp [h]⟩
  · refine ⟨_, _, by rw [h]; rfl, rfl, ?_⟩
    simp only [h, deleteMetaVerify]
    split <;> simp
  · refine ⟨_, _, by rw [h]; rfl, rfl, ?_⟩
    simp only [h, deleteObjectsVerify]
    cases args.object <;> cases args.items <;> simp
  · exact ⟨_, _, by rw [h]; rfl, rfl, by simp [h]⟩
  · exact ⟨_, _, by rw [h]; rfl, rfl, by simp [h]⟩
  · refine ⟨_, _, by rw [h]; rfl, rfl, ?_⟩
    simp only [h, replaceNodesVerify, beq_iff_eq]
    split <;> simp_all
  · refine ⟨_, _, by rw [h]; rfl, rfl, ?_⟩
    simp only [h, replaceInInvVerify]
    cases hn : args.newItem <;> cases hd : args.delete <;> cases hm : args.deleteMeta <;>
      by_cases hq : args.item = args.newItem <;> simp_all
  · refine ⟨_, _, by rw [h]; rfl, rfl, ?_⟩
    simp only [h, overlayVerify]
    have := movedOut_iff (args.area.getD MAP_AREA) (args.offset.getD ⟨0, 0, 0⟩)
    have hm : MAP_AREA = ⟨⟨-31000, -31000, -31000⟩, ⟨31000, 31000, 31000⟩⟩ := rfl
    rw [← hm, ← this]
    have ho : (args.invert && (args.offset.filter fun o => o != (⟨0, 0, 0⟩ : Vec3)).isSome) = true ↔
        args.invert = true ∧ ∃ o, args.offset = some o ∧ o ≠ ⟨0, 0, 0⟩ := by
      rw [Bool.and_eq_true]
      cases args.offset with
      | none => simp
      | some o => by_cases h : o = ⟨0, 0, 0⟩ <;> simp [h]
    rw [← ho]
    generalize (args.invert && (args.offset.filter fun o => o != (⟨0, 0, 0⟩ : Vec3)).isSome) = b1
    generalize (MAP_AREA.intersection ((args.area.getD MAP_AREA).add (args.offset.getD ⟨0, 0, 0⟩))).isNone = b2
    cases b1 <;> cases b2 <;> simp
  · refine ⟨_, _, by rw [h]; rfl, rfl, ?_⟩
    simp only [h, setMetaVarVerify]
    cases hn : args.value <;> cases hd : args.delete <;> simp
    split <;> simp_all
  · refine ⟨_, _, by rw [h]; rfl, rfl, ?_⟩
    simp only [h, setParam2Verify]
    cases args.area <;> cases args.node <;> simp
  · exact ⟨_, _, by rw [h]; rfl, rfl, by simp [h]⟩

/-- Unacceptable arguments end the run with an error before any statement is executed, and before
anything is said or asked. -/
theorem C57_refused (env : Env) (args : InstArgs) (hp : Parsed args)
    (h : BadArgs args ∨ CommandRefuses args) :
    ∃ e, computeThread env args World.start = (.ok (.error e), World.start) := by
  rw [computeThread_eq]
  have : ∃ e, setup env args World.start = (.ok (.error e), World.start) := by
    rw [setup_eq]
    cases hv : verifyArgs args with
    | some e => exact ⟨e, rfl⟩
    | none =>
      have hb := (verifyArgs_iff args).1 hv
      have hr := h.resolve_left hb
      obtain ⟨cmd, res, h1, h2, h3⟩ := commandVerify_iff args hp
      obtain ⟨e, rfl⟩ := h3.2 hr
      refine ⟨e, ?_⟩
      simp only
      rw [h1, run_bind_ok (run_unwrap_some _ _), h2]
      rfl
  obtain ⟨e, he⟩ := this
  exact ⟨e, by rw [run_bind_ok he]; rfl⟩

/-- Acceptable arguments are not refused: the map is opened. -/
theorem C57_accepted (env : Env) (args : InstArgs) (f : DbFile) (hp : Parsed args)
    (hf : mapFile env args.mapPath = some f) (h : ¬ (BadArgs args ∨ CommandRefuses args)) :
    ∃ d rest, (computeThread env args World.start).2.trace = d :: rest ∧ d.stmt = .open := by
  have hv := (verifyArgs_iff args).2 fun hb => h (Or.inl hb)
  obtain ⟨cmd, res, h1, h2, h3⟩ := commandVerify_iff args hp
  have hne : ∀ e, res ≠ .error e := fun e he => h (Or.inr (h3.1 ⟨e, he⟩))
  have hset : setup env args World.start = openAll env args (cmd, warningOf res) World.start := by
    rw [setup_eq, hv]
    simp only
    rw [h1, run_bind_ok (run_unwrap_some _ _), h2, run_bind_ok (run_lift _ _)]
    cases res with
    | error e => exact absurd rfl (hne e)
    | ok => rfl
    | warning t => rfl
  have hrun : ∀ wn, Inv (Ext fun _ => True) (runCommand env args cmd wn) := by
    intro wn w
    rw [runCommand_eq]
    split
    · exact ext_quiet _ _ _ _ rfl
    · refine ext_finish (args := args) (fun _ => trivial) ?_ (w.say (preEvents args wn))
      by_cases hvac : args.command = "vacuum"
      · rw [hvac] at h1
        rw [command_vacuum h1]
        exact ext_vacuum (fun _ => trivial) (fun _ => trivial)
      · exact inv_command (ext_frame (fun _ _ => trivial) (fun _ _ _ => trivial) (fun _ _ => trivial)
          (fun _ _ _ => trivial) (fun _ _ => trivial)) h1 hvac args
  have hopen : ∃ ok rest, (openAll env args (cmd, warningOf res) World.start).2.trace =
      ⟨.main, .open, ok⟩ :: rest := by
    have hm : ∃ b w1, openMap env .main args.mapPath World.start = (.ok b, w1) ∧
        w1.trace = [⟨.main, .open, b⟩] := by
      unfold openMap
      rw [hf]
      simp only
      split
      · exact ⟨_, _, rfl, rfl⟩
      · exact ⟨_, _, rfl, rfl⟩
    obtain ⟨b, w1, hm, ht⟩ := hm
    unfold openAll openK
    rw [run_bind_ok hm]
    cases b with
    | false => exact ⟨_, _, ht⟩
    | true =>
      simp only [Bool.not_true, Bool.false_eq_true, if_false]
      have : ∀ k : Run (Except String (Command × Option String)), Inv (Ext fun _ => True) k →
          ∃ ok rest, ((MapDb.new env .main >>= fun r => match r with
            | .error _ => pure (.error "Main world or map database is invalid.")
            | .ok _ => k) w1).2.trace = ⟨.main, .open, ok⟩ :: rest := by
        intro k hk
        obtain ⟨ext, he, -⟩ := ext_bind (P := fun _ => True) (ext_new (env := env) (i := .main) (fun _ => trivial)
          (fun _ => trivial) (fun _ => trivial)) (f := fun r => match r with
            | .error _ => pure (.error "Main world or map database is invalid.")
            | .ok _ => k) (fun r => by
              cases r with
              | error e => exact ext_pure _
              | ok u => exact hk) w1
        exact ⟨true, ext, by rw [he, ht]; rfl⟩
      refine this _ ?_
      split
      · exact ext_pure _
      · exact ext_openK (fun _ => trivial) (fun _ => trivial) (fun _ => trivial) (fun _ => trivial) (ext_pure _)
  obtain ⟨ok, rest, ht⟩ := hopen
  have hext : Ext (fun _ => True) (openAll env args (cmd, warningOf res) World.start).2 true
      (computeThread env args World.start).2 := by
    rw [computeThread_eq, run_bind, ← hset]
    rcases hs : setup env args World.start with ⟨r, w1⟩
    cases r with
    | error e => exact ext_quiet _ _ _ _ rfl
    | ok r =>
      cases r with
      | error e => exact ext_quiet _ _ _ _ rfl
      | ok q =>
        obtain ⟨cmd', wn⟩ := q
        obtain ⟨-, h4, -⟩ := setup_iff.1 hs
        rw [h1] at h4
        cases h4
        exact hrun wn w1
  obtain ⟨ext, he, -⟩ := hext
  exact ⟨_, rest ++ ext, by rw [he, ht]; rfl, rfl⟩

/-- `clone` to a place outside the map. -/
def cloneOut : InstArgs :=
  { runArgs false "clone" "map" none with area := some ⟨⟨0, 0, 0⟩, ⟨15, 15, 15⟩⟩, offset := some ⟨31001, 0, 0⟩ }

/-- Concrete cases: an unnamed area, a far corner, a bad name, a far destination. -/
example : BadArgs { runArgs false "deleteblocks" "map" none with invert := true } ∧
    BadArgs { runArgs false "fill" "map" none with area := some ⟨⟨0, 0, 0⟩, ⟨31001, 0, 0⟩⟩ } ∧
    BadArgs { runArgs false "fill" "map" none with newNode := some "Stone" } ∧
    CommandRefuses cloneOut ∧ Parsed cloneOut ∧ ¬ BadArgs cloneOut := by
  refine ⟨Or.inl ⟨rfl, rfl⟩, Or.inr (Or.inl ⟨_, rfl, ?_⟩), Or.inr (Or.inr (Or.inr ⟨"Stone", ?_, ?_⟩)),
    Or.inl ⟨rfl, _, _, rfl, rfl, ?_⟩, ⟨by decide, ?_, ?_⟩, ?_⟩
  · unfold Within; simp
  · simp [allNames, runArgs]
  · rw [← C67_names]; decide
  · intro p hp
    unfold InBox at hp
    unfold Within
    simp only at *
    omega
  · intro a ha; cases ha; decide
  · intro _; exact ⟨by simp [cloneOut], by simp [cloneOut]⟩
  · rw [← verifyArgs_iff]; decide

/-! ## C61 -/

theorem trace_setup {env : Env} {args : InstArgs} {w : World} (h : SetupWorld env args World.start w) :
    ∀ d ∈ w.trace, d.ok = true := by
  obtain ⟨f, -, -, -, h4⟩ := h
  cases hi : args.inputMapPath with
  | none =>
    rw [hi] at h4
    simp only at h4
    subst h4
    simp [World.opened, World.start, openTrace]
  | some p =>
    rw [hi] at h4
    obtain ⟨g, -, -, -, rfl⟩ := h4
    intro d hd
    simp only [World.opened, World.start, openTrace, List.mem_append, List.mem_cons, List.not_mem_nil,
      List.nil_append, or_false] at hd
    rcases hd with (h | h | h | h) | (h | h | h | h) <;> rw [h]

/-- The statements of a run that ended normally. -/
theorem done_trace {env : Env} {args : InstArgs} {P : Did → Prop} {w : World}
    (hok : ∀ d : Did, d.ok = true → P d) (hv : args.command ≠ "vacuum")
    (hbody : ∀ cmd, command? args.command = some cmd → Inv (Noticed P) (cmd.func env args))
    (h : computeThread env args World.start = (.ok (.ok ()), w)) : ∀ d ∈ w.trace, P d := by
  rw [computeThread_eq, run_bind_iff] at h
  obtain ⟨r, w0, hs, h⟩ := h
  cases r with
  | error e => simp [run_pure] at h
  | ok r =>
    obtain ⟨cmd, wn⟩ := r
    obtain ⟨-, a2, -, a5⟩ := setup_iff.1 hs
    have hall := trace_setup a5
    obtain ⟨f', b1, b2, b3, b4, -⟩ := setupWorld_start a5
    have hflags : ∀ i m, (w0.say (preEvents args wn)).dbs i = some m → m.inTransaction = true := by
      intro i m hm
      have hm : w0.dbs i = some m := hm
      cases i with
      | main => rw [b2] at hm; cases hm; rfl
      | input =>
        cases hi : args.inputMapPath with
        | none => rw [b4 hi] at hm; cases hm
        | some p =>
          obtain ⟨g, -, ho⟩ := b3 p hi
          rw [ho] at hm; cases hm; rfl
    simp only at h
    rw [runCommand_eq] at h
    split at h
    · simp only [Prod.mk.injEq] at h
      rw [← h.2]
      exact fun d hd => hok d (hall d hd)
    · have hn := hbody cmd a2 (w0.say (preEvents args wn)) hflags
      have hst := inv_command (stays_frame env) a2 hv args (w0.say (preEvents args wn))
      have hcur := hst.1 _ _ _ (show OpenAt (w0.say _) .main _ _ _ from b2)
      cases hb : cmd.func env args (w0.say (preEvents args wn)) with
      | mk r w2 =>
        rw [hb] at hn hcur
        cases r with
        | error e =>
          unfold finish at h
          rw [run_bind_err hb] at h
          simp at h
        | ok u =>
          rcases hcur with ⟨cur, hcur⟩ | hl
          rotate_left
          · rw [finish_lost hb hl] at h; simp at h
          rw [finish_open hb hcur] at h
          split at h
          · simp at h
          · simp only [Prod.mk.injEq, true_and] at h
            subst h
            obtain ⟨ext, he, hext⟩ := hn.2 rfl
            intro d hd
            have hd : d ∈ w2.trace ++ [(⟨.main, .commit, true⟩ : Did)] := hd
            rw [show (w2.trace : List Did) = w0.trace ++ ext from he] at hd
            simp only [List.mem_append, List.mem_cons, List.not_mem_nil, or_false] at hd
            rcases hd with (hd | hd) | rfl
            · exact hok d (hall d hd)
            · rcases hext d hd with h | rfl
              · exact h
              · exact hok _ rfl
            · exact hok _ rfl

/-- If a run that is not a `clone`, `overlay` or `vacuum` ends normally, every statement succeeded: no
failing read is taken for a missing block.  (Full claim: the same for every command; false for `clone`
and `overlay`, see `C61_false`.) -/
theorem C61_simple_partial (env : Env) (args : InstArgs) (w : World) (hc : args.command ≠ "clone")
    (ho : args.command ≠ "overlay") (hv : args.command ≠ "vacuum")
    (h : computeThread env args World.start = (.ok (.ok ()), w)) : ∀ d ∈ w.trace, d.ok = true :=
  done_trace (fun _ h => h) hv (fun _ hcmd => inv_simple (noticed_frame fun _ h => h) hcmd hv hc ho args) h

/-- If a `clone` or `overlay` ends normally, the only statements that can have failed are reads of
single blocks; every write, table scan and the commit succeeded. -/
theorem C61_copy_partial (env : Env) (args : InstArgs) (w : World) (hv : args.command ≠ "vacuum")
    (h : computeThread env args World.start = (.ok (.ok ()), w)) :
    ∀ d ∈ w.trace, d.ok = true ∨ ∃ k, d.stmt = .select k :=
  done_trace (fun _ h => Or.inl h) hv
    (fun _ hcmd => inv_command (noticed_copy (fun _ h => Or.inl h) fun _ k => Or.inr ⟨k, rfl⟩) hcmd hv args) h

/-- `overlay` with an offset. -/
def shiftArgs : InstArgs := { runArgs false "overlay" "other" (some "map") with offset := some ⟨16, 0, 0⟩ }

/-- The end of the run of `shiftArgs` in which only the read of the only destination block fails. -/
def shiftEnd : World := (computeThread (runEnv (fun n => n == 9) none) shiftArgs World.start).2

/-- `overlay` ends with "Done." although reading a stored block failed, and does not report the block
as skipped, nor any error. -/
theorem C61_false : ∃ env args w, computeThread env args World.start = (.ok (.ok ()), w) ∧
    .log .info (.text "Done.") ∈ w.events ∧ w.status.failed = 0 ∧
    (∀ e ∈ w.events, ∀ m, e ≠ .log .error m) ∧
    ∃ k, (⟨.main, .select k, false⟩ : Did) ∈ w.trace ∧ ∃ m data, w.dbs .main = some m ∧
      m.conn.durable.get? k = some data ∧ isValidGenerated env.codec data = true := by
  refine ⟨runEnv (fun n => n == 9) none, shiftArgs, shiftEnd, rfl, by decide, by decide, ?_, 1,
    by decide, ⟨⟨[(1, [25, 0, 0])], [(1, [25, 0, 0])], false, [⟨"pos", "INT", 1⟩, ⟨"data", "BLOB", 0⟩]⟩, false⟩,
    [25, 0, 0], rfl, by decide, by decide⟩
  have : shiftEnd.events = [.newState .querying, .newState .ignore, .newState .editing, .newState .ignore,
    .log .info (.text "Committing..."), .log .info (.text "Done.")] := by decide
  rw [this]
  intro e he m h
  subst h
  simp at he

/-- Without the failure the same block is counted as skipped (it is damaged). -/
example : (computeThread (runEnv (fun _ => false) none) shiftArgs World.start).2.status.failed = 1 := by decide

example : ∃ w, computeThread (runEnv (fun _ => false) none) (runArgs false "deleteblocks" "map" none) World.start =
    (.ok (.ok ()), w) := ⟨_, rfl⟩

/-! ## C62 -/

/-- The main map just opened. -/
def openedMain (t : Table) : World := World.start.opened .main ⟨t, []⟩

/-- Calls that neither commit nor vacuum, then a commit, none of them failing: all writes are on disk.
(Full claim: the same for all sequences of calls; false, see `C62_false`.) -/
theorem C62_one_commit_partial (env : Env) (t : Table) (cs : List Call) (hfail : ∀ n, env.fail n = false)
    (hc : ∀ c ∈ cs, c ≠ .commit ∧ c ≠ .vacuum) :
    ∃ w m, (do cs.forM (call env); call env .commit : Run Unit) (openedMain t) = (.ok (), w) ∧
      w.dbs .main = some m ∧ m.conn.durable = writes t cs := by
  have key : ∀ (cs : List Call) (cur : Table) (w : World), OpenAt w .main t cur [] →
      (∀ c ∈ cs, c ≠ .commit ∧ c ≠ .vacuum) →
      ∃ w', cs.forM (call env) w = (.ok (), w') ∧ OpenAt w' .main t (writes cur cs) [] := by
    intro cs
    induction cs with
    | nil => exact fun cur w h _ => ⟨w, rfl, h⟩
    | cons c cs ih =>
      intro cur w h hcs
      have hstep : ∃ w1, call env c w = (.ok (), w1) ∧ OpenAt w1 .main t (writes cur [c]) [] := by
        cases c with
        | rows =>
          show ∃ w1, (iterRows env .main >>= fun _ => pure () : Run Unit) w = _ ∧ _
          rw [run_bind, iterRows_open h, hfail]
          exact ⟨_, rfl, h⟩
        | get k =>
          show ∃ w1, (getBlock env .main k >>= fun _ => pure () : Run Unit) w = _ ∧ _
          rw [run_bind, getBlock_open h, hfail]
          exact ⟨_, rfl, h⟩
        | set k d =>
          show ∃ w1, (setBlock env .main k d >>= fun _ => pure () : Run Unit) w = _ ∧ _
          rw [run_bind, setBlock_open h, hfail]
          exact ⟨_, rfl, setDb_did_self _ _ _ _ _ _⟩
        | delete k =>
          show ∃ w1, (deleteBlock env .main k >>= fun _ => pure () : Run Unit) w = _ ∧ _
          rw [run_bind, deleteBlock_open h, hfail]
          exact ⟨_, rfl, setDb_did_self _ _ _ _ _ _⟩
        | commit => exact absurd rfl (hcs _ (by simp)).1
        | vacuum => exact absurd rfl (hcs _ (by simp)).2
      obtain ⟨w1, h1, h2⟩ := hstep
      obtain ⟨w2, h3, h4⟩ := ih _ w1 h2 fun x hx => hcs x (List.mem_cons_of_mem _ hx)
      refine ⟨w2, ?_, ?_⟩
      · show (call env c >>= fun _ => cs.forM (call env)) w = _
        rw [run_bind_ok h1]
        exact h3
      · have : writes (writes cur [c]) cs = writes cur (c :: cs) := by cases c <;> rfl
        rw [← this]
        exact h4
  obtain ⟨w, h1, h2⟩ := key cs t (openedMain t) (opened_at _ _ _) hc
  have hcommit : call env .commit w = (.ok (), (w.setDb .main ⟨⟨writes t cs, writes t cs, false, []⟩, false⟩).did
      .main .commit true) := by
    show (commitIfNeeded env .main >>= fun _ => pure () : Run Unit) w = _
    unfold commitIfNeeded
    rw [run_bind_assoc, run_bind_ok (theDb_eq h2)]
    simp only [if_true]
    have he := (exec_ok_iff h2 (env := env) (s := .commit)).2 ⟨hfail _, rfl, rfl⟩
    rw [run_bind_assoc, run_bind_ok he]
    simp only [if_true]
    rw [run_bind_assoc, run_bind_ok (setFlag_run (setDb_did_self _ _ _ _ _ _) false)]
    rw [did_setDb, setDb_setDb]
    rfl
  exact ⟨_, _, (run_bind_ok h1).trans hcommit, setDb_did_self _ _ _ _ _ _, rfl⟩

/-- After a commit, a write followed by another commit is not on disk, although no call failed. -/
theorem C62_false : ∃ (env : Env) (t : Table) (cs : List Call) (w : World) (m : MapDb),
    (∀ n, env.fail n = false) ∧
    (do cs.forM (call env); call env .commit : Run Unit) (openedMain t) = (.ok (), w) ∧
    (∀ d ∈ w.trace, d.ok = true) ∧ w.dbs .main = some m ∧ m.conn.durable ≠ writes t cs :=
  ⟨runEnv (fun _ => false) none, [], [.commit, .set 5 [1]], _, _, fun _ => rfl, rfl, by decide, rfl,
    by decide⟩

example : writes [(0, [1])] [.set 5 [2], .delete 0, .get 5, .rows] = [(5, [2])] := by decide

/-! ## C66 -/

/-- A file whose table does not have the columns of a map is refused: the run does not end normally,
nothing is said or asked, and only the statements that open files are executed. -/
theorem C66_bad_columns (env : Env) (args : InstArgs) (path : String) (f : DbFile)
    (hp : path = args.mapPath ∨ args.inputMapPath = some path)
    (hf : mapFile env path = some f) (hc : ¬ MapColumns f.cols) :
    (∀ w, computeThread env args World.start ≠ (.ok (.ok ()), w)) ∧
    (computeThread env args World.start).2.events = [] ∧
    ∀ d ∈ (computeThread env args World.start).2.trace,
      d.stmt = .open ∨ d.stmt = .begin ∨ d.stmt = .tableInfo ∨ d.stmt = .prepare ∨ d.stmt = .rollback := by
  have hs : ∀ r w1, setup env args World.start ≠ (.ok (.ok r), w1) := by
    intro r w1 h
    obtain ⟨-, -, -, f', h1, h2, -, h4⟩ := setup_iff.1 h
    rcases hp with rfl | hp
    · rw [hf] at h1
      cases h1
      exact hc ((colsOk_iff _).1 h2)
    · rw [hp] at h4
      obtain ⟨g, h5, h6, -⟩ := h4
      rw [hf] at h5
      cases h5
      exact hc ((colsOk_iff _).1 h6)
  refine ⟨?_, ?_, ?_⟩
  · intro w h
    rw [computeThread_eq, run_bind_iff] at h
    obtain ⟨r, w1, h1, h2⟩ := h
    cases r with
    | error e => simp [run_pure] at h2
    | ok q => exact hs q w1 h1
  · have hsil := silent_setup env args World.start
    rw [computeThread_eq, run_bind]
    rcases h1 : setup env args World.start with ⟨r, w1⟩
    rw [h1] at hsil
    cases r with
    | error e => exact hsil
    | ok r =>
      cases r with
      | error e => exact hsil
      | ok q => exact absurd h1 (hs q w1)
  · obtain ⟨ext, he, hall⟩ := ext_early (w := World.start) (args := args) (Or.inl hs)
    rw [he]
    exact hall

/-- Files with the columns of a map are accepted: unless a statement fails, the run gets to the
confirmation prompt. -/
theorem C66_good_columns (env : Env) (args : InstArgs) (f : DbFile) (hp : Parsed args)
    (hargs : ¬ (BadArgs args ∨ CommandRefuses args)) (hfail : ∀ n, env.fail n = false)
    (hf : mapFile env args.mapPath = some f) (hc : MapColumns f.cols)
    (hi : ∀ p, args.inputMapPath = some p → ∃ g, mapFile env p = some g ∧ MapColumns g.cols)
    (hy : args.doConfirmation = true) (ha : env.answer = some false) :
    .confirmRequest ∈ (computeThread env args World.start).2.events := by
  have hset : ∃ w0, SetupWorld env args World.start w0 := by
    cases hp : args.inputMapPath with
    | none => exact ⟨World.start.opened .main f, f, hf, (colsOk_iff _).2 hc, fun _ _ => hfail _, by rw [hp]⟩
    | some p =>
      obtain ⟨g, hg, hgc⟩ := hi p hp
      exact ⟨(World.start.opened .main f).opened .input g, f, hf, (colsOk_iff _).2 hc, fun _ _ => hfail _, by
        rw [hp]; exact ⟨g, hg, (colsOk_iff _).2 hgc, fun _ _ => hfail _, rfl⟩⟩
  obtain ⟨w0, hset⟩ := hset
  obtain ⟨cmd, res, h1, h2, h3⟩ := commandVerify_iff args hp
  have hs := setup_iff.2 ⟨(verifyArgs_iff args).2 fun h => hargs (Or.inl h), h1,
    ⟨res, h2, fun e he => hargs (Or.inr (h3.1 ⟨e, he⟩)), rfl⟩, hset⟩
  rw [computeThread_eq, run_bind_ok hs]
  simp only
  rw [runCommand_eq, if_pos ⟨hy, by rw [ha]; simp⟩]
  simp [World.say, preEvents, hy]

example : ¬ MapColumns [⟨"key", "TEXT", 1⟩, ⟨"value", "TEXT", 0⟩] ∧ ¬ MapColumns [] ∧
    MapColumns [⟨"pos", "INT", 1⟩, ⟨"data", "BLOB", 0⟩] := by
  refine ⟨?_, ?_, ⟨[], rfl⟩⟩
  · rw [← colsOk_iff]; decide
  · rw [← colsOk_iff]; decide

/-! ## C38 -/

/-- The arguments defined for a subcommand, with the global one. -/
def definedArgs (command : String) : List String :=
  "yes" :: ((command? command).map fun c => c.args.flatMap argNames).getD []

/-- For every command line of `setparam2`, the param2 value does not reach the command, and no run of
the command completes. -/
theorem C38_false (yes : Bool) (map : String) (m : Matches) (args : InstArgs)
    (hm : ∀ e ∈ m, e.1 ∈ definedArgs "setparam2") (h : toInstArgs yes "setparam2" map m = .ok args) :
    args.param2 = none ∧ ∀ env t t' evs, ¬ Completes env args t t' evs := by
  have hval : m.valueOf "param2_val" = none := by
    unfold Matches.valueOf Matches.valuesOf
    have : (m.find? fun e => e.1 == "param2_val") = none := by
      rw [List.find?_eq_none]
      intro e he hx
      have := hm e he
      rw [beq_iff_eq] at hx
      rw [hx] at this
      exact absurd this (by decide)
    rw [this]
    rfl
  unfold toInstArgs at h
  rw [hval] at h
  simp only [optArg, bind, Except.bind, pure, Except.pure] at h
  have hp : args.param2 = none ∧ args.command = "setparam2" := by
    repeat' split at h
    all_goals first
      | cases h; done
      | (cases h; exact ⟨rfl, rfl⟩)
  refine ⟨hp.1, ?_⟩
  intro env t t' evs hc
  obtain ⟨d⟩ := completes_done hc (by rw [hp.2]; decide)
  have hcmd := d.cmd_ok
  have hb := d.body
  rw [hp.2] at hcmd
  have : command? "setparam2" = some ⟨setParam2, fun a => .ok (setParam2Verify a),
      [.node false, .area false, .invert, .param2]⟩ := rfl
  rw [this] at hcmd
  rw [← Option.some.inj hcmd] at hb
  simp only [setParam2] at hb
  rw [run_bind_iff] at hb
  obtain ⟨v, w1, h1, -⟩ := hb
  rw [run_unwrap_iff, hp.1] at h1
  cases h1.1

/-- `mapeditr map setparam2 --p1 0 0 0 --p2 1 1 1 7`. -/
def param2Line : Matches := [("p1", ["0", "0", "0"]), ("p2", ["1", "1", "1"]), ("param2", ["7"])]

example : (∀ e ∈ param2Line, e.1 ∈ definedArgs "setparam2") ∧
    (toInstArgs true "setparam2" "map" param2Line).toOption.map (·.area) =
      some (some ⟨⟨0, 0, 0⟩, ⟨1, 1, 1⟩⟩) := by decide

end MapEditr
