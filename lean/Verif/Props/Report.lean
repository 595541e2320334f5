import Verif.Proof.Report
import Verif.Props.Screen
import Verif.Spec.Report
/-!
# Which map is opened, and what the user is told: C79, C80, C81, and the end of C78
-/

namespace MapEditr
open Spec

/-! ## C79 -/

theorem withMapFile_iff (dir path : String) : InWorld dir path ↔ path = withMapFile dir := by
  have key : ∀ s : String, path.toList = dir.toList ++ s.toList ↔ path = dir ++ s := by
    intro s
    rw [← String.toList_append, String.toList_inj]
  unfold InWorld withMapFile
  rw [key, key]
  cases h : dir.toList.getLast? with
  | none =>
    have : dir = "" := by
      rw [List.getLast?_eq_none_iff] at h
      exact String.toList_inj.1 (h.trans rfl)
    subst this
    simp
  | some c =>
    have hne : dir ≠ "" := by
      rintro rfl
      cases h
    have hs : ['/'] <:+ dir.toList ↔ c = '/' := by
      rw [List.getLast?_eq_some_iff] at h
      obtain ⟨l, hl⟩ := h
      rw [hl]
      constructor
      · rintro ⟨t, ht⟩
        have := List.append_inj_right' ht rfl
        injection this with h
        exact h.symm
      · rintro rfl
        exact ⟨l, rfl⟩
    rw [hs]
    simp only [hne, ne_eq, not_false_eq_true, true_and, false_or]
    split
    · rename_i h; simp [h]
    · rename_i h; simp [h]

theorem found_iff (env : Env) (path : String) (f : DbFile) : Found env.fs path f ↔ mapFile env path = some f := by
  unfold Found mapFile
  simp only [withMapFile_iff, exists_eq_left]
  cases env.fs path <;> simp

/-- The map edited is the one the path stands for, and the one copied from is the one the other path
stands for. -/
theorem C79_opened (env : Env) (args : InstArgs) (t t' : Table) (evs : List Event) (h : Completes env args t t' evs) :
    (∃ f, Found env.fs args.mapPath f ∧ f.table = t) ∧
    ∀ p, args.inputMapPath = some p → args.command ≠ "vacuum" → ∃ g, Found env.fs p g ∧
      ∃ m, (computeThread env args World.start).2.dbs .input = some m ∧ m.conn.cur = g.table ∧
        m.conn.durable = g.table := by
  obtain ⟨f, w, m, h1, rfl, h3, rfl, h5, h6, rfl⟩ := h
  refine ⟨⟨f, (found_iff _ _ _).2 h1, rfl⟩, fun p hp hv => ?_⟩
  rw [h3]
  rw [computeThread_eq, run_bind_iff] at h3
  obtain ⟨r, w0, h3, h4⟩ := h3
  cases r with
  | error e => simp [run_pure] at h4
  | ok r =>
    obtain ⟨cmd, wn⟩ := r
    obtain ⟨-, a2, -, a5⟩ := setup_iff.1 h3
    obtain ⟨f', b1, b2, b3, b4, b5, b6⟩ := setupWorld_start a5
    obtain ⟨g, c1, c2⟩ := b3 p hp
    refine ⟨g, (found_iff _ _ _).2 c1, ?_⟩
    simp only at h4
    rw [runCommand_eq] at h4
    split at h4
    · simp only [Prod.mk.injEq] at h4
      rw [← h4.2]
      exact ⟨_, c2, rfl, rfl⟩
    · cases hb : cmd.func env args (w0.say (preEvents args wn)) with
      | mk r w2 =>
        cases r with
        | error e =>
          unfold finish at h4
          rw [run_bind_err hb] at h4
          simp at h4
        | ok u =>
          have hs := inv_command (stays_frame env) a2 hv args (w0.say (preEvents args wn))
          rw [hb] at hs
          rcases hs.1 _ _ _ (show OpenAt (w0.say _) .main _ _ _ from b2) with ⟨cur, hcur⟩ | hl
          rotate_left
          · rw [finish_lost hb hl] at h4; simp at h4
          have hin := hs.2.2 _ _ _ (show OpenAt (w0.say _) .input _ _ _ from c2)
          rw [finish_open hb hcur] at h4
          split at h4
          · simp at h4
          · simp only [Prod.mk.injEq, true_and] at h4
            subst h4
            exact ⟨_, hin, rfl, rfl⟩

theorem func_fs (env : Env) (fs : String → Option DbFile) {name : String} {cmd : Command}
    (h : command? name = some cmd) (args : InstArgs) :
    cmd.func { env with fs := fs } args = cmd.func env args := by
  unfold command? at h
  rw [Option.map_eq_some_iff] at h
  obtain ⟨⟨n, c⟩, h1, rfl⟩ := h
  have hm := List.mem_of_find?_eq_some h1
  unfold commands at hm
  simp only [List.mem_cons, List.not_mem_nil, or_false, Prod.mk.injEq] at hm
  rcases hm with ⟨_, rfl⟩ | ⟨_, rfl⟩ | ⟨_, rfl⟩ | ⟨_, rfl⟩ | ⟨_, rfl⟩ | ⟨_, rfl⟩ | ⟨_, rfl⟩ | ⟨_, rfl⟩ |
    ⟨_, rfl⟩ | ⟨_, rfl⟩ | ⟨_, rfl⟩ | ⟨_, rfl⟩ <;> rfl

/-- No other file matters: with the same maps at the paths given, the run is the same. -/
theorem C79_only (env : Env) (fs : String → Option DbFile) (args : InstArgs)
    (h : ∀ p, p = args.mapPath ∨ args.inputMapPath = some p → ∀ f, Found fs p f ↔ Found env.fs p f) :
    computeThread { env with fs := fs } args World.start = computeThread env args World.start := by
  have hm : ∀ p, p = args.mapPath ∨ args.inputMapPath = some p → mapFile { env with fs := fs } p = mapFile env p := by
    intro p hp
    apply Option.ext
    intro f
    rw [← found_iff, ← found_iff]
    exact h p hp f
  have ho : ∀ i p, p = args.mapPath ∨ args.inputMapPath = some p →
      openMap { env with fs := fs } i p = openMap env i p := by
    intro i p hp
    funext w
    unfold openMap
    rw [hm p hp]
  have hs : setup { env with fs := fs } args = setup env args := by
    unfold setup
    rw [ho .main args.mapPath (.inl rfl)]
    cases hi : args.inputMapPath with
    | none => rfl
    | some p =>
      simp only
      rw [ho .input p (.inr hi)]
      rfl
  rw [computeThread_eq, computeThread_eq, hs, run_bind, run_bind]
  rcases hr : setup env args World.start with ⟨r, w⟩
  cases r with
  | error e => rfl
  | ok r =>
    cases r with
    | error e => rfl
    | ok r =>
      obtain ⟨cmd, wn⟩ := r
      have hc := func_fs env fs (setup_command hr) args
      simp only
      unfold runCommand
      rw [hc]
      rfl

/-- A path that stands for no map is refused before any statement is executed. -/
theorem C79_missing (env : Env) (args : InstArgs) (h : ∀ f, ¬ Found env.fs args.mapPath f) :
    (worker env args World.start).2.trace = [] ∧
    (∀ e ∈ (worker env args World.start).2.events, ∃ m, e = .log .error m) ∧
    ∀ cmd, verifyArgs args = none → command? args.command = some cmd → cmd.verify args = .ok .ok →
      (worker env args World.start).2.events = [errMsg "Failed to open main world/map."] := by
  have hm : mapFile env args.mapPath = none := by
    cases hf : mapFile env args.mapPath with
    | none => rfl
    | some f => exact absurd ((found_iff _ _ _).2 hf) (h f)
  have ho : ∀ r w, openAll env args (β := Command × Option String) r w =
      (.ok (.error "Failed to open main world/map."), w) := by
    intro r w
    unfold openAll openK
    have : openMap env .main args.mapPath w = (.ok false, w) := by unfold openMap; rw [hm]
    rw [run_bind_ok this]
    rfl
  have hsetup : (∃ s, setup env args World.start = (.error s, World.start)) ∨
      ∃ e, setup env args World.start = (.ok (.error e), World.start) := by
    rw [setup_eq]
    cases verifyArgs args with
    | some e => exact .inr ⟨e, rfl⟩
    | none =>
      simp only
      cases command? args.command with
      | none => exact .inl ⟨_, rfl⟩
      | some cmd =>
        show (∃ s, (Run.lift (cmd.verify args) >>= _) World.start = _) ∨ (∃ e, (Run.lift (cmd.verify args) >>= _) World.start = _)
        cases cmd.verify args with
        | error s => exact .inl ⟨s, rfl⟩
        | ok r =>
          right
          cases r with
          | error e => exact ⟨e, rfl⟩
          | ok => exact ⟨_, ho _ _⟩
          | warning t => exact ⟨_, ho _ _⟩
  refine ⟨?_, ?_, ?_⟩
  · rw [worker_eq]
    rcases hsetup with ⟨s, hs⟩ | ⟨e, hs⟩
    · rw [run_bind_err hs]; rfl
    · rw [run_bind_ok hs]; rfl
  · rw [worker_eq]
    rcases hsetup with ⟨s, hs⟩ | ⟨e, hs⟩
    · rw [run_bind_err hs]
      intro e he
      cases he
    · rw [run_bind_ok hs]
      intro e' he
      change e' ∈ [Event.log .error (.text e)] at he
      exact ⟨_, List.mem_singleton.1 he⟩
  · intro cmd h1 h2 h3
    have : setup env args World.start = (.ok (.error "Failed to open main world/map."), World.start) := by
      rw [setup_eq, h1, h2]
      show (Run.lift (cmd.verify args) >>= _) World.start = _
      rw [h3]
      exact ho _ _
    rw [worker_eq, run_bind_ok this]
    rfl

example : Found runFs "other" ⟨[(1, [25, 0, 0])], [⟨"pos", "INT", 1⟩, ⟨"data", "BLOB", 0⟩]⟩ ∧
    Found runFs "other/" ⟨[(1, [25, 0, 0])], [⟨"pos", "INT", 1⟩, ⟨"data", "BLOB", 0⟩]⟩ ∧
    Found runFs "map" ⟨[(0, [25])], [⟨"pos", "INT", 1⟩, ⟨"data", "BLOB", 0⟩]⟩ ∧ ∀ f, ¬ Found runFs "nowhere" f := by
  have h := found_iff (runEnv (fun _ => false) none)
  refine ⟨(h _ _).2 rfl, (h _ _).2 rfl, (h _ _).2 rfl, fun f hf => ?_⟩
  have := (h _ _).1 hf
  revert this
  have : mapFile (runEnv (fun _ => false) none) "nowhere" = none := rfl
  rw [this]
  nofun

/-! ## C80 -/

/-- The events of the worker: those of `computeThread`, and the error if it returns one. -/
theorem worker_events (env : Env) (args : InstArgs) : (worker env args World.start).2.events =
    (computeThread env args World.start).2.events ++
      match (computeThread env args World.start).1 with
      | .ok (.error e) => [errMsg e]
      | _ => [] := by
  unfold worker
  rw [run_bind]
  rcases computeThread env args World.start with ⟨r, w⟩
  rcases r with s | e | u
  · exact (List.append_nil _).symm
  · rfl
  · exact (List.append_nil _).symm

theorem pre_ne {args : InstArgs} {wn : Option String} {e : Event} (h : e ∈ preEvents args wn) :
    (∀ m, e ≠ .log .info m) ∧ (∀ m, e ≠ .log .error m) ∧ ∀ s, e ≠ .newState s := by
  unfold preEvents at h
  rw [List.mem_append, List.mem_append] at h
  rcases h with (h | h) | h
  · split at h
    · rw [List.mem_singleton] at h; subst h; simp
    · cases h
  · cases wn with
    | none => cases h
    | some t => rw [List.mem_singleton] at h; subst h; simp
  · split at h
    · rw [List.mem_singleton] at h; subst h; simp
    · cases h

theorem mid_ne {name : String} {e : Event} (h : MidEvent name e) : e ≠ doneMsg ∧ e ≠ .confirmRequest ∧
    ∀ m, e = .log .error m → name = "vacuum" ∧ m = .text "Vacuum failed: database operation failed." := by
  unfold doneMsg
  rcases h with ((⟨s, rfl⟩ | ⟨m, rfl, hm⟩) | ⟨hv, rfl | rfl | rfl⟩) | rfl
  · simp
  · refine ⟨?_, by simp, by simp⟩
    intro h
    injection h with h1 h2
    exact hm _ h2
  · simp
  · simp
  · refine ⟨by simp, by simp, ?_⟩
    intro m h
    injection h with _ h
    exact ⟨hv, h.symm⟩
  · simp

theorem not_done {args : InstArgs} {wn : Option String} {es : List Event} (h : ∀ e ∈ es, MidEvent args.command e) :
    doneMsg ∉ preEvents args wn ++ es := by
  intro hd
  rcases List.mem_append.1 hd with hd | hd
  · exact (pre_ne hd).1 _ rfl
  · exact (mid_ne (h _ hd)).1 rfl

/-- The events of a run, by its outcome. -/
theorem worker_cases (env : Env) (args : InstArgs) :
    ∃ r es, (computeThread env args World.start).1 = r ∧ doneMsg ∉ es ∧
      (∀ m, .log .error m ∈ es → args.command = "vacuum" ∧ m = .text "Vacuum failed: database operation failed.") ∧
      ((∃ s, r = .error s ∧ (worker env args World.start).2.events = es) ∨
       (∃ e, r = .ok (.error e) ∧ (worker env args World.start).2.events = es ++ [errMsg e]) ∨
       (r = .ok (.ok ()) ∧ args.doConfirmation = true ∧ env.answer ≠ some true ∧
          (worker env args World.start).2.events = es) ∨
       (r = .ok (.ok ()) ∧ (args.doConfirmation = true → env.answer = some true) ∧
          (worker env args World.start).2.events = es ++ [doneMsg])) := by
  rw [worker_events]
  have h := run_outcome env args
  generalize (computeThread env args World.start).2.status.state = st at h
  generalize (computeThread env args World.start).1 = r at h
  generalize (computeThread env args World.start).2.events = evs at h
  have herr : ∀ {wn : Option String} {es : List Event} (h : ∀ e ∈ es, MidEvent args.command e) (m : Msg),
      .log .error m ∈ preEvents args wn ++ es → args.command = "vacuum" ∧ m = .text "Vacuum failed: database operation failed." := by
    intro wn es h m hd
    rcases List.mem_append.1 hd with hd | hd
    · exact absurd rfl ((pre_ne hd).2.1 m)
    · exact (mid_ne (h _ hd)).2.2 m rfl
  cases h with
  | refused e => exact ⟨_, [], rfl, by simp, by simp, .inr (.inl ⟨e, rfl, rfl⟩)⟩
  | broke s => exact ⟨_, [], rfl, by simp, by simp, .inl ⟨s, rfl, rfl⟩⟩
  | declined wn hk h1 h2 =>
    refine ⟨_, preEvents args wn, rfl, fun hd => (pre_ne hd).1 _ rfl, fun m hd => absurd rfl ((pre_ne hd).2.1 m), ?_⟩
    exact .inr (.inr (.inl ⟨rfl, h1, h2, List.append_nil _⟩))
  | died s wn es hk h1 h2 =>
    exact ⟨_, preEvents args wn ++ es, rfl, not_done h2, herr h2, .inl ⟨s, rfl, List.append_nil _⟩⟩
  | unsaved wn es hk h1 h2 h3 =>
    exact ⟨_, preEvents args wn ++ es, rfl, not_done h2, herr h2, .inr (.inl ⟨_, rfl, rfl⟩)⟩
  | done wn es hk h1 h2 h3 =>
    exact ⟨_, preEvents args wn ++ es, rfl, not_done h2, herr h2, .inr (.inr (.inr ⟨rfl, h1, List.append_nil _⟩))⟩

/-- "Done." is said exactly by the runs that went through. -/
theorem C80_done (env : Env) (args : InstArgs) : doneMsg ∈ (worker env args World.start).2.events ↔
    (computeThread env args World.start).1 = .ok (.ok ()) ∧ (args.doConfirmation = true → env.answer = some true) := by
  obtain ⟨r, es, h1, h2, -, h⟩ := worker_cases env args
  rw [h1]
  rcases h with ⟨s, rfl, h⟩ | ⟨e, rfl, h⟩ | ⟨rfl, h3, h4, h⟩ | ⟨rfl, h3, h⟩
  · rw [h]; simp [h2]
  · rw [h, List.mem_append, List.mem_singleton]
    simp only [h2, false_or]
    simp [doneMsg, errMsg]
  · rw [h]; simp [h2, h3, h4]
  · rw [h]; simpa using h3

/-- It is the last message then, and said once. -/
theorem C80_last (env : Env) (args : InstArgs) (h : doneMsg ∈ (worker env args World.start).2.events) :
    ∃ es, (worker env args World.start).2.events = es ++ [doneMsg] ∧ doneMsg ∉ es := by
  obtain ⟨r, es, h1, h2, -, h'⟩ := worker_cases env args
  rcases h' with ⟨s, rfl, h'⟩ | ⟨e, rfl, h'⟩ | ⟨rfl, h3, h4, h'⟩ | ⟨rfl, h3, h'⟩
  · rw [h'] at h; exact absurd h h2
  · rw [h', List.mem_append, List.mem_singleton] at h
    rcases h with h | h
    · exact absurd h h2
    · simp [doneMsg, errMsg] at h
  · rw [h'] at h; exact absurd h h2
  · exact ⟨es, h', h2⟩

/-- An error that ends the run is shown, as the last message. -/
theorem C80_error (env : Env) (args : InstArgs) (e : String)
    (h : (computeThread env args World.start).1 = .ok (.error e)) :
    ∃ es, (worker env args World.start).2.events = es ++ [errMsg e] ∧ doneMsg ∉ es := by
  obtain ⟨r, es, h1, h2, -, h'⟩ := worker_cases env args
  rw [h] at h1
  subst h1
  rcases h' with ⟨s, hs, h'⟩ | ⟨e', hs, h'⟩ | ⟨hs, h3, h4, h'⟩ | ⟨hs, h3, h'⟩
  · cases hs
  · cases hs
    exact ⟨es, h', h2⟩
  · cases hs
  · cases hs

/-- **C80** fails for `vacuum`: if the statement fails, the error is shown, and "Done." after it. -/
theorem C80_both_false : ¬ ∀ (env : Env) (args : InstArgs) (m : Msg),
    .log .error m ∈ (worker env args World.start).2.events → doneMsg ∉ (worker env args World.start).2.events := by
  intro h
  have := h (runEnv (fun n => n == 5) none) (runArgs false "vacuum" "map" none) (.text "Vacuum failed: database operation failed.") (by decide)
  exact this (by decide)

/-- An error message means that the run failed, and says why.  Missing: `vacuum`, where it is false. -/
theorem C80_both_partial (env : Env) (args : InstArgs) (hv : args.command ≠ "vacuum") (m : Msg)
    (h : .log .error m ∈ (worker env args World.start).2.events) :
    (∃ e, m = .text e ∧ (computeThread env args World.start).1 = .ok (.error e)) ∧
    doneMsg ∉ (worker env args World.start).2.events := by
  obtain ⟨r, es, h1, h2, h3, h'⟩ := worker_cases env args
  have hn : .log .error m ∉ es := fun h => hv (h3 m h).1
  rcases h' with ⟨s, rfl, h'⟩ | ⟨e, rfl, h'⟩ | ⟨rfl, h4, h5, h'⟩ | ⟨rfl, h4, h'⟩
  · rw [h'] at h; exact absurd h hn
  · rw [h'] at h ⊢
    simp only [List.mem_append, hn, List.mem_singleton, false_or, errMsg] at h
    injection h with _ h
    refine ⟨⟨e, h, h1⟩, ?_⟩
    rw [List.mem_append, List.mem_singleton, not_or]
    exact ⟨h2, by simp [doneMsg, errMsg]⟩
  · rw [h'] at h; exact absurd h hn
  · rw [h'] at h
    simp [hn, doneMsg] at h

/-- What is said about `vacuum` is what happened: it is reported as completed exactly if the statement
succeeded, and as failed exactly if it was started and did not, because it or the `COMMIT` before it
failed. -/
theorem C80_vacuum (env : Env) (args : InstArgs) (hc : args.command = "vacuum") (w : World)
    (hw : w = (computeThread env args World.start).2) :
    (.log .info (.text "Completed vacuum.") ∈ w.events ↔ ⟨.main, .vacuum, true⟩ ∈ w.trace) ∧
    (.log .error (.text "Vacuum failed: database operation failed.") ∈ w.events ↔
      .log .info (.text "Starting vacuum.") ∈ w.events ∧ ⟨.main, .vacuum, true⟩ ∉ w.trace) ∧
    (.log .info (.text "Starting vacuum.") ∈ w.events → ⟨.main, .vacuum, true⟩ ∉ w.trace →
      ⟨.main, .vacuum, false⟩ ∈ w.trace ∨ ⟨.main, .commit, false⟩ ∈ w.trace) := by
  have none : ∀ w : World, (∀ e ∈ w.events, e ≠ vacDone ∧ e ≠ vacFailed ∧ e ≠ vacStart) →
      (∀ d ∈ w.trace, d.stmt ≠ .vacuum) →
      (vacDone ∈ w.events ↔ ⟨.main, .vacuum, true⟩ ∈ w.trace) ∧
      (vacFailed ∈ w.events ↔ vacStart ∈ w.events ∧ ⟨.main, .vacuum, true⟩ ∉ w.trace) ∧
      (vacStart ∈ w.events → ⟨.main, .vacuum, true⟩ ∉ w.trace →
        ⟨.main, .vacuum, false⟩ ∈ w.trace ∨ ⟨.main, .commit, false⟩ ∈ w.trace) := by
    intro w he ht
    have h1 : vacDone ∉ w.events := fun h => (he _ h).1 rfl
    have h2 : vacFailed ∉ w.events := fun h => (he _ h).2.1 rfl
    have h3 : vacStart ∉ w.events := fun h => (he _ h).2.2 rfl
    have h4 : ∀ ok, ⟨.main, .vacuum, ok⟩ ∉ w.trace := fun ok h => ht _ h rfl
    simp [h1, h2, h3, h4]
  show (vacDone ∈ w.events ↔ _) ∧ (vacFailed ∈ w.events ↔ vacStart ∈ w.events ∧ _) ∧ (vacStart ∈ w.events → _)
  rw [computeThread_eq] at hw
  obtain ⟨es, h1, h2, -⟩ := sends_setup (P := fun _ => False) (env := env) (args := args) World.start
  have h4 : es = [] := List.eq_nil_iff_forall_not_mem.2 h2
  subst h4
  obtain ⟨ds, h5, h6⟩ := ext_setup (env := env) (P := fun d => d.stmt ≠ .vacuum) args (by simp) (by simp) (by simp) (by simp)
    World.start
  have h6 : ∀ d ∈ ds, d.stmt ≠ .vacuum := fun d hd => by
    rcases h6 d hd with h | rfl
    · exact h
    · simp [undone]
  cases hr : setup env args World.start with
  | mk r w0 =>
    rw [hr] at h1 h5
    replace h1 : w0.events = [] := h1
    have h5 : w0.trace = ds := h5
    subst h5
    have h0 : w = w0 → _ := fun h => none w (by rw [h, h1]; simp) (by rw [h]; exact h6)
    cases r with
    | error s => rw [run_bind_err hr] at hw; exact h0 hw
    | ok r =>
      rw [run_bind_ok hr] at hw
      cases r with
      | error e => exact h0 hw
      | ok r =>
        obtain ⟨cmd, wn⟩ := r
        obtain ⟨-, a2, -, a5⟩ := setup_iff.1 hr
        obtain ⟨f, -, b2, -⟩ := setupWorld_start a5
        have hpre : ∀ e ∈ (w0.say (preEvents args wn)).events, e ≠ vacDone ∧ e ≠ vacFailed ∧ e ≠ vacStart := by
          intro e he
          unfold World.say at he
          rw [h1, List.nil_append] at he
          have := pre_ne he
          exact ⟨this.1 _, this.2.1 _, this.1 _⟩
        simp only at hw
        rw [runCommand_eq] at hw
        split at hw
        · subst hw
          exact none _ hpre h6
        · rw [hc] at a2
          rw [command_vacuum a2] at hw
          obtain ⟨w', h7, h8⟩ := vacuum_run (env := env) (w := w0.say (preEvents args wn)) b2
          have hp : vacDone ∉ (w0.say (preEvents args wn)).events ∧ vacFailed ∉ (w0.say (preEvents args wn)).events :=
            ⟨fun h => (hpre _ h).1 rfl, fun h => (hpre _ h).2.1 rfl⟩
          have ht : ∀ ok, ⟨.main, .vacuum, ok⟩ ∉ (w0.say (preEvents args wn)).trace := fun ok h => h6 _ h rfl
          -- what comes after the command changes nothing of this
          have hafter : ∀ w'' : World, (∃ es, w''.events = w'.events ++ es ∧ ∀ e ∈ es, e ≠ vacDone ∧ e ≠ vacFailed ∧ e ≠ vacStart) →
              (∃ ds : List Did, w''.trace = w'.trace ++ ds ∧ ∀ d ∈ ds, d.stmt ≠ .vacuum) →
              (vacDone ∈ w''.events ↔ ⟨.main, .vacuum, true⟩ ∈ w''.trace) ∧
              (vacFailed ∈ w''.events ↔ vacStart ∈ w''.events ∧ ⟨.main, .vacuum, true⟩ ∉ w''.trace) ∧
              (vacStart ∈ w''.events → ⟨.main, .vacuum, true⟩ ∉ w''.trace →
                ⟨.main, .vacuum, false⟩ ∈ w''.trace ∨ ⟨.main, .commit, false⟩ ∈ w''.trace) := by
            rintro w'' ⟨es, e1, e2⟩ ⟨ds, d1, d2⟩
            have k1 : vacDone ∉ es := fun h => (e2 _ h).1 rfl
            have k2 : vacFailed ∉ es := fun h => (e2 _ h).2.1 rfl
            have k4 : ∀ ok, ⟨.main, .vacuum, ok⟩ ∉ ds := fun ok h => d2 _ h rfl
            rw [e1, d1]
            rcases h8 with ⟨l, rfl | rfl, g1, g2⟩ | ⟨g1, g2⟩ | ⟨g1, g2⟩
            all_goals
              rw [g1, g2]
              simp only [List.mem_append, List.mem_cons, List.not_mem_nil, or_false, k1, k2, k4, hp.1, hp.2, ht]
              simp [vacDone, vacFailed, vacStart, undone]
          subst hw
          have hfin : finish env args ⟨fun env _ => vacuum env, fun _ => .ok .ok, []⟩ (w0.say (preEvents args wn)) =
              (saveAll env >>= sayDone) w' := by
            rw [finish_parts, run_bind_assoc]
            exact run_bind_ok h7
          rw [hfin]
          refine hafter _ ?_ ?_
          · obtain ⟨es, e1, e2, -⟩ := sends_bind (P := fun e => e ≠ vacDone ∧ e ≠ vacFailed ∧ e ≠ vacStart)
              (sends_saveAll (env := env) (by simp [vacDone, vacFailed, vacStart]) (by simp [vacDone, vacFailed, vacStart]))
              (f := sayDone) (fun ok => sends_ite _ (sends_bind (sends_log (by simp [vacDone, vacFailed, vacStart]))
                fun _ => sends_pure _) (sends_pure _)) w'
            exact ⟨es, e1, e2⟩
          · have := ext_finish (env := env) (P := fun d => d.stmt ≠ .vacuum) (args := args)
              (cmd := ⟨fun _ _ => pure (), fun _ => .ok .ok, []⟩) (by simp) (ext_pure _) w'
            rw [finish_parts] at this
            obtain ⟨ds, d1, d2⟩ := this
            refine ⟨ds, d1, fun d hd => ?_⟩
            rcases d2 d hd with h | rfl
            · exact h
            · simp [undone]

example : ⟨.main, .vacuum, true⟩ ∈ (computeThread (runEnv (fun _ => false) none) (runArgs false "vacuum" "map" none)
    World.start).2.trace ∧ ⟨.main, .vacuum, true⟩ ∉ (computeThread (runEnv (fun n => n == 5) none)
    (runArgs false "vacuum" "map" none) World.start).2.trace ∧ .log .info (.text "Starting vacuum.") ∈ (computeThread
    (runEnv (fun n => n == 5) none) (runArgs false "vacuum" "map" none) World.start).2.events := by decide

/-- When "Done." is said, everything has been committed. -/
theorem C80_saved (env : Env) (args : InstArgs) (hv : args.command ≠ "vacuum")
    (h : doneMsg ∈ (worker env args World.start).2.events) :
    ∃ m, (computeThread env args World.start).2.dbs .main = some m ∧ m.conn.durable = m.conn.cur ∧
      m.conn.inTx = false ∧ Completes env args (mapFile env args.mapPath |>.map (·.table) |>.getD []) m.conn.cur
        (worker env args World.start).2.events := by
  have h0 := h
  obtain ⟨h1, h2⟩ := (C80_done env args).1 h
  rw [worker_events, h1, List.append_nil] at h
  have hw : (worker env args World.start).2.events = (computeThread env args World.start).2.events := by
    rw [worker_events, h1, List.append_nil]
  rw [hw]
  cases h3 : computeThread env args World.start with
  | mk r w =>
    have h9 := h3
    rw [h3] at h1 h
    simp only at h1 h
    subst h1
    rw [computeThread_eq, run_bind_iff] at h3
    obtain ⟨r, w0, h3, h4⟩ := h3
    cases r with
    | error e => simp [run_pure] at h4
    | ok r =>
      obtain ⟨cmd, wn⟩ := r
      obtain ⟨-, a2, -, a5⟩ := setup_iff.1 h3
      obtain ⟨f, b1, b2, -, -, -, b6⟩ := setupWorld_start a5
      simp only at h4
      rw [runCommand_eq] at h4
      split at h4
      · rename_i hc
        exact absurd (h2 hc.1) hc.2
      · cases hb : cmd.func env args (w0.say (preEvents args wn)) with
        | mk r w2 =>
          cases r with
          | error e =>
            unfold finish at h4
            rw [run_bind_err hb] at h4
            simp at h4
          | ok u =>
            have hs := inv_command (stays_frame env) a2 hv args (w0.say (preEvents args wn))
            rw [hb] at hs
            rcases hs.1 _ _ _ (show OpenAt (w0.say _) .main _ _ _ from b2) with ⟨cur, hcur⟩ | hl
            rotate_left
            · rw [finish_lost hb hl] at h4; simp at h4
            rw [finish_open hb hcur] at h4
            split at h4
            · simp at h4
            · simp only [Prod.mk.injEq, true_and] at h4
              subst h4
              refine ⟨_, rfl, rfl, rfl, f, _, _, b1, ?_, h9, rfl, h, rfl, rfl⟩
              rw [b1]
              rfl

example : doneMsg ∈ (worker (runEnv (fun _ => false) (some true)) (runArgs true "deleteblocks" "map" none)
    World.start).2.events := by decide

example : (computeThread (runEnv (fun n => n == 6) none) (runArgs false "deleteblocks" "map" none)
    World.start).1 = .ok (.error "database operation failed") := rfl

/-! ## C81 -/

theorem checked_warning {args : InstArgs} {wn : Option String} (h : Checked args wn) :
    preEvents args wn = preface args := by
  have hw : wn = if args.command = "deletemeta" ∧ args.node = none ∧ args.area = none then
      some "No area or node specified. ALL metadata will be deleted!" else none := by
    obtain ⟨cmd, res, h1, h2, rfl⟩ := h
    unfold command? at h1
    rw [Option.map_eq_some_iff] at h1
    obtain ⟨⟨n, c⟩, h1, rfl⟩ := h1
    have hn := List.find?_some h1
    have hm := List.mem_of_find?_eq_some h1
    simp only [beq_iff_eq] at hn
    subst hn
    unfold commands at hm
    simp only [List.mem_cons, List.not_mem_nil, or_false, Prod.mk.injEq] at hm
    rcases hm with ⟨hn, rfl⟩ | ⟨hn, rfl⟩ | ⟨hn, rfl⟩ | ⟨hn, rfl⟩ | ⟨hn, rfl⟩ | ⟨hn, rfl⟩ | ⟨hn, rfl⟩ | ⟨hn, rfl⟩ |
      ⟨hn, rfl⟩ | ⟨hn, rfl⟩ | ⟨hn, rfl⟩ | ⟨hn, rfl⟩ <;> rw [hn] <;> simp only at h2
    · rw [if_neg (by simp)]
      unfold cloneVerify unwrap at h2
      cases ha : args.area with
      | none => simp [ha, bind, Except.bind] at h2
      | some a =>
        cases ho : args.offset with
        | none => simp [ha, ho, bind, Except.bind] at h2
        | some o =>
          simp only [ha, ho, bind, Except.bind, pure, Except.pure] at h2
          split at h2 <;> (injection h2 with h2; rw [← h2]; rfl)
    · rw [if_neg (by simp)]; cases h2; rfl
    · injection h2 with h2
      rw [← h2]
      unfold deleteMetaVerify
      cases args.area <;> cases args.node <;> simp [warningOf]
    all_goals rw [if_neg (by simp)]
    · injection h2 with h2; rw [← h2]; unfold deleteObjectsVerify; repeat' split <;> try rfl
    · cases h2; rfl
    · cases h2; rfl
    · injection h2 with h2; rw [← h2]; unfold replaceNodesVerify; repeat' split <;> try rfl
    · injection h2 with h2; rw [← h2]; unfold replaceInInvVerify; repeat' split <;> try rfl
    · injection h2 with h2; rw [← h2]; unfold overlayVerify; simp only; repeat' split <;> try rfl
    · injection h2 with h2; rw [← h2]; unfold setMetaVarVerify; repeat' split <;> try rfl
    · injection h2 with h2; rw [← h2]; unfold setParam2Verify; repeat' split <;> try rfl
    · cases h2; rfl
  rw [hw]
  unfold preEvents preface warnings
  by_cases hd : args.command = "deletemeta" ∧ args.node = none ∧ args.area = none
  · rw [if_pos hd, if_pos hd]; rfl
  · rw [if_neg hd, if_neg hd]; rfl

/-- Nothing is done before the user has been warned, and asked if confirmation is wanted: the warnings
and the question come first of all in every run that changes a file, begins a stage, or asks. -/
theorem C81_warned (env : Env) (args : InstArgs)
    (h : (∃ d ∈ (computeThread env args World.start).2.trace, Changes d.stmt) ∨
      (∃ s, .newState s ∈ (worker env args World.start).2.events) ∨
      .confirmRequest ∈ (worker env args World.start).2.events) :
    preface args <+: (worker env args World.start).2.events := by
  rw [worker_events] at h ⊢
  refine List.IsPrefix.trans ?_ (List.prefix_append _ _)
  by_cases hs : ∃ r w1, setup env args World.start = (.ok (.ok r), w1)
  · obtain ⟨⟨cmd, wn⟩, w, hs⟩ := hs
    obtain ⟨-, hc, ⟨res, a3, -, a5⟩, a6⟩ := setup_iff.1 hs
    obtain ⟨-, -, -, -, -, -, b6⟩ := setupWorld_start a6
    rw [← checked_warning ⟨cmd, res, hc, a3, a5⟩, computeThread_eq, run_bind_ok hs]
    simp only
    have e1 : (w.say (preEvents args wn)).events = preEvents args wn := by
      show w.events ++ _ = _
      rw [b6]
      rfl
    rw [runCommand_eq]
    split
    · rw [e1]
      exact List.prefix_refl _
    · obtain ⟨es, w', rfl, -, b2⟩ := finish_says (env := env) hc (w.say (preEvents args wn))
      rw [e1] at b2
      rcases b2 with ⟨s, -, c2, -⟩ | ⟨-, c2, -⟩ | ⟨-, c2, -⟩
      · rw [c2]; exact List.prefix_append _ _
      · rw [c2]; exact List.prefix_append _ _
      · rw [c2, List.append_assoc]; exact List.prefix_append _ _
  · exfalso
    obtain ⟨es, h1, h2, -⟩ := sends_setup (P := fun _ => False) (env := env) (args := args) World.start
    have h4 : es = [] := List.eq_nil_iff_forall_not_mem.2 h2
    subst h4
    have hev : (computeThread env args World.start).2.events = [] := by
      rw [computeThread_eq, run_bind]
      rcases hr : setup env args World.start with ⟨r, w⟩
      rw [hr] at h1
      rcases r with s | e | q
      · exact h1
      · exact h1
      · exact absurd ⟨q, w, hr⟩ hs
    rw [hev, List.nil_append] at h
    have hno : ∀ e ∈ (match (computeThread env args World.start).1 with
        | .ok (.error e) => [errMsg e] | _ => ([] : List Event)), ∃ m, e = errMsg m := by
      intro e he
      split at he
      · exact ⟨_, List.mem_singleton.1 he⟩
      · cases he
    rcases h with ⟨d, hd, hch⟩ | ⟨s, h⟩ | h
    · obtain ⟨ext, he, hall⟩ := ext_early (env := env) (args := args) (w := World.start)
        (Or.inl fun r w1 h => hs ⟨r, w1, h⟩)
      rw [he] at hd
      have := hall d (by simpa [World.start] using hd)
      unfold Changes at hch
      rcases this with h | h | h | h | h <;> rw [h] at hch <;> simp at hch
    · obtain ⟨m, hm⟩ := hno _ h
      simp [errMsg] at hm
    · obtain ⟨m, hm⟩ := hno _ h
      simp [errMsg] at hm

/-- Deleting all metadata: the warnings and the question. -/
example : preface (runArgs true "deletemeta" "map" none) =
    [.log .warning (.text "This tool can permanently damage your Minetest world.\nAlways EXIT Minetest and BACK UP the map database before use."),
     .log .warning (.text "No area or node specified. ALL metadata will be deleted!"), .confirmRequest] := rfl

example : (worker (runEnv (fun _ => false) (some true)) (runArgs true "deletemeta" "map" none) World.start).2.events =
    preface (runArgs true "deletemeta" "map" none) ++
    [.newState .querying, .newState .ignore, .newState .editing, .newState .ignore,
     .log .info (.count "Deleted metadata from {} nodes." 0),
     .log .info (.count "Skipped {} invalid/unsupported mapblocks." 1), .log .info (.text "Committing..."), doneMsg] := by
  decide

/-! ## C78, completed -/

/-- A run that does not panic ends its last stage. -/
theorem states_end (env : Env) (args : InstArgs) (r : Except String Unit)
    (h : (computeThread env args World.start).1 = .ok r) :
    lastState (worker env args World.start).2.events .ignore = .ignore := by
  rw [worker_events]
  have ho := run_outcome env args
  have hp : ∀ wn es, lastState (preEvents args wn ++ es) .ignore = lastState es .ignore := by
    intro wn es
    rw [lastState_append]
    congr 1
    unfold preEvents
    cases wn <;> cases args.doConfirmation <;> rfl
  rw [h] at ho ⊢
  generalize (computeThread env args World.start).2.status.state = st at ho
  generalize (computeThread env args World.start).2.events = evs at ho
  cases ho with
  | refused e => rfl
  | declined wn hk h1 h2 =>
    have := hp wn []
    rw [List.append_nil] at this
    rw [List.append_nil, this]
    rfl
  | unsaved wn es hk h1 h2 h3 =>
    rw [lastState_append, hp, h3]
    rfl
  | done wn es hk h1 h2 h3 =>
    rw [List.append_nil, lastState_append, hp, h3]
    rfl

/-- Unless the compute thread panics, the cursor is at the start of a line when the program ends: whatever
the command does, and also if it returns an error. -/
theorem C78_returned_partial (env : Env) (args : InstArgs) (t0 : Nat) (ks : List Tick) (u : Ui)
    (he : tickEvents ks = (worker env args World.start).2.events) (hks : ∀ k ∈ ks, Typed k)
    (hu : (Ui.init t0).run ks = .ok u) (r : Except String Unit)
    (hr : (computeThread env args World.start).1 = .ok r) : AtLineStart u.out :=
  C78_end_partial t0 ks u hks hu (by rw [he]; exact states_end env args r hr)

/-- The state the interface knows is the state of the compute thread, at the end of every run. -/
theorem C78_state (env : Env) (args : InstArgs) :
    lastState (worker env args World.start).2.events .ignore =
      (computeThread env args World.start).2.status.state := by
  cases h : (computeThread env args World.start).1 with
  | ok r =>
    rw [states_end env args r h]
    have ho := run_outcome env args
    rw [h] at ho
    generalize (computeThread env args World.start).2.status.state = st at ho
    generalize (computeThread env args World.start).2.events = evs at ho
    cases ho <;> rfl
  | error s =>
    rw [worker_events, h, List.append_nil]
    have ho := run_outcome env args
    rw [h] at ho
    generalize (computeThread env args World.start).2.status.state = st at ho
    generalize (computeThread env args World.start).2.events = evs at ho
    cases ho with
    | broke s => rfl
    | died s wn es hk h1 h2 =>
      rw [lastState_append]
      congr 1
      unfold preEvents
      cases wn <;> cases args.doConfirmation <;> rfl

end MapEditr
