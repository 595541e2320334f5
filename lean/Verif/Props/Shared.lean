import Verif.Proof.Lines
import Verif.Props.Skips
/-!
# Property C112: the counters both threads use, and the last line of each stage

The compute thread changes the counters while the user interface reads them, under a lock.  What the user interface
sees are always counters the run had, no older than the events received.  So the line printed when a stage ends shows
the counters at its end: the number of blocks found, and for most commands one hundred percent.
-/

namespace MapEditr
open Spec Shared

/-! ## The lock -/

/-- **C112**: whatever the order in which the threads are scheduled, every reading of the counters gives the value they
have at some time, in order, and not before the events received so far were sent. -/
theorem C112_faithful (acts : List Act) (s : State) (h : Reach acts s) : ∃ n, Faithful acts n s.turns := by
  obtain ⟨d, g⟩ := good_reach h
  obtain ⟨n, -, hf⟩ := g.faith
  exact ⟨n, hf⟩

/-- Never do both have the lock, and the counters are never read half changed. -/
theorem C112_exclusive (acts : List Act) (s : State) (h : Reach acts s) :
    (s.worker = .outside ∨ s.ui = .waiting ∨ s.ui = .turn) ∧ ∀ t ∈ s.turns, t.read ≠ some none := by
  obtain ⟨d, g⟩ := good_reach h
  constructor
  · cases hu : s.ui with
    | waiting => exact .inr (.inl rfl)
    | turn => exact .inr (.inr rfl)
    | locked =>
      refine .inl (Classical.byContradiction fun hw => ?_)
      have h1 := g.holderW.2 hw
      rw [g.holderU.2 (.inl hu)] at h1
      cases h1
    | copied =>
      refine .inl (Classical.byContradiction fun hw => ?_)
      have h1 := g.holderW.2 hw
      rw [g.holderU.2 (.inr hu)] at h1
      cases h1
  · obtain ⟨n, -, hf⟩ := g.faith
    have : ∀ {n : Nat} {ts : List Turn}, Faithful acts n ts → ∀ t ∈ ts, t.read ≠ some none := by
      intro n ts hf
      induction hf with
      | nil => exact nofun
      | turn _ _ _ _ hr ih =>
        intro x hx
        rcases List.mem_append.1 hx with hx | hx
        · exact ih x hx
        · rw [List.mem_singleton.1 hx]
          rcases hr with hr | hr <;> rw [hr] <;> exact nofun
    exact this hf

/-- Some steps of one side. -/
def runs (a : Shared.Actor) : Nat → State → Option State
  | 0, s => some s
  | n + 1, s => (Shared.step a s).bind (runs a n)

/-- Nobody waits for the lock for ever: if the compute thread has something to do, it can go on after at most two steps
of the other; if the user interface is in a turn, it can go on after at most three. -/
theorem C112_free (acts : List Act) (s : State) (h : Reach acts s) :
    (s.todo ≠ [] → ∃ n s', n ≤ 2 ∧ runs .ui n s = some s' ∧ (Shared.step .worker s').isSome = true) ∧
    (s.ui ≠ .waiting → ∃ n s', n ≤ 3 ∧ runs .worker n s = some s' ∧ (Shared.step .ui s').isSome = true) := by
  obtain ⟨d, g⟩ := good_reach h
  constructor
  · intro ht
    by_cases hw : (Shared.workerStep s).isSome = true
    · exact ⟨0, s, by omega, rfl, hw⟩
    · obtain ⟨x, t, hx⟩ := List.exists_cons_of_ne_nil ht
      -- only the lock can stop it
      obtain ⟨v, rfl, ho, hn⟩ : ∃ v, x = .count v ∧ s.worker = .outside ∧ s.holder ≠ none := by
        cases x with
        | tell e =>
          unfold Shared.workerStep at hw
          rw [hx] at hw
          exact absurd rfl hw
        | count v =>
          refine ⟨v, rfl, ?_⟩
          unfold Shared.workerStep at hw
          rw [hx] at hw
          cases hwk : s.worker with
          | outside =>
            refine ⟨rfl, fun hh => hw ?_⟩
            simp only [hwk, if_pos hh]
            rfl
          | locked => exact absurd rfl (by rw [hwk] at hw; exact hw)
          | writing => exact absurd rfl (by rw [hwk] at hw; exact hw)
          | written => exact absurd rfl (by rw [hwk] at hw; exact hw)
      have hu : s.ui = .locked ∨ s.ui = .copied := by
        refine g.holderU.1 ?_
        cases hh : s.holder with
        | none => exact absurd hh hn
        | some w =>
          cases w with
          | ui => rfl
          | worker => exact absurd ho (g.holderW.1 hh)
      have hgo : ∀ s' : State, s'.todo = s.todo → s'.worker = s.worker → s'.holder = none →
          (Shared.step .worker s').isSome = true := by
        intro s' h1 h2 h3
        simp only [Shared.step, Shared.workerStep]
        rw [h1, hx, h2, ho, h3]
        rfl
      rcases hu with hu | hu
      · obtain ⟨k, hk⟩ : ∃ k, s.turns.getLast? = some k := by
          exact ⟨_, List.getLast?_eq_some_getLast (g.some (by rw [hu]; decide))⟩
        refine ⟨2, { s with ui := .waiting, turns := s.turns.dropLast ++ [{ k with read := some s.value }], holder := none },
          by omega, ?_, hgo _ rfl rfl rfl⟩
        simp only [runs, Shared.step, Shared.uiStep, hu, hk, Option.bind_some]
      · refine ⟨1, { s with ui := .waiting, holder := none }, by omega, ?_, hgo _ rfl rfl rfl⟩
        simp only [runs, Shared.step, Shared.uiStep, hu, Option.bind_some]
  · intro hu
    have hgo : ∀ s' : State, s'.ui = s.ui → s'.turns = s.turns → s'.holder = none →
        (Shared.step .ui s').isSome = true := by
      intro s' h1 h2 h3
      obtain ⟨k, hk⟩ : ∃ k, s.turns.getLast? = some k := by
        exact ⟨_, List.getLast?_eq_some_getLast (g.some hu)⟩
      simp only [Shared.step, Shared.uiStep]
      rw [h1, h2, h3, hk]
      cases hui : s.ui with
      | waiting => exact absurd hui hu
      | turn => rfl
      | locked => rfl
      | copied => rfl
    cases hh : s.holder with
    | none => exact ⟨0, s, by omega, rfl, hgo s rfl rfl hh⟩
    | some w =>
      cases w with
      | ui =>
        refine ⟨0, s, by omega, rfl, ?_⟩
        obtain ⟨k, hk⟩ : ∃ k, s.turns.getLast? = some k := by
          exact ⟨_, List.getLast?_eq_some_getLast (g.some hu)⟩
        simp only [Shared.step, Shared.uiStep]
        rcases g.holderU.1 hh with h1 | h1 <;> rw [h1]
        · rw [hk]
          rfl
        · rfl
      | worker =>
        have hw := g.holderW.1 hh
        obtain ⟨v, t, hx⟩ := g.head hw
        cases hwk : s.worker with
        | outside => exact absurd hwk hw
        | locked =>
          refine ⟨3, { s with worker := .outside, value := some v, holder := none, todo := t }, by omega, ?_,
            hgo _ rfl rfl rfl⟩
          simp only [runs, Shared.step, Shared.workerStep, hx, hwk, Option.bind_some]
        | writing =>
          refine ⟨2, { s with worker := .outside, value := some v, holder := none, todo := t }, by omega, ?_,
            hgo _ rfl rfl rfl⟩
          simp only [runs, Shared.step, Shared.workerStep, hx, hwk, Option.bind_some]
        | written =>
          refine ⟨1, { s with worker := .outside, holder := none, todo := t }, by omega, ?_, hgo _ rfl rfl rfl⟩
          simp only [runs, Shared.step, Shared.workerStep, hx, hwk, Option.bind_some]

/-- The compute thread is in the middle of a change while the user interface wants the lock. -/
example : ∃ s, Reach [.count { total := 1 }, .tell (.newState .ignore)] s ∧ s.worker = .writing ∧ s.value = none ∧
    s.ui = .turn ∧ Shared.step .ui s = none ∧ s.todo ≠ [] :=
  ⟨_, .step .timeout (.step .worker (.step .worker .init rfl) rfl) rfl, rfl, rfl, rfl, rfl, nofun⟩

/-- The user interface has the lock while the compute thread wants it; it reads the value from before the change. -/
example : ∃ s, Reach [.count { total := 1 }] s ∧ s.ui = .copied ∧ Shared.step .worker s = none ∧
    s.turns.map (·.read) = [some (some {})] :=
  ⟨_, .step .ui (.step .ui (.step .timeout .init rfl) rfl) rfl, rfl, rfl, rfl⟩

/-- An event is received, so the reading is no older than what was done before it was sent. -/
example : ∃ s, Reach [.count { total := 1 }, .tell (.newState .ignore)] s ∧
    s.turns.map (·.read) = [some (some { total := 1 })] ∧ Shared.events s.turns = [.newState .ignore] :=
  ⟨_, .step .ui (.step .ui (.step .ui (.step .worker (.step .worker (.step .worker (.step .worker (.step .worker .init
    rfl) rfl) rfl) rfl) rfl) rfl) rfl) rfl, rfl, rfl⟩

/-- The changes and messages of a run, in one order: its messages, its counters and the counters at its end are those
of the model. -/
theorem C112_acts (env : Env) (args : InstArgs) :
    tells (worker env args World.start).2.acts = (worker env args World.start).2.events ∧
    {} :: counts (worker env args World.start).2.acts = (worker env args World.start).2.seen ∧
    after {} (worker env args World.start).2.acts = (worker env args World.start).2.status :=
  have h := told_worker env args
  ⟨h.events.symm, h.seen.symm, h.status.symm⟩

/-! ## The terminal -/

/-- What may be on the terminal when the user interface has received everything the run sent. -/
def OnTerminal (env : Env) (args : InstArgs) (out : List Char) : Prop :=
  ∃ t0 s u, Reach (worker env args World.start).2.acts s ∧
    s.turns.flatMap (fun t => got t.recv) = (worker env args World.start).2.events ∧ Plays t0 s.turns u ∧ u.out = out

/-- This is there, and then the line ends. -/
def HasLine (out text : List Char) : Prop := ∃ a b, out = a ++ text ++ '\n' :: b

theorem lines_terminal {env : Env} {args : InstArgs} {out : List Char} (hv : args.command ≠ "vacuum")
    (h : OnTerminal env args out) : ∃ ts u, u.out = out ∧ Shared.events ts = (worker env args World.start).2.events ∧
      Lines (worker env args World.start).2.status ts u := by
  obtain ⟨t0, s, u, h1, h2, h3, h4⟩ := h
  obtain ⟨k, g⟩ := at_worker env args hv
  obtain ⟨n, hf⟩ := C112_faithful _ s h1
  refine ⟨s.turns, u, h4, h2, ?_⟩
  rw [g.told.status]
  exact lines_plays g.stage h3 hf

/-- The line at the end of the query shows the number of blocks found, also if the run fails later. -/
theorem C112_found (env : Env) (args : InstArgs) (out : List Char) (hv : args.command ≠ "vacuum")
    (h : OnTerminal env args out) (hq : 2 ≤ (news (worker env args World.start).2.events).length) :
    HasLine out (queryingText (worker env args World.start).2.status.total) := by
  obtain ⟨ts, u, rfl, h2, h3⟩ := lines_terminal hv h
  exact h3.query (by rw [h2]; exact hq)

theorem news_done {env : Env} {args : InstArgs} {t : Table} {w : World} (hv : args.command ≠ "vacuum")
    (h : EndsWell env args t w) : news w.events = STAGES := by
  obtain ⟨-, g⟩ := at_done hv h
  rw [g.told.events, g.stage.news]
  rfl

/-- When a run has ended well, the line at the end of the query shows the total, and the one at the end of the editing
shows the counters at the end. -/
theorem C112_end (env : Env) (args : InstArgs) (t : Table) (w : World) (out : List Char) (hv : args.command ≠ "vacuum")
    (h : EndsWell env args t w) (ho : OnTerminal env args out) :
    HasLine out (queryingText w.status.total) ∧
    ∃ ns ms text, editingText w.status.done w.status.total ns ms true = .ok text ∧ HasLine out text := by
  obtain ⟨ts, u, rfl, h2, h3⟩ := lines_terminal hv ho
  obtain ⟨hw, g⟩ := at_done hv h
  have hn := news_done hv h
  rw [hw] at h2 h3
  refine ⟨h3.query (by rw [h2, hn]; decide), ?_⟩
  obtain ⟨a, b, ns, ms, text, e1, e2⟩ := h3.edit (by rw [h2, hn]; decide)
  have hb : w.status.showProgress = true := by
    rw [g.told.status]
    exact g.stage.bar _ (List.prefix_refl _)
  rw [hb] at e1
  exact ⟨ns, ms, text, e1, a, b, e2⟩

/-- If all blocks are done, and there are any, the line at the end shows that. -/
theorem C112_all (env : Env) (args : InstArgs) (t s : Table) (w : World) (out : List Char) (P : Int × Bytes → Prop)
    (rows : Table) (hv : args.command ≠ "vacuum") (h : EndsWell env args t w) (ho : OnTerminal env args out)
    (ha : AllDone w.status s P) (hr : TheRows s P rows) (hne : rows ≠ []) :
    HasLine out ("\rQuerying mapblocks... ".toList ++ Nat.toDigits 10 rows.length ++ " found.".toList) ∧
    ∃ secs, HasLine out (progressLine 25 1000 (fmtDuration secs) "00:00".toList) := by
  obtain ⟨h1, ns, ms, text, h2, h3⟩ := C112_end env args t w out hv h ho
  obtain ⟨e1, e2⟩ := ha rows hr
  rw [e1] at h1 h2
  rw [e2, C74_end _ _ _ (List.length_pos_iff.2 hne)] at h2
  cases h2
  exact ⟨h1, _, h3⟩

/-! The property is the conclusion of `C112_all` for every command but `vacuum`.  It fails if nothing is selected
(`C112_none_false`) and for `replacenodes` (`C112_replacenodes_false`). -/

/-- The commands that edit blocks one by one.

Missing: `replacenodes`, and runs with nothing selected. -/
theorem C112_edit_partial (env : Env) (args : InstArgs) (t : Table) (w : World) (out : List Char) (rows : Table)
    (hg : GoodTable t) (ha : AreaOk args.area) (hm : args.command ∈ editNames) (hr : args.command ≠ "replacenodes")
    (h : EndsWell env args t w) (ho : OnTerminal env args out)
    (hrows : TheRows t (fun r => RowTouched args.area args.invert r ∧ Mentions (searchNames args) r.2) rows)
    (hne : rows ≠ []) :
    HasLine out ("\rQuerying mapblocks... ".toList ++ Nat.toDigits 10 rows.length ++ " found.".toList) ∧
    ∃ secs, HasLine out (progressLine 25 1000 (fmtDuration secs) "00:00".toList) :=
  C112_all env args t t w out _ rows (by intro e; rw [e] at hm; revert hm; decide) h ho
    (C58_edit_partial env args t w hg ha hm hr h) hrows hne

/-- `deleteblocks`. -/
theorem C112_deleteblocks_partial (env : Env) (args : InstArgs) (t : Table) (w : World) (out : List Char) (rows : Table)
    (hg : GoodTable t) (ha : AreaOk args.area) (hc : args.command = "deleteblocks")
    (h : EndsWell env args t w) (ho : OnTerminal env args out)
    (hrows : TheRows t (RowInside args.area args.invert) rows) (hne : rows ≠ []) :
    HasLine out ("\rQuerying mapblocks... ".toList ++ Nat.toDigits 10 rows.length ++ " found.".toList) ∧
    ∃ secs, HasLine out (progressLine 25 1000 (fmtDuration secs) "00:00".toList) :=
  C112_all env args t t w out _ rows (by rw [hc]; decide) h ho (C58_deleteblocks_partial env args t w hg ha hc h) hrows hne

/-- `clone`: the blocks of the destination. -/
theorem C112_clone_partial (env : Env) (args : InstArgs) (t : Table) (w : World) (a : Area) (o : Vec3) (out : List Char)
    (rows : Table) (hg : GoodTable t) (hc : args.command = "clone") (harea : args.area = some a)
    (ha : a.isValid = true) (hoff : args.offset = some o)
    (h : EndsWell env args t w) (ho : OnTerminal env args out)
    (hrows : TheRows t (RowTouched (some (a.add o)) false) rows) (hne : rows ≠ []) :
    HasLine out ("\rQuerying mapblocks... ".toList ++ Nat.toDigits 10 rows.length ++ " found.".toList) ∧
    ∃ secs, HasLine out (progressLine 25 1000 (fmtDuration secs) "00:00".toList) :=
  C112_all env args t t w out _ rows (by rw [hc]; decide) h ho
    (C58_clone_partial env args t w a o hg hc harea ha hoff h) hrows hne

/-- `overlay` without an offset: the blocks of the input map. -/
theorem C112_overlay_partial (env : Env) (args : InstArgs) (t : Table) (w : World) (p : String) (g : DbFile)
    (out : List Char) (rows : Table)
    (hgs : GoodTable g.table) (hc : args.command = "overlay") (hp : args.inputMapPath = some p)
    (hgf : mapFile env p = some g) (hv : AreaOk args.area)
    (hoff : args.offset = none ∨ args.offset = some ⟨0, 0, 0⟩)
    (h : EndsWell env args t w) (ho : OnTerminal env args out)
    (hrows : TheRows g.table (RowTouched args.area args.invert) rows) (hne : rows ≠ []) :
    HasLine out ("\rQuerying mapblocks... ".toList ++ Nat.toDigits 10 rows.length ++ " found.".toList) ∧
    ∃ secs, HasLine out (progressLine 25 1000 (fmtDuration secs) "00:00".toList) :=
  C112_all env args t g.table w out _ rows (by rw [hc]; decide) h ho
    (C58_overlay_partial env args t w p g hgs hc hp hgf hv hoff h) hrows hne

/-- `overlay` with an offset: the blocks of the main map. -/
theorem C112_overlay_offset_partial (env : Env) (args : InstArgs) (t : Table) (w : World) (p : String) (g : DbFile)
    (o : Vec3) (out : List Char) (rows : Table) (hg : GoodTable t) (hc : args.command = "overlay")
    (hp : args.inputMapPath = some p)
    (hgf : mapFile env p = some g) (hv : ∀ a, args.area = some a → a.isValid = true)
    (hoff : args.offset = some o) (hz : o ≠ ⟨0, 0, 0⟩)
    (h : EndsWell env args t w) (ho : OnTerminal env args out)
    (hrows : TheRows t (RowTouched (args.area.map fun a => a.add o) false) rows) (hne : rows ≠ []) :
    HasLine out ("\rQuerying mapblocks... ".toList ++ Nat.toDigits 10 rows.length ++ " found.".toList) ∧
    ∃ secs, HasLine out (progressLine 25 1000 (fmtDuration secs) "00:00".toList) :=
  C112_all env args t t w out _ rows (by rw [hc]; decide) h ho
    (C58_overlay_offset_partial env args t w p g o hg hc hp hgf hv hoff hz h) hrows hne

/-! ## There is such a terminal -/

theorem reach_worker {acts : List Act} (todo : List Act) {s : State} {v : Status} (h : Reach acts s)
    (h1 : s.todo = todo) (h2 : s.worker = .outside) (h3 : s.holder = none) (h4 : s.ui = .waiting)
    (h5 : s.value = some v) : ∃ s', Reach acts s' ∧ s'.queue = s.queue ++ tells todo ∧ s'.turns = s.turns ∧
      s'.holder = none ∧ s'.ui = .waiting ∧ s'.value = some (after v todo) := by
  induction todo generalizing s v with
  | nil => exact ⟨s, h, (List.append_nil _).symm, rfl, h3, h4, h5⟩
  | cons a t ih =>
    cases a with
    | tell e =>
      have e1 : Shared.step .worker s = some { s with todo := t, queue := s.queue ++ [e] } := by
        simp only [Shared.step, Shared.workerStep, h1]
      obtain ⟨s', g1, g2, g3, g4⟩ := ih (.step .worker h e1) rfl h2 h3 h4 h5
      exact ⟨s', g1, g2.trans (List.append_assoc _ [e] _), g3, g4⟩
    | count x =>
      have e1 : Shared.step .worker s = some { s with worker := .locked, holder := some .worker } := by
        simp only [Shared.step, Shared.workerStep, h1, h2, h3, if_pos]
      have r1 := Shared.Reach.step .worker h e1
      have r2 := Shared.Reach.step (s' := { s with worker := .writing, holder := some .worker, value := none }) .worker r1
        (by simp only [Shared.step, Shared.workerStep, h1])
      have r3 := Shared.Reach.step (s' := { s with worker := .written, holder := some .worker, value := some x }) .worker r2
        (by simp only [Shared.step, Shared.workerStep, h1])
      have r4 := Shared.Reach.step (s' := { s with worker := .outside, holder := none, value := some x, todo := t }) .worker r3
        (by simp only [Shared.step, Shared.workerStep, h1])
      exact ih (s := { s with worker := .outside, holder := none, value := some x, todo := t }) r4 rfl rfl rfl h4 rfl

/-- The loop receives these events at time 0 and always reads `F`. -/
def play (F : Status) (u : Ui) (es : List Event) : Res Ui := es.foldlM (fun u e => u.step ⟨0, .event e, F, 0, []⟩) u

theorem reach_ui {acts : List Act} {F : Status} {t0 : Nat} (q : List Event) {s : State} {u v : Ui}
    (h : Reach acts s) (h1 : s.queue = q) (h3 : s.holder = none) (h4 : s.ui = .waiting)
    (h5 : s.value = some F) (hp : Plays t0 s.turns u) (hv : play F u q = .ok v) :
    ∃ s', Reach acts s' ∧ Shared.events s'.turns = Shared.events s.turns ++ q ∧ Plays t0 s'.turns v := by
  induction q generalizing s u with
  | nil =>
    cases hv
    exact ⟨s, h, (List.append_nil _).symm, hp⟩
  | cons e q ih =>
    have r1 := Shared.Reach.step (s' := { s with ui := .turn, queue := q, turns := s.turns ++ [⟨.event e, none⟩] }) .ui h
      (by simp only [Shared.step, Shared.uiStep, h4, h1])
    have r2 := Shared.Reach.step (s' := { s with ui := .locked, holder := some .ui, queue := q, turns := s.turns ++ [⟨.event e, none⟩] })
      .ui r1 (by simp only [Shared.step, Shared.uiStep, h3, if_pos])
    have r3 := Shared.Reach.step (s' := { s with ui := .copied, holder := some .ui, queue := q, turns := s.turns ++ [⟨.event e, some (some F)⟩] })
      .ui r2 (by simp only [Shared.step, Shared.uiStep, List.getLast?_append, List.getLast?_singleton, Option.some_or,
            List.dropLast_concat, h5])
    have r4 := Shared.Reach.step (s' := { s with ui := .waiting, holder := none, queue := q, turns := s.turns ++ [⟨.event e, some (some F)⟩] })
      .ui r3 (by simp only [Shared.step, Shared.uiStep])
    unfold play at hv
    rw [List.foldlM_cons] at hv
    cases hx : u.step ⟨0, .event e, F, 0, []⟩ with
    | error x =>
      rw [hx] at hv
      cases hv
    | ok x =>
      rw [hx] at hv
      obtain ⟨s', g1, g2, g3⟩ := ih r4 rfl rfl rfl h5
        (.turn (t := ⟨.event e, some (some F)⟩) (k := ⟨0, .event e, F, 0, []⟩) hp rfl (fun _ => rfl) hx) hv
      refine ⟨s', g1, ?_, g3⟩
      rw [g2, events_snoc, List.append_assoc]
      rfl

theorem after_mem (s : Status) (l : List Act) : after s l ∈ s :: counts l := by
  induction l generalizing s with
  | nil => exact List.mem_singleton.2 rfl
  | cons a t ih =>
    cases a with
    | count v => exact List.mem_cons_of_mem _ (ih v)
    | tell e => exact ih s

/-- One order: first the compute thread does everything, then the user interface receives it. -/
theorem played (env : Env) (args : InstArgs) (u : Ui)
    (h : play (worker env args World.start).2.status (Ui.init 0) (worker env args World.start).2.events = .ok u) :
    OnTerminal env args u.out := by
  obtain ⟨a1, a2, a3⟩ := C112_acts env args
  obtain ⟨s, g1, g2, g3, g4, g5, g6⟩ := reach_worker (worker env args World.start).2.acts (v := {})
    (.init (acts := (worker env args World.start).2.acts)) rfl rfl rfl rfl rfl
  rw [a3] at g6
  have g2 : s.queue = (worker env args World.start).2.events := g2.trans ((List.nil_append _).trans a1)
  obtain ⟨s', k1, k2, k3⟩ := reach_ui (t0 := 0) _ g1 g2 g4 g5 g6 (by rw [g3]; exact .init) h
  rw [g3] at k2
  exact ⟨0, s', u, k1, k2.trans (List.nil_append _), k3, rfl⟩

/-- Every run can be watched to its end. -/
theorem C112_possible (env : Env) (args : InstArgs)
    (h : (worker env args World.start).2.status.total < 2 ^ 64) : ∃ out, OnTerminal env args out := by
  obtain ⟨a1, a2, a3⟩ := C112_acts env args
  have : ∀ (es : List Event) (u : Ui), ∃ v, play (worker env args World.start).2.status u es = .ok v := by
    intro es
    induction es with
    | nil => exact fun u => ⟨u, rfl⟩
    | cons e es ih =>
      intro u
      obtain ⟨v, hv⟩ := C76_no_panic env args u ⟨0, .event e, (worker env args World.start).2.status, 0, []⟩
        (by rw [← a2, ← a3]; exact after_mem _ _) h (by show 0 < 10 ^ 9 * 2 ^ 58; decide)
      obtain ⟨x, hx⟩ := ih v
      refine ⟨x, ?_⟩
      unfold play
      rw [List.foldlM_cons, hv]
      exact hx
  obtain ⟨u, hu⟩ := this _ (Ui.init 0)
  exact ⟨_, played env args u hu⟩

/-- A map of one block that cannot be read: `deletetimers` skips it, and still says that all is done. -/
example : ∃ w out, EndsWell (editEnv [(0, [30])]) (runArgs false "deletetimers" "map" none) [(0, [30])] w ∧
    OnTerminal (editEnv [(0, [30])]) (runArgs false "deletetimers" "map" none) out ∧
    HasLine out "\rQuerying mapblocks... 1 found.".toList ∧
    ∃ secs, HasLine out (progressLine 25 1000 (fmtDuration secs) "00:00".toList) := by
  have h : EndsWell (editEnv [(0, [30])]) (runArgs false "deletetimers" "map" none) [(0, [30])] _ :=
    ⟨_, _, rfl, rfl, rfl, by decide, rfl⟩
  have ho := played (editEnv [(0, [30])]) (runArgs false "deletetimers" "map" none) _ rfl
  have hr : TheRows [(0, [30])] (fun r => RowTouched none false r ∧
      Mentions (searchNames (runArgs false "deletetimers" "map" none)) r.2) [(0, [30])] := by
    refine ⟨List.Sublist.refl _, fun r => ⟨fun hr => ⟨hr, ?_⟩, fun hr => hr.1⟩⟩
    rw [List.mem_singleton] at hr
    subst hr
    exact ⟨⟨⟨0, 0, 0⟩, by unfold ValidBlockPos; decide, rfl, ⟨1, 0, 0⟩, by unfold InBlock; decide, trivial⟩, .inl rfl⟩
  obtain ⟨h1, h2⟩ := C112_edit_partial _ _ _ _ _ [(0, [30])] ⟨by decide, by decide⟩ (fun a h => by cases h) (by decide) (by decide) h ho hr
    (by decide)
  exact ⟨_, _, h, ho, h1, h2⟩

/-! ## Where it fails -/

theorem bars_of_line {out e r : List Char} (h : HasLine out (progressLine 25 1000 e r)) : '=' ∈ out := by
  obtain ⟨a, b, rfl⟩ := h
  unfold progressLine
  simp

/-- Nothing is selected: the last line says 0.0%. -/
theorem C112_none_false : ∃ (env : Env) (args : InstArgs) (t : Table) (w : World) (out : List Char),
    EnvOk env ∧ (∀ n, env.fail n = false) ∧ GoodTable t ∧ args.command = "deletetimers" ∧
    EndsWell env args t w ∧ OnTerminal env args out ∧ ¬ ∃ e r, HasLine out (progressLine 25 1000 e r) := by
  refine ⟨editEnv [], runArgs false "deletetimers" "map" none, [], _, _, editEnv_ok _, fun _ => rfl,
    ⟨by decide, by decide⟩, rfl, ⟨_, _, rfl, rfl, rfl, by decide, rfl⟩, played _ _ _ rfl, ?_⟩
  rintro ⟨e, r, h⟩
  exact absurd (bars_of_line h) (by decide +kernel)

/-- `replacenodes` meets a block it cannot read: the last line does not say 100.0%. -/
theorem C112_replacenodes_false : ∃ (env : Env) (args : InstArgs) (t : Table) (w : World) (out : List Char),
    EnvOk env ∧ (∀ n, env.fail n = false) ∧ GoodTable t ∧ args.command = "replacenodes" ∧
    EndsWell env args t w ∧ 0 < w.status.total ∧ OnTerminal env args out ∧
    ¬ ∃ e r, HasLine out (progressLine 25 1000 e r) := by
  refine ⟨editEnv [(0, [30])], { runArgs false "replacenodes" "map" none with
    node := some "air", newNode := some "ignore" }, [(0, [30])], _, _, editEnv_ok _, fun _ => rfl,
    ⟨by decide, by decide⟩, rfl, ⟨_, _, rfl, rfl, rfl, by decide, rfl⟩, by decide, played _ _ _ rfl, ?_⟩
  rintro ⟨e, r, h⟩
  exact absurd (bars_of_line h) (by decide +kernel)

end MapEditr
