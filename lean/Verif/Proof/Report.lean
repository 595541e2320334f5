import Verif.Proof.Threads
/-! # Lemmas: what a run says, and the stage it ends in -/

namespace MapEditr
open Spec

/-! ## Messages and states -/

/-- More events are sent, all as `P` says, and the state is the one announced last. -/
def Sends (P : Event → Prop) (w : World) (_ : Bool) (w' : World) : Prop :=
  ∃ es, w'.events = w.events ++ es ∧ (∀ e ∈ es, P e) ∧ w'.status.state = lastState es w.status.state

theorem lastState_append (a b : List Event) (s : InstState) :
    lastState (a ++ b) s = lastState b (lastState a s) := by
  unfold lastState
  rw [List.foldl_append]

theorem sends_same {P : Event → Prop} {m : Run α}
    (h : ∀ w, (m w).2.events = w.events ∧ (m w).2.status.state = w.status.state) : Inv (Sends P) m := fun w =>
  ⟨[], by rw [(h w).1, List.append_nil], by simp, (h w).2⟩

theorem sends_trans {P : Event → Prop} {w w1 w2 : World} {a b c : Bool} (h : Sends P w a w1)
    (h' : Sends P w1 b w2) : Sends P w c w2 := by
  obtain ⟨e1, h1, h2, h3⟩ := h
  obtain ⟨e2, h4, h5, h6⟩ := h'
  refine ⟨e1 ++ e2, by rw [h4, h1, List.append_assoc], ?_, by rw [h6, h3, lastState_append]⟩
  intro e he
  rcases List.mem_append.1 he with he | he
  · exact h2 e he
  · exact h5 e he

theorem sends_mono {P P' : Event → Prop} {w w' : World} {b b' : Bool} (h : Sends P w b w')
    (hp : ∀ e, P e → P' e) : Sends P' w b' w' := by
  obtain ⟨es, h1, h2, h3⟩ := h
  exact ⟨es, h1, fun e he => hp e (h2 e he), h3⟩

section
variable {P : Event → Prop} {env : Env}

theorem sends_bind {m : Run α} {f : α → Run β} (hm : Inv (Sends P) m) (hf : ∀ a, Inv (Sends P) (f a)) :
    Inv (Sends P) (m >>= f) := by
  intro w
  have h := hm w
  rw [run_bind]
  rcases h1 : m w with ⟨r, w1⟩
  rw [h1] at h
  cases r with
  | error e => exact h
  | ok a => exact sends_trans h (hf a w1)

theorem sends_ite (c : Prop) [Decidable c] {m m' : Run α} (h : Inv (Sends P) m) (h' : Inv (Sends P) m') :
    Inv (Sends P) (if c then m else m') := by split <;> assumption

theorem sends_pure (a : α) : Inv (Sends P) (pure a : Run α) := sends_same fun _ => ⟨rfl, rfl⟩

theorem sends_exec {i : DbId} {s : Sql} : Inv (Sends P) (exec env i s) := sends_same fun w => by
  unfold exec
  split
  · exact ⟨rfl, rfl⟩
  · split
    · exact ⟨rfl, rfl⟩
    · split
      · exact ⟨failed_events _ _ _ _, congrArg Status.state (failed_status _ _ _ _)⟩
      · exact ⟨rfl, rfl⟩

theorem sends_theDb (i : DbId) : Inv (Sends P) (theDb i) := sends_same fun w => by
  unfold theDb; split <;> exact ⟨rfl, rfl⟩

theorem sends_setFlag (i : DbId) (v : Bool) : Inv (Sends P) (setFlag i v) :=
  sends_bind (sends_theDb i) fun _ => sends_same fun _ => ⟨rfl, rfl⟩

theorem sends_begin {i : DbId} : Inv (Sends P) (beginIfNeeded env i) :=
  sends_bind (sends_theDb i) fun _ => sends_ite _ sends_exec (sends_pure _)

theorem sends_getBlock {i : DbId} {k : Int} : Inv (Sends P) (getBlock env i k) := by
  unfold getBlock
  refine sends_bind sends_begin fun _ => sends_ite _ (sends_bind sends_exec fun _ => sends_ite _
    (sends_bind (sends_theDb i) fun m => ?_) (sends_pure _)) (sends_pure _)
  split <;> exact sends_pure _

theorem sends_frame (env : Env) (hP : ∀ e, CmdEvent e → P e) : CopyFrame env (Sends P) where
  quiet := fun _ _ _ _ _ ⟨es, h, h', h''⟩ => ⟨es, h, fun e he => hP e (h' e he), h''⟩
  trans := fun _ _ _ _ h h' => sends_trans h h'
  get := fun i k => sends_bind sends_getBlock fun _ => sends_same fun _ => ⟨rfl, rfl⟩
  rows := fun i => by
    unfold iterRows
    exact sends_bind sends_begin fun _ => sends_ite _ (sends_bind sends_exec fun _ => sends_ite _
      (sends_bind (sends_theDb i) fun m => sends_pure _) (sends_same fun _ => ⟨rfl, rfl⟩)) (sends_same fun _ => ⟨rfl, rfl⟩)
  put := fun k d => by
    refine sends_bind ?_ fun _ => sends_same fun _ => ⟨rfl, rfl⟩
    unfold setBlock
    exact sends_bind sends_begin fun _ => sends_ite _ (sends_bind sends_exec fun _ => sends_ite _
      (sends_pure _) (sends_pure _)) (sends_pure _)
  del := fun k => by
    refine sends_bind ?_ fun _ => sends_same fun _ => ⟨rfl, rfl⟩
    unfold deleteBlock
    exact sends_bind sends_begin fun _ => sends_ite _ (sends_bind sends_exec fun _ => sends_ite _
      (sends_pure _) (sends_pure _)) (sends_pure _)
  gen := fun i k => by
    unfold getGenerated
    refine sends_bind sends_getBlock fun r => ?_
    split <;> exact sends_pure _

theorem sends_log {t : LogType} {m : Msg} (h : P (.log t m)) : Inv (Sends P) (log t m) := fun _ =>
  ⟨[.log t m], rfl, by simpa using h, rfl⟩

theorem sends_setState {s : InstState} (h : P (.newState s)) : Inv (Sends P) (setState s) := fun _ =>
  ⟨[.newState s], rfl, by simpa using h, rfl⟩

theorem sends_commit {i : DbId} : Inv (Sends P) (commitIfNeeded env i) := by
  unfold commitIfNeeded
  exact sends_bind (sends_theDb _) fun _ => sends_ite _ (sends_bind sends_exec fun _ => sends_ite _
    (sends_bind (sends_setFlag _ _) fun _ => sends_pure _) (sends_pure _)) (sends_pure _)

theorem sends_openK {i : DbId} {path e1 e2 : String} {k : Run (Except String β)}
    (hk : Inv (Sends P) k) : Inv (Sends P) (openK env i path e1 e2 k) := by
  unfold openK
  refine sends_bind (sends_same fun w => ?_) fun _ => sends_ite _ (sends_pure _) (sends_bind ?_ fun r => ?_)
  · unfold openMap
    split
    · exact ⟨rfl, rfl⟩
    · split <;> exact ⟨rfl, rfl⟩
  · unfold MapDb.new verifyDatabase
    refine sends_bind sends_exec fun _ => sends_ite _ (sends_bind ?_ fun r => ?_) (sends_pure _)
    · exact sends_bind sends_exec fun _ => sends_ite _ (sends_bind (sends_theDb i) fun _ => sends_ite _ (sends_pure _)
        (sends_pure _)) (sends_pure _)
    · cases r with
      | error e => exact sends_pure _
      | ok u => exact (sends_bind sends_exec fun _ => sends_ite _ (sends_bind (sends_setFlag _ _) fun _ => sends_pure _)
          (sends_pure _))
  · cases r with
    | error e => exact sends_pure _
    | ok u => exact hk

theorem sends_setup {args : InstArgs} : Inv (Sends P) (setup env args) := by
  rw [setup_eq]
  split
  · exact sends_pure _
  · refine sends_bind (sends_same fun _ => ⟨rfl, rfl⟩) fun cmd => sends_bind (sends_same fun _ => ⟨rfl, rfl⟩) fun res => ?_
    have h : ∀ r : Command × Option String, Inv (Sends P) (openAll env args r) := by
      intro r
      unfold openAll
      refine sends_openK ?_
      split
      · exact sends_pure _
      · exact sends_openK (sends_pure _)
    cases res with
    | error e => exact sends_pure _
    | ok => exact h _
    | warning t => exact h _

end

/-- What the body of any command sends. -/
def BodyEvent (name : String) (e : Event) : Prop :=
  CmdEvent e ∨ (name = "vacuum" ∧ (e = .log .info (.text "Starting vacuum.") ∨
    e = .log .info (.text "Completed vacuum.") ∨ e = .log .error (.text "Vacuum failed: database operation failed.")))

theorem sends_vacuum {env : Env} : Inv (Sends (BodyEvent "vacuum")) (vacuum env) := by
  unfold vacuum
  refine sends_bind (sends_log (.inr ⟨rfl, .inl rfl⟩)) fun _ => sends_bind (sends_same fun _ => ⟨rfl, rfl⟩) fun _ =>
    sends_bind (sends_setState (.inl (.inl ⟨_, rfl⟩))) fun _ => sends_bind ?_ fun r =>
    sends_bind (sends_setState (.inl (.inl ⟨_, rfl⟩))) fun _ => ?_
  · unfold dbVacuum
    exact sends_bind sends_commit fun _ => sends_ite _ (sends_bind sends_exec fun _ => sends_ite _ (sends_pure _)
      (sends_pure _)) (sends_pure _)
  · cases r
    · exact sends_log (.inr ⟨rfl, .inr (.inr rfl)⟩)
    · exact sends_log (.inr ⟨rfl, .inr (.inl rfl)⟩)

theorem vacuum_func {cmd : Command} (h : command? "vacuum" = some cmd) (env : Env) (args : InstArgs) :
    cmd.func env args = vacuum env := by
  have h' : command? "vacuum" = some ⟨fun env _ => vacuum env, fun _ => .ok .ok, []⟩ := rfl
  rw [h'] at h
  rw [← Option.some.inj h]

theorem sends_command {env : Env} {name : String} {cmd : Command} (h : command? name = some cmd) (args : InstArgs) :
    Inv (Sends (BodyEvent name)) (cmd.func env args) := by
  by_cases hv : name = "vacuum"
  · subst hv
    rw [vacuum_func h]
    exact sends_vacuum
  · exact inv_command (sends_frame env fun _ h => .inl h) h hv args

/-! ## The last stage has ended -/

/-- If it ends normally, no stage goes on. -/
def Ends (m : Run α) : Prop := ∀ w a w', m w = (.ok a, w') → w'.status.state = .ignore

theorem ends_bind {m : Run α} {f : α → Run β} (h : ∀ a, Ends (f a)) : Ends (m >>= f) := by
  intro w b w' e
  rw [run_bind_iff] at e
  obtain ⟨a, w1, -, e2⟩ := e
  exact h a _ _ _ e2

theorem ends_end {f : Run α} (h : ∀ w, (f w).2.status.state = w.status.state) :
    Ends (endEditing >>= fun _ => f) := by
  intro w a w' e
  rw [run_bind_iff] at e
  obtain ⟨u, w1, e1, e2⟩ := e
  have h2 := h w1
  rw [e2] at h2
  rw [h2]
  cases e1
  rfl

theorem ends_endEditing : Ends endEditing := by
  intro w a w' e
  cases e
  rfl

theorem ends_logEnd {m : Msg} : Ends (endEditing >>= fun _ => logInfo m) := ends_end fun _ => rfl

/-- Splits off steps until the end of a stage is at the front. -/
macro "ends" : tactic => `(tactic| repeat (first
  | exact ends_endEditing | exact ends_logEnd | refine ends_end (fun _ => rfl) | split | refine ends_bind fun _ => ?_))

theorem ends_command {env : Env} {name : String} {cmd : Command} (h : command? name = some cmd) (args : InstArgs) :
    Ends (cmd.func env args) := by
  unfold command? at h
  rw [Option.map_eq_some_iff] at h
  obtain ⟨⟨n, c⟩, h1, rfl⟩ := h
  have hn := List.find?_some h1
  have hm := List.mem_of_find?_eq_some h1
  simp only [beq_iff_eq] at hn
  subst hn
  unfold commands at hm
  simp only [List.mem_cons, List.not_mem_nil, or_false, Prod.mk.injEq] at hm
  rcases hm with ⟨_, rfl⟩ | ⟨_, rfl⟩ | ⟨_, rfl⟩ | ⟨_, rfl⟩ | ⟨_, rfl⟩ | ⟨_, rfl⟩ | ⟨_, rfl⟩ | ⟨_, rfl⟩ |
    ⟨_, rfl⟩ | ⟨_, rfl⟩ | ⟨_, rfl⟩ | ⟨_, rfl⟩
  · simp only; unfold clone; ends
  · simp only; unfold deleteBlocks; ends
  · simp only; unfold deleteMetadata; ends
  · simp only; unfold deleteObjects; ends
  · simp only; unfold deleteTimers; ends
  · simp only; unfold fill; ends
  · simp only; unfold replaceNodes; ends
  · simp only; unfold replaceInInv; ends
  · simp only; unfold overlay overlayNoOffset overlayWithOffset; ends
  · simp only; unfold setMetaVar; ends
  · simp only; unfold setParam2; ends
  · simp only; unfold vacuum; ends

/-! ## From the command to the end -/

/-- Messages only. -/
def IsLog (e : Event) : Prop := ∃ t m, e = .log t m

theorem sends_keeps {w w' : World} {b : Bool} (h : Sends IsLog w b w') : w'.status.state = w.status.state := by
  obtain ⟨es, -, h1, h2⟩ := h
  rw [h2]
  clear h2
  induction es with
  | nil => rfl
  | cons e t ih =>
    obtain ⟨ty, m, rfl⟩ := h1 _ List.mem_cons_self
    exact ih fun e he => h1 e (List.mem_cons_of_mem _ he)

theorem ends_then {m : Run α} {f : α → Run β} (hm : Ends m) (hf : ∀ a, Inv (Sends IsLog) (f a)) :
    Ends (m >>= f) := by
  intro w b w' e
  rw [run_bind_iff] at e
  obtain ⟨a, w1, e1, e2⟩ := e
  have h := hf a w1
  rw [e2] at h
  rw [sends_keeps h]
  exact hm _ _ _ e1

/-- After the command, up to the commit. -/
def saveAll (env : Env) : Run Bool := do
  let fails ← getFailed
  if fails > 0 then logInfo (.count "Skipped {} invalid/unsupported mapblocks." fails)
  let m ← theDb .main
  if m.inTransaction then do
    logInfo (.text "Committing...")
    commitIfNeeded env .main
  else pure true

/-- The end of `finish`. -/
def sayDone (ok : Bool) : Run (Except String Unit) :=
  if ok then do
    logInfo (.text "Done.")
    return .ok ()
  else return .error "database operation failed"

theorem finish_parts (env : Env) (args : InstArgs) (cmd : Command) :
    finish env args cmd = ((cmd.func env args >>= fun _ => saveAll env) >>= sayDone) := by
  unfold finish saveAll
  simp only [run_bind_assoc]
  congr 1; funext _
  congr 1; funext n
  have hm : (do
      let m ← theDb .main
      let ok ←
        if m.inTransaction then do
          logInfo (.text "Committing...")
          commitIfNeeded env .main
        else pure true
      sayDone ok : Run (Except String Unit)) = ((do
      let m ← theDb .main
      if m.inTransaction then do
        logInfo (.text "Committing...")
        commitIfNeeded env .main
      else pure true) >>= sayDone) := by
    rw [run_bind_assoc]
    congr 1; funext m
    split <;> simp only [run_bind_assoc]
  by_cases h : n > 0
  · simp only [h, if_true]
    rw [run_bind_assoc, ← hm]
    rfl
  · simp only [h, if_false]
    rw [← hm]
    rfl

/-- What is sent between the warnings and the end. -/
def MidEvent (name : String) (e : Event) : Prop := BodyEvent name e ∨ e = .log .info (.text "Committing...")

theorem sends_saveAll {env : Env} {P : Event → Prop} (h1 : ∀ n, P (.log .info (.count "Skipped {} invalid/unsupported mapblocks." n)))
    (h2 : P (.log .info (.text "Committing..."))) : Inv (Sends P) (saveAll env) := by
  unfold saveAll
  refine sends_bind (sends_same fun _ => ⟨rfl, rfl⟩) fun n => ?_
  have h : Inv (Sends P) (do
      let m ← theDb .main
      if m.inTransaction then do
        logInfo (.text "Committing...")
        commitIfNeeded env .main
      else pure true) :=
    sends_bind (sends_theDb _) fun m => sends_ite _ (sends_bind (sends_log h2) fun _ => sends_commit) (sends_pure _)
  exact sends_ite _ (sends_bind (sends_log (h1 n)) fun _ => h) h

/-- How `finish` ends, with its messages and its state. -/
theorem finish_says {env : Env} {args : InstArgs} {cmd : Command} (hc : command? args.command = some cmd) (w : World) :
    ∃ es w', (finish env args cmd w).2 = w' ∧ (∀ e ∈ es, MidEvent args.command e) ∧
      ((∃ s, (finish env args cmd w).1 = .error s ∧ w'.events = w.events ++ es ∧
          w'.status.state = lastState es w.status.state) ∨
       ((finish env args cmd w).1 = .ok (.error "database operation failed") ∧ w'.events = w.events ++ es ∧
          w'.status.state = lastState es w.status.state ∧ w'.status.state = .ignore) ∨
       ((finish env args cmd w).1 = .ok (.ok ()) ∧
          w'.events = w.events ++ es ++ [.log .info (.text "Done.")] ∧
          w'.status.state = lastState es w.status.state ∧ w'.status.state = .ignore)) := by
  have hs : Inv (Sends (MidEvent args.command)) (cmd.func env args >>= fun _ => saveAll env) :=
    sends_bind (fun w => sends_mono (sends_command hc args w) fun _ h => .inl h) fun _ =>
      sends_saveAll (fun n => .inl (.inl (.inr ⟨_, rfl, nofun⟩))) (.inr rfl)
  have he : Ends (cmd.func env args >>= fun _ => saveAll env) := ends_then (ends_command hc args) fun _ =>
    sends_saveAll (fun n => ⟨_, _, rfl⟩) ⟨_, _, rfl⟩
  obtain ⟨es, h1, h2, h3⟩ := hs w
  rw [finish_parts]
  cases hr : (cmd.func env args >>= fun _ => saveAll env) w with
  | mk r w1 =>
    rw [hr] at h1 h3
    cases r with
    | error s =>
      rw [run_bind_err hr]
      exact ⟨es, _, rfl, h2, .inl ⟨s, rfl, h1, h3⟩⟩
    | ok ok =>
      rw [run_bind_ok hr]
      refine ⟨es, _, rfl, h2, .inr ?_⟩
      cases ok with
      | false => exact .inl ⟨rfl, h1, h3, he _ _ _ hr⟩
      | true => exact .inr ⟨rfl, by show w1.events ++ _ = _; rw [h1], h3, he _ _ w1 hr⟩

/-! ## The whole run -/

/-- The warning of the command. -/
def Checked (args : InstArgs) (wn : Option String) : Prop :=
  ∃ cmd res, command? args.command = some cmd ∧ cmd.verify args = .ok res ∧ wn = warningOf res

/-- How a run may end, with its messages and the state at the end. -/
inductive Outcome (env : Env) (args : InstArgs) : Res (Except String Unit) → List Event → InstState → Prop
  | refused (e : String) : Outcome env args (.ok (.error e)) [] .ignore
  | broke (s : Stop) : Outcome env args (.error s) [] .ignore
  | declined (wn : Option String) : Checked args wn → args.doConfirmation = true → env.answer ≠ some true →
      Outcome env args (.ok (.ok ())) (preEvents args wn) .ignore
  | died (s : Stop) (wn : Option String) (es : List Event) : Checked args wn →
      (args.doConfirmation = true → env.answer = some true) → (∀ e ∈ es, MidEvent args.command e) →
      Outcome env args (.error s) (preEvents args wn ++ es) (lastState es .ignore)
  | unsaved (wn : Option String) (es : List Event) : Checked args wn →
      (args.doConfirmation = true → env.answer = some true) → (∀ e ∈ es, MidEvent args.command e) →
      lastState es .ignore = .ignore →
      Outcome env args (.ok (.error "database operation failed")) (preEvents args wn ++ es) .ignore
  | done (wn : Option String) (es : List Event) : Checked args wn →
      (args.doConfirmation = true → env.answer = some true) → (∀ e ∈ es, MidEvent args.command e) →
      lastState es .ignore = .ignore →
      Outcome env args (.ok (.ok ())) (preEvents args wn ++ es ++ [.log .info (.text "Done.")]) .ignore

theorem run_outcome (env : Env) (args : InstArgs) :
    Outcome env args (computeThread env args World.start).1 (computeThread env args World.start).2.events
      (computeThread env args World.start).2.status.state := by
  obtain ⟨es, h1, h2, h3⟩ := sends_setup (P := fun _ => False) (env := env) (args := args) World.start
  have h4 : es = [] := List.eq_nil_iff_forall_not_mem.2 h2
  subst h4
  rw [computeThread_eq]
  cases hr : setup env args World.start with
  | mk r w =>
    rw [hr] at h1 h3
    have h1 : w.events = [] := h1
    have h3 : w.status.state = .ignore := h3
    cases r with
    | error s =>
      rw [run_bind_err hr, h1, h3]
      exact .broke s
    | ok r =>
      rw [run_bind_ok hr]
      cases r with
      | error e =>
        show Outcome env args (.ok (.error e)) w.events w.status.state
        rw [h1, h3]
        exact .refused e
      | ok r =>
        obtain ⟨cmd, wn⟩ := r
        obtain ⟨-, hc, ⟨res, a3, -, a5⟩, -⟩ := setup_iff.1 hr
        have hk : Checked args wn := ⟨cmd, res, hc, a3, a5⟩
        simp only
        rw [runCommand_eq]
        split
        · rename_i hd
          show Outcome env args (.ok (.ok ())) (w.events ++ _) w.status.state
          rw [h1, h3]
          exact .declined wn hk hd.1 hd.2
        · rename_i hd
          have hd : args.doConfirmation = true → env.answer = some true := by
            intro h
            exact Decidable.byContradiction fun h' => hd ⟨h, h'⟩
          obtain ⟨es, w', rfl, b1, b2⟩ := finish_says (env := env) hc (w.say (preEvents args wn))
          have e1 : (w.say (preEvents args wn)).events = preEvents args wn := by
            show w.events ++ _ = _
            rw [h1]
            rfl
          have e2 : (w.say (preEvents args wn)).status.state = .ignore := h3
          rw [e1, e2] at b2
          rcases b2 with ⟨s, c1, c2, c3⟩ | ⟨c1, c2, c3, c4⟩ | ⟨c1, c2, c3, c4⟩
          · rw [c1, c2, c3]
            exact .died s wn es hk hd b1
          · rw [c1, c2, c4]
            exact .unsaved wn es hk hd b1 (c3.symm.trans c4)
          · rw [c1, c2, c4]
            exact .done wn es hk hd b1 (c3.symm.trans c4)

/-! ## `vacuum` -/

/-- What `vacuum` says. -/
def vacStart : Event := .log .info (.text "Starting vacuum.")
def vacDone : Event := .log .info (.text "Completed vacuum.")
def vacFailed : Event := .log .error (.text "Vacuum failed: database operation failed.")

/-- The three ways the database operation may go. -/
theorem dbVacuum_run {env : Env} {w : World} {dur cur : Table} {cols : List Col} (h : OpenAt w .main dur cur cols) :
    ∃ r w', dbVacuum env .main w = (.ok r, w') ∧ w'.events = w.events ∧
      ((r = .error .databaseError ∧ ∃ l, (l = [] ∨ l = [undone]) ∧ w'.trace = w.trace ++ ⟨.main, .commit, false⟩ :: l) ∨
       (r = .error .databaseError ∧ w'.trace = w.trace ++ [⟨.main, .commit, true⟩, ⟨.main, .vacuum, false⟩]) ∨
       (r = .ok () ∧ w'.trace = w.trace ++ [⟨.main, .commit, true⟩, ⟨.main, .vacuum, true⟩])) := by
  have h1 : theDb .main w = (.ok ⟨⟨dur, cur, true, cols⟩, true⟩, w) := by unfold theDb; rw [h]
  unfold dbVacuum commitIfNeeded
  rw [run_bind_assoc, run_bind_ok h1]
  simp only [if_true]
  let w1 := (w.setDb .main ⟨⟨cur, cur, false, cols⟩, true⟩).did .main .commit true
  let w2 := w1.setDb .main ⟨⟨cur, cur, false, cols⟩, false⟩
  cases hf : env.fail w.trace.length with
  | true =>
    have h2 : exec env .main .commit w = (.ok false, w.failed env .main .commit) := by
      unfold exec; rw [h]; simp [hf, Conn.refuses]
    rw [run_bind_assoc, run_bind_ok h2]
    obtain ⟨l, h3, h4⟩ := failed_trace w env .main .commit
    exact ⟨_, _, rfl, failed_events _ _ _ _, .inl ⟨rfl, l, h4.imp_right (·.2), h3⟩⟩
  | false =>
    have h2 : exec env .main .commit w = (.ok true, w1) := by
      unfold exec; rw [h]; simp only [hf]; rfl
    rw [run_bind_assoc, run_bind_ok h2]
    cases hg : env.fail (w.trace.length + 1) with
    | true =>
      refine ⟨.error .databaseError, w2.did .main .vacuum false, ?_, rfl, .inr (.inl ⟨rfl, ?_⟩)⟩
      · have h3 : exec env .main .vacuum w2 = (.ok false, w2.did .main .vacuum false) := by
          unfold exec; simp [w2, w1, World.setDb, World.did, World.failed, hg, Conn.refuses]
        show (exec env .main .vacuum >>= _) _ = _
        rw [run_bind_ok h3]; rfl
      · simp [w2, w1, World.setDb, World.did]
    | false =>
      refine ⟨.ok (), (w2.setDb .main ⟨⟨cur, cur, false, cols⟩, false⟩).did .main .vacuum true, ?_, rfl, .inr (.inr ⟨rfl, ?_⟩)⟩
      · have h3 : exec env .main .vacuum w2 = (.ok true, (w2.setDb .main ⟨⟨cur, cur, false, cols⟩, false⟩).did .main .vacuum true) := by
          unfold exec; simp [w2, w1, World.setDb, World.did, hg, Conn.refuses, Conn.step]
        show (exec env .main .vacuum >>= _) _ = _
        rw [run_bind_ok h3]; rfl
      · simp [w2, w1, World.setDb, World.did]

/-- The three ways `vacuum` may go. -/
theorem vacuum_run {env : Env} {w : World} {dur cur : Table} {cols : List Col} (h : OpenAt w .main dur cur cols) :
    ∃ w', vacuum env w = (.ok (), w') ∧
      ((∃ l, (l = [] ∨ l = [undone]) ∧ w'.trace = w.trace ++ ⟨.main, .commit, false⟩ :: l ∧
          w'.events = w.events ++ [vacStart, .newState .editing, .newState .ignore, vacFailed]) ∨
       (w'.trace = w.trace ++ [⟨.main, .commit, true⟩, ⟨.main, .vacuum, false⟩] ∧
          w'.events = w.events ++ [vacStart, .newState .editing, .newState .ignore, vacFailed]) ∨
       (w'.trace = w.trace ++ [⟨.main, .commit, true⟩, ⟨.main, .vacuum, true⟩] ∧
          w'.events = w.events ++ [vacStart, .newState .editing, .newState .ignore, vacDone])) := by
  unfold vacuum
  obtain ⟨w1, h1, h1e, h1t, h1d⟩ : ∃ w1, (∀ {β : Type} (f : Unit → Run β), (logInfo (.text "Starting vacuum.") >>= fun _ => setShowProgress false >>= fun _ =>
    beginEditing >>= f) w = f () w1) ∧ w1.events = w.events ++ [vacStart, .newState .editing] ∧ w1.trace = w.trace ∧
    w1.dbs = w.dbs := ⟨_, fun _ => rfl, by simp [vacStart], rfl, rfl⟩
  rw [h1]
  have ho : OpenAt w1 .main dur cur cols := by unfold OpenAt; rw [h1d]; exact h
  obtain ⟨r, w2, h2, h2e, h3⟩ := dbVacuum_run (env := env) ho
  rw [run_bind_ok h2]
  rw [h1t] at h3
  rcases h3 with ⟨rfl, l, hl, h3⟩ | ⟨rfl, h3⟩ | ⟨rfl, h3⟩
  · exact ⟨_, rfl, .inl ⟨l, hl, h3, by show (w2.events ++ _) ++ _ = _; rw [h2e, h1e]; simp [vacFailed]⟩⟩
  · exact ⟨_, rfl, .inr (.inl ⟨h3, by show (w2.events ++ _) ++ _ = _; rw [h2e, h1e]; simp [vacFailed]⟩)⟩
  · exact ⟨_, rfl, .inr (.inr ⟨h3, by show (w2.events ++ _) ++ _ = _; rw [h2e, h1e]; simp [vacDone]⟩)⟩

end MapEditr
