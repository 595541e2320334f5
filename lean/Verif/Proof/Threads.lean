import Verif.Spec.Threads
import Verif.Proof.Instance
/-! # Lemmas: the two threads -/

namespace MapEditr
open Spec

/-! ## What the compute thread does -/

/-- Only sends, and no question. -/
def Plain : Prog → Prop
  | .ret _ => True
  | .panic => True
  | .send e k => e ≠ .confirmRequest ∧ Plain k
  | .recv _ => False
  | .start _ => False

/-- Waits for an answer, and calls the command only after "yes". -/
def Asks : Prog → Prop
  | .recv f => ∀ r, (r = some true → ∃ k, f r = .start k ∧ Plain k) ∧ (r ≠ some true → f r = .ret none)
  | _ => False

/-- Before the question. -/
def Ready (conf : Bool) : Prog → Prop
  | .ret _ => True
  | .panic => True
  | .send e k => (e ≠ .confirmRequest ∧ Ready conf k) ∨ (e = .confirmRequest ∧ conf = true ∧ Asks k)
  | .start k => conf = false ∧ Plain k
  | .recv _ => False

theorem plain_sendAll {es : List Event} {k : Prog} (h : .confirmRequest ∉ es) (hk : Plain k) :
    Plain (sendAll es k) := by
  induction es with
  | nil => exact hk
  | cons e t ih =>
    rw [List.mem_cons, not_or] at h
    exact ⟨fun e => h.1 e.symm, ih h.2⟩

theorem ready_sendAll {conf : Bool} {es : List Event} {k : Prog} (h : .confirmRequest ∉ es) (hk : Ready conf k) :
    Ready conf (sendAll es k) := by
  induction es with
  | nil => exact hk
  | cons e t ih =>
    rw [List.mem_cons, not_or] at h
    exact .inl ⟨fun e => h.1 e.symm, ih h.2⟩

/-- More events are sent, but no question. -/
def Says (w : World) (_ : Bool) (w' : World) : Prop := ∃ es, w'.events = w.events ++ es ∧ .confirmRequest ∉ es

theorem says_same {m : Run α} (h : ∀ w, (m w).2.events = w.events) : Inv Says m := fun w =>
  ⟨[], by rw [h w, List.append_nil], by simp⟩

theorem says_trans {w w1 w2 : World} {a b c : Bool} (h : Says w a w1) (h' : Says w1 b w2) : Says w c w2 := by
  obtain ⟨e1, h1, h2⟩ := h
  obtain ⟨e2, h3, h4⟩ := h'
  exact ⟨e1 ++ e2, by rw [h3, h1, List.append_assoc], by simp [h2, h4]⟩

theorem says_bind {m : Run α} {f : α → Run β} (hm : Inv Says m) (hf : ∀ a, Inv Says (f a)) :
    Inv Says (m >>= f) := by
  intro w
  have h := hm w
  rw [run_bind]
  rcases h1 : m w with ⟨r, w1⟩
  rw [h1] at h
  cases r with
  | error e => exact h
  | ok a => exact says_trans h (hf a w1)

theorem says_ite (c : Prop) [Decidable c] {m m' : Run α} (h : Inv Says m) (h' : Inv Says m') :
    Inv Says (if c then m else m') := by split <;> assumption

theorem says_pure (a : α) : Inv Says (pure a : Run α) := says_same fun _ => rfl

theorem says_exec {env : Env} {i : DbId} {s : Sql} : Inv Says (exec env i s) := says_same fun w => by
  unfold exec
  split
  · rfl
  · split
    · rfl
    · split
      · exact failed_events _ _ _ _
      · rfl

theorem says_theDb (i : DbId) : Inv Says (theDb i) := says_same fun w => by unfold theDb; split <;> rfl

theorem says_setFlag (i : DbId) (v : Bool) : Inv Says (setFlag i v) :=
  says_bind (says_theDb i) fun _ => says_same fun _ => rfl

theorem says_begin {env : Env} {i : DbId} : Inv Says (beginIfNeeded env i) :=
  says_bind (says_theDb i) fun _ => says_ite _ says_exec (says_pure _)

theorem says_getBlock {env : Env} {i : DbId} {k : Int} : Inv Says (getBlock env i k) := by
  unfold getBlock
  refine says_bind says_begin fun _ => says_ite _ (says_bind says_exec fun _ => says_ite _
    (says_bind (says_theDb i) fun m => ?_) (says_pure _)) (says_pure _)
  split <;> exact says_pure _

theorem says_frame (env : Env) : CopyFrame env Says where
  quiet := fun _ _ _ _ _ ⟨es, h, h', _⟩ => ⟨es, h, fun hc => by
    rcases h' _ hc with ⟨s, hs⟩ | ⟨m, hm, _⟩
    · cases hs
    · cases hm⟩
  trans := fun _ _ _ _ h h' => says_trans h h'
  get := fun i k => says_bind says_getBlock fun _ => says_same fun _ => rfl
  rows := fun i => by
    unfold iterRows
    exact says_bind says_begin fun _ => says_ite _ (says_bind says_exec fun _ => says_ite _
      (says_bind (says_theDb i) fun m => says_pure _) (says_same fun _ => rfl)) (says_same fun _ => rfl)
  put := fun k d => by
    refine says_bind ?_ fun _ => says_same fun _ => rfl
    unfold setBlock
    exact says_bind says_begin fun _ => says_ite _ (says_bind says_exec fun _ => says_ite _
      (says_pure _) (says_pure _)) (says_pure _)
  del := fun k => by
    refine says_bind ?_ fun _ => says_same fun _ => rfl
    unfold deleteBlock
    exact says_bind says_begin fun _ => says_ite _ (says_bind says_exec fun _ => says_ite _
      (says_pure _) (says_pure _)) (says_pure _)
  gen := fun i k => by
    unfold getGenerated
    refine says_bind says_getBlock fun r => ?_
    split <;> exact says_pure _

theorem says_log (t : LogType) (m : Msg) : Inv Says (log t m) := fun _ => ⟨[.log t m], rfl, by simp⟩

theorem says_commit {env : Env} {i : DbId} : Inv Says (commitIfNeeded env i) := by
  unfold commitIfNeeded
  exact says_bind (says_theDb _) fun _ => says_ite _ (says_bind says_exec fun _ => says_ite _
    (says_bind (says_setFlag _ _) fun _ => says_pure _) (says_pure _)) (says_pure _)

theorem says_vacuum {env : Env} : Inv Says (vacuum env) := by
  have F := (says_frame env).toFrame
  unfold vacuum
  refine says_bind (says_log _ _) fun _ => says_bind (says_same fun _ => rfl) fun _ =>
    says_bind (inv_beginEditing F) fun _ => says_bind ?_ fun r => says_bind (inv_endEditing F) fun _ => ?_
  · unfold dbVacuum
    exact says_bind says_commit fun _ => says_ite _ (says_bind says_exec fun _ => says_ite _ (says_pure _)
      (says_pure _)) (says_pure _)
  · cases r <;> exact says_log _ _

theorem says_command {env : Env} {name : String} {cmd : Command} (h : command? name = some cmd) (args : InstArgs) :
    Inv Says (cmd.func env args) := by
  by_cases hv : name = "vacuum"
  · subst hv
    have : cmd.func env args = vacuum env := by
      have h' : command? "vacuum" = some ⟨fun env _ => vacuum env, fun _ => .ok .ok, []⟩ := rfl
      rw [h'] at h
      rw [← Option.some.inj h]
    rw [this]
    exact says_vacuum
  · exact inv_command (says_frame env) h hv args

theorem says_finish {env : Env} {args : InstArgs} {cmd : Command} (h : Inv Says (cmd.func env args)) :
    Inv Says (finish env args cmd) := by
  unfold finish
  have hend : ∀ ok : Bool, Inv Says (if ok then do
        logInfo (.text "Done.")
        return .ok ()
      else return .error "database operation failed" : Run (Except String Unit)) := fun ok =>
    says_ite _ (says_bind (says_log _ _) fun _ => says_pure _) (says_pure _)
  refine says_bind h fun _ => says_bind (says_same fun _ => rfl) fun n => ?_
  have hrest : Inv Says (do
      let m ← theDb .main
      let ok ←
        if m.inTransaction then do
          logInfo (.text "Committing...")
          commitIfNeeded env .main
        else pure true
      if ok then
        logInfo (.text "Done.")
        return .ok ()
      else return .error "database operation failed" : Run (Except String Unit)) :=
    says_bind (says_theDb _) fun m => says_ite _ (says_bind (says_log _ _) fun _ =>
      says_bind says_commit hend) (says_bind (says_pure _) hend)
  exact says_ite _ (says_bind (says_log _ _) fun _ => hrest) hrest

theorem says_openK {env : Env} {i : DbId} {path e1 e2 : String} {k : Run (Except String β)}
    (hk : Inv Says k) : Inv Says (openK env i path e1 e2 k) := by
  unfold openK
  refine says_bind (says_same fun w => ?_) fun _ => says_ite _ (says_pure _) (says_bind ?_ fun r => ?_)
  · unfold openMap
    split
    · rfl
    · split <;> rfl
  · unfold MapDb.new verifyDatabase
    refine says_bind says_exec fun _ => says_ite _ (says_bind ?_ fun r => ?_) (says_pure _)
    · exact says_bind says_exec fun _ => says_ite _ (says_bind (says_theDb i) fun _ => says_ite _ (says_pure _)
        (says_pure _)) (says_pure _)
    · cases r with
      | error e => exact says_pure _
      | ok u => exact (says_bind says_exec fun _ => says_ite _ (says_bind (says_setFlag _ _) fun _ => says_pure _)
          (says_pure _))
  · cases r with
    | error e => exact says_pure _
    | ok u => exact hk

theorem says_setup {env : Env} {args : InstArgs} : Inv Says (setup env args) := by
  rw [setup_eq]
  split
  · exact says_pure _
  · refine says_bind (says_same fun _ => rfl) fun cmd => says_bind (says_same fun _ => rfl) fun res => ?_
    have h : ∀ r : Command × Option String, Inv Says (openAll env args r) := by
      intro r
      unfold openAll
      refine says_openK ?_
      split
      · exact says_pure _
      · exact says_openK (says_pure _)
    cases res with
    | error e => exact says_pure _
    | ok => exact h _
    | warning t => exact h _

theorem warnings_not_ask {args : InstArgs} {wn : Option String} : .confirmRequest ∉ warningEvents args wn := by
  unfold warningEvents
  cases args.doConfirmation <;> cases wn <;> simp

theorem setup_command {env : Env} {args : InstArgs} {cmd : Command} {wn : Option String} {w w' : World}
    (h : setup env args w = (.ok (.ok (cmd, wn)), w')) : command? args.command = some cmd := by
  exact (setup_iff.1 h).2.1

theorem bodyProg_shape {env : Env} {args : InstArgs} {cmd : Command} (h : command? args.command = some cmd) (w : World) :
    ∃ k, bodyProg env args cmd w = .start k ∧ Plain k := by
  refine ⟨_, rfl, ?_⟩
  obtain ⟨es, h1, h2⟩ := says_finish (env := env) (says_command h args) w
  rcases hf : finish env args cmd w with ⟨r, w'⟩
  rw [hf] at h1
  simp only at h1 ⊢
  rw [h1, List.drop_left]
  refine plain_sendAll h2 ?_
  split <;> trivial

theorem workerProg_ready (env : Env) (args : InstArgs) : Ready args.doConfirmation (workerProg env args) := by
  unfold workerProg
  have hs := says_setup (env := env) (args := args) World.start
  rcases h : setup env args World.start with ⟨r, w⟩
  rw [h] at hs
  obtain ⟨es, h1, h2⟩ := hs
  change w.events = [] ++ es at h1
  rw [List.nil_append] at h1
  cases r with
  | error e => exact ready_sendAll (by rw [h1]; exact h2) trivial
  | ok r =>
    cases r with
    | error e => exact ready_sendAll (by rw [h1]; exact h2) trivial
    | ok r =>
      obtain ⟨cmd, wn⟩ := r
      have hc := setup_command h
      refine ready_sendAll ?_ ?_
      · show _ ∉ w.events ++ _
        rw [h1, List.mem_append, not_or]
        exact ⟨h2, warnings_not_ask⟩
      · split
        · next hd =>
          refine .inr ⟨rfl, hd, fun r => ⟨?_, ?_⟩⟩
          · rintro rfl
            exact bodyProg_shape hc _
          · intro hr
            refine if_neg ?_
            rcases r with _ | _ | _ <;> simp_all
        · next hd =>
          obtain ⟨k, h3, h4⟩ := bodyProg_shape (env := env) hc (w.say (warningEvents args wn))
          rw [h3]
          exact ⟨by simpa using hd, h4⟩

/-! ## What it sends -/

/-- Everything sent if the answer is `r`. -/
def Prog.out (r : Option Bool) : Prog → List Event
  | .ret none => []
  | .ret (some e) => [.log .error (.text e)]
  | .panic => []
  | .send e k => e :: k.out r
  | .recv f => (f r).out r
  | .start k => k.out r

theorem out_sendAll (r : Option Bool) (es : List Event) (k : Prog) :
    (sendAll es k).out r = es ++ k.out r := by
  induction es with
  | nil => rfl
  | cons e t ih =>
    show e :: (sendAll t k).out r = _
    rw [ih]
    rfl

theorem out_body {env : Env} {args : InstArgs} {cmd : Command} (hc : command? args.command = some cmd) (w : World)
    (r : Option Bool) : w.events ++ (bodyProg env args cmd w).out r =
      ((finish env args cmd >>= fun x => match x with
        | .ok _ => pure ()
        | .error e => log .error (.text e) : Run Unit) w).2.events := by
  obtain ⟨es, h1, -⟩ := says_finish (env := env) (says_command hc args) w
  unfold bodyProg
  rw [run_bind]
  show w.events ++ Prog.out r (match finish env args cmd w with | (x, w') => _) = _
  rcases hf : finish env args cmd w with ⟨x, w'⟩
  rw [hf] at h1
  simp only at h1 ⊢
  rw [h1, List.drop_left, show ∀ k, Prog.out r (.start k) = k.out r from fun _ => rfl, out_sendAll,
    ← List.append_assoc, ← h1]
  rcases x with e | e | u
  · exact List.append_nil _
  · rfl
  · exact List.append_nil _

theorem worker_eq (env : Env) (args : InstArgs) : worker env args =
    (setup env args >>= fun r => match r with
      | .error e => log .error (.text e)
      | .ok (cmd, wn) => runCommand env args cmd wn >>= fun x => match x with
        | .ok _ => pure ()
        | .error e => log .error (.text e)) := by
  unfold worker
  rw [computeThread_eq, run_bind_assoc]
  congr 1
  funext r
  rcases r with e | ⟨cmd, wn⟩ <;> rfl

theorem out_worker (env : Env) (args : InstArgs) :
    (workerProg env args).out env.answer = (worker env args World.start).2.events := by
  rw [worker_eq, run_bind]
  unfold workerProg
  rcases h : setup env args World.start with ⟨r, w⟩
  cases r with
  | error e =>
    simp only [out_sendAll]
    exact List.append_nil _
  | ok r =>
    cases r with
    | error e =>
      simp only [out_sendAll]
      rfl
    | ok r =>
      obtain ⟨cmd, wn⟩ := r
      have hc := setup_command h
      simp only [out_sendAll]
      rw [run_bind, runCommand_eq]
      by_cases hd : args.doConfirmation = true
      · have hp : w.say (preEvents args wn) = (w.say (warningEvents args wn)).say [.confirmRequest] := by
          unfold World.say preEvents warningEvents
          cases wn <;> simp [hd]
        rw [if_pos hd, hp]
        show (w.say (warningEvents args wn)).events ++ .confirmRequest :: Prog.out env.answer
          (if env.answer.getD false = true then bodyProg env args cmd ((w.say (warningEvents args wn)).say
            [.confirmRequest]) else .ret none) = _
        by_cases ha : env.answer = some true
        · have hg : env.answer.getD false = true := by rw [ha]; rfl
          rw [if_pos hg, if_neg (by simp [ha])]
          have := out_body (env := env) hc ((w.say (warningEvents args wn)).say [.confirmRequest]) env.answer
          rw [run_bind] at this
          rw [← this]
          simp [World.say]
        · have hg : ¬ env.answer.getD false = true := by
            intro hg
            rcases he : env.answer with _ | _ | _ <;> simp_all
          rw [if_neg hg, if_pos ⟨hd, ha⟩]
          rfl
      · have hp : w.say (preEvents args wn) = w.say (warningEvents args wn) := by
          unfold World.say preEvents warningEvents
          cases wn <;> simp [hd]
        rw [if_neg hd, if_neg (by simp [hd]), hp]
        have := out_body (env := env) hc (w.say (warningEvents args wn)) env.answer
        rw [run_bind] at this
        exact this

/-- With a confirmation, the program of the compute thread does not depend on the answer yet to come. -/
theorem workerProg_answer (env : Env) (args : InstArgs) (h : args.doConfirmation = true) (r : Option Bool) :
    workerProg { env with answer := r } args = workerProg env args := by
  have hs : setup { env with answer := r } args World.start = setup env args World.start := rfl
  unfold workerProg
  rw [hs]
  simp only [h, if_true]

end MapEditr
