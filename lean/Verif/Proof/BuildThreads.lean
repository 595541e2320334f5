import Verif.Proof.BuildMachine
import Verif.Spec.Threads
import Verif.Model.MachineMain
/-! # Lemmas: debug and release builds, both threads -/

namespace MapEditr
open Spec
set_option linter.unusedSimpArgs false

/-- The first is the second, except that it may panic before. -/
inductive Cut : Prog → Prog → Prop
  | same (p : Prog) : Cut p p
  | panic (p : Prog) : Cut .panic p
  | send (e : Event) {k k' : Prog} : Cut k k' → Cut (.send e k) (.send e k')
  | recv {k k' : Option Bool → Prog} : (∀ r, Cut (k r) (k' r)) → Cut (.recv k) (.recv k')
  | start {k k' : Prog} : Cut k k' → Cut (.start k) (.start k')

theorem cut_sendAll (l : List Event) {p p' : Prog} (h : Cut p p') : Cut (sendAll l p) (sendAll l p') := by
  induction l with
  | nil => exact h
  | cons e t ih => exact .send e ih

theorem cut_panic {l l' : List Event} (h : l <+: l') (p : Prog) : Cut (sendAll l .panic) (sendAll l' p) := by
  obtain ⟨t, rfl⟩ := h
  have : sendAll (l ++ t) p = sendAll l (sendAll t p) := List.foldr_append ..
  rw [this]
  exact cut_sendAll l (.panic _)

theorem prefix_drop {l l' : List α} (h : l <+: l') (n : Nat) : l.drop n <+: l'.drop n := by
  obtain ⟨t, rfl⟩ := h
  rw [List.drop_append]
  exact List.prefix_append _ _

theorem pair_finish {env : Env} {args : InstArgs} {c c' : Command}
    (h : Pair (c.func (built .debug env) args) (c'.func (built .release env) args)) :
    Pair (finish (built .debug env) args c) (finish (built .release env) args c') := by
  unfold finish; pairs

theorem cut_body {env : Env} {args : InstArgs} {c c' : Command} (h : Like c c') (w : World) :
    Cut (bodyProg (built .debug env) args c w) (bodyProg (built .release env) args c' w) := by
  unfold bodyProg
  rcases (pair_finish (h.1 env args)).same w with e | ⟨⟨t, ht, e⟩, h2⟩
  · rw [e]
    exact .same _
  · rcases h1 : finish (built .debug env) args c w with ⟨r, w1⟩
    rcases h3 : finish (built .release env) args c' w with ⟨r', w1'⟩
    rw [h1] at e h2
    rw [h3] at h2
    simp only at e
    subst e
    exact .start (cut_panic (prefix_drop h2.events _) _)

/-- What the setup of the two programs returns. -/
def LikeSetup : Res (Except String (Command × Option String)) → Res (Except String (Command × Option String)) → Prop
  | .ok (.ok (c, wn)), .ok (.ok (c', wn')) => Like c c' ∧ wn = wn'
  | .ok (.error e), .ok (.error e') => e = e'
  | .error e, .error e' => e = e'
  | _, _ => False

/-- What `workerProg` does after the setup. -/
def afterSetup (env : Env) (args : InstArgs) : Res (Except String (Command × Option String)) × World → Prog
  | (.error _, w) => sendAll w.events .panic
  | (.ok (.error e), w) => sendAll w.events (.ret (some e))
  | (.ok (.ok (cmd, wn)), w) =>
    let w := w.say (warningEvents args wn)
    sendAll w.events <|
      if args.doConfirmation then
        .send .confirmRequest <| .recv fun r =>
          if r.getD false then bodyProg { env with answer := r } args cmd (w.say [.confirmRequest])
          else .ret none
      else bodyProg env args cmd w

theorem workerProg_after (env : Env) (args : InstArgs) :
    workerProg env args = afterSetup env args (setup env args World.start) := by
  unfold workerProg afterSetup
  rcases setup env args World.start with ⟨_ | _ | _, w⟩ <;> rfl

theorem Checked.workerProg_after (env : Env) (args : InstArgs) :
    Checked.workerProg env args = afterSetup env args (Checked.setup env args World.start) := by
  unfold Checked.workerProg afterSetup
  rcases Checked.setup env args World.start with ⟨_ | _ | _, w⟩ <;> rfl

theorem cut_after {env : Env} {args : InstArgs} {x y : Res (Except String (Command × Option String)) × World}
    (h : Overflow x.1 ∧ Before x.2 y.2 ∨ LikeSetup x.1 y.1 ∧ x.2 = y.2) :
    Cut (afterSetup (built .debug env) args x) (afterSetup (built .release env) args y) := by
  obtain ⟨x, w⟩ := x
  obtain ⟨y, w'⟩ := y
  rcases h with ⟨⟨t, ht, e⟩, h⟩ | ⟨h, e⟩
  · simp only at e h
    subst e
    unfold afterSetup
    rcases y with e | e | ⟨c, wn⟩
    · exact cut_panic h.events _
    · exact cut_panic h.events _
    · exact cut_panic (h.events.trans (List.prefix_append _ _)) _
  · simp only at e
    subst e
    rcases x with e | e | ⟨c, wn⟩ <;> rcases y with e' | e' | ⟨c', wn'⟩ <;> try exact h.elim
    · exact .same _
    · cases h
      exact .same _
    · obtain ⟨h, rfl⟩ := h
      unfold afterSetup
      refine cut_sendAll _ ?_
      split
      · refine .send _ (.recv fun r => ?_)
        split
        · exact cut_body (env := { env with answer := r }) h _
        · exact .same _
      · exact cut_body h _

/-- The setup after the command's own check. -/
def setupRest (env : Env) (args : InstArgs) (cmd : Command) (res : ArgResult) :
    Run (Except String (Command × Option String)) := do
  match res with
  | .error e => return .error e
  | res =>
    let warning := match res with | .warning t => some t | _ => none
    let ok ← openMap env .main args.mapPath
    if !ok then return .error "Failed to open main world/map."
    else
      match ← MapDb.new env .main with
      | .error _ => return .error "Main world or map database is invalid."
      | .ok _ =>
        match args.inputMapPath with
        | none => return .ok (cmd, warning)
        | some p =>
          let ok ← openMap env .input p
          if !ok then return .error "Failed to open input world/map."
          else
            match ← MapDb.new env .input with
            | .error _ => return .error "Input world or map database is invalid."
            | .ok _ => return .ok (cmd, warning)

/-- Both return alike. -/
def LikeRun (m m' : Run (Except String (Command × Option String))) : Prop :=
  ∀ w, LikeSetup (m w).1 (m' w).1 ∧ (m w).2 = (m' w).2

theorem like_bind {m : Run α} {k k' : α → Run (Except String (Command × Option String))}
    (h : ∀ a, LikeRun (k a) (k' a)) : LikeRun (m >>= k) (m >>= k') := by
  intro w
  show LikeSetup (Run.bind m k w).1 (Run.bind m k' w).1 ∧ (Run.bind m k w).2 = (Run.bind m k' w).2
  unfold Run.bind
  rcases m w with ⟨_ | a, w1⟩
  · exact ⟨rfl, rfl⟩
  · exact h a w1

theorem like_rest (env : Env) (args : InstArgs) {c c' : Command} (h : Like c c') (res : ArgResult) :
    LikeRun (setupRest (built .debug env) args c res) (setupRest (built .release env) args c' res) := by
  have e1 : ∀ i p, openMap (built .debug env) i p = openMap (built .release env) i p := fun _ _ => rfl
  have e2 : ∀ i, MapDb.new (built .debug env) i = MapDb.new (built .release env) i := fun _ => rfl
  have hr : ∀ e, LikeRun (pure (.error e)) (pure (.error e)) := fun e w => ⟨rfl, rfl⟩
  have hok : ∀ wn, LikeRun (pure (.ok (c, wn))) (pure (.ok (c', wn))) := fun wn w => ⟨⟨h, rfl⟩, rfl⟩
  unfold setupRest
  split
  · exact hr _
  · rw [e1]
    refine like_bind fun ok => ?_
    split
    · exact hr _
    · rw [e2]
      refine like_bind fun r => ?_
      split
      · exact hr _
      · split
        · exact hok _
        · rw [e1]
          refine like_bind fun ok => ?_
          split
          · exact hr _
          · rw [e2]
            refine like_bind fun r => ?_
            split
            · exact hr _
            · exact hok _

theorem setup_rest (env : Env) (args : InstArgs) : setup env args = (match verifyArgs args with
    | some e => pure (.error e)
    | none => Run.unwrap (command? args.command) >>= fun c => Run.lift (c.verify args) >>= setupRest env args c) := rfl

theorem Checked.setup_rest (env : Env) (args : InstArgs) : Checked.setup env args = (match verifyArgs args with
    | some e => pure (.error e)
    | none => Run.unwrap (Checked.command? env.build args.command) >>= fun c =>
        Run.lift (c.verify args) >>= setupRest env args c) := rfl

/-- The common part of the two. -/
theorem like_setup (env : Env) (args : InstArgs) {o o' : Option Command}
    (ho : o = none ∧ o' = none ∨ ∃ c c', o = some c ∧ o' = some c' ∧ Like c c') (w : World)
    {m m' : Run (Except String (Command × Option String))}
    (hm : m = (match verifyArgs args with
      | some e => pure (.error e)
      | none => Run.unwrap o >>= fun c => Run.lift (c.verify args) >>= setupRest (built .debug env) args c))
    (hm' : m' = (match verifyArgs args with
      | some e => pure (.error e)
      | none => Run.unwrap o' >>= fun c => Run.lift (c.verify args) >>= setupRest (built .release env) args c)) :
    Overflow (m w).1 ∧ Before (m w).2 (m' w).2 ∨ LikeSetup (m w).1 (m' w).1 ∧ (m w).2 = (m' w).2 := by
  subst hm hm'
  split
  · exact .inr ⟨rfl, rfl⟩
  · rcases ho with ⟨rfl, rfl⟩ | ⟨c, c', rfl, rfl, h⟩
    · exact .inr ⟨rfl, rfl⟩
    · rcases h.2 args with e | ⟨t, ht, e⟩
      · right
        rw [show (Run.unwrap (some c) >>= fun c => Run.lift (c.verify args) >>= setupRest (built .debug env) args c) =
          Run.lift (c.verify args) >>= setupRest (built .debug env) args c from rfl,
          show (Run.unwrap (some c') >>= fun c => Run.lift (c.verify args) >>= setupRest (built .release env) args c) =
          Run.lift (c'.verify args) >>= setupRest (built .release env) args c' from rfl, e]
        exact like_bind (fun res => like_rest env args h res) w
      · left
        rw [show (Run.unwrap (some c) >>= fun c => Run.lift (c.verify args) >>= setupRest (built .debug env) args c) =
          Run.lift (c.verify args) >>= setupRest (built .debug env) args c from rfl, e]
        refine ⟨⟨t, ht, rfl⟩, ?_⟩
        have hp : Pair (Run.lift (c'.verify args) >>= setupRest (built .release env) args c')
            (Run.lift (c'.verify args) >>= setupRest (built .release env) args c') := by
          refine pair_bind (pair_lift (over_refl _)) fun res => ?_
          unfold setupRest
          have p1 : ∀ i p, Pair (openMap (built .release env) i p) (openMap (built .release env) i p) :=
            fun i p => pair_same (pair_open (env := env) i p).ext
          have p2 : ∀ i, Pair (MapDb.new (built .release env) i) (MapDb.new (built .release env) i) :=
            fun i => pair_same (pair_new (env := env) i).ext
          split
          · exact pair_pure _
          · refine pair_bind (p1 _ _) fun ok => ?_
            split
            · exact pair_pure _
            · refine pair_bind (p2 _) fun r => ?_
              split
              · exact pair_pure _
              · split
                · exact pair_pure _
                · refine pair_bind (p1 _ _) fun ok => ?_
                  split
                  · exact pair_pure _
                  · refine pair_bind (p2 _) fun r => ?_
                    split <;> exact pair_pure _
        exact hp.ext w

theorem cut_workerProg (env : Env) (args : InstArgs) :
    Cut (workerProg (built .debug env) args) (workerProg (built .release env) args) := by
  rw [workerProg_after, workerProg_after]
  exact cut_after (like_setup env args (like_command _) _ (setup_rest _ _) (setup_rest _ _))

theorem Checked.cut_workerProg (env : Env) (args : InstArgs) :
    Cut (Checked.workerProg (built .debug env) args) (Checked.workerProg (built .release env) args) := by
  rw [Checked.workerProg_after, Checked.workerProg_after]
  exact cut_after (like_setup env args (Checked.like_command _) _ (Checked.setup_rest _ _) (Checked.setup_rest _ _))

/-! ## Both threads together -/

/-- The worker of the two programs. -/
inductive CutWorker : WState → WState → Prop
  | run {p p' : Prog} : Cut p p' → CutWorker (.run p) (.run p')
  | closing (e : Option String) : CutWorker (.closing e) (.closing e)
  | gone : CutWorker .gone .gone

/-- The states of the two programs. -/
def CutSys (s s' : Sys) : Prop :=
  CutWorker s.worker s'.worker ∧ s' = { s with worker := s'.worker }

theorem CutWorker.isGone {v v' : WState} (h : CutWorker v v') : v.isGone = v'.isGone := by cases h <;> rfl
theorem CutWorker.isRunning {v v' : WState} (h : CutWorker v v') : v.isRunning = v'.isRunning := by cases h <;> rfl

theorem cut_same (v : WState) : CutWorker v v := by
  cases v
  · exact .run (.same _)
  · exact .closing _
  · exact .gone

theorem cut_step {a : Actor} {s s' s1 : Sys} (h : CutSys s s') (hp : s.worker ≠ .run .panic) (hs : step a s = some s1) :
    ∃ s1', step a s' = some s1' ∧ CutSys s1 s1' := by
  obtain ⟨v, u, tu, tw, se, pr, an, st⟩ := s
  obtain ⟨v', u', tu', tw', se', pr', an', st'⟩ := s'
  obtain ⟨hv, he⟩ := h
  simp only [Sys.mk.injEq] at he
  obtain ⟨-, rfl, rfl, rfl, rfl, rfl, rfl, rfl⟩ := he
  cases a with
  | worker =>
    simp only [step, workerStep] at hs ⊢
    cases hv with
    | run hc =>
      cases hc with
      | same p =>
        refine ⟨s1, hs, cut_same _, rfl⟩
      | panic p => exact absurd rfl hp
      | send e hk =>
        dsimp only at hs ⊢
        split at hs
        · rename_i ho
          cases hs
          rw [if_pos ho]
          exact ⟨_, rfl, .run hk, rfl⟩
        · rename_i ho
          cases hs
          rw [if_neg ho]
          exact ⟨_, rfl, .closing _, rfl⟩
      | recv hk =>
        cases tw' with
        | cons b t =>
          cases hs
          exact ⟨_, rfl, .run (hk _), rfl⟩
        | nil =>
          dsimp only at hs ⊢
          split at hs
          · cases hs
          · rename_i ho
            cases hs
            rw [if_neg ho]
            exact ⟨_, rfl, .run (hk _), rfl⟩
      | start hk =>
        cases hs
        exact ⟨_, rfl, .run hk, rfl⟩
    | closing e => exact ⟨s1, hs, cut_same _, rfl⟩
    | gone => cases hs
  | ui =>
    simp only [step, uiStep] at hs ⊢
    rw [← hv.isGone]
    split at hs
    · split at hs
      · cases hs; exact ⟨_, rfl, hv, rfl⟩
      · cases hs; exact ⟨_, rfl, hv, rfl⟩
      · cases hs; exact ⟨_, rfl, hv, rfl⟩
      · split at hs
        · rename_i hg; cases hs
          rw [if_pos hg]; exact ⟨_, rfl, hv, rfl⟩
        · cases hs
    · split at hs
      · rename_i hg; cases hs
        rw [if_pos hg]; exact ⟨_, rfl, hv, rfl⟩
      · cases hs
    · cases hs
  | user b =>
    simp only [step] at hs ⊢
    rw [← hv.isRunning]
    split at hs
    · split at hs
      · rename_i hg; cases hs
        rw [if_pos hg]; exact ⟨_, rfl, hv, rfl⟩
      · rename_i hg; cases hs
        rw [if_neg hg]; exact ⟨_, rfl, hv, rfl⟩
    · cases hs
  | tick =>
    simp only [step] at hs ⊢
    rw [← hv.isGone]
    split at hs
    · split at hs
      · cases hs
      · rename_i hg; cases hs
        rw [if_neg hg]; exact ⟨_, rfl, hv, rfl⟩
    · cases hs
  | crash =>
    simp only [step] at hs ⊢
    split at hs
    · cases hs; exact ⟨_, rfl, hv, rfl⟩
    · cases hs; exact ⟨_, rfl, hv, rfl⟩
    · cases hs

theorem cut_reach {s0 s0' s : Sys} (h0 : CutSys s0 s0') (h : Reach s0 s) :
    (∃ s', Reach s0' s' ∧ CutSys s s') ∨ ∃ s1, Reach s0 s1 ∧ s1.worker = .run .panic ∧ Reach s1 s := by
  induction h with
  | start => exact .inl ⟨s0', .start, h0⟩
  | @step a s _ hr hs ih =>
    rcases ih with ⟨s', h1, h2⟩ | ⟨s1, h1, h2, h3⟩
    · by_cases hp : s.worker = .run .panic
      · exact .inr ⟨_, hr, hp, .step a .start hs⟩
      · obtain ⟨s1', h3, h4⟩ := cut_step h2 hp hs
        exact .inl ⟨s1', .step a h1 h3, h4⟩
    · exact .inr ⟨s1, h1, h2, .step a h3 hs⟩

end MapEditr
