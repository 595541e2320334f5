import Verif.Proof.Runs
import Verif.Props.Runs
/-!
# The order of the statements of a run

If SQLite does not undo the transaction, a run opens each map, begins a transaction, looks at it, reads and writes, and
commits.
-/

namespace MapEditr
open Spec
set_option linter.unusedSimpArgs false

/-- How far a connection has got. -/
inductive Phase | fresh | begun | looking | over
  deriving DecidableEq, Repr

/-- Statements that may come. -/
def Phase.next : Phase → Sql → Option Phase
  | .fresh, .open => some .fresh
  | .fresh, .begin => some .begun
  | .begun, .tableInfo => some .looking
  | .looking, .prepare => some .looking
  | .looking, .selectAll => some .looking
  | .looking, .select _ => some .looking
  | .looking, .put _ _ => some .looking
  | .looking, .del _ => some .looking
  | .looking, .commit => some .over
  | .over, .vacuum => some .over
  | _, _ => none

/-- The phases after a statement; if `b`, a commit needs the input map to be open. -/
def phaseStep (b : Bool) (P : DbId → Phase) (d : Did) : Option (DbId → Phase) :=
  if d.ok then
    if b = true ∧ d.stmt = .commit ∧ P .input ≠ .looking then none
    else ((P d.db).next d.stmt).map fun q => fun j => if j = d.db then q else P j
  else some P

/-- The phases after some statements. -/
def phases (b : Bool) (tr : List Did) : Option (DbId → Phase) :=
  tr.foldl (fun o d => o.bind fun P => phaseStep b P d) (some fun _ => .fresh)

theorem phases_snoc (b : Bool) (tr : List Did) (d : Did) :
    phases b (tr ++ [d]) = (phases b tr).bind fun P => phaseStep b P d := by
  unfold phases; rw [List.foldl_append]; rfl

theorem phases_take {b : Bool} {tr : List Did} (h : (phases b tr).isSome = true) (n : Nat) :
    (phases b (tr.take n)).isSome = true := by
  induction tr using snoc_ind with
  | nil => simpa using h
  | snoc tr d ih =>
    have h1 : (phases b tr).isSome = true := by
      rw [phases_snoc] at h
      cases hp : phases b tr with
      | none => rw [hp] at h; exact h
      | some _ => rfl
    by_cases hn : n ≤ tr.length
    · rw [List.take_append_of_le_length hn]; exact ih h1
    · rw [List.take_of_length_le (by simp; omega)]; exact h

/-- Commands run with open maps. -/
def Looking (b : Bool) (w : World) : Prop :=
  ∃ P, phases b w.trace = some P ∧ (b = true → P .input = .looking) ∧ ∀ i, (w.dbs i = none ∧ P i = .fresh) ∨
    ∃ m, w.dbs i = some m ∧ m.inTransaction = true ∧ P i = .looking

/-- That stays so. -/
def StillLooking (b : Bool) (w : World) (_ : Bool) (w' : World) : Prop := Looking b w → Looking b w'

theorem failed_calm {env : Env} (hu : ∀ n, env.undo n = false) (w : World) (i : DbId) (s : Sql) :
    w.failed env i s = w.did i s false := by
  unfold World.failed
  split
  · rfl
  · rw [if_neg (by rw [hu]; simp)]

theorem phases_false {b : Bool} {tr : List Did} {P : DbId → Phase} (h : phases b tr = some P) (i : DbId) (s : Sql) :
    phases b (tr ++ [⟨i, s, false⟩]) = some P := by
  rw [phases_snoc, h]; rfl

theorem looking_bind {b : Bool} {m : Run α} {f : α → Run β} (hm : Inv (StillLooking b) m)
    (hf : ∀ a, Inv (StillLooking b) (f a)) : Inv (StillLooking b) (m >>= f) := by
  intro w hw
  have h1 := hm w hw
  rw [run_bind]
  rcases h : m w with ⟨r, w1⟩
  rw [h] at h1
  cases r with
  | error e => exact h1
  | ok a => exact hf a w1 h1

theorem looking_same {b : Bool} {m : Run α} (h1 : ∀ w, (m w).2.dbs = w.dbs) (h2 : ∀ w, (m w).2.trace = w.trace) :
    Inv (StillLooking b) m := by
  rintro w ⟨P, hp, hb, h⟩
  exact ⟨P, by rw [h2]; exact hp, hb, by rw [h1]; exact h⟩

theorem looking_pure {b : Bool} (a : α) : Inv (StillLooking b) (pure a : Run α) := looking_same (fun _ => rfl) fun _ => rfl

theorem looking_ite {b : Bool} (c : Prop) [Decidable c] {m m' : Run α} (h : Inv (StillLooking b) m)
    (h' : Inv (StillLooking b) m') : Inv (StillLooking b) (if c then m else m') := by split <;> assumption

theorem looking_theDb {b : Bool} (i : DbId) : Inv (StillLooking b) (theDb i) :=
  looking_same (fun w => by unfold theDb; split <;> rfl) fun w => by unfold theDb; split <;> rfl

theorem looking_exec {b : Bool} {env : Env} (hu : ∀ n, env.undo n = false) {i : DbId} {s : Sql}
    (hs : Phase.next .looking s = some .looking) : Inv (StillLooking b) (exec env i s) := by
  rintro w ⟨P, hp, hb, h⟩
  unfold exec
  split
  · exact ⟨P, hp, hb, h⟩
  · rename_i m hm
    rw [failed_calm hu]
    split
    · exact ⟨P, phases_false hp _ _, hb, h⟩
    · split
      · exact ⟨P, phases_false hp _ _, hb, h⟩
      · rcases h i with ⟨h1, -⟩ | ⟨m', h1, h2, h3⟩
        · rw [hm] at h1; cases h1
        · rw [hm] at h1
          cases h1
          refine ⟨P, ?_, hb, fun j => ?_⟩
          · show phases b (w.trace ++ [⟨i, s, true⟩]) = _
            rw [phases_snoc, hp]
            show phaseStep b P ⟨i, s, true⟩ = _
            unfold phaseStep
            rw [if_pos rfl, if_neg (by rintro ⟨-, h, -⟩; simp only at h; subst h; simp [Phase.next] at hs)]
            simp only
            rw [h3, hs, Option.map_some, ← h3]
            congr 1
            funext j
            split
            · rename_i e; rw [e]
            · rfl
          · by_cases e : j = i
            · subst e
              exact .inr ⟨_, if_pos rfl, h2, h3⟩
            · rcases h j with ⟨h1, h4⟩ | ⟨m', h1, h4⟩
              · exact .inl ⟨(if_neg e).trans h1, h4⟩
              · exact .inr ⟨m', (if_neg e).trans h1, h4⟩

theorem looking_begin {b : Bool} {env : Env} {i : DbId} : Inv (StillLooking b) (beginIfNeeded env i) := by
  rintro w hw
  obtain ⟨P, hp, -, h⟩ := id hw
  rcases h i with ⟨h1, -⟩ | ⟨m, h1, h2, -⟩
  · obtain ⟨e, he⟩ := begin_none (env := env) h1
    rw [he]; exact hw
  · rw [begin_flag h1 h2]; exact hw

theorem looking_get {b : Bool} {env : Env} (hu : ∀ n, env.undo n = false) (i : DbId) (k : Int) :
    Inv (StillLooking b) (getBlock env i k) := by
  unfold getBlock
  refine looking_bind looking_begin fun _ => looking_ite _ (looking_bind (looking_exec hu rfl) fun _ => looking_ite _
    (looking_bind (looking_theDb _) fun m => ?_) (looking_pure _)) (looking_pure _)
  split <;> exact looking_pure _

theorem looking_expect {b : Bool} (r : Except DbErr α) : Inv (StillLooking b) (expect r) :=
  looking_same (fun _ => rfl) fun _ => rfl

theorem looking_frame {b : Bool} {env : Env} (hu : ∀ n, env.undo n = false) : CopyFrame env (StillLooking b) where
  quiet := by
    rintro w _ w' h1 h2 - ⟨P, hp, hb, h⟩
    exact ⟨P, by rw [h2]; exact hp, hb, by rw [h1]; exact h⟩
  trans := fun _ _ _ _ h h' hw => h' (h hw)
  get := fun i k => looking_bind (looking_get hu i k) fun _ => looking_expect _
  rows := by
    intro i
    unfold iterRows
    exact looking_bind looking_begin fun _ => looking_ite _ (looking_bind (looking_exec hu rfl) fun _ => looking_ite _
      (looking_bind (looking_theDb _) fun m => looking_pure _) (looking_same (fun _ => rfl) fun _ => rfl))
      (looking_same (fun _ => rfl) fun _ => rfl)
  put := by
    intro k d
    refine looking_bind ?_ fun _ => looking_expect _
    unfold setBlock
    exact looking_bind looking_begin fun _ => looking_ite _ (looking_bind (looking_exec hu rfl) fun _ => looking_ite _
      (looking_pure _) (looking_pure _)) (looking_pure _)
  del := by
    intro k
    refine looking_bind ?_ fun _ => looking_expect _
    unfold deleteBlock
    exact looking_bind looking_begin fun _ => looking_ite _ (looking_bind (looking_exec hu rfl) fun _ => looking_ite _
      (looking_pure _) (looking_pure _)) (looking_pure _)
  gen := by
    intro i k
    unfold getGenerated
    refine looking_bind (looking_get hu i k) fun r => ?_
    split <;> exact looking_pure _

/-! ## Before and after the command -/

/-- The statements so far came in order. -/
def Ordered (b : Bool) (w : World) : Prop := (phases b w.trace).isSome = true

/-- If `A` holds before, `B` holds after; should it panic, the statements came in order. -/
def Leads (b : Bool) (A : World → Prop) (m : Run α) (B : α → World → Prop) : Prop := ∀ w, A w →
  match m w with
  | (.ok a, w') => B a w'
  | (.error _, w') => Ordered b w'

theorem leads_bind {b : Bool} {A : World → Prop} {m : Run α} {f : α → Run β} {B : α → World → Prop}
    {C : β → World → Prop} (hm : Leads b A m B) (hf : ∀ a, Leads b (B a) (f a) C) : Leads b A (m >>= f) C := by
  intro w hw
  have h1 := hm w hw
  rw [run_bind]
  rcases h : m w with ⟨r, w1⟩
  rw [h] at h1
  cases r with
  | error e => exact h1
  | ok a => exact hf a w1 h1

theorem leads_pure {b : Bool} {A : World → Prop} {B : α → World → Prop} {a : α} (h : ∀ w, A w → B a w) :
    Leads b A (pure a : Run α) B := h

theorem leads_ite {b : Bool} {A : World → Prop} {B : α → World → Prop} {c : Prop} [Decidable c] {m m' : Run α}
    (h : c → Leads b A m B) (h' : ¬ c → Leads b A m' B) : Leads b A (if c then m else m') B := by
  split
  · exact h (by assumption)
  · exact h' (by assumption)

/-- The phases are these. -/
def AtPhase (b : Bool) (P : DbId → Phase) (w : World) : Prop := phases b w.trace = some P

/-- One phase changed. -/
def setPhase (P : DbId → Phase) (i : DbId) (q : Phase) : DbId → Phase := fun j => if j = i then q else P j

theorem at_ordered {b : Bool} {P : DbId → Phase} {w : World} (h : AtPhase b P w) : Ordered b w := by
  unfold Ordered; unfold AtPhase at h; rw [h]; rfl

theorem at_snoc {b : Bool} {P : DbId → Phase} {tr : List Did} {i : DbId} {s : Sql} {q : Phase}
    (h : phases b tr = some P) (hs : (P i).next s = some q)
    (hc : b = true → s = .commit → P .input = .looking) :
    phases b (tr ++ [⟨i, s, true⟩]) = some (setPhase P i q) := by
  rw [phases_snoc, h]
  show phaseStep b P ⟨i, s, true⟩ = _
  unfold phaseStep
  rw [if_pos rfl, if_neg (fun ⟨h1, h2, h3⟩ => h3 (hc h1 h2))]
  simp only
  rw [hs]
  rfl

theorem leads_exec {b : Bool} {env : Env} (hu : ∀ n, env.undo n = false) {i : DbId} {s : Sql} {P : DbId → Phase}
    {q : Phase} (hs : (P i).next s = some q) (hc : b = true → s = .commit → P .input = .looking) :
    Leads b (AtPhase b P) (exec env i s) fun ok w => AtPhase b (if ok then setPhase P i q else P) w := by
  intro w hw
  unfold exec
  cases hm : w.dbs i with
  | none => exact at_ordered hw
  | some m =>
    simp only
    rw [failed_calm hu]
    split
    · rename_i e
      split at e
      · cases e; exact phases_false hw _ _
      · split at e
        · cases e; exact phases_false hw _ _
        · cases e; exact at_snoc hw hs hc
    · rename_i e
      split at e
      · cases e
      · split at e <;> cases e

theorem leads_theDb {b : Bool} {P : DbId → Phase} (i : DbId) : Leads b (AtPhase b P) (theDb i) fun _ => AtPhase b P := by
  intro w hw
  unfold theDb
  cases w.dbs i with
  | none => exact at_ordered hw
  | some m => exact hw

theorem leads_setFlag {b : Bool} {P : DbId → Phase} (i : DbId) (v : Bool) :
    Leads b (AtPhase b P) (setFlag i v) fun _ => AtPhase b P :=
  leads_bind (leads_theDb i) fun _ _ hw => hw

theorem leads_lift {b : Bool} {P : DbId → Phase} (r : Res α) : Leads b (AtPhase b P) (Run.lift r) fun _ => AtPhase b P := by
  intro w hw
  unfold Run.lift
  cases r with
  | error e => exact at_ordered hw
  | ok a => exact hw

theorem leads_new {b : Bool} {env : Env} (hu : ∀ n, env.undo n = false) {i : DbId} {P : DbId → Phase}
    (h : P i = .fresh) : Leads b (AtPhase b P) (MapDb.new env i) fun r w =>
      ∃ P', AtPhase b P' w ∧ (∀ j, j ≠ i → P' j = P j) := by
  unfold MapDb.new verifyDatabase
  have e1 : setPhase P i .begun i = .begun := if_pos rfl
  have e2 : setPhase (setPhase P i .begun) i .looking i = .looking := if_pos rfl
  have o1 : ∀ j, j ≠ i → setPhase P i .begun j = P j := fun j hj => if_neg hj
  have o2 : ∀ j, j ≠ i → setPhase (setPhase P i .begun) i .looking j = P j := fun j hj => (if_neg hj).trans (if_neg hj)
  have o3 : ∀ j, j ≠ i → setPhase (setPhase (setPhase P i .begun) i .looking) i .looking j = P j :=
    fun j hj => (if_neg hj).trans (o2 j hj)
  refine leads_bind (leads_exec hu (q := .begun) (by rw [h]; rfl) (by rintro - ⟨⟩)) fun ok => ?_
  cases ok with
  | false => exact leads_pure fun w hw => ⟨P, hw, fun _ _ => rfl⟩
  | true =>
    refine leads_bind (B := fun r w => match r with
      | .ok _ => AtPhase b (setPhase (setPhase P i .begun) i .looking) w
      | .error _ => ∃ P', AtPhase b P' w ∧ ∀ j, j ≠ i → P' j = P j)
      (leads_bind (leads_exec hu (q := .looking) (by rw [if_pos rfl, e1]; rfl) (by rintro - ⟨⟩)) fun ok => ?_) fun r => ?_
    · cases ok with
      | false => exact leads_pure fun w hw => ⟨_, hw, o1⟩
      | true =>
        exact leads_bind (leads_theDb _) fun _ => leads_ite (fun _ => leads_pure fun w hw => hw)
          fun _ => leads_pure fun w hw => ⟨_, hw, o2⟩
    · cases r with
      | error e => exact leads_pure fun w hw => hw
      | ok u =>
        refine leads_bind (leads_exec hu (q := .looking) (by rw [e2]; rfl) (by rintro - ⟨⟩)) fun ok => ?_
        cases ok with
        | false => exact leads_pure fun w hw => ⟨_, hw, o2⟩
        | true => exact leads_bind (leads_setFlag _ _) fun _ => leads_pure fun w hw => ⟨_, hw, o3⟩

theorem leads_openK {b : Bool} {env : Env} (hu : ∀ n, env.undo n = false) {i : DbId} {P : DbId → Phase}
    (h : P i = .fresh) {path e1 e2 : String} {k : Run (Except String β)}
    (hk : ∀ P', (∀ j, j ≠ i → P' j = P j) → Leads b (AtPhase b P') k fun _ => Ordered b) :
    Leads b (AtPhase b P) (openK env i path e1 e2 k) fun _ => Ordered b := by
  unfold openK
  refine leads_bind (B := fun _ => AtPhase b P) ?_ fun ok => leads_ite (fun _ => leads_pure fun w => at_ordered)
    fun _ => leads_bind (leads_new hu h) fun r => ?_
  · intro w hw
    unfold openMap
    cases mapFile env path with
    | none => exact hw
    | some f =>
      simp only
      split
      · rename_i e
        split at e
        · cases e; exact phases_false hw _ _
        · cases e
          refine (at_snoc (q := .fresh) hw (by rw [h]; rfl) (by rintro - ⟨⟩)).trans ?_
          congr 1
          funext j
          unfold setPhase
          split
          · rename_i e; rw [e, h]
          · rfl
      · rename_i e
        split at e <;> cases e
  · rintro w ⟨P', hw, ho⟩
    cases r with
    | error e => exact at_ordered hw
    | ok u => exact hk P' ho w hw

theorem leads_setup {b : Bool} {env : Env} (hu : ∀ n, env.undo n = false) (args : InstArgs) :
    Leads b (AtPhase b fun _ => .fresh) (setup env args) fun _ => Ordered b := by
  rw [setup_eq]
  have h : ∀ r : Command × Option String, Leads b (AtPhase b fun _ => .fresh) (openAll env args r) fun _ => Ordered b := by
    intro r
    refine leads_openK hu rfl fun P' hP => ?_
    cases args.inputMapPath with
    | none => exact leads_pure fun w => at_ordered
    | some p => exact leads_openK hu (hP .input (by decide)) fun P'' _ => leads_pure fun w => at_ordered
  split
  · exact leads_pure fun w => at_ordered
  · refine leads_bind (B := fun _ => AtPhase b fun _ => .fresh) ?_ fun cmd =>
      leads_bind (B := fun _ => AtPhase b fun _ => .fresh) ?_ fun res => ?_
    · exact leads_lift _
    · exact leads_lift _
    · cases res with
      | error e => exact leads_pure fun w => at_ordered
      | ok => exact h _
      | warning t => exact h _

theorem looking_setup {env : Env} {args : InstArgs} {w : World} (h : SetupWorld env args World.start w) :
    Looking args.inputMapPath.isSome w := by
  obtain ⟨f, -, -, -, h4⟩ := h
  cases hi : args.inputMapPath with
  | none =>
    rw [hi] at h4
    simp only at h4
    subst h4
    refine ⟨_, rfl, by simp, fun i => ?_⟩
    cases i with
    | main => exact .inr ⟨_, rfl, rfl, rfl⟩
    | input => exact .inl ⟨rfl, rfl⟩
  | some p =>
    rw [hi] at h4
    obtain ⟨g, -, -, -, rfl⟩ := h4
    refine ⟨_, rfl, fun _ => rfl, fun i => ?_⟩
    cases i with
    | main => exact .inr ⟨_, rfl, rfl, rfl⟩
    | input => exact .inr ⟨_, rfl, rfl, rfl⟩

/-- The main map is closed. -/
def Finished (b : Bool) (w : World) : Prop :=
  ∃ P, phases b w.trace = some P ∧ P .main = .over ∧ ∃ m, w.dbs .main = some m ∧ m.inTransaction = false

theorem looking_ordered {b : Bool} {w : World} (h : Looking b w) : Ordered b w := by
  obtain ⟨P, h, -⟩ := h; exact at_ordered h

theorem finished_ordered {b : Bool} {w : World} (h : Finished b w) : Ordered b w := by
  obtain ⟨P, h, -⟩ := h; exact at_ordered h

theorem leads_commit {b : Bool} {env : Env} (hu : ∀ n, env.undo n = false) :
    Leads b (fun w => Looking b w ∨ Finished b w) (commitIfNeeded env .main)
      fun ok w => if ok then Finished b w else Looking b w := by
  rintro w (hw | hw)
  · obtain ⟨P, hp, hb, h⟩ := id hw
    rcases h .main with ⟨h1, -⟩ | ⟨m, h1, h2, h3⟩
    · have : commitIfNeeded env .main w = (.error (.panic "no such database"), w) := by
        unfold commitIfNeeded
        rw [run_bind_err (show theDb .main w = (.error (.panic "no such database"), w) by unfold theDb; rw [h1])]
      rw [this]
      exact looking_ordered hw
    · have e1 : theDb .main w = (.ok m, w) := by unfold theDb; rw [h1]
      unfold commitIfNeeded
      rw [run_bind_ok e1, if_pos h2]
      by_cases hx : m.conn.refuses .commit = true ∨ env.fail w.trace.length = true
      · have e2 : exec env .main .commit w = (.ok false, w.did .main .commit false) := by
          unfold exec
          rw [h1]
          simp only
          rw [failed_calm hu]
          rcases hx with hx | hx
          · rw [if_pos hx]
          · rw [if_pos hx, ite_self]
        rw [run_bind_ok e2]
        exact ⟨P, phases_false hp _ _, hb, h⟩
      · rw [not_or] at hx
        have e2 : exec env .main .commit w =
            (.ok true, (w.setDb .main { m with conn := m.conn.step .commit }).did .main .commit true) := by
          unfold exec
          rw [h1]
          simp only
          rw [if_neg hx.1, if_neg hx.2]
        rw [run_bind_ok e2]
        exact ⟨_, at_snoc hp (by rw [h3]; rfl) (fun hb' _ => hb hb'), rfl, _, rfl, rfl⟩
  · obtain ⟨P, hp, hP, m, h1, h2⟩ := id hw
    have e1 : theDb .main w = (.ok m, w) := by unfold theDb; rw [h1]
    unfold commitIfNeeded
    rw [run_bind_ok e1, if_neg (by rw [h2]; simp)]
    exact hw

theorem leads_said {b : Bool} {A : World → Prop} {m : Run Unit} (h : ∀ w, ∃ w', m w = (.ok (), w') ∧
    w'.dbs = w.dbs ∧ w'.trace = w.trace) (hA : ∀ w w' : World, w'.dbs = w.dbs → w'.trace = w.trace → A w → A w') :
    Leads b A m fun _ => A := by
  intro w hw
  obtain ⟨w', h1, h2, h3⟩ := h w
  rw [h1]
  exact hA w w' h2 h3 hw

/-- Either. -/
def Either (b : Bool) (w : World) : Prop := Looking b w ∨ Finished b w

theorem either_same {b : Bool} (w w' : World) (h1 : w'.dbs = w.dbs) (h2 : w'.trace = w.trace) (h : Either b w) :
    Either b w' := by
  unfold Either Looking Finished at h ⊢
  rw [h1, h2]
  exact h

theorem flag_exec {env : Env} (hu : ∀ n, env.undo n = false) {i : DbId} {s : Sql} {w : World} {m : MapDb}
    (h : w.dbs i = some m) : ∃ m', (exec env i s w).2.dbs i = some m' ∧ m'.inTransaction = m.inTransaction := by
  unfold exec
  rw [h]
  simp only
  rw [failed_calm hu]
  split
  · exact ⟨m, h, rfl⟩
  · split
    · exact ⟨m, h, rfl⟩
    · exact ⟨_, if_pos rfl, rfl⟩

theorem leads_vacuum {b : Bool} {env : Env} (hu : ∀ n, env.undo n = false) :
    Leads b (Looking b) (vacuum env) fun _ => Either b := by
  have hq : ∀ (m : Run Unit), (∀ w, ∃ w', m w = (.ok (), w') ∧ w'.dbs = w.dbs ∧ w'.trace = w.trace) →
      Leads b (Either b) m fun _ => Either b := fun m h => leads_said h either_same
  have hl : ∀ t m, Leads b (Either b) (log t m) fun _ => Either b := fun t m => hq _ fun w => ⟨_, rfl, rfl, rfl⟩
  intro w hw
  refine (show Leads b (Either b) (vacuum env) fun _ => Either b from ?_) w (.inl hw)
  unfold vacuum
  refine leads_bind (hl _ _) fun _ => leads_bind (hq _ fun w => ⟨_, rfl, rfl, rfl⟩) fun _ =>
    leads_bind (hq _ fun w => ⟨_, rfl, rfl, rfl⟩) fun _ => leads_bind (B := fun _ => Either b) ?_ fun r =>
    leads_bind (hq _ fun w => ⟨_, rfl, rfl, rfl⟩) fun _ => ?_
  · unfold dbVacuum
    refine leads_bind (leads_commit hu) fun ok => ?_
    cases ok with
    | false => exact leads_pure fun w hw => .inl hw
    | true =>
      refine leads_bind (B := fun _ => Finished b) ?_ fun ok => leads_ite (fun _ => leads_pure fun w hw => .inr hw)
        fun _ => leads_pure fun w hw => .inr hw
      rintro w ⟨P, hp, hP, m, h1, h2⟩
      have := leads_exec (b := b) hu (i := .main) (s := .vacuum) (P := P) (q := .over) (by rw [hP]; rfl) (by rintro - ⟨⟩) w hp
      have hd := flag_exec (env := env) hu (s := .vacuum) h1
      rcases he : exec env .main .vacuum w with ⟨r, w'⟩
      rw [he] at this hd
      cases r with
      | error e => exact this
      | ok ok =>
        obtain ⟨m', h3, h4⟩ := hd
        refine ⟨_, this, ?_, m', h3, h4.trans h2⟩
        cases ok
        · exact hP
        · rfl
  · cases r <;> exact hl _ _

theorem leads_finish {b : Bool} {env : Env} (hu : ∀ n, env.undo n = false) {args : InstArgs} {cmd : Command}
    (h : Leads b (Looking b) (cmd.func env args) fun _ => Either b) :
    Leads b (Looking b) (finish env args cmd) fun _ => Ordered b := by
  have hq : ∀ (m : Run Unit), (∀ w, ∃ w', m w = (.ok (), w') ∧ w'.dbs = w.dbs ∧ w'.trace = w.trace) →
      Leads b (Either b) m fun _ => Either b := fun m h => leads_said h either_same
  have ho : ∀ w, Either b w → Ordered b w := fun w h => h.elim looking_ordered finished_ordered
  have hend : ∀ ok : Bool, Leads b (Either b) (if ok then do
        logInfo (.text "Done.")
        return .ok ()
      else return .error "database operation failed" : Run (Except String Unit)) fun _ => Ordered b := fun ok =>
    leads_ite (fun _ => leads_bind (hq _ fun w => ⟨_, rfl, rfl, rfl⟩) fun _ => leads_pure ho) fun _ => leads_pure ho
  unfold finish
  have hrest : Leads b (Either b) (do
      let m ← theDb .main
      let ok ←
        if m.inTransaction then do
          logInfo (.text "Committing...")
          commitIfNeeded env .main
        else pure true
      if ok then
        logInfo (.text "Done.")
        return .ok ()
      else return .error "database operation failed" : Run (Except String Unit)) fun _ => Ordered b := by
    refine leads_bind (B := fun _ => Either b) ?_ fun m => leads_ite (fun _ => leads_bind
      (hq _ fun w => ⟨_, rfl, rfl, rfl⟩) fun _ => leads_bind (B := fun _ => Either b) ?_ hend)
      fun _ => leads_bind (leads_pure fun w hw => hw) hend
    · intro w hw
      unfold theDb
      cases w.dbs .main with
      | none => exact ho w hw
      | some m => exact hw
    · intro w hw
      have := leads_commit (b := b) hu w hw
      rcases hx : commitIfNeeded env .main w with ⟨r, w'⟩
      rw [hx] at this
      cases r with
      | error e => exact this
      | ok ok => cases ok <;> first | exact .inl this | exact .inr this
  refine leads_bind h fun _ => leads_bind (B := fun _ => Either b) (fun w hw => hw) fun n => ?_
  exact leads_ite (fun _ => leads_bind (hq _ fun w => ⟨_, rfl, rfl, rfl⟩) fun _ => hrest) fun _ => hrest

/-- The statements of a run come in order. -/
theorem phases_run {env : Env} (hu : ∀ n, env.undo n = false) (args : InstArgs) :
    (phases args.inputMapPath.isSome (computeThread env args World.start).2.trace).isSome = true := by
  have hs := leads_setup (b := args.inputMapPath.isSome) hu args World.start rfl
  rw [computeThread_eq, run_bind]
  rcases h1 : setup env args World.start with ⟨r, w1⟩
  rw [h1] at hs
  cases r with
  | error e => exact hs
  | ok r =>
    cases r with
    | error e => exact hs
    | ok q =>
      obtain ⟨cmd, wn⟩ := q
      simp only
      rw [runCommand_eq]
      split
      · exact hs
      · obtain ⟨-, hcmd, -, h5⟩ := setup_iff.1 h1
        have hl := looking_setup h5
        have hl : Looking args.inputMapPath.isSome (w1.say (preEvents args wn)) := hl
        have hf : Leads args.inputMapPath.isSome (Looking args.inputMapPath.isSome) (cmd.func env args)
            fun _ => Either args.inputMapPath.isSome := by
          by_cases hvac : args.command = "vacuum"
          · rw [hvac] at hcmd
            rw [command_vacuum hcmd]
            exact leads_vacuum hu
          · intro w hw
            have := inv_command (looking_frame (b := args.inputMapPath.isSome) hu) hcmd hvac args w hw
            rcases hx : cmd.func env args w with ⟨r, w'⟩
            rw [hx] at this
            cases r with
            | error e => exact looking_ordered this
            | ok a => exact .inl this
        have := leads_finish hu hf _ hl
        rcases hx : finish env args cmd (w1.say (preEvents args wn)) with ⟨r, w'⟩
        rw [hx] at this
        cases r <;> exact this

end MapEditr
