import Verif.Proof.Skips
import Verif.Spec.Progress
/-!
# The counters over time, whatever happens
-/

namespace MapEditr
open Spec

/-! ## Parts that do not touch the counters -/

/-- Leaves the status and its history alone. -/
def Still (m : Run α) : Prop := ∀ w, (m w).2.status = w.status ∧ (m w).2.seen = w.seen

theorem still_pure (a : α) : Still (pure a : Run α) := fun _ => ⟨rfl, rfl⟩

theorem still_lift (r : Res α) : Still (Run.lift r) := fun _ => ⟨rfl, rfl⟩

theorem still_unwrap (o : Option α) : Still (Run.unwrap o) := still_lift _

theorem still_expect (o : Except DbErr α) : Still (expect o) := still_unwrap _

theorem run_bind_cases (m : Run α) (g : α → Run β) (w : World) :
    (∃ a w1, m w = (.ok a, w1) ∧ (m >>= g) w = g a w1) ∨
    (∃ e w1, m w = (.error e, w1) ∧ (m >>= g) w = (.error e, w1)) := by
  rcases h : m w with ⟨r, w1⟩
  cases r with
  | ok a => exact .inl ⟨a, w1, rfl, by show Run.bind m g w = _; unfold Run.bind; rw [h]⟩
  | error e => exact .inr ⟨e, w1, rfl, by show Run.bind m g w = _; unfold Run.bind; rw [h]⟩

theorem still_bind {m : Run α} {g : α → Run β} (h : Still m) (hg : ∀ a, Still (g a)) : Still (m >>= g) := by
  intro w
  have h1 := h w
  rcases run_bind_cases m g w with ⟨a, w1, e1, e2⟩ | ⟨e, w1, e1, e2⟩
  · rw [e2]
    rw [e1] at h1
    have h2 := hg a w1
    exact ⟨h2.1.trans h1.1, h2.2.trans h1.2⟩
  · rw [e2]
    rw [e1] at h1
    exact h1

theorem still_ite (c : Prop) [Decidable c] {m m' : Run α} (h : Still m) (h' : Still m') :
    Still (if c then m else m') := by split <;> assumption

theorem still_foldlM {f : β → α → Run β} (h : ∀ b a, Still (f b a)) (l : List α) (b : β) :
    Still (l.foldlM f b) := by
  induction l generalizing b with
  | nil => exact still_pure b
  | cons a t ih =>
    rw [List.foldlM_cons]
    exact still_bind (h b a) fun _ => ih _

theorem still_exec (env : Env) (i : DbId) (s : Sql) : Still (exec env i s) := fun w => by
  unfold exec
  split
  · exact ⟨rfl, rfl⟩
  · split
    · exact ⟨rfl, rfl⟩
    · split
      · exact ⟨failed_status _ _ _ _, failed_seen _ _ _ _⟩
      · exact ⟨rfl, rfl⟩

theorem still_theDb (i : DbId) : Still (theDb i) := fun w => by
  unfold theDb; split <;> exact ⟨rfl, rfl⟩

theorem still_begin (env : Env) (i : DbId) : Still (beginIfNeeded env i) :=
  still_bind (still_theDb i) fun _ => still_ite _ (still_exec _ _ _) (still_pure _)

theorem still_setFlag (i : DbId) (v : Bool) : Still (setFlag i v) :=
  still_bind (still_theDb i) fun _ => fun _ => ⟨rfl, rfl⟩

theorem still_commit (env : Env) (i : DbId) : Still (commitIfNeeded env i) :=
  still_bind (still_theDb i) fun _ => still_ite _ (still_bind (still_exec _ _ _) fun _ =>
    still_ite _ (still_bind (still_setFlag _ _) fun _ => still_pure _) (still_pure _)) (still_pure _)

theorem still_getBlock (env : Env) (i : DbId) (k : Int) : Still (getBlock env i k) := by
  refine still_bind (still_begin env i) fun _ => still_ite _ (still_bind (still_exec _ _ _) fun _ =>
    still_ite _ (still_bind (still_theDb i) fun m => ?_) (still_pure _)) (still_pure _)
  split <;> exact still_pure _

theorem still_setBlock (env : Env) (i : DbId) (k : Int) (d : Bytes) : Still (setBlock env i k d) :=
  still_bind (still_begin env i) fun _ => still_ite _ (still_bind (still_exec _ _ _) fun _ =>
    still_ite _ (still_pure _) (still_pure _)) (still_pure _)

theorem still_deleteBlock (env : Env) (i : DbId) (k : Int) : Still (deleteBlock env i k) :=
  still_bind (still_begin env i) fun _ => still_ite _ (still_bind (still_exec _ _ _) fun _ =>
    still_ite _ (still_pure _) (still_pure _)) (still_pure _)

theorem still_ser (env : Env) (b : MapBlock) : Still (ser env b) := fun _ => ⟨rfl, rfl⟩

theorem still_deser (env : Env) (d : Bytes) : Still (deser env d) := by
  unfold deser
  split
  · exact still_pure _
  · exact still_pure _
  · exact still_lift _

theorem still_okOr (r : Res α) : Still (Run.okOr r) := by
  unfold Run.okOr
  split
  · exact still_pure _
  · exact still_pure _
  · exact still_lift _

theorem still_getGenerated (env : Env) (i : DbId) (k : Int) : Still (getGenerated env i k) := by
  refine still_bind (still_getBlock env i k) fun r => ?_
  split <;> exact still_pure _

theorem still_send (e : Event) : Still (send e) := fun _ => ⟨rfl, rfl⟩

theorem still_log (t : LogType) (m : Msg) : Still (log t m) := still_send _

theorem still_save (env : Env) (b : MapBlock) (k : Int) {f : Unit → Run α} (hf : Still (f ())) :
    Still (ser env b >>= fun s => setBlock env .main k s >>= fun r => expect r >>= f) :=
  still_bind (still_ser env b) fun _ => still_bind (still_setBlock _ _ _ _) fun _ =>
    still_bind (still_expect _) fun _ => hf

theorem still_iterRows (env : Env) (i : DbId) : Still (iterRows env i) :=
  still_bind (still_begin _ _) fun _ => still_ite _ (still_bind (still_exec _ _ _) fun _ =>
    still_ite _ (still_bind (still_theDb i) fun _ => still_pure _) (still_unwrap _)) (still_unwrap _)

theorem still_cloneCached (env : Env) (cache : CacheMap BlockResult) (key : Int) :
    Still (cloneCached env cache key) := by
  unfold cloneCached
  split
  · exact still_pure _
  · refine still_bind (still_getGenerated _ _ _) fun o => ?_
    cases o with
    | none => exact still_pure _
    | some d => exact still_bind (still_deser _ _) fun _ => still_pure _

theorem still_overlayCached (env : Env) (cache : CacheMap (Option MapBlock)) (key : Int) :
    Still (overlayCached env cache key) := by
  unfold overlayCached
  split
  · exact still_pure _
  · refine still_bind (still_getGenerated _ _ _) fun o => ?_
    cases o with
    | none => exact still_pure _
    | some d => exact still_bind (still_deser _ _) fun _ => still_pure _

/-! ## Parts that count -/

/-- `s` can be seen on the way from `w` to `w'`. -/
def Between (w w' : World) (s : Status) : Prop :=
  s.total = w.status.total ∧ w.status.done ≤ s.done ∧ s.done ≤ w'.status.done ∧
  w.status.failed ≤ s.failed ∧ s.failed ≤ w'.status.failed

/-- From `w` to `w'`, at most `d` blocks are done and at most `f` fail; the total stays. -/
structure Adv (d f : Nat) (w w' : World) : Prop where
  hist : ∃ l, w'.seen = w.seen ++ l ∧ (∀ s ∈ l, Between w w' s) ∧
    (l.Pairwise fun s s' => s.done ≤ s'.done ∧ s.failed ≤ s'.failed) ∧
    (w.status :: l).getLast? = some w'.status
  total : w'.status.total = w.status.total
  done : w.status.done ≤ w'.status.done ∧ w'.status.done ≤ w.status.done + d
  failed : w.status.failed ≤ w'.status.failed ∧ w'.status.failed ≤ w.status.failed + f

theorem Adv.refl (w : World) : Adv d f w w :=
  ⟨⟨[], by simp, by simp, by simp, rfl⟩, rfl, ⟨by omega, by omega⟩, ⟨by omega, by omega⟩⟩

theorem Adv.trans {w w1 w2 : World} (h : Adv d f w w1) (h' : Adv d' f' w1 w2) : Adv (d + d') (f + f') w w2 := by
  obtain ⟨l, e, hl, hp, hlast⟩ := h.hist
  obtain ⟨l', e', hl', hp', hlast'⟩ := h'.hist
  have h1 := h.done
  have h2 := h'.done
  have h3 := h.failed
  have h4 := h'.failed
  refine ⟨⟨l ++ l', by rw [e', e, List.append_assoc], ?_, ?_, ?_⟩, h'.total.trans h.total, ⟨by omega, by omega⟩,
    ⟨by omega, by omega⟩⟩
  · intro s hs
    rcases List.mem_append.1 hs with hs | hs
    · obtain ⟨a1, a2, a3, a4, a5⟩ := hl s hs
      exact ⟨a1, a2, by omega, a4, by omega⟩
    · obtain ⟨a1, a2, a3, a4, a5⟩ := hl' s hs
      exact ⟨a1.trans h.total, by omega, a3, by omega, a5⟩
  · refine List.pairwise_append.2 ⟨hp, hp', fun s hs s' hs' => ?_⟩
    obtain ⟨a1, a2, a3, a4, a5⟩ := hl s hs
    obtain ⟨b1, b2, b3, b4, b5⟩ := hl' s' hs'
    exact ⟨by omega, by omega⟩
  · cases l' with
    | nil =>
      rw [List.append_nil, hlast, ← hlast']
      rfl
    | cons a t =>
      rw [← hlast', List.getLast?_cons_cons, ← List.cons_append, List.getLast?_append]
      cases h : (a :: t).getLast? with
      | none => simp at h
      | some x => rfl

theorem Adv.mono {w w1 : World} (h : Adv d f w w1) (hd : d ≤ d') (hf : f ≤ f') : Adv d' f' w w1 :=
  ⟨h.hist, h.total, ⟨h.done.1, by have := h.done.2; omega⟩, ⟨h.failed.1, by have := h.failed.2; omega⟩⟩

/-- Every run of `m`, whatever its outcome, advances that far. -/
def Advs (d f : Nat) (m : Run α) : Prop := ∀ w, Adv d f w (m w).2

theorem Still.advs {m : Run α} (h : Still m) : Advs d f m := by
  intro w
  obtain ⟨h1, h2⟩ := h w
  have h3 := Adv.refl (d := d) (f := f) w
  refine ⟨⟨[], by simp [h2], by simp, by simp, by rw [h1]; rfl⟩, by rw [h1], by rw [h1]; exact h3.done, by rw [h1]; exact h3.failed⟩

theorem advs_bind {m : Run α} {g : α → Run β} (h : Advs d f m) (hg : ∀ a, Advs d' f' (g a)) :
    Advs (d + d') (f + f') (m >>= g) := by
  intro w
  have h1 := h w
  rcases run_bind_cases m g w with ⟨a, w1, e1, e2⟩ | ⟨e, w1, e1, e2⟩
  · rw [e2]
    rw [e1] at h1
    exact h1.trans (hg a w1)
  · rw [e2]
    rw [e1] at h1
    exact h1.mono (by omega) (by omega)

theorem advs_still {m : Run α} {g : α → Run β} (h : Still m) (hg : ∀ a, Advs d f (g a)) : Advs d f (m >>= g) := by
  have := advs_bind (h.advs (d := 0) (f := 0)) hg
  simpa using this

theorem advs_then {m : Run α} {g : α → Run β} (h : Advs d f m) (hg : ∀ a, Advs 0 0 (g a)) : Advs d f (m >>= g) :=
  advs_bind h hg

theorem advs_ite (c : Prop) [Decidable c] {m m' : Run α} (h : Advs d f m) (h' : Advs d f m') :
    Advs d f (if c then m else m') := by split <;> assumption

theorem advs_foldlM {f : β → α → Run β} (h : ∀ b a, Advs 1 1 (f b a)) (l : List α) (b : β) :
    Advs l.length l.length (l.foldlM f b) := by
  induction l generalizing b with
  | nil => exact (still_pure b).advs
  | cons a t ih =>
    rw [List.foldlM_cons, List.length_cons, Nat.add_comm]
    exact advs_bind (h b a) fun _ => ih _

theorem advs_setState (s : InstState) : Advs 0 0 (setState s) := by
  intro w
  rw [setState_run]
  refine ⟨⟨[{ w.status with state := s }], rfl, ?_, by simp, rfl⟩, rfl, ⟨Nat.le_refl _, Nat.le_refl _⟩,
    ⟨Nat.le_refl _, Nat.le_refl _⟩⟩
  intro s' hs
  rw [List.mem_singleton] at hs
  subst hs
  exact ⟨rfl, Nat.le_refl _, Nat.le_refl _, Nat.le_refl _, Nat.le_refl _⟩

theorem advs_incDone : Advs 1 0 incDone := by
  intro w
  rw [incDone_run]
  refine ⟨⟨[{ w.status with done := w.status.done + 1 }], rfl, ?_, by simp, rfl⟩, rfl, ⟨Nat.le_succ _, Nat.le_refl _⟩,
    ⟨Nat.le_refl _, Nat.le_refl _⟩⟩
  intro s' hs
  rw [List.mem_singleton] at hs
  subst hs
  exact ⟨rfl, Nat.le_succ _, Nat.le_refl _, Nat.le_refl _, Nat.le_refl _⟩

theorem advs_incFailed : Advs d 1 incFailed := by
  intro w
  rw [incFailed_run]
  refine ⟨⟨[{ w.status with failed := w.status.failed + 1 }], rfl, ?_, by simp, rfl⟩, rfl,
    ⟨Nat.le_refl _, Nat.le_add_right _ _⟩, ⟨Nat.le_succ _, Nat.le_refl _⟩⟩
  intro s' hs
  rw [List.mem_singleton] at hs
  subst hs
  exact ⟨rfl, Nat.le_refl _, Nat.le_refl _, Nat.le_succ _, Nat.le_refl _⟩

theorem advs_showProgress (b : Bool) : Advs 0 0 (setShowProgress b) := by
  intro w
  show Adv 0 0 w (w.setStatus fun st => { st with showProgress := b })
  refine ⟨⟨[{ w.status with showProgress := b }], rfl, ?_, by simp, rfl⟩, rfl, ⟨Nat.le_refl _, Nat.le_refl _⟩,
    ⟨Nat.le_refl _, Nat.le_refl _⟩⟩
  intro s' hs
  rw [List.mem_singleton] at hs
  subst hs
  exact ⟨rfl, Nat.le_refl _, Nat.le_refl _, Nat.le_refl _, Nat.le_refl _⟩

/-- A block done, then `g`. -/
theorem advs_done {g : Unit → Run β} (hg : ∀ u, Advs 0 1 (g u)) : Advs 1 1 (incDone >>= g) :=
  advs_bind advs_incDone hg

/-- A block failed, then nothing. -/
theorem advs_failed {g : Unit → Run β} (hg : ∀ u, Still (g u)) : Advs d 1 (incFailed >>= g) :=
  advs_bind (d' := 0) (f' := 0) advs_incFailed fun u => (hg u).advs

/-! ## Before the editing -/

/-- Nothing done yet, and never was. -/
structure Fresh (w : World) : Prop where
  done : w.status.done = 0
  failed : w.status.failed = 0
  state : w.status.state ≠ .editing
  last : w.seen.getLast? = some w.status
  seen : ∀ s ∈ w.seen, s.done = 0 ∧ s.failed = 0 ∧ s.state ≠ .editing
  total : ∀ s ∈ w.seen, s.total ≤ w.status.total
  rise : w.seen.Pairwise fun s s' => s.total ≤ s'.total

/-- The history is in order and up to date. -/
def HistOk (w : World) : Prop := ProgressOk w.seen ∧ w.seen.getLast? = some w.status

theorem Fresh.ok {w : World} (h : Fresh w) : HistOk w := by
  refine ⟨⟨fun s hs => ?_, ?_⟩, h.last⟩
  · obtain ⟨h1, h2, -⟩ := h.seen s hs
    exact ⟨by omega, by omega⟩
  · refine h.rise.imp_of_mem fun {a b} ha _ hab => ?_
    obtain ⟨h1, h2, h3⟩ := h.seen a ha
    exact ⟨by omega, by omega, hab, fun he => absurd he h3⟩

theorem Fresh.adv {w w' : World} (h : Fresh w) (ha : Adv d f w w') (hd : d ≤ w.status.total)
    (hf : f ≤ w.status.total) : HistOk w' := by
  obtain ⟨l, e, hl, hp, hlast⟩ := ha.hist
  obtain ⟨⟨h0, h0'⟩, -⟩ := h.ok
  have h1 := h.done
  have h2 := h.failed
  have h3 := ha.done
  have h4 := ha.failed
  refine ⟨?_, ?_⟩
  rotate_left
  · rw [e]
    cases l with
    | nil =>
      rw [List.append_nil, h.last, ← hlast]
      rfl
    | cons a t =>
      rw [← hlast, List.getLast?_cons_cons, List.getLast?_append]
      cases h : (a :: t).getLast? with
      | none => simp at h
      | some x => rfl
  rw [e]
  refine ⟨fun s hs => ?_, List.pairwise_append.2 ⟨h0', ?_, fun s hs s' hs' => ?_⟩⟩
  · rcases List.mem_append.1 hs with hs | hs
    · exact h0 s hs
    · obtain ⟨a1, a2, a3, a4, a5⟩ := hl s hs
      exact ⟨by omega, by omega⟩
  · refine hp.imp_of_mem fun {s s'} hs hs' hss => ?_
    have ht : s'.total = s.total := by rw [(hl s hs).1, (hl s' hs').1]
    exact ⟨hss.1, hss.2, by omega, fun _ => ht⟩
  · obtain ⟨b1, b2, b3⟩ := h.seen s hs
    have b4 := h.total s hs
    have b5 := (hl s' hs').1
    exact ⟨by omega, by omega, by omega, fun he => absurd he b3⟩

/-- From a fresh world without a total, the history comes out fine. -/
def Shows (m : Run α) : Prop := ∀ w, Fresh w → w.status.total = 0 → HistOk (m w).2

theorem Still.fresh {m : Run α} (h : Still m) {w : World} (hw : Fresh w) : Fresh (m w).2 := by
  obtain ⟨h1, h2⟩ := h w
  exact ⟨by rw [h1]; exact hw.done, by rw [h1]; exact hw.failed, by rw [h1]; exact hw.state, by rw [h1, h2]; exact hw.last, by rw [h2]; exact hw.seen,
    by rw [h1, h2]; exact hw.total, by rw [h2]; exact hw.rise⟩

theorem prog_still {m : Run α} {g : α → Run β} (h : Still m) (hg : ∀ a, Shows (g a)) : Shows (m >>= g) := by
  intro w hw hz
  have h1 := h.fresh hw
  have h2 := (h w).1
  rcases run_bind_cases m g w with ⟨a, w1, e1, e2⟩ | ⟨e, w1, e1, e2⟩
  · rw [e2]
    rw [e1] at h1 h2
    exact hg a w1 h1 (by rw [h2]; exact hz)
  · rw [e2]
    rw [e1] at h1
    exact h1.ok

theorem Still.prog {m : Run α} (h : Still m) : Shows m := fun _ hw _ => (h.fresh hw).ok

theorem prog_then {m : Run α} {g : α → Run β} (h : Shows m) (hg : ∀ a, Still (g a)) : Shows (m >>= g) := by
  intro w hw hz
  have h1 := h w hw hz
  rcases run_bind_cases m g w with ⟨a, w1, e1, e2⟩ | ⟨e, w1, e1, e2⟩
  · rw [e2]
    rw [e1] at h1
    obtain ⟨h2, h3⟩ := hg a w1
    exact ⟨by rw [h3]; exact h1.1, by rw [h2, h3]; exact h1.2⟩
  · rw [e2]
    rw [e1] at h1
    exact h1

theorem prog_ite (c : Prop) [Decidable c] {m m' : Run α} (h : Shows m) (h' : Shows m') :
    Shows (if c then m else m') := by split <;> assumption

theorem prog_advs {m : Run α} (h : Advs 0 0 m) : Shows m := fun w hw _ =>
  hw.adv (h w) (Nat.zero_le _) (Nat.zero_le _)

theorem fresh_status {g : Status → Status} {w : World} (hw : Fresh w) (h1 : (g w.status).done = 0)
    (h2 : (g w.status).failed = 0) (h3 : (g w.status).state ≠ .editing)
    (h4 : w.status.total ≤ (g w.status).total) : Fresh (w.setStatus g) := by
  have h5 : ∀ s ∈ w.seen, s.total ≤ (g w.status).total := fun s hs => Nat.le_trans (hw.total s hs) h4
  refine ⟨h1, h2, h3, by simp, fun s hs => ?_, fun s hs => ?_,
    List.pairwise_append.2 ⟨hw.rise, List.pairwise_singleton .., fun s hs s' hs' => ?_⟩⟩
  · rcases List.mem_append.1 hs with hs | hs
    · exact hw.seen s hs
    · rw [List.mem_singleton] at hs
      subst hs
      exact ⟨h1, h2, h3⟩
  · rcases List.mem_append.1 hs with hs | hs
    · exact h5 s hs
    · rw [List.mem_singleton] at hs
      subst hs
      exact Nat.le_refl _
  · rw [List.mem_singleton] at hs'
    subst hs'
    exact h5 s hs

theorem fresh_setState {s : InstState} {w : World} (hw : Fresh w) (h : s ≠ .editing) : Fresh (setState s w).2 := by
  rw [setState_run]
  have := fresh_status (g := fun st => { st with state := s }) hw hw.done hw.failed h (Nat.le_refl _)
  exact ⟨this.done, this.failed, this.state, this.last, this.seen, this.total, this.rise⟩

/-- The total never exceeds the keys found so far. -/
def Counted (keys : List Int) (w : World) : Prop := Fresh w ∧ w.status.total ≤ keys.length

theorem counted_step {keep : Int → Bytes → Bool} {keys : List Int} {row : (Int × Bytes) × Nat} {w : World}
    (h : Counted keys w) : ∃ keys' w', queryStep keep keys row w = (.ok keys', w') ∧ Counted keys' w' := by
  obtain ⟨hw, ht⟩ := h
  unfold queryStep
  split
  · have hl : w.status.total ≤ (keys ++ [row.1.1]).length := by
      rw [List.length_append]
      omega
    simp only
    split
    · exact ⟨_, _, rfl, fresh_status (g := fun st => { st with total := (keys ++ [row.1.1]).length })
        hw hw.done hw.failed hw.state hl, Nat.le_refl _⟩
    · exact ⟨_, _, rfl, hw, hl⟩
  · exact ⟨_, _, rfl, hw, ht⟩

theorem counted_fold {keep : Int → Bytes → Bool} (rows : List ((Int × Bytes) × Nat)) {keys : List Int} {w : World}
    (h : Counted keys w) :
    ∃ keys' w', rows.foldlM (queryStep keep) keys w = (.ok keys', w') ∧ Counted keys' w' := by
  induction rows generalizing keys w with
  | nil => exact ⟨_, _, rfl, h⟩
  | cons a t ih =>
    obtain ⟨k1, w1, e1, h1⟩ := counted_step (keep := keep) (row := a) h
    obtain ⟨k2, w2, e2, h2⟩ := ih h1
    refine ⟨k2, w2, ?_, h2⟩
    rw [List.foldlM_cons]
    exact run_bind_iff.2 ⟨_, _, e1, e2⟩

theorem fresh_queryKeys (env : Env) (i : DbId) (strs : List Bytes) (area : Option Area)
    (invert partial_ : Bool) {w : World} (hw : Fresh w) (hz : w.status.total = 0) :
    Fresh (queryKeys env i strs area invert partial_ w).2 := by
  have hend : ∀ {keys : List Int} {w : World}, Counted keys w → Fresh ((do
      setTotal keys.length
      setState .ignore
      return keys : Run (List Int)) w).2 := by
    rintro keys w ⟨h1, h2⟩
    exact fresh_setState (fresh_status (g := fun st => { st with total := keys.length })
      h1 h1.done h1.failed h1.state h2) (by decide)
  have h1 : Fresh (setState .querying w).2 := fresh_setState hw (by decide)
  have h2 : (setState .querying w).2.status.total = 0 := hz
  unfold queryKeys
  rcases run_bind_cases (setState .querying) _ w with ⟨a, w1, e1, e2⟩ | ⟨e, w1, e1, e2⟩
  rotate_left
  · rw [e1] at h1
    exact e2 ▸ h1
  rw [e1] at h1 h2
  rw [e2]
  clear e2
  simp only at h1 h2 ⊢
  split
  · have h3 := still_iterRows env i w1
    rcases run_bind_cases (iterRows env i) _ w1 with ⟨rows, w2, e3, e4⟩ | ⟨e, w2, e3, e4⟩
    · have h4 : Counted [] w2 := by
        have h5 := (still_iterRows env i).fresh h1
        rw [e3] at h3 h5
        exact ⟨h5, by rw [h3.1, h2]; exact Nat.le_refl _⟩
      rw [e4]
      obtain ⟨k2, w3, e5, h6⟩ := counted_fold (keep := queryKeeps (strs.map string16)
        (queryArea area invert partial_) (area.isSome && (queryArea area invert partial_).isNone) invert)
        rows.zipIdx h4
      rw [run_bind_ok e5]
      exact hend h6
    · have h5 := (still_iterRows env i).fresh h1
      rw [e3] at h5
      exact e4 ▸ h5
  · exact hend (keys := []) ⟨h1, by rw [h2]; exact Nat.le_refl _⟩

theorem queryKeys_total {env : Env} {i : DbId} {strs : List Bytes} {area : Option Area} {invert partial_ : Bool}
    {w w' : World} {keys : List Int} (h : queryKeys env i strs area invert partial_ w = (.ok keys, w')) :
    w'.status.total = keys.length := by
  unfold queryKeys at h
  obtain ⟨_, w1, -, h⟩ := run_bind_iff.1 h
  have hend : ∀ {keys' : List Int} {w1 : World}, (do
      setTotal keys'.length
      setState .ignore
      return keys' : Run (List Int)) w1 = (.ok keys, w') → w'.status.total = keys.length := by
    intro keys' w1 h
    cases h
    rfl
  simp only at h
  split at h
  · obtain ⟨_, _, -, h⟩ := run_bind_iff.1 h
    obtain ⟨_, _, -, h⟩ := run_bind_iff.1 h
    exact hend h
  · obtain ⟨_, _, -, h⟩ := run_bind_iff.1 h
    exact hend h

/-- Query, then edit the blocks found. -/
theorem prog_query {env : Env} {i : DbId} {strs : List Bytes} {area : Option Area} {invert partial_ : Bool}
    {g : List Int → Run β} (h : ∀ keys : List Int, Advs keys.length keys.length (g keys)) :
    Shows (queryKeys env i strs area invert partial_ >>= g) := by
  intro w hw hz
  have h1 := fresh_queryKeys env i strs area invert partial_ hw hz
  rcases run_bind_cases (queryKeys env i strs area invert partial_) g w with ⟨a, w1, e1, e2⟩ | ⟨e, w1, e1, e2⟩
  · rw [e2]
    rw [e1] at h1
    replace h1 : Fresh w1 := h1
    have ht := queryKeys_total e1
    exact Fresh.adv h1 (h a w1) (by omega) (by omega)
  · rw [e2]
    rw [e1] at h1
    exact h1.ok

/-- The loop of a command. -/
theorem advs_edit {f : β → Int → Run β} (h : ∀ b a, Advs 1 1 (f b a)) (keys : List Int) (b : β)
    {g : β → Run γ} (hg : ∀ b, Still (g b)) :
    Advs keys.length keys.length (beginEditing >>= fun _ => keys.foldlM f b >>= fun r => endEditing >>= fun _ => g r) := by
  have := advs_bind (advs_setState .editing) fun _ => advs_then (advs_foldlM h keys b) fun r =>
    advs_bind (advs_setState .ignore) fun _ => (hg r).advs (d := 0) (f := 0)
  rw [Nat.zero_add] at this
  exact this

theorem advs_edit' {f : β → Int → Run β} (h : ∀ b a, Advs 1 1 (f b a)) (keys : List Int) (b : β) :
    Advs keys.length keys.length (beginEditing >>= fun _ => keys.foldlM f b >>= fun _ => endEditing) := by
  have := advs_bind (advs_setState .editing) fun _ => advs_then (advs_foldlM h keys b) fun r =>
    advs_setState .ignore
  rw [Nat.zero_add] at this
  exact this

/-- Reading and decoding a block: if that fails it is counted, otherwise `g` goes on. -/
theorem advs_read (env : Env) (i : DbId) (k : Int) {m : Bytes → Run (Option α)} (hm : ∀ d, Still (m d))
    {g : Option α → Run β} (h0 : Advs d 1 (g none)) (hg : ∀ b, Advs d 1 (g (some b))) :
    Advs d 1 (getBlock env i k >>= fun r => expect r >>= fun d => m d >>= g) := by
  refine advs_still (still_getBlock _ _ _) fun r => advs_still (still_expect _) fun d => advs_still (hm d) fun o => ?_
  cases o with
  | none => exact h0
  | some b => exact hg b

theorem advs_fillStep (env : Env) (area : Area) (invert : Bool) (node : Bytes) (count : Nat) (key : Int) :
    Advs 1 1 (fillStep env area invert node count key) := by
  unfold fillStep
  refine advs_done fun _ => advs_read _ _ _ (fun _ => still_okOr _) (advs_failed fun _ => still_pure _) fun b => ?_
  simp only
  exact (still_bind (still_lift _) fun ⟨_, _⟩ => still_save _ _ _ (still_pure _)).advs

theorem prog_fill (env : Env) (args : InstArgs) : Shows (fill env args) := by
  unfold fill
  exact prog_still (still_unwrap _) fun area => prog_still (still_unwrap _) fun node =>
    prog_query fun keys => advs_edit (fun count key => advs_fillStep _ _ _ _ _ _) _ _ fun _ => still_log _ _

theorem advs_replaceStep (env : Env) (args : InstArgs) (oldNode newNode : Bytes) (count : Nat) (key : Int) :
    Advs 1 1 (replaceStep env args oldNode newNode count key) := by
  unfold replaceStep
  refine advs_read _ _ _ (fun _ => still_okOr _) (advs_failed fun _ => still_pure _) fun b => ?_
  simp only
  split
  · exact advs_still (still_lift _) fun r => advs_still (still_ser _ _) fun _ =>
      advs_still (still_setBlock _ _ _ _) fun _ => advs_still (still_expect _) fun _ =>
        advs_done fun _ => (still_pure _).advs
  · exact advs_done fun _ => (still_pure _).advs

theorem prog_replaceNodes (env : Env) (args : InstArgs) : Shows (replaceNodes env args) := by
  unfold replaceNodes
  exact prog_still (still_unwrap _) fun area => prog_still (still_unwrap _) fun node =>
    prog_query fun keys => advs_edit (fun count key => advs_replaceStep _ _ _ _ _ _) _ _ fun _ => still_log _ _

theorem advs_param2Step (env : Env) (args : InstArgs) (val : UInt8) (node : Option Bytes) (count : Nat) (key : Int) :
    Advs 1 1 (param2Step env args val node count key) := by
  unfold param2Step
  refine advs_done fun _ => advs_read _ _ _ (fun _ => still_okOr _) (advs_failed fun _ => still_pure _) fun b => ?_
  simp only
  split
  · exact (still_pure _).advs
  · exact (still_bind (still_lift _) fun ⟨_, _⟩ => still_save _ _ _ (still_pure _)).advs

theorem prog_setParam2 (env : Env) (args : InstArgs) : Shows (setParam2 env args) := by
  unfold setParam2
  exact prog_still (still_unwrap _) fun val =>
    prog_query fun keys => advs_edit (fun count key => advs_param2Step _ _ _ _ _ _) _ _ fun _ => still_log _ _

theorem prog_deleteBlocks (env : Env) (args : InstArgs) : Shows (deleteBlocks env args) := by
  unfold deleteBlocks forEach
  refine prog_query fun keys => advs_edit' (fun _ key => ?_) _ _
  exact advs_done fun _ => (still_bind (still_deleteBlock _ _ _) fun _ => still_expect _).advs

theorem advs_deleteMetaStep (env : Env) (args : InstArgs) (node : Option Bytes) (count : Nat) (key : Int) :
    Advs 1 1 (deleteMetaStep env args node count key) := by
  unfold deleteMetaStep
  refine advs_done fun _ => advs_read _ _ _ (fun _ => still_okOr _) (advs_failed fun _ => still_pure _) fun b => ?_
  simp only
  split
  · exact (still_pure _).advs
  · refine (still_bind (still_lift _) fun r => ?_).advs
    split
    · exact still_save _ _ _ (still_pure _)
    · exact still_pure _

theorem prog_deleteMetadata (env : Env) (args : InstArgs) : Shows (deleteMetadata env args) := by
  unfold deleteMetadata
  exact prog_query fun keys => advs_edit (fun count key => advs_deleteMetaStep _ _ _ _ _) _ _ fun _ => still_log _ _

theorem advs_setMetaVarStep (env : Env) (args : InstArgs) (k v : Bytes) (nodes : List Bytes) (count : Nat) (key : Int) :
    Advs 1 1 (setMetaVarStep env args k v nodes count key) := by
  unfold setMetaVarStep
  refine advs_done fun _ => advs_read _ _ _ (fun _ => still_okOr _) (advs_failed fun _ => still_pure _) fun b => ?_
  simp only
  exact (still_ite _ (still_pure _) (still_bind (still_lift _) fun ⟨_, _⟩ =>
    still_ite _ (still_save _ _ _ (still_pure _)) (still_pure _))).advs

theorem prog_setMetaVar (env : Env) (args : InstArgs) : Shows (setMetaVar env args) := by
  unfold setMetaVar
  exact prog_still (still_unwrap _) fun val =>
    prog_query fun keys => advs_edit (fun count key => advs_setMetaVarStep _ _ _ _ _ _ _) _ _ fun _ => still_log _ _

theorem advs_deleteTimersStep (env : Env) (args : InstArgs) (node : Option Bytes) (count : Nat) (key : Int) :
    Advs 1 1 (deleteTimersStep env args node count key) := by
  unfold deleteTimersStep
  refine advs_done fun _ => advs_read _ _ _ (fun _ => still_okOr _) (advs_failed fun _ => still_pure _) fun b => ?_
  simp only
  exact (still_ite _ (still_pure _) (still_bind (still_lift _) fun ⟨_, _⟩ =>
    still_ite _ (still_save _ _ _ (still_pure _)) (still_pure _))).advs

theorem prog_deleteTimers (env : Env) (args : InstArgs) : Shows (deleteTimers env args) := by
  unfold deleteTimers
  exact prog_query fun keys => advs_edit (fun count key => advs_deleteTimersStep _ _ _ _ _) _ _ fun _ => still_log _ _

theorem advs_deleteObjectsStep (env : Env) (args : InstArgs) (obj : Option Bytes) (items : List Bytes) (count : Nat) (key : Int) :
    Advs 1 1 (deleteObjectsStep env args obj items count key) := by
  unfold deleteObjectsStep
  refine advs_done fun _ => advs_read _ _ _ (fun _ => still_okOr _) (advs_failed fun _ => still_pure _) fun b => ?_
  simp only
  exact (still_bind (still_lift _) fun ⟨_, _⟩ =>
    still_ite _ (still_save _ _ _ (still_pure _)) (still_pure _)).advs

theorem prog_deleteObjects (env : Env) (args : InstArgs) : Shows (deleteObjects env args) := by
  unfold deleteObjects
  exact prog_query fun keys => advs_edit (fun count key => advs_deleteObjectsStep _ _ _ _ _ _) _ _ fun _ => still_log _ _

theorem advs_replaceInInvStep (env : Env) (args : InstArgs) (item newItem : Bytes) (nodes : List Bytes) (count : Nat × Nat) (key : Int) :
    Advs 1 1 (replaceInInvStep env args item newItem nodes count key) := by
  unfold replaceInInvStep
  refine advs_done fun _ => advs_read _ _ _ (fun _ => still_okOr _) (advs_failed fun _ => still_pure _) fun b => ?_
  simp only
  exact (still_ite _ (still_pure _) (still_bind (still_lift _) fun ⟨_, _⟩ =>
    still_ite _ (still_save _ _ _ (still_pure _)) (still_pure _))).advs

theorem prog_replaceInInv (env : Env) (args : InstArgs) : Shows (replaceInInv env args) := by
  unfold replaceInInv
  exact prog_still (still_unwrap _) fun val =>
    prog_query fun keys => advs_edit (fun count key => advs_replaceInInvStep _ _ _ _ _ _ _) _ _ fun _ => still_log _ _

theorem advs_cloneStep (env : Env) (a : Area) (o : Vec3) (cache : CacheMap BlockResult) (k : Int) :
    Advs 1 1 (cloneStep env a o cache k) := by
  refine advs_done fun _ => advs_still (still_cloneCached _ _ _) fun ⟨r, cache⟩ => ?_
  simp only
  split
  · exact (still_pure _).advs
  · exact advs_failed fun _ => still_pure _
  · refine Still.advs (still_bind (still_unwrap _) fun part =>
      still_bind (still_foldlM (fun st pos => ?_) _ _) fun st =>
      still_bind (still_lift _) fun b => still_save env _ _ (still_pure _))
    unfold cloneSrc
    refine still_ite _ (still_pure _) (still_bind (still_lift _) fun k =>
      still_bind (still_cloneCached _ _ _) fun ⟨r, cache⟩ => ?_)
    simp only
    split
    · exact still_bind (still_lift _) fun _ => still_pure _
    · exact still_pure _

theorem prog_clone (env : Env) (cap : Nat) (args : InstArgs) : Shows (clone env cap args) := by
  unfold clone
  refine prog_still (still_unwrap _) fun src => prog_still (still_unwrap _) fun off =>
    prog_query fun keys => ?_
  cases h : sortKeys off keys with
  | error e => exact (still_lift _).advs
  | ok ks =>
    rw [← sortKeys_length h]
    exact advs_edit' (fun cache k => advs_cloneStep env _ _ _ _) ks _

theorem still_copyWhole (env : Env) (k : Int) : Still (copyWhole env k) :=
  still_bind (still_getBlock _ _ _) fun _ => still_bind (still_expect _) fun _ =>
    still_ite _ (still_bind (still_setBlock _ _ _ _) fun _ => still_expect _) (still_pure _)

theorem advs_overlayStep (env : Env) (area : Option Area) (invert : Bool) (k : Int) :
    Advs 1 1 (overlayStep env area invert k) := by
  refine advs_done fun _ => ?_
  cases area with
  | none => exact (still_copyWhole env k).advs
  | some a =>
    refine advs_ite _ (still_copyWhole env k).advs ?_
    unfold copyPart
    refine advs_still (still_getGenerated _ _ _) fun o => ?_
    cases o with
    | none => exact (still_pure _).advs
    | some d =>
      refine advs_still (still_getBlock _ _ _) fun _ => advs_still (still_expect _) fun _ =>
        advs_still (still_deser _ _) fun r => ?_
      cases r with
      | error e => exact advs_incFailed
      | ok src =>
        refine advs_still (still_deser _ _) fun r => ?_
        cases r with
        | error e => exact advs_incFailed
        | ok dst =>
          refine advs_still (still_unwrap _) fun part => ?_
          exact (still_bind (still_lift _) fun b => still_bind (still_lift _) fun m =>
            still_bind (still_lift _) fun b => still_bind (still_ser env _) fun _ =>
            still_bind (still_setBlock _ _ _ _) fun _ => still_expect _).advs

theorem advs_overlayOffsetStep (env : Env) (area : Option Area) (o : Vec3)
    (cache : CacheMap (Option MapBlock)) (k : Int) : Advs 1 1 (overlayOffsetStep env area o cache k) := by
  refine advs_done fun _ => advs_still (still_getGenerated _ _ _) fun r => ?_
  cases r with
  | none => exact (still_pure _).advs
  | some d =>
    refine advs_still (still_deser _ _) fun r => ?_
    cases r with
    | error e => exact advs_failed fun _ => still_pure _
    | ok dst =>
      have hrest : ∀ part : Area, Still (do
          let (dst, cache) ← (part.sub o).toTouchingBlockArea.positions.foldlM
            (overlaySrc env (part.sub o) o (Vec3.fromBlockKey k)) (dst, cache)
          let dst ← Run.lift (cleanNimap env.build dst)
          expect (← setBlock env .main k (← ser env dst))
          return cache : Run (CacheMap (Option MapBlock))) := by
        intro part
        refine still_bind (still_foldlM (fun st pos => ?_) _ _) fun st =>
          still_bind (still_lift _) fun b => still_save _ _ _ (still_pure _)
        unfold overlaySrc
        refine still_ite _ (still_pure _) (still_bind (still_lift _) fun k =>
          still_bind (still_overlayCached _ _ _) fun ⟨r, cache⟩ => ?_)
        simp only
        split
        · exact still_bind (still_lift _) fun _ => still_pure _
        · exact still_pure _
      simp only
      split
      · exact (still_bind (still_pure _) hrest).advs
      · exact (still_bind (still_unwrap _) hrest).advs

theorem prog_overlay (env : Env) (cap : Nat) (args : InstArgs) : Shows (overlay env cap args) := by
  unfold overlay
  refine prog_still (still_theDb _) fun _ => prog_ite _ ?_ ?_
  · unfold overlayNoOffset
    exact prog_query fun keys => advs_edit' (fun _ key => advs_overlayStep env _ _ _) _ _
  · unfold overlayWithOffset
    exact prog_still (still_unwrap _) fun off => prog_query fun keys =>
      advs_edit' (fun cache key => advs_overlayOffsetStep env _ _ _ _) _ _

theorem still_vacuum (env : Env) (i : DbId) : Still (dbVacuum env i) :=
  still_bind (still_commit _ _) fun _ => still_ite _ (still_bind (still_exec _ _ _) fun _ =>
    still_ite _ (still_pure _) (still_pure _)) (still_pure _)

theorem prog_vacuum (env : Env) : Shows (vacuum env) := by
  unfold vacuum
  refine prog_still (still_log _ _) fun _ => prog_advs ?_
  refine advs_then (advs_showProgress _) fun _ => advs_then (advs_setState _) fun _ =>
    advs_still (still_vacuum _ _) fun r => advs_then (advs_setState _) fun _ => ?_
  cases r <;> exact (still_log _ _).advs

theorem prog_command {name : String} {cmd : Command} (h : command? name = some cmd) (env : Env) (args : InstArgs) :
    Shows (cmd.func env args) := by
  unfold command? at h
  rw [Option.map_eq_some_iff] at h
  obtain ⟨⟨n, c⟩, h1, rfl⟩ := h
  have hm := List.mem_of_find?_eq_some h1
  unfold commands at hm
  simp only [List.mem_cons, List.not_mem_nil, or_false, Prod.mk.injEq] at hm
  rcases hm with ⟨_, rfl⟩ | ⟨_, rfl⟩ | ⟨_, rfl⟩ | ⟨_, rfl⟩ | ⟨_, rfl⟩ | ⟨_, rfl⟩ | ⟨_, rfl⟩ | ⟨_, rfl⟩ |
    ⟨_, rfl⟩ | ⟨_, rfl⟩ | ⟨_, rfl⟩ | ⟨_, rfl⟩
  · exact prog_clone _ _ _
  · exact prog_deleteBlocks _ _
  · exact prog_deleteMetadata _ _
  · exact prog_deleteObjects _ _
  · exact prog_deleteTimers _ _
  · exact prog_fill _ _
  · exact prog_replaceNodes _ _
  · exact prog_replaceInInv _ _
  · exact prog_overlay _ _ _
  · exact prog_setMetaVar _ _
  · exact prog_setParam2 _ _
  · exact prog_vacuum _

theorem still_openMap (env : Env) (i : DbId) (p : String) : Still (openMap env i p) := by
  intro w
  unfold openMap
  split
  · exact ⟨rfl, rfl⟩
  · split <;> exact ⟨rfl, rfl⟩

theorem still_new (env : Env) (i : DbId) : Still (MapDb.new env i) := by
  refine still_bind (still_exec _ _ _) fun _ => still_ite _ (still_bind (still_bind (still_exec _ _ _) fun _ =>
    still_ite _ (still_bind (still_theDb _) fun _ => still_ite _ (still_pure _) (still_pure _)) (still_pure _))
    fun r => ?_) (still_pure _)
  split
  · exact still_pure _
  · exact still_bind (still_exec _ _ _) fun _ => still_ite _ (still_bind (still_setFlag _ _) fun _ => still_pure _)
      (still_pure _)

/-- After the function of the command, nothing is counted. -/
theorem finish_then (env : Env) (args : InstArgs) (cmd : Command) :
    ∃ g, finish env args cmd = (cmd.func env args >>= g) ∧ ∀ u, Still (g u) := by
  unfold finish
  refine ⟨_, rfl, fun _ => ?_⟩
  have hok : ∀ ok : Bool, Still (do
      if ok then
        logInfo (.text "Done.")
        return .ok ()
      else return .error "database operation failed" : Run (Except String Unit)) := fun ok =>
    still_ite _ (still_bind (still_log _ _) fun _ => still_pure _) (still_pure _)
  have hm : Still (do
      let m ← theDb .main
      let ok ←
        if m.inTransaction then do
          logInfo (.text "Committing...")
          commitIfNeeded env .main
        else pure true
      if ok then
        logInfo (.text "Done.")
        return .ok ()
      else return .error "database operation failed" : Run (Except String Unit)) := by
    refine still_bind (still_theDb _) fun m => ?_
    simp only
    split
    · exact still_bind (still_log _ _) fun _ => still_bind (still_commit _ _) hok
    · exact still_bind (still_pure _) hok
  refine still_bind (fun _ => ⟨rfl, rfl⟩) fun fails => ?_
  simp only
  split
  · exact still_bind (still_log _ _) fun _ => hm
  · exact hm

theorem prog_finish (env : Env) (args : InstArgs) {name : String} {cmd : Command} (h : command? name = some cmd) :
    Shows (finish env args cmd) := by
  obtain ⟨g, e, hg⟩ := finish_then env args cmd
  rw [e]
  exact prog_then (prog_command h env args) hg

theorem prog_runCommand (env : Env) (args : InstArgs) {name : String} {cmd : Command} (h : command? name = some cmd)
    (wn : Option String) : Shows (runCommand env args cmd wn) := by
  intro w hw hz
  have hw' : Fresh (w.say (preEvents args wn)) :=
    ⟨hw.done, hw.failed, hw.state, hw.last, hw.seen, hw.total, hw.rise⟩
  rw [runCommand_eq]
  split
  · exact hw'.ok
  · exact prog_finish env args h _ hw' hz

theorem still_openK (env : Env) (i : DbId) (p e1 e2 : String) {k : Run (Except String β)} (h : Still k) :
    Still (openK env i p e1 e2 k) := by
  unfold openK
  refine still_bind (still_openMap _ _ _) fun ok => still_ite _ (still_pure _) (still_bind (still_new _ _) fun r => ?_)
  split
  · exact still_pure _
  · exact h

theorem still_openAll (env : Env) (args : InstArgs) (r : β) : Still (openAll env args r) := by
  unfold openAll
  refine still_openK _ _ _ _ _ ?_
  split
  · exact still_pure _
  · exact still_openK _ _ _ _ _ (still_pure _)

theorem still_setup (env : Env) (args : InstArgs) : Still (setup env args) := by
  rw [setup_eq]
  split
  · exact still_pure _
  · refine still_bind (still_unwrap _) fun cmd => still_bind (still_lift _) fun r => ?_
    cases r with
    | error e => exact still_pure _
    | ok => exact still_openAll _ _ _
    | warning t => exact still_openAll _ _ _

theorem fresh_start : Fresh World.start :=
  ⟨rfl, rfl, by decide, rfl, fun s hs => by
    rw [List.mem_singleton.1 hs]
    exact ⟨rfl, rfl, by decide⟩,
    fun s hs => by
      rw [List.mem_singleton.1 hs]
      exact Nat.le_refl _, List.pairwise_singleton ..⟩

theorem run_bind_ind {P : World → Prop} {m : Run α} {g : α → Run β} {w : World}
    (h : ∀ a w1, m w = (.ok a, w1) → P (g a w1).2) (h' : ∀ e w1, m w = (.error e, w1) → P w1) :
    P ((m >>= g) w).2 := by
  rcases run_bind_cases m g w with ⟨a, w1, e1, e2⟩ | ⟨e, w1, e1, e2⟩
  · rw [e2]
    exact h a w1 e1
  · rw [e2]
    exact h' e w1 e1

theorem prog_computeThread (env : Env) (args : InstArgs) : HistOk (computeThread env args World.start).2 := by
  have h1 := (still_setup env args).fresh fresh_start
  have h2 := (still_setup env args World.start).1
  rw [computeThread_eq]
  refine run_bind_ind (P := HistOk) (fun a w1 e1 => ?_) fun e w1 e1 => ?_
  · rw [e1] at h1 h2
    replace h1 : Fresh w1 := h1
    replace h2 : w1.status.total = 0 := by
      rw [h2]
      rfl
    match a with
    | .error e => exact h1.ok
    | .ok (cmd, wn) => exact prog_runCommand env args (setup_iff.1 e1).2.1 wn w1 h1 h2
  · rw [e1] at h1
    exact h1.ok

theorem prog_worker (env : Env) (args : InstArgs) : HistOk (worker env args World.start).2 := by
  have h1 := prog_computeThread env args
  unfold worker
  refine run_bind_ind (P := HistOk) (fun a w1 e1 => ?_) fun e w1 e1 => ?_
  · rw [e1] at h1
    cases a with
    | error e => exact h1
    | ok u => exact h1
  · rw [e1] at h1
    exact h1

end MapEditr
