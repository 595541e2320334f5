import Verif.Proof.Builds
/-! # Lemmas: debug and release builds, whole runs -/

namespace MapEditr
open Spec
set_option linter.unusedSimpArgs false

theorem Spec.Before.refl (w : World) : Before w w := ⟨List.prefix_refl _, List.prefix_refl _, List.prefix_refl _⟩

theorem Spec.Before.trans {w w1 w2 : World} (h : Before w w1) (h' : Before w1 w2) : Before w w2 :=
  ⟨h.trace.trans h'.trace, h.events.trans h'.events, h.seen.trans h'.seen⟩

/-- The same, unless an integer overflows; and the second only adds to what has been done. -/
structure Pair (m m' : Run α) : Prop where
  ext : ∀ w, Before w (m' w).2
  same : SameUntilOverflow m m'

theorem pair_same {m : Run α} (h : ∀ w, Before w (m w).2) : Pair m m := ⟨h, fun _ => .inl rfl⟩

theorem pair_quiet {m : Run α} (h : ∀ w, (m w).2 = w) : Pair m m :=
  pair_same fun w => by rw [h]; exact .refl w

theorem pair_lift {x y : Res α} (h : Over x y) : Pair (Run.lift x) (Run.lift y) :=
  ⟨fun w => .refl w, fun w => h.imp (fun e => by rw [e]) fun e => ⟨e, .refl w⟩⟩

theorem pair_bind {m m' : Run α} {k k' : α → Run β} (hm : Pair m m') (hk : ∀ a, Pair (k a) (k' a)) :
    Pair (m >>= k) (m' >>= k') := by
  have hx : ∀ w, Before (m' w).2 ((m' >>= k') w).2 := by
    intro w
    show Before _ (Run.bind m' k' w).2
    unfold Run.bind
    rcases m' w with ⟨_ | a, w1⟩
    · exact .refl _
    · exact (hk a).ext w1
  refine ⟨fun w => (hm.ext w).trans (hx w), fun w => ?_⟩
  rcases hm.same w with h | ⟨h, h'⟩
  · show Run.bind m k w = Run.bind m' k' w ∨ Overflow (Run.bind m k w).1 ∧ Before (Run.bind m k w).2 (Run.bind m' k' w).2
    unfold Run.bind
    rw [h]
    rcases m' w with ⟨_ | a, w1⟩
    · exact .inl rfl
    · exact (hk a).same w1
  · right
    have e : (m >>= k) w = ((match (m w).1 with | .ok _ => .error (.panic "") | .error e => .error e), (m w).2) := by
      show Run.bind m k w = _
      unfold Run.bind
      obtain ⟨t, ht, e⟩ := h
      rcases hw : m w with ⟨r, w1⟩
      rw [hw] at e
      simp only at e
      subst e
      rfl
    obtain ⟨t, ht, et⟩ := h
    rw [e, et]
    exact ⟨⟨t, ht, rfl⟩, h'.trans (hx w)⟩

theorem pair_ite (c : Prop) [Decidable c] {m n m' n' : Run α} (h : Pair m m') (h' : Pair n n') :
    Pair (if c then m else n) (if c then m' else n') := by split <;> assumption

theorem pair_pure (a : α) : Pair (pure a : Run α) (pure a) := pair_quiet fun _ => rfl

theorem pair_foldlM {f g : β → α → Run β} (l : List α) (b : β) (h : ∀ b a, Pair (f b a) (g b a)) :
    Pair (l.foldlM f b) (l.foldlM g b) := by
  induction l generalizing b with
  | nil => exact pair_pure _
  | cons a t ih =>
    rw [List.foldlM_cons, List.foldlM_cons]
    exact pair_bind (h b a) fun _ => ih _

theorem pair_unwrap (o : Option α) : Pair (Run.unwrap o) (Run.unwrap o) := pair_lift (over_refl _)
theorem pair_expect (o : Except DbErr α) : Pair (expect o) (expect o) := pair_unwrap _

theorem pair_okOr (r : Res α) : Pair (Run.okOr r) (Run.okOr r) := by
  unfold Run.okOr
  split
  · exact pair_pure _
  · exact pair_pure _
  · exact pair_lift (over_refl _)

theorem pair_setStatus (f : Status → Status) : Pair (Run.upd (World.setStatus f)) (Run.upd (World.setStatus f)) :=
  pair_same fun _ => ⟨List.prefix_refl _, List.prefix_refl _, List.prefix_append _ _⟩

theorem pair_send (e : Event) : Pair (send e) (send e) :=
  pair_same fun _ => ⟨List.prefix_refl _, List.prefix_append _ _, List.prefix_refl _⟩

theorem pair_setState (s : InstState) : Pair (setState s) (setState s) :=
  pair_bind (pair_setStatus _) fun _ => pair_send _

theorem pair_log (t : LogType) (m : Msg) : Pair (log t m) (log t m) := pair_send _
theorem pair_logInfo (m : Msg) : Pair (logInfo m) (logInfo m) := pair_send _
theorem pair_setTotal (n : Nat) : Pair (setTotal n) (setTotal n) := pair_setStatus _
theorem pair_incDone : Pair incDone incDone := pair_setStatus _
theorem pair_show (b : Bool) : Pair (setShowProgress b) (setShowProgress b) := pair_setStatus _
theorem pair_incFailed : Pair incFailed incFailed := pair_setStatus _
theorem pair_begin : Pair beginEditing beginEditing := pair_setState _
theorem pair_end : Pair endEditing endEditing := pair_setState _
theorem pair_getFailed : Pair getFailed getFailed := pair_quiet fun _ => rfl

theorem pair_theDb (i : DbId) : Pair (theDb i) (theDb i) := pair_quiet fun w => by unfold theDb; split <;> rfl

theorem pair_setFlag (i : DbId) (v : Bool) : Pair (setFlag i v) (setFlag i v) :=
  pair_bind (pair_theDb i) fun _ => pair_same fun _ => ⟨List.prefix_refl _, List.prefix_refl _, List.prefix_refl _⟩

theorem before_did (w : World) (i : DbId) (s : Sql) (ok : Bool) : Before w (w.did i s ok) :=
  ⟨List.prefix_append _ _, List.prefix_refl _, List.prefix_refl _⟩

theorem before_setDb (w : World) (i : DbId) (m : MapDb) : Before w (w.setDb i m) :=
  ⟨List.prefix_refl _, List.prefix_refl _, List.prefix_refl _⟩

theorem before_failed (w : World) (env : Env) (i : DbId) (s : Sql) : Before w (w.failed env i s) := by
  unfold World.failed
  split
  · exact before_did _ _ _ _
  · split
    · exact ((before_did _ _ _ _).trans (before_setDb _ _ _)).trans (before_did _ _ _ _)
    · exact before_did _ _ _ _

theorem before_exec (env : Env) (i : DbId) (s : Sql) (w : World) : Before w (exec env i s w).2 := by
  unfold exec
  split
  · exact .refl _
  · split
    · exact before_did _ _ _ _
    · split
      · exact before_failed _ _ _ _
      · exact (before_setDb _ _ _).trans (before_did _ _ _ _)

theorem before_open (env : Env) (i : DbId) (p : String) (w : World) : Before w (openMap env i p w).2 := by
  unfold openMap
  split
  · exact .refl _
  · split
    · exact before_did _ _ _ _
    · exact (before_setDb _ _ _).trans (before_did _ _ _ _)

section
variable {env : Env}

theorem pair_exec (i : DbId) (s : Sql) : Pair (exec (built .debug env) i s) (exec (built .release env) i s) :=
  ⟨fun _ => before_exec _ _ _ _, fun _ => .inl rfl⟩

theorem pair_open (i : DbId) (p : String) : Pair (openMap (built .debug env) i p) (openMap (built .release env) i p) :=
  ⟨fun _ => before_open _ _ _ _, fun _ => .inl rfl⟩

theorem pair_ser (b : MapBlock) : Pair (ser (built .debug env) b) (ser (built .release env) b) :=
  ⟨fun w => .refl w, fun _ => .inl rfl⟩

theorem pair_deser (d : Bytes) : Pair (deser (built .debug env) d) (deser (built .release env) d) := by
  show Pair (deser env d) (deser env d)
  unfold deser
  split
  · exact pair_pure _
  · exact pair_pure _
  · exact pair_lift (over_refl _)

theorem pair_confirm : Pair (getConfirmation (built .debug env)) (getConfirmation (built .release env)) :=
  pair_bind (pair_send _) fun _ => pair_pure _

theorem built_build (bd : Build) : (built bd env).build = bd := rfl
theorem built_codec (bd : Build) : (built bd env).codec = env.codec := rfl

/-- What is known of single functions. -/
syntax "pair_leaf" : tactic
macro_rules | `(tactic| pair_leaf) => `(tactic| first
  | exact pair_pure _ | exact pair_unwrap _ | exact pair_expect _ | exact pair_okOr _ | exact pair_send _
  | exact pair_setState _ | exact pair_log _ _ | exact pair_logInfo _ | exact pair_setTotal _ | exact pair_incDone
  | exact pair_incFailed | exact pair_show _ | exact pair_begin | exact pair_end | exact pair_getFailed | exact pair_theDb _
  | exact pair_setFlag _ _ | exact pair_exec _ _ | exact pair_open _ _ | exact pair_ser _ | exact pair_deser _
  | exact pair_confirm)

/-- One step through the text of a function. -/
macro "pair_step" : tactic => `(tactic| first
  | intro _
  | with_reducible assumption
  | with_reducible pair_leaf
  | (with_reducible apply pair_lift); (over; done)
  | with_reducible apply pair_ite
  | with_reducible apply pair_bind
  | with_reducible apply pair_foldlM
  | split
  | dsimp only)

/-- Through the text of a function. -/
macro "pairs" : tactic => `(tactic| ((try dsimp (instances := true) only [built_build, built_codec]); repeat' pair_step))

theorem pair_beginIfNeeded (i : DbId) :
    Pair (beginIfNeeded (built .debug env) i) (beginIfNeeded (built .release env) i) := by
  unfold beginIfNeeded; pairs

theorem pair_commitIfNeeded (i : DbId) :
    Pair (commitIfNeeded (built .debug env) i) (commitIfNeeded (built .release env) i) := by
  unfold commitIfNeeded; pairs

macro_rules | `(tactic| pair_leaf) => `(tactic| first | exact pair_beginIfNeeded _ | exact pair_commitIfNeeded _)

theorem pair_iterRows (i : DbId) : Pair (iterRows (built .debug env) i) (iterRows (built .release env) i) := by
  unfold iterRows; pairs

theorem pair_getBlock (i : DbId) (k : Int) :
    Pair (getBlock (built .debug env) i k) (getBlock (built .release env) i k) := by
  unfold getBlock; pairs

theorem pair_setBlock (i : DbId) (k : Int) (d : Bytes) :
    Pair (setBlock (built .debug env) i k d) (setBlock (built .release env) i k d) := by
  unfold setBlock; pairs

theorem pair_deleteBlock (i : DbId) (k : Int) :
    Pair (deleteBlock (built .debug env) i k) (deleteBlock (built .release env) i k) := by
  unfold deleteBlock; pairs

theorem pair_dbVacuum (i : DbId) : Pair (dbVacuum (built .debug env) i) (dbVacuum (built .release env) i) := by
  unfold dbVacuum; pairs

theorem pair_verifyDatabase (i : DbId) :
    Pair (verifyDatabase (built .debug env) i) (verifyDatabase (built .release env) i) := by
  unfold verifyDatabase; pairs

macro_rules | `(tactic| pair_leaf) => `(tactic| first
  | exact pair_iterRows _ | exact pair_getBlock _ _ | exact pair_setBlock _ _ _ | exact pair_deleteBlock _ _
  | exact pair_dbVacuum _ | exact pair_verifyDatabase _)

theorem pair_new (i : DbId) : Pair (MapDb.new (built .debug env) i) (MapDb.new (built .release env) i) := by
  unfold MapDb.new; pairs

theorem pair_getGenerated (i : DbId) (k : Int) :
    Pair (getGenerated (built .debug env) i k) (getGenerated (built .release env) i k) := by
  unfold getGenerated; pairs

macro_rules | `(tactic| pair_leaf) => `(tactic| first | exact pair_new _ | exact pair_getGenerated _ _)

theorem pair_cloneCached (c : CacheMap BlockResult) (k : Int) :
    Pair (cloneCached (built .debug env) c k) (cloneCached (built .release env) c k) := by
  unfold cloneCached; pairs

theorem pair_overlayCached (c : CacheMap (Option MapBlock)) (k : Int) :
    Pair (overlayCached (built .debug env) c k) (overlayCached (built .release env) c k) := by
  unfold overlayCached; pairs

theorem pair_copyWhole (k : Int) : Pair (copyWhole (built .debug env) k) (copyWhole (built .release env) k) := by
  unfold copyWhole; pairs

theorem pair_vacuum : Pair (vacuum (built .debug env)) (vacuum (built .release env)) := by
  unfold vacuum; pairs

macro_rules | `(tactic| pair_leaf) => `(tactic| first
  | exact pair_cloneCached _ _ | exact pair_overlayCached _ _ | exact pair_copyWhole _ | exact pair_vacuum)

end
end MapEditr
