import Verif.Proof.Totals
import Verif.Spec.Cost
/-! # Lemmas: how many statements and messages a run has, and what it writes -/

namespace MapEditr
open Spec

/-- The program believes to be in a transaction, in both databases. -/
def InTx (w : World) : Prop := ∀ i m, w.dbs i = some m → m.inTransaction = true

/-- What one world costs more than another. -/
structure Dearer (a e : Nat) (ks : List Int) (w w' : World) : Prop where
  asked : asked w'.trace ≤ asked w.trace + a
  events : w'.events.length ≤ w.events.length + e
  keysWritten : ∃ l, keysWritten w'.trace = keysWritten w.trace ++ l ∧ l.Sublist ks

theorem Dearer.refl (w : World) : Dearer 0 0 [] w w :=
  ⟨Nat.le_refl _, Nat.le_refl _, [], by simp, List.Sublist.refl _⟩

theorem Dearer.trans {a a' e e' : Nat} {ks ks' : List Int} {w w1 w2 : World} (h : Dearer a e ks w w1)
    (h' : Dearer a' e' ks' w1 w2) : Dearer (a + a') (e + e') (ks ++ ks') w w2 := by
  obtain ⟨h1, h2, l, h3, h4⟩ := h
  obtain ⟨h1', h2', l', h3', h4'⟩ := h'
  exact ⟨by omega, by omega, l ++ l', by rw [h3', h3, List.append_assoc], h4.append h4'⟩

theorem Dearer.mono {a a' e e' : Nat} {ks ks' : List Int} {w w1 : World} (h : Dearer a e ks w w1)
    (ha : a ≤ a') (he : e ≤ e') (hk : ks.Sublist ks') : Dearer a' e' ks' w w1 := by
  obtain ⟨h1, h2, l, h3, h4⟩ := h
  exact ⟨by omega, by omega, l, h3, h4.trans hk⟩

/-- At most `a` statements, `e` messages and writes to `ks`, each once at most and in this order.  If `o` is
set, only for worlds in a transaction, which then stay in it. -/
def Costs (o : Bool) (a e : Nat) (ks : List Int) (m : Run α) : Prop :=
  ∀ w, (o = true → InTx w) → (o = true → InTx (m w).2) ∧ Dearer a e ks w (m w).2

section
variable {o : Bool} {a a' e e' : Nat} {ks ks' : List Int} {α β : Type}

theorem Costs.mono {m : Run α} (h : Costs o a e ks m) (ha : a ≤ a') (he : e ≤ e') (hk : ks.Sublist ks') :
    Costs o a' e' ks' m := fun w hw => ⟨(h w hw).1, (h w hw).2.mono ha he hk⟩

theorem costs_bind {m : Run α} {g : α → Run β} (h : Costs o a e ks m) (hg : ∀ x, Costs o a' e' ks' (g x)) :
    Costs o (a + a') (e + e') (ks ++ ks') (m >>= g) := by
  intro w hw
  obtain ⟨h1, h2⟩ := h w hw
  rcases run_bind_cases m g w with ⟨x, w1, e1, e2⟩ | ⟨x, w1, e1, e2⟩
  · rw [e2]
    rw [e1] at h1 h2
    obtain ⟨h3, h4⟩ := hg x w1 h1
    exact ⟨h3, h2.trans h4⟩
  · rw [e2]
    rw [e1] at h1 h2
    exact ⟨h1, h2.mono (by omega) (by omega) (List.sublist_append_left _ _)⟩

/-- What is free is not counted. -/
theorem costs_free {m : Run α} {g : α → Run β} (h : Costs o 0 0 [] m) (hg : ∀ x, Costs o a e ks (g x)) :
    Costs o a e ks (m >>= g) := by
  have := costs_bind h hg
  rwa [Nat.zero_add, Nat.zero_add, List.nil_append] at this

theorem costs_keep {m : Run α} (h : ∀ w, (m w).2 = w) : Costs o a e ks m := fun w hw => by
  rw [h w]
  exact ⟨hw, (Dearer.refl w).mono (Nat.zero_le _) (Nat.zero_le _) (List.nil_sublist _)⟩

theorem costs_pure (x : α) : Costs o a e ks (pure x : Run α) := costs_keep fun _ => rfl

theorem costs_lift (r : Res α) : Costs o a e ks (Run.lift r) := costs_keep fun _ => rfl

theorem costs_unwrap (r : Option α) : Costs o a e ks (Run.unwrap r) := costs_lift _

theorem costs_expect (r : Except DbErr α) : Costs o a e ks (expect r) := costs_unwrap _

theorem costs_okOr (r : Res α) : Costs o a e ks (Run.okOr r) := by
  unfold Run.okOr
  split
  · exact costs_pure _
  · exact costs_pure _
  · exact costs_lift _

theorem costs_deser (env : Env) (d : Bytes) : Costs o a e ks (deser env d) := by
  unfold deser
  split
  · exact costs_pure _
  · exact costs_pure _
  · exact costs_lift _

theorem costs_ser (env : Env) (b : MapBlock) : Costs o a e ks (ser env b) := costs_keep fun _ => rfl

theorem costs_theDb (i : DbId) : Costs o a e ks (theDb i) := costs_keep fun w => by
  unfold theDb
  split <;> rfl

theorem costs_getFailed : Costs o a e ks getFailed := costs_keep fun _ => rfl

theorem costs_ite (c : Prop) [Decidable c] {m m' : Run α} (h : Costs o a e ks m) (h' : Costs o a e ks m') :
    Costs o a e ks (if c then m else m') := by split <;> assumption

theorem costs_status (f : World → World) (hf : ∀ w, (f w).dbs = w.dbs ∧ (f w).trace = w.trace ∧ (f w).events = w.events) :
    Costs o a e ks (Run.upd f) := fun w hw => by
  obtain ⟨h1, h2, h3⟩ := hf w
  refine ⟨fun ho i m hm => hw ho i m (h1 ▸ hm), ?_⟩
  show Dearer a e ks w (f w)
  exact ⟨by rw [h2]; omega, by rw [h3]; omega, [], by rw [h2, List.append_nil], List.nil_sublist _⟩

theorem costs_send (v : Event) : Costs o a 1 ks (send v) := fun w hw =>
  ⟨hw, ⟨Nat.le_add_right _ _, by show (w.events ++ [v]).length ≤ _; simp, [], (List.append_nil _).symm, List.nil_sublist _⟩⟩

theorem costs_log (t : LogType) (m : Msg) : Costs o a 1 ks (log t m) := costs_send _

theorem costs_setState (s : InstState) : Costs o a 1 ks (setState s) := by
  refine Costs.mono (a := 0 + a) (e := 0 + 1) (ks := [] ++ ks) (costs_bind (costs_status _ fun _ => ⟨rfl, rfl, rfl⟩) fun _ => costs_send _)
    (by omega) (by omega) (List.Sublist.refl _)

theorem costs_setTotal (n : Nat) : Costs o a e ks (setTotal n) := costs_status _ fun _ => ⟨rfl, rfl, rfl⟩
theorem costs_incDone : Costs o a e ks incDone := costs_status _ fun _ => ⟨rfl, rfl, rfl⟩
theorem costs_incFailed : Costs o a e ks incFailed := costs_status _ fun _ => ⟨rfl, rfl, rfl⟩
theorem costs_showProgress (b : Bool) : Costs o a e ks (setShowProgress b) := costs_status _ fun _ => ⟨rfl, rfl, rfl⟩

theorem asked_append (t t' : List Did) : asked (t ++ t') = asked t + asked t' := by
  unfold asked
  rw [List.filter_append, List.length_append]

theorem keysWritten_append (t t' : List Did) : keysWritten (t ++ t') = keysWritten t ++ keysWritten t' := by
  unfold keysWritten
  rw [List.flatMap_append]

theorem asked_one (d : Did) : asked [d] ≤ 1 := by
  unfold asked
  exact List.length_filter_le _ _

theorem did_dearer (w : World) (i : DbId) (s : Sql) (b : Bool) : Dearer 1 0 (wrote s) w (w.did i s b) := by
  refine ⟨?_, Nat.le_refl _, wrote s, ?_, List.Sublist.refl _⟩
  · show asked (w.trace ++ _) ≤ _
    rw [asked_append]
    have := asked_one ⟨i, s, b⟩
    omega
  · show keysWritten (w.trace ++ _) = _
    rw [keysWritten_append]
    simp [keysWritten]

theorem setDb_dearer (w : World) (i : DbId) (m : MapDb) : Dearer 0 0 [] w (w.setDb i m) :=
  ⟨Nat.le_refl _, Nat.le_refl _, [], (List.append_nil _).symm, List.Sublist.refl _⟩

theorem rollback_dearer (w : World) (i : DbId) : Dearer 0 0 [] w (w.did i .rollback true) := by
  refine ⟨?_, Nat.le_refl _, [], ?_, List.Sublist.refl _⟩
  · show asked (w.trace ++ _) ≤ _
    rw [asked_append]
    simp [asked]
  · show keysWritten (w.trace ++ _) = _
    rw [keysWritten_append]
    simp [keysWritten, wrote]

theorem inTx_setDb {w : World} {i : DbId} {m : MapDb} (h : InTx w) (hm : m.inTransaction = true) : InTx (w.setDb i m) := by
  intro j m' hj
  simp only [World.setDb] at hj
  split at hj
  · cases hj
    exact hm
  · exact h j m' hj

theorem costs_exec (env : Env) (i : DbId) (s : Sql) : Costs o 1 0 (wrote s) (exec env i s) := by
  intro w hw
  unfold exec
  split
  · exact ⟨hw, (Dearer.refl w).mono (by omega) (by omega) (List.nil_sublist _)⟩
  · rename_i m hm
    split
    · exact ⟨hw, did_dearer _ _ _ _⟩
    · split
      · show (o = true → InTx (w.failed env i s)) ∧ Dearer 1 0 (wrote s) w (w.failed env i s)
        rcases failed_cases w env i s with h1 | ⟨-, m', h2, -, -, h1⟩
        · rw [h1]
          exact ⟨hw, did_dearer _ _ _ _⟩
        · rw [h1]
          refine ⟨fun ho => inTx_setDb (w := w.did i s false) (hw ho) (show m'.inTransaction = true from hw ho _ m' h2), ?_⟩
          have := ((did_dearer w i s false).trans (setDb_dearer _ .main { m' with conn := m'.conn.step .rollback })).trans
            (rollback_dearer _ .main)
          simpa only [Nat.add_zero, List.append_nil] using this
      · refine ⟨fun ho => inTx_setDb (w := w) (hw ho) (show m.inTransaction = true from hw ho _ m hm), ?_⟩
        have := (setDb_dearer w i { m with conn := m.conn.step s }).trans (did_dearer _ i s true)
        simpa only [Nat.zero_add, List.nil_append, wrote] using this

theorem costs_begin (env : Env) (i : DbId) : Costs true 0 0 [] (beginIfNeeded env i) := by
  intro w hw
  unfold beginIfNeeded
  rcases run_bind_cases (theDb i) (fun m => if !m.inTransaction then exec env i .begin else return true) w with
    ⟨m, w1, e1, e2⟩ | ⟨x, w1, e1, e2⟩
  · rw [e2]
    obtain ⟨hm, rfl⟩ := Checked.theDb_iff.1 e1
    rw [hw rfl i m hm]
    exact ⟨hw, Dearer.refl _⟩
  · rw [e2]
    have : w1 = w := by
      unfold theDb at e1
      split at e1
      · cases e1; rfl
      · cases e1
    subst this
    exact ⟨hw, Dearer.refl _⟩

theorem costs_getBlock (env : Env) (i : DbId) (k : Int) : Costs true 1 0 [] (getBlock env i k) := by
  refine costs_free (costs_begin env i) fun b => costs_ite _ ?_ (costs_pure _)
  refine costs_bind (a := 1) (a' := 0) (e := 0) (e' := 0) (ks := []) (ks' := []) (costs_exec _ _ _) fun b => costs_ite _ ?_ (costs_pure _)
  refine costs_free (costs_theDb _) fun m => ?_
  split <;> exact costs_pure _

theorem costs_setBlock (env : Env) (i : DbId) (k : Int) (d : Bytes) : Costs true 1 0 [k] (setBlock env i k d) :=
  costs_free (costs_begin env i) fun _ => costs_ite _
    (costs_bind (a := 1) (a' := 0) (e := 0) (e' := 0) (ks := [k]) (ks' := []) (costs_exec _ _ (.put k d)) fun _ =>
      costs_ite _ (costs_pure _) (costs_pure _)) (costs_pure _)

theorem costs_deleteBlock (env : Env) (i : DbId) (k : Int) : Costs true 1 0 [k] (deleteBlock env i k) :=
  costs_free (costs_begin env i) fun _ => costs_ite _
    (costs_bind (a := 1) (a' := 0) (e := 0) (e' := 0) (ks := [k]) (ks' := []) (costs_exec _ _ (.del k)) fun _ =>
      costs_ite _ (costs_pure _) (costs_pure _)) (costs_pure _)

theorem costs_save (env : Env) (b : MapBlock) (k : Int) {f : Unit → Run α} (hf : Costs true 0 0 [] (f ())) :
    Costs true 1 0 [k] (ser env b >>= fun s => setBlock env .main k s >>= fun r => expect r >>= f) :=
  costs_free (costs_ser env b) fun _ => costs_bind (a := 1) (a' := 0) (e := 0) (e' := 0) (ks := [k]) (ks' := [])
    (costs_setBlock _ _ _ _) fun _ => costs_free (costs_expect _) fun _ => hf

theorem costs_read (env : Env) (i : DbId) (k : Int) {m : Bytes → Run (Option α)} (hm : ∀ d, Costs true 0 0 [] (m d))
    {g : Option α → Run β} (h0 : Costs true 1 0 [k] (g none)) (hg : ∀ b, Costs true 1 0 [k] (g (some b))) :
    Costs true 2 0 [k] (getBlock env i k >>= fun r => expect r >>= fun d => m d >>= g) := by
  refine costs_bind (a := 1) (a' := 1) (e := 0) (e' := 0) (ks := []) (ks' := [k]) (costs_getBlock _ _ _) fun r =>
    costs_free (costs_expect _) fun d => costs_free (hm d) fun x => ?_
  cases x with
  | none => exact h0
  | some b => exact hg b

theorem costs_getGenerated (env : Env) (i : DbId) (k : Int) : Costs true 1 0 [] (getGenerated env i k) := by
  refine costs_bind (a := 1) (a' := 0) (e := 0) (e' := 0) (ks := []) (ks' := []) (costs_getBlock env i k) fun r => ?_
  split <;> exact costs_pure _

theorem costs_foldlM {γ : Type} {f : β → γ → Run β} {c : Nat} {key : γ → List Int}
    (h : ∀ b x, Costs o c 0 (key x) (f b x)) (l : List γ) (b : β) :
    Costs o (c * l.length) 0 (l.flatMap key) (l.foldlM f b) := by
  induction l generalizing b with
  | nil => exact costs_pure b
  | cons x t ih =>
    rw [List.foldlM_cons]
    refine (costs_bind (h b x) fun b' => ih b').mono ?_ (Nat.le_refl _) (List.Sublist.refl _)
    rw [List.length_cons, Nat.mul_succ, Nat.add_comm]
    exact Nat.le_refl _

theorem costs_keys {f : β → Int → Run β} {c : Nat} (h : ∀ b k, Costs o c 0 [k] (f b k)) (l : List Int) (b : β) :
    Costs o (c * l.length) 0 l (l.foldlM f b) := by
  have := costs_foldlM (key := fun k => [k]) h l b
  rwa [List.flatMap_singleton'] at this

theorem costs_iterRows (env : Env) (i : DbId) : Costs true 1 0 [] (iterRows env i) :=
  costs_free (costs_begin env i) fun _ => costs_ite _
    (costs_bind (a := 1) (a' := 0) (e := 0) (e' := 0) (ks := []) (ks' := []) (costs_exec _ _ .selectAll) fun _ =>
      costs_ite _ (costs_free (costs_theDb _) fun _ => costs_pure _) (costs_unwrap _)) (costs_unwrap _)

theorem costs_queryKeys (env : Env) (i : DbId) (strs : List Bytes) (area : Option Area) (invert p : Bool) :
    Costs true 1 2 [] (queryKeys env i strs area invert p) := by
  unfold queryKeys
  refine costs_bind (a := 0) (a' := 1) (e := 1) (e' := 1) (ks := []) (ks' := []) (costs_setState _) fun _ => ?_
  have hrest : ∀ keys : List Int, Costs true 0 1 [] (do
      setTotal keys.length
      setState .ignore
      return keys : Run (List Int)) := fun keys =>
    costs_free (costs_setTotal _) fun _ => costs_bind (a := 0) (a' := 0) (e := 1) (e' := 0) (ks := []) (ks' := [])
      (costs_setState _) fun _ => costs_pure _
  simp only
  split
  · refine costs_bind (a := 1) (a' := 0) (e := 0) (e' := 1) (ks := []) (ks' := []) (costs_iterRows _ _) fun rows => costs_free ?_ hrest
    have hf : ∀ b x, Costs true 0 0 [] (queryStep (queryKeeps (strs.map string16) (queryArea area invert p)
        (area.isSome && (queryArea area invert p).isNone) invert) b x) := by
      intro b x
      unfold queryStep
      refine costs_ite _ ?_ (costs_pure _)
      refine costs_ite _ ?_ ?_
      · exact costs_free (costs_setTotal _) fun _ => costs_pure _
      · exact costs_pure _
    have := costs_foldlM (key := fun _ => []) hf rows.zipIdx []
    refine this.mono (by simp) (Nat.le_refl _) ?_
    simp
  · exact (costs_free (costs_pure _) hrest).mono (by omega) (by omega) (List.Sublist.refl _)

/-! ## The steps -/

theorem costs_fillStep (env : Env) (area : Area) (invert : Bool) (node : Bytes) (count : Nat) (key : Int) :
    Costs true 2 0 [key] (fillStep env area invert node count key) := by
  unfold fillStep
  refine costs_free costs_incDone fun _ => costs_read _ _ _ (fun _ => costs_okOr _)
    (costs_free costs_incFailed fun _ => costs_pure _) fun b => ?_
  simp only
  exact costs_free (costs_lift _) fun ⟨_, _⟩ => costs_save _ _ _ (costs_pure _)

theorem costs_replaceStep (env : Env) (args : InstArgs) (oldNode newNode : Bytes) (count : Nat) (key : Int) :
    Costs true 2 0 [key] (replaceStep env args oldNode newNode count key) := by
  unfold replaceStep
  refine costs_read _ _ _ (fun _ => costs_okOr _) (costs_free costs_incFailed fun _ => costs_pure _) fun b => ?_
  simp only
  split
  · exact costs_free (costs_lift _) fun r => costs_save _ _ _ (costs_free costs_incDone fun _ => costs_pure _)
  · exact costs_free costs_incDone fun _ => costs_pure _

theorem costs_param2Step (env : Env) (args : InstArgs) (val : UInt8) (node : Option Bytes) (count : Nat) (key : Int) :
    Costs true 2 0 [key] (param2Step env args val node count key) := by
  unfold param2Step
  refine costs_free costs_incDone fun _ => costs_read _ _ _ (fun _ => costs_okOr _)
    (costs_free costs_incFailed fun _ => costs_pure _) fun b => ?_
  simp only
  split
  · exact costs_pure _
  · exact costs_free (costs_lift _) fun ⟨_, _⟩ => costs_save _ _ _ (costs_pure _)

theorem costs_deleteMetaStep (env : Env) (args : InstArgs) (node : Option Bytes) (count : Nat) (key : Int) :
    Costs true 2 0 [key] (deleteMetaStep env args node count key) := by
  unfold deleteMetaStep
  refine costs_free costs_incDone fun _ => costs_read _ _ _ (fun _ => costs_okOr _)
    (costs_free costs_incFailed fun _ => costs_pure _) fun b => ?_
  simp only
  split
  · exact costs_pure _
  · refine costs_free (costs_lift _) fun r => ?_
    split
    · exact costs_save _ _ _ (costs_pure _)
    · exact costs_pure _

theorem costs_setMetaVarStep (env : Env) (args : InstArgs) (k v : Bytes) (nodes : List Bytes) (count : Nat) (key : Int) :
    Costs true 2 0 [key] (setMetaVarStep env args k v nodes count key) := by
  unfold setMetaVarStep
  refine costs_free costs_incDone fun _ => costs_read _ _ _ (fun _ => costs_okOr _)
    (costs_free costs_incFailed fun _ => costs_pure _) fun b => ?_
  simp only
  exact costs_ite _ (costs_pure _) (costs_free (costs_lift _) fun ⟨_, _⟩ =>
    costs_ite _ (costs_save _ _ _ (costs_pure _)) (costs_pure _))

theorem costs_deleteTimersStep (env : Env) (args : InstArgs) (node : Option Bytes) (count : Nat) (key : Int) :
    Costs true 2 0 [key] (deleteTimersStep env args node count key) := by
  unfold deleteTimersStep
  refine costs_free costs_incDone fun _ => costs_read _ _ _ (fun _ => costs_okOr _)
    (costs_free costs_incFailed fun _ => costs_pure _) fun b => ?_
  simp only
  exact costs_ite _ (costs_pure _) (costs_free (costs_lift _) fun ⟨_, _⟩ =>
    costs_ite _ (costs_save _ _ _ (costs_pure _)) (costs_pure _))

theorem costs_deleteObjectsStep (env : Env) (args : InstArgs) (obj : Option Bytes) (items : List Bytes) (count : Nat) (key : Int) :
    Costs true 2 0 [key] (deleteObjectsStep env args obj items count key) := by
  unfold deleteObjectsStep
  refine costs_free costs_incDone fun _ => costs_read _ _ _ (fun _ => costs_okOr _)
    (costs_free costs_incFailed fun _ => costs_pure _) fun b => ?_
  simp only
  exact costs_free (costs_lift _) fun ⟨_, _⟩ =>
    costs_ite _ (costs_save _ _ _ (costs_pure _)) (costs_pure _)

theorem costs_replaceInInvStep (env : Env) (args : InstArgs) (item newItem : Bytes) (nodes : List Bytes) (count : Nat × Nat) (key : Int) :
    Costs true 2 0 [key] (replaceInInvStep env args item newItem nodes count key) := by
  unfold replaceInInvStep
  refine costs_free costs_incDone fun _ => costs_read _ _ _ (fun _ => costs_okOr _)
    (costs_free costs_incFailed fun _ => costs_pure _) fun b => ?_
  simp only
  exact costs_ite _ (costs_pure _) (costs_free (costs_lift _) fun ⟨_, _⟩ =>
    costs_ite _ (costs_save _ _ _ (costs_pure _)) (costs_pure _))

theorem costs_deleteBlockStep (env : Env) (key : Int) : Costs true 1 0 [key] (deleteBlockStep env key) :=
  costs_free costs_incDone fun _ => costs_bind (a := 1) (a' := 0) (e := 0) (e' := 0) (ks := [key]) (ks' := [])
    (costs_deleteBlock _ _ _) fun _ => costs_expect _

theorem costs_cloneCached (env : Env) (cache : CacheMap BlockResult) (key : Int) :
    Costs true 1 0 [] (cloneCached env cache key) := by
  unfold cloneCached
  split
  · exact costs_pure _
  · refine costs_bind (a := 1) (a' := 0) (e := 0) (e' := 0) (ks := []) (ks' := []) (costs_getGenerated _ _ _) fun r => ?_
    cases r with
    | none => exact costs_pure _
    | some d => exact costs_free (costs_deser _ _) fun _ => costs_pure _

theorem costs_overlayCached (env : Env) (cache : CacheMap (Option MapBlock)) (key : Int) :
    Costs true 1 0 [] (overlayCached env cache key) := by
  unfold overlayCached
  split
  · exact costs_pure _
  · refine costs_bind (a := 1) (a' := 0) (e := 0) (e' := 0) (ks := []) (ks' := []) (costs_getGenerated _ _ _) fun r => ?_
    cases r with
    | none => exact costs_pure _
    | some d => exact costs_free (costs_deser _ _) fun _ => costs_pure _

/-- The source blocks of a part of a block: at most eight. -/
theorem costs_sources {γ : Type} {f : γ → Vec3 → Run γ} (h : ∀ b p, Costs true 1 0 [] (f b p)) {sp : Area} {off dp : Vec3}
    (hv : sp.isValid = true) (hin : ∀ p, InBox sp.min sp.max p → InBlock dp (shift p off)) (b : γ) :
    Costs true 8 0 [] (sp.toTouchingBlockArea.positions.foldlM f b) := by
  have := costs_foldlM (key := fun _ => []) h sp.toTouchingBlockArea.positions b
  refine this.mono ?_ (Nat.le_refl _) (by simp)
  rw [Nat.one_mul]
  exact (touching_le hv hin).2

theorem costs_cloneSrc (env : Env) (sp : Area) (off dp : Vec3) (st : MapBlock × CacheMap BlockResult) (p : Vec3) :
    Costs true 1 0 [] (cloneSrc env sp off dp st p) := by
  unfold cloneSrc
  refine costs_ite _ (costs_pure _) (costs_free (costs_lift _) fun k =>
    costs_bind (a := 1) (a' := 0) (e := 0) (e' := 0) (ks := []) (ks' := []) (costs_cloneCached _ _ _) fun ⟨r, cache⟩ => ?_)
  simp only
  split
  · exact costs_free (costs_lift _) fun _ => costs_pure _
  · exact costs_pure _

theorem costs_overlaySrc (env : Env) (sp : Area) (off dp : Vec3) (st : MapBlock × CacheMap (Option MapBlock)) (p : Vec3) :
    Costs true 1 0 [] (overlaySrc env sp off dp st p) := by
  unfold overlaySrc
  refine costs_ite _ (costs_pure _) (costs_free (costs_lift _) fun k =>
    costs_bind (a := 1) (a' := 0) (e := 0) (e' := 0) (ks := []) (ks' := []) (costs_overlayCached _ _ _) fun ⟨r, cache⟩ => ?_)
  simp only
  split
  · exact costs_free (costs_lift _) fun _ => costs_pure _
  · exact costs_pure _

/-- Unwrapping: what follows may use the value. -/
theorem costs_unwrap_some {γ : Type} {r : Option γ} {g : γ → Run β} (h : ∀ x, r = some x → Costs o a e ks (g x)) :
    Costs o a e ks (Run.unwrap r >>= g) := by
  cases r with
  | none => exact costs_keep fun _ => rfl
  | some x => exact h x rfl

theorem costs_cloneStep (env : Env) (ar : Area) (off : Vec3) (cache : CacheMap BlockResult) (k : Int) :
    Costs true 10 0 [k] (cloneStep env ar off cache k) := by
  refine costs_free costs_incDone fun _ => costs_bind (a := 1) (a' := 9) (e := 0) (e' := 0) (ks := []) (ks' := [k])
    (costs_cloneCached _ _ _) fun ⟨r, cache⟩ => ?_
  simp only
  split
  · exact costs_pure _
  · exact costs_free costs_incFailed fun _ => costs_pure _
  · refine costs_unwrap_some fun part hp => ?_
    obtain ⟨h1, h2, -⟩ := absOverlap_part (o := off) hp
    exact costs_bind (a := 8) (a' := 1) (e := 0) (e' := 0) (ks := []) (ks' := [k])
      (costs_sources (fun st p => costs_cloneSrc env _ _ _ st p) h1 h2 _) fun st =>
      costs_free (costs_lift _) fun b => costs_save env _ _ (costs_pure _)

theorem costs_copyWhole (env : Env) (k : Int) : Costs true 2 0 [k] (copyWhole env k) :=
  costs_bind (a := 1) (a' := 1) (e := 0) (e' := 0) (ks := []) (ks' := [k]) (costs_getBlock _ _ _) fun _ =>
    costs_free (costs_expect _) fun _ => costs_ite _
      (costs_bind (a := 1) (a' := 0) (e := 0) (e' := 0) (ks := [k]) (ks' := []) (costs_setBlock _ _ _ _) fun _ => costs_expect _)
      (costs_pure _)

theorem costs_overlayStep (env : Env) (area : Option Area) (invert : Bool) (k : Int) :
    Costs true 3 0 [k] (overlayStep env area invert k) := by
  have hw : Costs true 3 0 [k] (copyWhole env k) := (costs_copyWhole env k).mono (by omega) (Nat.le_refl _) (List.Sublist.refl _)
  refine costs_free costs_incDone fun _ => ?_
  cases area with
  | none => exact hw
  | some ar =>
    refine costs_ite _ hw ?_
    unfold copyPart
    refine costs_bind (a := 1) (a' := 2) (e := 0) (e' := 0) (ks := []) (ks' := [k]) (costs_getGenerated _ _ _) fun r => ?_
    cases r with
    | none => exact costs_pure _
    | some d =>
      refine costs_bind (a := 1) (a' := 1) (e := 0) (e' := 0) (ks := []) (ks' := [k]) (costs_getBlock _ _ _) fun _ =>
        costs_free (costs_expect _) fun _ => costs_free (costs_deser _ _) fun r => ?_
      cases r with
      | error x => exact costs_incFailed
      | ok src =>
        refine costs_free (costs_deser _ _) fun r => ?_
        cases r with
        | error x => exact costs_incFailed
        | ok dst =>
          refine costs_free (costs_unwrap _) fun part => ?_
          exact costs_free (costs_lift _) fun b => costs_free (costs_lift _) fun m =>
            costs_free (costs_lift _) fun b => costs_free (costs_ser env _) fun _ =>
            costs_bind (a := 1) (a' := 0) (e := 0) (e' := 0) (ks := [k]) (ks' := []) (costs_setBlock _ _ _ _) fun _ => costs_expect _

theorem costs_overlayOffsetStep (env : Env) (area : Option Area) (off : Vec3)
    (cache : CacheMap (Option MapBlock)) (k : Int) : Costs true 10 0 [k] (overlayOffsetStep env area off cache k) := by
  refine costs_free costs_incDone fun _ => costs_bind (a := 1) (a' := 9) (e := 0) (e' := 0) (ks := []) (ks' := [k])
    (costs_getGenerated _ _ _) fun r => ?_
  cases r with
  | none => exact costs_pure _
  | some d =>
    refine costs_free (costs_deser _ _) fun r => ?_
    cases r with
    | error x => exact costs_free costs_incFailed fun _ => costs_pure _
    | ok dst =>
      have hrest : ∀ part : Area, (part.sub off).isValid = true →
          (∀ p, InBox (part.sub off).min (part.sub off).max p → InBlock (Vec3.fromBlockKey k) (shift p off)) →
          Costs true 9 0 [k] (do
          let (dst, cache) ← (part.sub off).toTouchingBlockArea.positions.foldlM
            (overlaySrc env (part.sub off) off (Vec3.fromBlockKey k)) (dst, cache)
          let dst ← Run.lift (cleanNimap env.build dst)
          expect (← setBlock env .main k (← ser env dst))
          return cache : Run (CacheMap (Option MapBlock))) := by
        intro part h1 h2
        exact costs_bind (a := 8) (a' := 1) (e := 0) (e' := 0) (ks := []) (ks' := [k])
          (costs_sources (fun st p => costs_overlaySrc env _ _ _ st p) h1 h2 _) fun st =>
          costs_free (costs_lift _) fun b => costs_save env _ _ (costs_pure _)
      simp only
      split
      · refine hrest _ ?_ ?_
        · rw [isValid_iff]
          unfold Area.sub Vec3.sub Vec3.mulS Vec3.addS
          simp only
          omega
        · intro p hp
          unfold InBox Area.sub Vec3.sub Vec3.mulS Vec3.addS at hp
          unfold InBlock shift
          simp only at hp ⊢
          omega
      · refine costs_unwrap_some fun part hp => ?_
        obtain ⟨h1, h2, -⟩ := absOverlap_part (o := off) hp
        exact hrest part h1 h2

/-! ## The commands -/

/-- Keys of one of the tables, each once at most, in any order. -/
def KeysOf (Q : DbId → Table → Prop) (ks : List Int) : Prop :=
  ks = [] ∨ ∃ i rows ks', Q i rows ∧ ks.Perm ks' ∧ ks'.Sublist (rows.map (·.1))

/-- At most `2` statements and `c` for each of some keys of a table, at most `5` messages, and these keys written,
each once at most. -/
def Bounded (Q : DbId → Table → Prop) (c : Nat) (m : Run α) : Prop :=
  ∀ w, InTx w → (∀ i, Checked.KeysFit (Q i) i w) →
    ∃ ks, KeysOf Q ks ∧ Dearer (2 + c * ks.length) 5 ks w (m w).2

variable {Q : DbId → Table → Prop} {c : Nat}

theorem bounded_unwrap {γ : Type} {r : Option γ} {g : γ → Run β} (h : ∀ x, Bounded Q c (g x)) :
    Bounded Q c (Run.unwrap r >>= g) := by
  cases r with
  | none =>
    exact fun w _ _ => ⟨[], .inl rfl, (Dearer.refl w).mono (Nat.zero_le _) (Nat.zero_le _) (List.Sublist.refl _)⟩
  | some x => exact h x

theorem bounded_query {env : Env} {i : DbId} {strs : List Bytes} {area : Option Area} {invert p : Bool}
    {g : List Int → Run β}
    (h : ∀ keys, ∃ ks, (ks = [] ∨ ks.Perm keys) ∧ Costs true (c * ks.length) 3 ks (g keys)) :
    Bounded Q c (queryKeys env i strs area invert p >>= g) := by
  intro w hw hq
  obtain ⟨h1, h2⟩ := costs_queryKeys env i strs area invert p w fun _ => hw
  rcases run_bind_cases (queryKeys env i strs area invert p) g w with ⟨keys, w1, e1, e2⟩ | ⟨x, w1, e1, e2⟩
  · rw [e2]
    rw [e1] at h1 h2
    obtain ⟨ks, h3, h4⟩ := h keys
    refine ⟨ks, ?_, (h2.trans (h4 w1 h1).2).mono (by omega) (by omega) (List.Sublist.refl _)⟩
    obtain ⟨-, -, -, rfl | ⟨rows, h5, h6⟩⟩ := Checked.queryKeys_sub (hq i) e1
    · rcases h3 with h3 | h3
      · exact .inl h3
      · exact .inl h3.eq_nil
    · rcases h3 with h3 | h3
      · exact .inl h3
      · exact .inr ⟨i, rows, keys, h5, h3, h6⟩
  · rw [e2]
    rw [e1] at h2
    exact ⟨[], .inl rfl, h2.mono (by omega) (by omega) (List.Sublist.refl _)⟩

theorem bounded_edit {env : Env} {i : DbId} {strs : List Bytes} {area : Option Area} {invert p : Bool}
    {f : β → Int → Run β} (h : ∀ b k, Costs true c 0 [k] (f b k)) (b : β) {g : β → Run α} (hg : ∀ b, Costs true 0 1 [] (g b)) :
    Bounded Q c (queryKeys env i strs area invert p >>= fun keys => beginEditing >>= fun _ =>
      keys.foldlM f b >>= fun b => endEditing >>= fun _ => g b) := by
  refine bounded_query fun keys => ⟨keys, .inr (List.Perm.refl _), ?_⟩
  refine (costs_bind (a := 0) (e := 1) (ks := []) (costs_setState _) fun _ =>
    costs_bind (a' := 0) (e' := 2) (ks' := []) (costs_keys h keys b) fun b' =>
      costs_bind (a := 0) (a' := 0) (e := 1) (e' := 1) (ks := []) (ks' := []) (costs_setState _) fun _ => hg b').mono
    (by omega) (by omega) ?_
  simp

theorem bounded_plain {env : Env} {i : DbId} {strs : List Bytes} {area : Option Area} {invert p : Bool}
    {f : β → Int → Run β} (h : ∀ b k, Costs true c 0 [k] (f b k)) (b : β)
    {sel : List Int → Res (List Int)} (hs : ∀ keys ks, sel keys = .ok ks → ks.Perm keys) :
    Bounded Q c (queryKeys env i strs area invert p >>= fun keys => Run.lift (sel keys) >>= fun keys =>
      beginEditing >>= fun _ => keys.foldlM f b >>= fun _ => endEditing) := by
  refine bounded_query fun keys => ?_
  cases e : sel keys with
  | error x => exact ⟨[], .inl rfl, costs_keep fun _ => rfl⟩
  | ok ks =>
    refine ⟨ks, .inr (hs keys ks e), ?_⟩
    refine (costs_bind (a := 0) (e := 1) (ks := []) (costs_setState _) fun _ =>
      costs_bind (a' := 0) (e' := 1) (ks' := []) (costs_keys h ks b) fun b' => costs_setState _).mono
      (by omega) (by omega) ?_
    simp

theorem sortKeys_perm {off : Vec3} {keys ks : List Int} (h : sortKeys off keys = .ok ks) : ks.Perm keys := by
  unfold sortKeys at h
  split at h
  · cases h
    exact List.Perm.refl _
  · cases h1 : (keys.mapM fun k => do
      let s ← sortKey off k
      pure (s, k) : Res _) with
    | error e => rw [h1] at h; cases h
    | ok l =>
      rw [h1] at h
      cases h
      refine ((List.mergeSort_perm _ _).map _).trans ?_
      have : ∀ (keys : List Int) (l : List (Int × Int)), (keys.mapM fun k => do
          let s ← sortKey off k
          pure (s, k) : Res _) = .ok l → l.map (·.2) = keys := by
        intro keys
        induction keys with
        | nil => intro l h; cases h; rfl
        | cons k t ih =>
          intro l h
          rw [List.mapM_cons] at h
          cases h2 : sortKey off k with
          | error e => rw [h2] at h; cases h
          | ok s =>
            rw [h2] at h
            cases h3 : (t.mapM fun k => do
              let s ← sortKey off k
              pure (s, k) : Res _) with
            | error e =>
              simp only [bind, Except.bind, pure, Except.pure] at h h3
              rw [h3] at h
              cases h
            | ok l' =>
              have h4 := ih l' h3
              simp only [bind, Except.bind, pure, Except.pure] at h h3
              rw [h3] at h
              cases h
              rw [List.map_cons, h4]
      rw [this keys l h1]

theorem costs_commit (env : Env) (i : DbId) : Costs false 1 0 [] (commitIfNeeded env i) := by
  refine costs_free (costs_theDb _) fun m => costs_ite _ ?_ (costs_pure _)
  refine costs_bind (a := 1) (a' := 0) (e := 0) (e' := 0) (ks := []) (ks' := []) (costs_exec _ _ .commit) fun _ =>
    costs_ite _ ?_ (costs_pure _)
  refine costs_free ?_ fun _ => costs_pure _
  refine costs_free (costs_theDb _) fun m => ?_
  exact fun w _ => ⟨fun h => (by cases h), setDb_dearer _ _ _⟩

theorem costs_vacuum (env : Env) : Costs false 2 4 [] (vacuum env) := by
  refine costs_bind (a := 0) (a' := 2) (e := 1) (e' := 3) (ks := []) (ks' := []) (costs_log _ _) fun _ =>
    costs_free (costs_showProgress _) fun _ =>
    costs_bind (a := 0) (a' := 2) (e := 1) (e' := 2) (ks := []) (ks' := []) (costs_setState _) fun _ => ?_
  refine costs_bind (a := 2) (a' := 0) (e := 0) (e' := 2) (ks := []) (ks' := []) ?_ fun r =>
    costs_bind (a := 0) (a' := 0) (e := 1) (e' := 1) (ks := []) (ks' := []) (costs_setState _) fun _ => ?_
  · unfold dbVacuum
    exact costs_bind (a := 1) (a' := 1) (e := 0) (e' := 0) (ks := []) (ks' := []) (costs_commit _ _) fun _ =>
      costs_ite _ (costs_bind (a := 1) (a' := 0) (e := 0) (e' := 0) (ks := []) (ks' := []) (costs_exec _ _ .vacuum) fun _ =>
        costs_ite _ (costs_pure _) (costs_pure _)) (costs_pure _)
  · split <;> exact costs_log _ _

/-- How many statements a command may execute for each block. -/
def stepCost (name : String) : Nat := if name = "clone" ∨ name = "overlay" then 10 else 2

theorem bounded_command {name : String} {cmd : Command} (h : command? name = some cmd) (env : Env) (args : InstArgs) :
    Bounded Q (stepCost name) (cmd.func env args) := by
  unfold command? at h
  rw [Option.map_eq_some_iff] at h
  obtain ⟨⟨n, c⟩, h1, rfl⟩ := h
  have hn := List.find?_some h1
  have hm := List.mem_of_find?_eq_some h1
  rw [beq_iff_eq] at hn
  simp only at hn
  subst hn
  unfold commands at hm
  simp only [List.mem_cons, List.not_mem_nil, or_false, Prod.mk.injEq] at hm
  rcases hm with ⟨rfl, rfl⟩ | ⟨rfl, rfl⟩ | ⟨rfl, rfl⟩ | ⟨rfl, rfl⟩ | ⟨rfl, rfl⟩ | ⟨rfl, rfl⟩ | ⟨rfl, rfl⟩ | ⟨rfl, rfl⟩ |
    ⟨rfl, rfl⟩ | ⟨rfl, rfl⟩ | ⟨rfl, rfl⟩ | ⟨rfl, rfl⟩
  · exact bounded_unwrap fun src => bounded_unwrap fun off =>
      bounded_plain (fun cache k => costs_cloneStep env _ _ _ _) _ fun _ _ h => sortKeys_perm h
  · exact bounded_plain (sel := .ok) (fun _ k => (costs_deleteBlockStep env k).mono (by decide) (Nat.le_refl _)
      (List.Sublist.refl _)) _ fun _ _ h => by cases h; exact List.Perm.refl _
  · exact bounded_edit (fun c k => costs_deleteMetaStep _ _ _ _ _) _ fun _ => costs_log _ _
  · exact bounded_edit (fun c k => costs_deleteObjectsStep _ _ _ _ _ _) _ fun _ => costs_log _ _
  · exact bounded_edit (fun c k => costs_deleteTimersStep _ _ _ _ _) _ fun _ => costs_log _ _
  · exact bounded_unwrap fun _ => bounded_unwrap fun _ =>
      bounded_edit (fun c k => costs_fillStep _ _ _ _ _ _) _ fun _ => costs_log _ _
  · exact bounded_unwrap fun _ => bounded_unwrap fun _ =>
      bounded_edit (fun c k => costs_replaceStep _ _ _ _ _ _) _ fun _ => costs_log _ _
  · exact bounded_unwrap fun _ => bounded_edit (fun c k => costs_replaceInInvStep _ _ _ _ _ _ _) _ fun _ => costs_log _ _
  · show Bounded _ _ (overlay _ _ _)
    unfold overlay
    have hk : ∀ w, (theDb .input w).2 = w := fun w => by unfold theDb; split <;> rfl
    have hrest : Bounded Q (stepCost "overlay") (if args.offset.getD ⟨0, 0, 0⟩ = ⟨0, 0, 0⟩ then overlayNoOffset env args
        else overlayWithOffset env BLOCK_CACHE_SIZE args) := by
      split
      · exact bounded_plain (sel := .ok) (fun _ k => (costs_overlayStep env _ _ k).mono (by decide) (Nat.le_refl _)
          (List.Sublist.refl _)) _ fun _ _ h => by cases h; exact List.Perm.refl _
      · exact bounded_unwrap fun _ => bounded_plain (sel := .ok) (fun _ k => costs_overlayOffsetStep env _ _ _ k) _
          fun _ _ h => by cases h; exact List.Perm.refl _
    intro w hw hq
    rcases run_bind_cases (theDb .input) (fun _ => if args.offset.getD ⟨0, 0, 0⟩ = ⟨0, 0, 0⟩ then overlayNoOffset env args
        else overlayWithOffset env BLOCK_CACHE_SIZE args) w with ⟨m, w1, e1, e2⟩ | ⟨x, w1, e1, e2⟩
    · have := hk w
      rw [e1] at this
      rw [e2, show w1 = w from this]
      exact hrest w hw hq
    · have := hk w
      rw [e1] at this
      rw [e2, show w1 = w from this]
      exact ⟨[], .inl rfl, (Dearer.refl w).mono (Nat.zero_le _) (Nat.zero_le _) (List.Sublist.refl _)⟩
  · exact bounded_unwrap fun _ => bounded_edit (fun c k => costs_setMetaVarStep _ _ _ _ _ _ _) _ fun _ => costs_log _ _
  · exact bounded_unwrap fun _ => bounded_edit (fun c k => costs_param2Step _ _ _ _ _ _) _ fun _ => costs_log _ _
  · exact fun w _ _ => ⟨[], .inl rfl, (costs_vacuum env w fun h => by cases h).2.mono (by omega) (by omega) (List.Sublist.refl _)⟩

/-! ## The worker -/

theorem costs_openMap (env : Env) (i : DbId) (p : String) : Costs false 1 0 [] (openMap env i p) := by
  intro w _
  refine ⟨fun h => (by cases h), ?_⟩
  unfold openMap
  split
  · exact (Dearer.refl w).mono (by omega) (by omega) (List.Sublist.refl _)
  · split
    · exact did_dearer _ _ .open _
    · rename_i f _ _
      have := (setDb_dearer w i ⟨Conn.ofFile f, false⟩).trans (did_dearer (w.setDb i ⟨Conn.ofFile f, false⟩) i .open true)
      simpa only [Nat.zero_add, List.nil_append, wrote] using this

theorem costs_new (env : Env) (i : DbId) : Costs false 3 0 [] (MapDb.new env i) := by
  refine costs_bind (a := 1) (a' := 2) (e := 0) (e' := 0) (ks := []) (ks' := []) (costs_exec _ _ .begin) fun _ =>
    costs_ite _ ?_ (costs_pure _)
  refine costs_bind (a := 1) (a' := 1) (e := 0) (e' := 0) (ks := []) (ks' := []) ?_ fun r => ?_
  · refine costs_bind (a := 1) (a' := 0) (e := 0) (e' := 0) (ks := []) (ks' := []) (costs_exec _ _ .tableInfo) fun _ =>
      costs_ite _ (costs_free (costs_theDb _) fun _ => costs_ite _ (costs_pure _) (costs_pure _)) (costs_pure _)
  · cases r with
    | error x => exact costs_pure _
    | ok u =>
      refine costs_bind (a := 1) (a' := 0) (e := 0) (e' := 0) (ks := []) (ks' := []) (costs_exec _ _ .prepare) fun _ =>
        costs_ite _ (costs_free (costs_free (costs_theDb _) fun m => ?_) fun _ => costs_pure _) (costs_pure _)
      exact fun w _ => ⟨fun h => (by cases h), setDb_dearer _ _ _⟩

theorem costs_openK (env : Env) (i : DbId) (p e1 e2 : String) {k : Run (Except String β)} (h : Costs false a 0 [] k) :
    Costs false (4 + a) 0 [] (openK env i p e1 e2 k) := by
  unfold openK
  refine (costs_bind (a := 1) (a' := 3 + a) (e := 0) (e' := 0) (ks := []) (ks' := []) (costs_openMap _ _ _) fun ok => costs_ite _ (costs_pure _)
    (costs_bind (a := 3) (e := 0) (e' := 0) (ks := []) (ks' := []) (costs_new _ _) fun r => ?_)).mono (by omega)
    (Nat.le_refl _) (List.Sublist.refl _)
  split
  · exact costs_pure _
  · exact h

theorem costs_setup (env : Env) (args : InstArgs) : Costs false 8 0 [] (setup env args) := by
  rw [setup_eq]
  have ho : ∀ r : Command × Option String, Costs false 8 0 [] (openAll env args r) := by
    intro r
    unfold openAll
    refine costs_openK (a := 4) _ _ _ _ _ ?_
    split
    · exact costs_pure _
    · exact costs_openK (a := 0) _ _ _ _ _ (costs_pure _)
  split
  · exact costs_pure _
  · refine costs_free (costs_unwrap _) fun cmd => costs_free (costs_lift _) fun r => ?_
    cases r with
    | error x => exact costs_pure _
    | ok => exact ho _
    | warning t => exact ho _

theorem finish_costs (env : Env) (args : InstArgs) (cmd : Command) :
    ∃ g, finish env args cmd = (cmd.func env args >>= g) ∧ ∀ u, Costs false 1 3 [] (g u) := by
  unfold finish
  refine ⟨_, rfl, fun _ => ?_⟩
  have hok : ∀ ok : Bool, Costs false 0 1 [] (do
      if ok then
        logInfo (.text "Done.")
        return .ok ()
      else return .error "database operation failed" : Run (Except String Unit)) := fun ok =>
    costs_ite _ (costs_bind (a := 0) (a' := 0) (e := 1) (e' := 0) (ks := []) (ks' := []) (costs_log _ _) fun _ => costs_pure _)
      (costs_pure _)
  have hm : Costs false 1 2 [] (do
      let m ← theDb .main
      let ok ←
        if m.inTransaction then do
          logInfo (.text "Committing...")
          commitIfNeeded env .main
        else pure true
      if ok then
        logInfo (.text "Done.")
        return .ok ()
      else return .error "database operation failed" : Run (Except String Unit)) := by
    refine costs_free (costs_theDb _) fun m => ?_
    simp only
    split
    · exact costs_bind (a := 0) (a' := 1) (e := 1) (e' := 1) (ks := []) (ks' := []) (costs_log _ _) fun _ =>
        costs_bind (a := 1) (a' := 0) (e := 0) (e' := 1) (ks := []) (ks' := []) (costs_commit _ _) hok
    · exact (costs_free (costs_pure _) hok).mono (by omega) (by omega) (List.Sublist.refl _)
  refine costs_free costs_getFailed fun fails => ?_
  simp only
  split
  · exact costs_bind (a := 0) (a' := 1) (e := 1) (e' := 2) (ks := []) (ks' := []) (costs_log _ _) fun _ => hm
  · exact hm.mono (by omega) (by omega) (List.Sublist.refl _)

theorem preEvents_le (args : InstArgs) (wn : Option String) : (preEvents args wn).length ≤ 3 := by
  unfold preEvents
  split <;> split <;> simp

theorem worker_cost (env : Env) (args : InstArgs)
    (hm : ∀ f, mapFile env args.mapPath = some f → Q .main f.table)
    (hi : ∀ p f, args.inputMapPath = some p → mapFile env p = some f → Q .input f.table) :
    ∃ ks, KeysOf Q ks ∧ Dearer (11 + stepCost args.command * ks.length) 12 ks World.start (worker env args World.start).2 := by
  have hc : ∃ ks, KeysOf Q ks ∧ Dearer (11 + stepCost args.command * ks.length) 11 ks World.start (computeThread env args World.start).2 := by
    rw [computeThread_eq]
    obtain ⟨-, h2⟩ := costs_setup env args World.start fun h => by cases h
    refine run_bind_ind (P := fun w => ∃ ks, KeysOf Q ks ∧
      Dearer (11 + stepCost args.command * ks.length) 11 ks World.start w) (fun r w1 e1 => ?_) fun x w1 e1 => ?_
    · rw [e1] at h2
      match r with
      | .error x => exact ⟨[], .inl rfl, h2.mono (by omega) (by omega) (List.Sublist.refl _)⟩
      | .ok (cmd, wn) =>
        obtain ⟨-, hcmd, -, hw⟩ := setup_iff.1 e1
        have hopen : InTx w1 ∧ ∀ i, Checked.KeysFit (Q i) i w1 := by
          obtain ⟨f, hf, -, -, hw⟩ := hw
          have h0 : InTx (World.start.opened .main f) ∧ ∀ i, Checked.KeysFit (Q i) i (World.start.opened .main f) := by
            constructor
            · exact inTx_setDb (w := World.start) (i := .main) (m := ⟨⟨f.table, f.table, true, f.cols⟩, true⟩) (fun _ _ h => by cases h) rfl
            · intro i
              exact Checked.KeysFit.same (Checked.KeysFit.set (w := World.start) (j := .main) (m := ⟨⟨f.table, f.table, true, f.cols⟩, true⟩)
                (fun _ h => by cases h) fun e => e ▸ ⟨hm f hf, hm f hf⟩) rfl
          cases hp : args.inputMapPath with
          | none =>
            rw [hp] at hw
            subst hw
            exact h0
          | some p =>
            rw [hp] at hw
            obtain ⟨g, hg, -, -, rfl⟩ := hw
            constructor
            · exact inTx_setDb (i := .input) (m := ⟨⟨g.table, g.table, true, g.cols⟩, true⟩) h0.1 rfl
            · intro i
              exact Checked.KeysFit.same (Checked.KeysFit.set (j := .input) (m := ⟨⟨g.table, g.table, true, g.cols⟩, true⟩)
                (h0.2 i) fun e => e ▸ ⟨hi p g hp hg, hi p g hp hg⟩) rfl
        have hs : Dearer 0 3 [] w1 (w1.say (preEvents args wn)) :=
          ⟨Nat.le_refl _, by
            show (w1.events ++ preEvents args wn).length ≤ _
            rw [List.length_append]
            exact Nat.add_le_add_left (preEvents_le args wn) _, [], (List.append_nil _).symm, List.Sublist.refl _⟩
        have h3 := h2.trans hs
        show ∃ ks, KeysOf Q ks ∧ Dearer _ _ ks World.start (runCommand env args cmd wn w1).2
        rw [runCommand_eq]
        split
        · exact ⟨[], .inl rfl, h3.mono (by omega) (by omega) (List.Sublist.refl _)⟩
        · obtain ⟨g, e, hg⟩ := finish_costs env args cmd
          rw [e]
          obtain ⟨ks, h4, h5⟩ := bounded_command (Q := Q) hcmd env args (w1.say (preEvents args wn)) hopen.1
            fun i => (hopen.2 i).same rfl
          refine ⟨ks, h4, ?_⟩
          rcases run_bind_cases (cmd.func env args) g (w1.say (preEvents args wn)) with ⟨r, w2, e1, e2⟩ | ⟨x, w2, e1, e2⟩
          · rw [e2]
            rw [e1] at h5
            have h6 := (hg r w2 fun h => by cases h).2
            exact ((h3.trans h5).trans h6).mono (by omega) (by omega) (by simp)
          · rw [e2]
            rw [e1] at h5
            exact (h3.trans h5).mono (by omega) (by omega) (by simp)
    · rw [e1] at h2
      exact ⟨[], .inl rfl, h2.mono (by omega) (by omega) (List.Sublist.refl _)⟩
  obtain ⟨ks, h1, h2⟩ := hc
  refine ⟨ks, h1, ?_⟩
  unfold worker
  refine run_bind_ind (P := fun w => Dearer (11 + stepCost args.command * ks.length) 12 ks World.start w)
    (fun r w1 e1 => ?_) fun x w1 e1 => ?_
  · rw [e1] at h2
    cases r with
    | ok u => exact h2.mono (Nat.le_refl _) (by omega) (List.Sublist.refl _)
    | error x =>
      exact (h2.trans (costs_log (o := false) (a := 0) (ks := []) .error (.text x) w1 fun h => by cases h).2).mono (Nat.le_refl _)
        (Nat.le_refl _) (by simp)
  · rw [e1] at h2
    exact h2.mono (Nat.le_refl _) (by omega) (List.Sublist.refl _)

end
end MapEditr
