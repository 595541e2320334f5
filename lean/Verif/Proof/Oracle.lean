import Verif.Proof.Report
import Verif.Spec.Oracle
import Verif.Spec.Map
/-! # Lemmas: what a run depends on -/

namespace MapEditr
open Spec
set_option linter.unusedSimpArgs false

/-- More statements are executed, and those that succeed are not among the failing ones; SQLite undoes
the transaction only after a failure. -/
def Honest (g : Nat → Bool) (w : World) (_ : Bool) (w' : World) : Prop :=
  ∃ ds, w'.trace = w.trace ++ ds ∧ ∀ k d, ds[k]? = some d → d.ok = true →
    g (w.trace.length + k) = false ∨ d.stmt = .rollback ∧ ∃ d' ∈ ds, d'.ok = false

theorem honest_same {g : Nat → Bool} {m : Run α} (h : ∀ w, (m w).2.trace = w.trace) : Inv (Honest g) m :=
  fun w => ⟨[], by rw [h, List.append_nil], by simp⟩

theorem honest_one {g : Nat → Bool} {w w' : World} {b : Bool} {i : DbId} {s : Sql} {ok : Bool}
    (h : w'.trace = w.trace ++ [⟨i, s, ok⟩]) (hg : ok = true → g w.trace.length = false) : Honest g w b w' := by
  refine ⟨_, h, fun k d hk hd => ?_⟩
  cases k with
  | zero =>
    simp only [List.getElem?_cons_zero, Option.some.injEq] at hk
    subst hk
    exact Or.inl (hg hd)
  | succ k => simp at hk

theorem honest_failed {g : Nat → Bool} {w : World} {b : Bool} (env : Env) (i : DbId) (s : Sql) :
    Honest g w b (w.failed env i s) := by
  obtain ⟨l, h, hl⟩ := failed_trace w env i s
  refine ⟨_, h, fun k d hk hd => Or.inr ⟨?_, ⟨i, s, false⟩, by simp, rfl⟩⟩
  rcases List.mem_cons.mp (List.mem_of_getElem? hk) with rfl | hm
  · cases hd
  · rcases hl with rfl | ⟨-, rfl⟩
    · cases hm
    · rw [List.mem_singleton.mp hm]

theorem honest_trans {g : Nat → Bool} {w w1 w2 : World} {a b c : Bool} (h : Honest g w a w1) (h' : Honest g w1 b w2) :
    Honest g w c w2 := by
  obtain ⟨d1, e1, h1⟩ := h
  obtain ⟨d2, e2, h2⟩ := h'
  refine ⟨d1 ++ d2, by rw [e2, e1, List.append_assoc], fun k d hk hd => ?_⟩
  rw [List.getElem?_append] at hk
  split at hk
  · rcases h1 k d hk hd with h | ⟨hr, d', h3, h4⟩
    · exact Or.inl h
    · exact Or.inr ⟨hr, d', List.mem_append_left _ h3, h4⟩
  · rename_i hl
    rcases h2 _ d hk hd with h | ⟨hr, d', h3, h4⟩
    · rw [e1, List.length_append] at h
      rw [← h]
      left
      congr 1
      omega
    · exact Or.inr ⟨hr, d', List.mem_append_right _ h3, h4⟩

/-- The same run with two databases: more statements are executed, and as long as the same ones fail,
everything is the same. -/
structure Det (env : Env) (f u : Nat → Bool) (m m' : Run α) : Prop where
  ext : Inv (Honest env.fail) m
  ext' : Inv (Honest f) m'
  same : ∀ w, m w = m' w ∨ Fork env (env.failing f u) (m w).2.trace (m' w).2.trace

section
variable {env : Env} {f u : Nat → Bool}

theorem det_quiet {m : Run α} (h : ∀ w, (m w).2.trace = w.trace) : Det env f u m m :=
  ⟨honest_same h, honest_same h, fun _ => .inl rfl⟩

theorem fork_ext {env env' : Env} {t t' r r' : List Did} (h : Fork env env' t t') :
    Fork env env' (t ++ r) (t' ++ r') := by
  cases h with
  | fails p i s q q' h =>
    rw [List.append_assoc, List.append_assoc]
    exact .fails p i s (q ++ r) (q' ++ r') h
  | undoes p s q q' h h' hu hu' =>
    rw [List.append_assoc, List.append_assoc]
    exact .undoes p s (q ++ r) (q' ++ r') h h' hu hu'
  | keeps p s q q' h h' hu hu' =>
    rw [List.append_assoc, List.append_assoc]
    exact .keeps p s (q ++ r) (q' ++ r') h h' hu hu'

/-- One after the other; only results the first one can have matter. -/
theorem det_bind' {m m' : Run α} {k k' : α → Run β} (hm : Det env f u m m')
    (hk : ∀ w a w', m w = (.ok a, w') ∨ m' w = (.ok a, w') → Det env f u (k a) (k' a)) :
    Det env f u (m >>= k) (m' >>= k') := by
  have hx : ∀ (g : Nat → Bool) (n : Run α) (l : α → Run β) (w : World),
      (∀ a w', n w = (.ok a, w') → Inv (Honest g) (l a)) → Honest g (n w).2 true ((n >>= l) w).2 := by
    intro g n l w hl
    rw [run_bind]
    rcases hn : n w with ⟨r, w1⟩
    cases r with
    | error e => exact ⟨[], (List.append_nil _).symm, by simp⟩
    | ok a => exact hl a w1 hn w1
  have h1 := fun w => hx _ m k w fun a w' h => (hk w a w' (.inl h)).ext
  have h2 := fun w => hx _ m' k' w fun a w' h => (hk w a w' (.inr h)).ext'
  refine ⟨fun w => honest_trans (hm.ext w) (h1 w), fun w => honest_trans (hm.ext' w) (h2 w), fun w => ?_⟩
  · rcases hm.same w with h | h
    · rw [run_bind, run_bind, ← h]
      rcases hw : m w with ⟨r, w1⟩
      cases r with
      | error e => exact .inl rfl
      | ok a => exact (hk w a w1 (.inl hw)).same w1
    · right
      obtain ⟨r, hr, -⟩ := h1 w
      obtain ⟨r', hr', -⟩ := h2 w
      rw [hr, hr']
      exact fork_ext h

theorem det_bind {m m' : Run α} {k k' : α → Run β} (hm : Det env f u m m') (hk : ∀ a, Det env f u (k a) (k' a)) :
    Det env f u (m >>= k) (m' >>= k') := det_bind' hm fun _ a _ _ => hk a

theorem det_ite (c : Prop) [Decidable c] {m n m' n' : Run α} (h : Det env f u m m') (h' : Det env f u n n') :
    Det env f u (if c then m else n) (if c then m' else n') := by split <;> assumption

theorem det_pure (a : α) : Det env f u (pure a : Run α) (pure a) := det_quiet fun _ => rfl
theorem det_lift (r : Res α) : Det env f u (Run.lift r) (Run.lift r) := det_quiet fun _ => rfl
theorem det_unwrap (o : Option α) : Det env f u (Run.unwrap o) (Run.unwrap o) := det_lift _
theorem det_expect (o : Except DbErr α) : Det env f u (expect o) (expect o) := det_unwrap _
theorem det_okOr (r : Res α) : Det env f u (Run.okOr r) (Run.okOr r) := by
  unfold Run.okOr
  split
  · exact det_pure _
  · exact det_pure _
  · exact det_lift _

theorem det_deser (d : Bytes) : Det env f u (deser env d) (deser (env.failing f u) d) := by
  show Det env f u (deser env d) (deser env d)
  unfold deser
  split
  · exact det_pure _
  · exact det_pure _
  · exact det_lift _

theorem det_ser (b : MapBlock) : Det env f u (ser env b) (ser (env.failing f u) b) := det_quiet (m := ser env b) fun _ => rfl

theorem det_theDb (i : DbId) : Det env f u (theDb i) (theDb i) := det_quiet fun w => by
  unfold theDb; split <;> rfl

theorem det_upd {g : World → World} (h : ∀ w, (g w).trace = w.trace) : Det env f u (Run.upd g) (Run.upd g) := det_quiet h

theorem det_setFlag (i : DbId) (v : Bool) : Det env f u (setFlag i v) (setFlag i v) := det_quiet fun w => by
  unfold setFlag
  rw [run_bind]
  unfold theDb
  cases w.dbs i <;> rfl

theorem det_log (t : LogType) (m : Msg) : Det env f u (log t m) (log t m) := det_quiet fun _ => rfl
theorem det_logInfo {m : Msg} : Det env f u (logInfo m) (logInfo m) := det_log _ _
theorem det_setState (s : InstState) : Det env f u (setState s) (setState s) := det_quiet fun _ => rfl
theorem det_incDone : Det env f u incDone incDone := det_quiet fun _ => rfl
theorem det_incFailed : Det env f u incFailed incFailed := det_quiet fun _ => rfl
theorem det_setTotal (n : Nat) : Det env f u (setTotal n) (setTotal n) := det_quiet fun _ => rfl
theorem det_beginEditing : Det env f u beginEditing beginEditing := det_setState _
theorem det_endEditing : Det env f u endEditing endEditing := det_setState _

theorem det_foldlM {g g' : β → α → Run β} (l : List α) (h : ∀ b a, Det env f u (g b a) (g' b a)) (b : β) :
    Det env f u (l.foldlM g b) (l.foldlM g' b) := by
  induction l generalizing b with
  | nil => exact det_pure _
  | cons a t ih =>
    rw [List.foldlM_cons, List.foldlM_cons]
    exact det_bind (h b a) fun _ => ih _

theorem honest_exec (env : Env) (i : DbId) (s : Sql) : Inv (Honest env.fail) (exec env i s) := by
  intro w
  unfold exec
  split
  · exact ⟨[], (List.append_nil _).symm, by simp⟩
  · split
    · exact honest_one rfl (by simp)
    · split
      · exact honest_failed _ _ _
      · rename_i h
        exact honest_one rfl fun _ => by simpa using h

theorem honest_open (env : Env) (i : DbId) (path : String) : Inv (Honest env.fail) (openMap env i path) := by
  intro w
  unfold openMap
  split
  · exact ⟨[], (List.append_nil _).symm, by simp⟩
  · split
    · exact honest_one rfl (by simp)
    · rename_i h
      exact honest_one rfl fun _ => by simpa using h

/-- A failing statement. -/
theorem det_failed (i : DbId) (s : Sql) (w : World) (h1 : env.fail w.trace.length = true)
    (h2 : f w.trace.length = true) : w.failed env i s = w.failed (env.failing f u) i s ∨
      Fork env (env.failing f u) (w.failed env i s).trace (w.failed (env.failing f u) i s).trace := by
  have hsame : env.undo w.trace.length = u w.trace.length → w.failed env i s = w.failed (env.failing f u) i s := by
    intro h
    unfold World.failed
    rw [show (env.failing f u).undo w.trace.length = env.undo w.trace.length from h.symm]
  cases hu : env.undo w.trace.length with
  | true =>
    cases hu' : u w.trace.length with
    | true => exact .inl (hsame (hu.trans hu'.symm))
    | false =>
      have e := failed_plain (env := env.failing f u) (w := w) hu' i s
      rcases failed_cases w env i s with h3 | ⟨rfl, m', -, -, -, h3⟩
      · exact .inl (h3.trans e.symm)
      · right
        rw [h3, e]
        have := Fork.undoes (env := env) (env' := env.failing f u) w.trace s [] [] h1 h2 hu hu'
        simpa [World.did, World.setDb] using this
  | false =>
    cases hu' : u w.trace.length with
    | false => exact .inl (hsame (hu.trans hu'.symm))
    | true =>
      have e := failed_plain (env := env) (w := w) hu i s
      rcases failed_cases w (env.failing f u) i s with h3 | ⟨rfl, m', -, -, -, h3⟩
      · exact .inl (e.trans h3.symm)
      · right
        rw [h3, e]
        have := Fork.keeps (env := env) (env' := env.failing f u) w.trace s [] [] h1 h2 hu hu'
        simpa [World.did, World.setDb] using this

/-- A single statement. -/
theorem det_exec (i : DbId) (s : Sql) : Det env f u (exec env i s) (exec (env.failing f u) i s) := by
  refine ⟨honest_exec _ _ _, honest_exec (env.failing f u) _ _, fun w => ?_⟩
  unfold exec
  cases w.dbs i with
  | none => exact .inl rfl
  | some m =>
    simp only
    cases hr : m.conn.refuses s with
    | true => exact .inl rfl
    | false =>
      have hf : ∀ r r', env.fail w.trace.length ≠ f w.trace.length →
          Fork env (env.failing f u) (w.trace ++ ⟨i, s, !env.fail w.trace.length⟩ :: r) (w.trace ++ ⟨i, s, !f w.trace.length⟩ :: r') :=
        fun r r' h => .fails w.trace i s r r' h
      simp only [Bool.false_eq_true, if_false]
      rcases Bool.eq_false_or_eq_true (env.fail w.trace.length) with h1 | h1 <;>
        rcases Bool.eq_false_or_eq_true (f w.trace.length) with h2 | h2 <;>
        rw [h1, h2] at hf <;>
        simp only [h1, h2, Bool.false_eq_true, if_false, if_true]
      · rcases det_failed (u := u) i s w h1 h2 with h | h
        · left
          rw [h]
        · exact .inr h
      · right
        obtain ⟨l, h, -⟩ := failed_trace w env i s
        rw [h]
        exact hf l [] (by simp)
      · right
        obtain ⟨l, h, -⟩ := failed_trace w (env.failing f u) i s
        rw [h]
        exact hf [] l (by simp)
      · exact .inl trivial

theorem det_begin (i : DbId) : Det env f u (beginIfNeeded env i) (beginIfNeeded (env.failing f u) i) :=
  det_bind (det_theDb i) fun _ => det_ite _ (det_exec i _) (det_pure _)

theorem det_commit (i : DbId) : Det env f u (commitIfNeeded env i) (commitIfNeeded (env.failing f u) i) := by
  unfold commitIfNeeded
  exact det_bind (det_theDb _) fun _ => det_ite _ (det_bind (det_exec i _) fun _ => det_ite _
    (det_bind (det_setFlag _ _) fun _ => det_pure _) (det_pure _)) (det_pure _)

theorem det_iterRows (i : DbId) : Det env f u (iterRows env i) (iterRows (env.failing f u) i) := by
  unfold iterRows
  exact det_bind (det_begin i) fun _ => det_ite _ (det_bind (det_exec i _) fun _ => det_ite _
      (det_bind (det_theDb i) fun m => det_pure _) (det_unwrap _)) (det_unwrap _)

theorem det_getBlock (i : DbId) (k : Int) : Det env f u (getBlock env i k) (getBlock (env.failing f u) i k) := by
  unfold getBlock
  refine det_bind (det_begin i) fun _ => det_ite _ (det_bind (det_exec i _) fun _ => det_ite _
    (det_bind (det_theDb i) fun m => ?_) (det_pure _)) (det_pure _)
  split <;> exact det_pure _

theorem det_setBlock (i : DbId) (k : Int) (d : Bytes) :
    Det env f u (setBlock env i k d) (setBlock (env.failing f u) i k d) := by
  unfold setBlock
  exact det_bind (det_begin i) fun _ => det_ite _ (det_bind (det_exec i _) fun _ => det_ite _
    (det_pure _) (det_pure _)) (det_pure _)

theorem det_deleteBlock (i : DbId) (k : Int) :
    Det env f u (deleteBlock env i k) (deleteBlock (env.failing f u) i k) := by
  unfold deleteBlock
  exact det_bind (det_begin i) fun _ => det_ite _ (det_bind (det_exec i _) fun _ => det_ite _
    (det_pure _) (det_pure _)) (det_pure _)

theorem det_dbVacuum (i : DbId) : Det env f u (dbVacuum env i) (dbVacuum (env.failing f u) i) := by
  unfold dbVacuum
  exact det_bind (det_commit i) fun _ => det_ite _ (det_bind (det_exec i _) fun _ => det_ite _
    (det_pure _) (det_pure _)) (det_pure _)

theorem det_gen (i : DbId) (k : Int) : Det env f u (getGenerated env i k) (getGenerated (env.failing f u) i k) := by
  unfold getGenerated
  refine det_bind (det_getBlock i k) fun r => ?_
  cases r <;> exact det_pure _

theorem det_put (k : Int) (d : Bytes) : Det env f u (setBlock env .main k d >>= expect)
    (setBlock (env.failing f u) .main k d >>= expect) := det_bind (det_setBlock _ _ _) fun _ => det_expect _

theorem det_del (k : Int) : Det env f u (deleteBlock env .main k >>= expect)
    (deleteBlock (env.failing f u) .main k >>= expect) := det_bind (det_deleteBlock _ _) fun _ => det_expect _

theorem det_get (i : DbId) (k : Int) {g g' : Bytes → Run β} (hg : ∀ d, Det env f u (g d) (g' d)) :
    Det env f u (getBlock env i k >>= fun r => expect r >>= g)
      (getBlock (env.failing f u) i k >>= fun r => expect r >>= g') :=
  det_bind (det_getBlock i k) fun _ => det_bind (det_expect _) hg

theorem det_save (b : MapBlock) (k : Int) {g g' : Unit → Run β} (hg : Det env f u (g ()) (g' ())) :
    Det env f u (ser env b >>= fun s => setBlock env .main k s >>= fun r => expect r >>= g)
      (ser (env.failing f u) b >>= fun s => setBlock (env.failing f u) .main k s >>= fun r => expect r >>= g') :=
  det_bind (det_ser b) fun _ => det_bind (det_setBlock _ _ _) fun _ => det_bind (det_expect _) fun _ => hg

theorem det_save_last (b : MapBlock) (k : Int) :
    Det env f u (ser env b >>= fun s => setBlock env .main k s >>= fun r => expect r)
      (ser (env.failing f u) b >>= fun s => setBlock (env.failing f u) .main k s >>= fun r => expect r) :=
  det_bind (det_ser b) fun _ => det_put _ _

theorem det_queryKeys (i : DbId) (strs : List Bytes) (area : Option Area)
    (invert partial_ : Bool) : Det env f u (queryKeys env i strs area invert partial_) (queryKeys (env.failing f u) i strs area invert partial_) := by
  unfold queryKeys
  refine det_bind (det_setState _) fun _ => ?_
  have hend : ∀ keys : List Int, Det env f u (do
      setTotal keys.length
      setState .ignore
      return keys : Run (List Int)) (do
      setTotal keys.length
      setState .ignore
      return keys : Run (List Int)) := fun keys =>
    det_bind (det_setTotal _) fun _ => det_bind (det_setState _) fun _ => det_pure _
  refine det_ite _ ?_ ?_
  · refine det_bind (det_iterRows i) fun rows => det_bind (det_foldlM _ (fun keys row => ?_) _) hend
    unfold queryStep
    refine det_ite _ ?_ (det_pure _)
    refine det_ite _ ?_ ?_
    · exact det_bind (det_setTotal _) fun _ => det_pure _
    · exact det_pure _
  · exact det_bind (det_pure _) hend

theorem det_fill (args : InstArgs) : Det env f u (fill env args) (fill (env.failing f u) args) := by
  unfold fill
  refine det_bind (det_unwrap _) fun area => det_bind (det_unwrap _) fun node =>
    det_bind (det_queryKeys _ _ _ _ _) fun keys => det_bind (det_beginEditing) fun _ =>
    det_bind (det_foldlM _ (fun count key => ?_) _) fun count =>
    det_bind (det_endEditing) fun _ => det_logInfo
  unfold fillStep
  refine det_bind (det_incDone) fun _ => det_get _ _ fun data => det_bind (det_okOr _) fun o => ?_
  cases o with
  | none => exact det_bind (det_incFailed) fun _ => det_pure _
  | some b => exact det_bind (det_lift _) fun r => det_save _ _ (det_pure _)

theorem det_replaceNodes (args : InstArgs) : Det env f u (replaceNodes env args) (replaceNodes (env.failing f u) args) := by
  unfold replaceNodes
  refine det_bind (det_unwrap _) fun old => det_bind (det_unwrap _) fun new =>
    det_bind (det_queryKeys _ _ _ _ _) fun keys => det_bind (det_beginEditing) fun _ =>
    det_bind (det_foldlM _ (fun count key => ?_) _) fun count =>
    det_bind (det_endEditing) fun _ => det_logInfo
  unfold replaceStep
  refine det_get _ _ fun data => det_bind (det_okOr _) fun o => ?_
  cases o with
  | none => exact det_bind (det_incFailed) fun _ => det_pure _
  | some b =>
    simp only
    split
    · exact det_bind (det_lift _) fun r => det_save _ _
        (det_bind (det_incDone) fun _ => det_pure _)
    · exact det_bind (det_incDone) fun _ => det_pure _

theorem det_setParam2 (args : InstArgs) : Det env f u (setParam2 env args) (setParam2 (env.failing f u) args) := by
  unfold setParam2
  refine det_bind (det_unwrap _) fun val => 
    det_bind (det_queryKeys _ _ _ _ _) fun keys => det_bind (det_beginEditing) fun _ =>
    det_bind (det_foldlM _ (fun count key => ?_) _) fun count =>
    det_bind (det_endEditing) fun _ => det_logInfo
  unfold param2Step
  refine det_bind (det_incDone) fun _ => det_get _ _ fun data => det_bind (det_okOr _) fun o => ?_
  cases o with
  | none => exact det_bind (det_incFailed) fun _ => det_pure _
  | some b => exact det_ite _ (det_pure _) (det_bind (det_lift _) fun r => det_save _ _ (det_pure _))

theorem det_deleteBlocks (args : InstArgs) : Det env f u (deleteBlocks env args) (deleteBlocks (env.failing f u) args) := by
  unfold deleteBlocks forEach
  refine det_bind (det_queryKeys _ _ _ _ _) fun keys => det_bind (det_beginEditing) fun _ =>
    det_bind (det_foldlM _ (fun count key => ?_) _) fun count => det_endEditing
  exact det_bind (det_incDone) fun _ => det_del _

theorem det_deleteMetadata (args : InstArgs) : Det env f u (deleteMetadata env args) (deleteMetadata (env.failing f u) args) := by
  unfold deleteMetadata
  refine 
    det_bind (det_queryKeys _ _ _ _ _) fun keys => det_bind (det_beginEditing) fun _ =>
    det_bind (det_foldlM _ (fun count key => ?_) _) fun count =>
    det_bind (det_endEditing) fun _ => det_logInfo
  unfold deleteMetaStep
  refine det_bind (det_incDone) fun _ => det_get _ _ fun data => det_bind (det_okOr _) fun o => ?_
  cases o with
  | none => exact det_bind (det_incFailed) fun _ => det_pure _
  | some b => exact det_ite _ (det_pure _) (det_bind (det_lift _) fun r =>
      det_ite _ (det_save _ _ (det_pure _)) (det_pure _))

theorem det_setMetaVar (args : InstArgs) : Det env f u (setMetaVar env args) (setMetaVar (env.failing f u) args) := by
  unfold setMetaVar
  refine det_bind (det_unwrap _) fun val => 
    det_bind (det_queryKeys _ _ _ _ _) fun keys => det_bind (det_beginEditing) fun _ =>
    det_bind (det_foldlM _ (fun count key => ?_) _) fun count =>
    det_bind (det_endEditing) fun _ => det_logInfo
  unfold setMetaVarStep
  refine det_bind (det_incDone) fun _ => det_get _ _ fun data => det_bind (det_okOr _) fun o => ?_
  cases o with
  | none => exact det_bind (det_incFailed) fun _ => det_pure _
  | some b => exact det_ite _ (det_pure _) (det_bind (det_lift _) fun ⟨_, _⟩ =>
      det_ite _ (det_save _ _ (det_pure _)) (det_pure _))

theorem det_deleteTimers (args : InstArgs) : Det env f u (deleteTimers env args) (deleteTimers (env.failing f u) args) := by
  unfold deleteTimers
  refine 
    det_bind (det_queryKeys _ _ _ _ _) fun keys => det_bind (det_beginEditing) fun _ =>
    det_bind (det_foldlM _ (fun count key => ?_) _) fun count =>
    det_bind (det_endEditing) fun _ => det_logInfo
  unfold deleteTimersStep
  refine det_bind (det_incDone) fun _ => det_get _ _ fun data => det_bind (det_okOr _) fun o => ?_
  cases o with
  | none => exact det_bind (det_incFailed) fun _ => det_pure _
  | some b => exact det_ite _ (det_pure _) (det_bind (det_lift _) fun ⟨_, _⟩ =>
      det_ite _ (det_save _ _ (det_pure _)) (det_pure _))

theorem det_deleteObjects (args : InstArgs) : Det env f u (deleteObjects env args) (deleteObjects (env.failing f u) args) := by
  unfold deleteObjects
  refine 
    det_bind (det_queryKeys _ _ _ _ _) fun keys => det_bind (det_beginEditing) fun _ =>
    det_bind (det_foldlM _ (fun count key => ?_) _) fun count =>
    det_bind (det_endEditing) fun _ => det_logInfo
  unfold deleteObjectsStep
  refine det_bind (det_incDone) fun _ => det_get _ _ fun data => det_bind (det_okOr _) fun o => ?_
  cases o with
  | none => exact det_bind (det_incFailed) fun _ => det_pure _
  | some b => exact (det_bind (det_lift _) fun ⟨_, _⟩ =>
      det_ite _ (det_save _ _ (det_pure _)) (det_pure _))

theorem det_replaceInInv (args : InstArgs) : Det env f u (replaceInInv env args) (replaceInInv (env.failing f u) args) := by
  unfold replaceInInv
  refine det_bind (det_unwrap _) fun val => 
    det_bind (det_queryKeys _ _ _ _ _) fun keys => det_bind (det_beginEditing) fun _ =>
    det_bind (det_foldlM _ (fun count key => ?_) _) fun count =>
    det_bind (det_endEditing) fun _ => det_logInfo
  unfold replaceInInvStep
  refine det_bind (det_incDone) fun _ => det_get _ _ fun data => det_bind (det_okOr _) fun o => ?_
  cases o with
  | none => exact det_bind (det_incFailed) fun _ => det_pure _
  | some b => exact det_ite _ (det_pure _) (det_bind (det_lift _) fun ⟨_, _⟩ =>
      det_ite _ (det_save _ _ (det_pure _)) (det_pure _))

/-! ## Copying commands -/

theorem det_cloneCached (cache : CacheMap BlockResult) (key : Int) :
    Det env f u (cloneCached env cache key) (cloneCached (env.failing f u) cache key) := by
  unfold cloneCached
  split
  · exact det_pure _
  · refine det_bind (det_gen _ _) fun o => ?_
    cases o with
    | none => exact det_pure _
    | some d => exact det_bind (det_deser d) fun _ => det_pure _

theorem det_overlayCached (cache : CacheMap (Option MapBlock)) (key : Int) :
    Det env f u (overlayCached env cache key) (overlayCached (env.failing f u) cache key) := by
  unfold overlayCached
  split
  · exact det_pure _
  · refine det_bind (det_gen _ _) fun o => ?_
    cases o with
    | none => exact det_pure _
    | some d => exact det_bind (det_deser d) fun _ => det_pure _

theorem det_clone (cap : Nat) (args : InstArgs) : Det env f u (clone env cap args) (clone (env.failing f u) cap args) := by
  unfold clone
  refine det_bind (det_unwrap _) fun src => det_bind (det_unwrap _) fun off =>
    det_bind (det_queryKeys _ _ _ _ _) fun keys => det_bind (det_lift _) fun keys =>
    det_bind (det_beginEditing) fun _ =>
    det_bind (det_foldlM _ (fun cache key => ?_) _) fun count => det_endEditing
  unfold cloneStep
  refine det_bind (det_incDone) fun _ => det_bind (det_cloneCached _ _) fun ⟨r, cache⟩ => ?_
  simp only
  split
  · exact det_pure _
  · exact det_bind (det_incFailed) fun _ => det_pure _
  · refine det_bind (det_unwrap _) fun part => det_bind (det_foldlM _ (fun st pos => ?_) _) fun st =>
      det_bind (det_lift _) fun b => det_save _ _ (det_pure _)
    unfold cloneSrc
    refine det_ite _ (det_pure _) (det_bind (det_lift _) fun k =>
      det_bind (det_cloneCached _ _) fun ⟨r, cache⟩ => ?_)
    simp only
    split
    · exact det_bind (det_lift _) fun _ => det_pure _
    · exact det_pure _

theorem det_overlay (cap : Nat) (args : InstArgs) : Det env f u (overlay env cap args) (overlay (env.failing f u) cap args) := by
  have hw : ∀ key, Det env f u (copyWhole env key) (copyWhole (env.failing f u) key) := fun key => by
    unfold copyWhole
    refine det_get _ _ fun data => det_ite _ (det_put _ _) (det_pure _)
  unfold overlay
  refine det_bind (det_theDb _) fun _ => det_ite _ ?_ ?_
  · unfold overlayNoOffset
    refine det_bind (det_queryKeys _ _ _ _ _) fun keys => det_bind (det_beginEditing) fun _ =>
      det_bind (det_foldlM _ (fun _ key => ?_) _) fun _ => det_endEditing
    unfold overlayStep
    refine det_bind (det_incDone) fun _ => ?_
    split
    · refine det_ite _ (hw _) ?_
      unfold copyPart
      refine det_bind (det_gen _ _) fun o => ?_
      cases o with
      | none => exact det_pure _
      | some d =>
        refine det_get _ _ fun data => det_bind (det_deser _) fun r => ?_
        cases r with
        | error e => exact det_incFailed
        | ok src =>
          refine det_bind (det_deser _) fun r => ?_
          cases r with
          | error e => exact det_incFailed
          | ok dst =>
            refine det_bind (det_unwrap _) fun part => ?_
            exact det_bind (det_lift _) fun b => det_bind (det_lift _) fun m =>
              det_bind (det_lift _) fun b => det_save_last _ _
    · exact hw _
  · unfold overlayWithOffset
    refine det_bind (det_unwrap _) fun off =>
      det_bind (det_queryKeys _ _ _ _ _) fun keys => det_bind (det_beginEditing) fun _ =>
      det_bind (det_foldlM _ (fun cache key => ?_) _) fun _ => det_endEditing
    unfold overlayOffsetStep
    refine det_bind (det_incDone) fun _ => det_bind (det_gen _ _) fun o => ?_
    cases o with
    | none => exact det_pure _
    | some d =>
      refine det_bind (det_deser _) fun r => ?_
      cases r with
      | error e => exact det_bind (det_incFailed) fun _ => det_pure _
      | ok dst =>
        have hrest : ∀ part : Area, Det env f u (do
            let (dst, cache) ← (part.sub off).toTouchingBlockArea.positions.foldlM
              (overlaySrc env (part.sub off) off (Vec3.fromBlockKey key)) (dst, cache)
            let dst ← Run.lift (cleanNimap env.build dst)
            expect (← setBlock env .main key (← ser env dst))
            return cache : Run (CacheMap (Option MapBlock))) (do
            let (dst, cache) ← (part.sub off).toTouchingBlockArea.positions.foldlM
              (overlaySrc (env.failing f u) (part.sub off) off (Vec3.fromBlockKey key)) (dst, cache)
            let dst ← Run.lift (cleanNimap env.build dst)
            expect (← setBlock (env.failing f u) .main key (← ser (env.failing f u) dst))
            return cache : Run (CacheMap (Option MapBlock))) := by
          intro part
          refine det_bind (det_foldlM _ (fun st pos => ?_) _) fun st =>
            det_bind (det_lift _) fun b => det_save _ _ (det_pure _)
          unfold overlaySrc
          refine det_ite _ (det_pure _) (det_bind (det_lift _) fun k =>
            det_bind (det_overlayCached _ _) fun ⟨r, cache⟩ => ?_)
          simp only
          split
          · exact det_bind (det_lift _) fun _ => det_pure _
          · exact det_pure _
        simp only
        split
        · exact det_bind (det_pure _) hrest
        · exact det_bind (det_unwrap _) hrest

theorem det_vacuum : Det env f u (vacuum env) (vacuum (env.failing f u)) := by
  unfold vacuum
  refine det_bind det_logInfo fun _ => det_bind (det_quiet fun _ => rfl) fun _ =>
    det_bind det_beginEditing fun _ => det_bind (det_dbVacuum _) fun r => det_bind det_endEditing fun _ => ?_
  cases r
  · exact det_log _ _
  · exact det_log _ _

theorem det_command {name : String} {cmd : Command} (h : command? name = some cmd) (args : InstArgs) :
    Det env f u (cmd.func env args) (cmd.func (env.failing f u) args) := by
  unfold command? at h
  rw [Option.map_eq_some_iff] at h
  obtain ⟨⟨n, c⟩, h1, rfl⟩ := h
  have hm := List.mem_of_find?_eq_some h1
  unfold commands at hm
  simp only [List.mem_cons, List.not_mem_nil, or_false, Prod.mk.injEq] at hm
  rcases hm with ⟨_, rfl⟩ | ⟨_, rfl⟩ | ⟨_, rfl⟩ | ⟨_, rfl⟩ | ⟨_, rfl⟩ | ⟨_, rfl⟩ | ⟨_, rfl⟩ | ⟨_, rfl⟩ |
    ⟨_, rfl⟩ | ⟨_, rfl⟩ | ⟨_, rfl⟩ | ⟨h, rfl⟩
  · exact det_clone _ _
  · exact det_deleteBlocks _
  · exact det_deleteMetadata _
  · exact det_deleteObjects _
  · exact det_deleteTimers _
  · exact det_fill _
  · exact det_replaceNodes _
  · exact det_replaceInInv _
  · exact det_overlay _ _
  · exact det_setMetaVar _
  · exact det_setParam2 _
  · exact det_vacuum

theorem det_open (i : DbId) (path : String) : Det env f u (openMap env i path) (openMap (env.failing f u) i path) := by
  refine ⟨honest_open _ _ _, honest_open (env.failing f u) _ _, fun w => ?_⟩
  unfold openMap
  have hm : mapFile (env.failing f u) path = mapFile env path := rfl
  rw [hm]
  cases mapFile env path with
  | none => exact .inl rfl
  | some g =>
    have hf : ∀ r r', env.fail w.trace.length ≠ f w.trace.length →
        Fork env (env.failing f u) (w.trace ++ ⟨i, .open, !env.fail w.trace.length⟩ :: r)
          (w.trace ++ ⟨i, .open, !f w.trace.length⟩ :: r') :=
      fun r r' h => .fails w.trace i .open r r' h
    simp only
    rcases Bool.eq_false_or_eq_true (env.fail w.trace.length) with h1 | h1 <;>
      rcases Bool.eq_false_or_eq_true (f w.trace.length) with h2 | h2 <;>
      rw [h1, h2] at hf <;>
      simp only [h1, h2, Bool.false_eq_true, if_false, if_true]
    · exact .inl trivial
    · exact .inr (hf [] [] (by simp))
    · exact .inr (hf [] [] (by simp))
    · exact .inl trivial

theorem det_new (i : DbId) : Det env f u (MapDb.new env i) (MapDb.new (env.failing f u) i) := by
  unfold MapDb.new verifyDatabase
  refine det_bind (det_exec i _) fun _ => det_ite _ (det_bind ?_ fun r => ?_) (det_pure _)
  · exact det_bind (det_exec i _) fun _ => det_ite _ (det_bind (det_theDb i) fun _ => det_ite _ (det_pure _)
      (det_pure _)) (det_pure _)
  · cases r with
    | error e => exact det_pure _
    | ok u => exact (det_bind (det_exec i _) fun _ => det_ite _ (det_bind (det_setFlag _ _) fun _ => det_pure _)
        (det_pure _))

theorem det_openK {i : DbId} {path e1 e2 : String} {k k' : Run (Except String β)} (hk : Det env f u k k') :
    Det env f u (openK env i path e1 e2 k) (openK (env.failing f u) i path e1 e2 k') := by
  unfold openK
  refine det_bind (det_open i path) fun _ => det_ite _ (det_pure _) (det_bind (det_new i) fun r => ?_)
  cases r with
  | error e => exact det_pure _
  | ok u => exact hk

theorem det_setup (args : InstArgs) : Det env f u (setup env args) (setup (env.failing f u) args) := by
  rw [setup_eq, setup_eq]
  cases verifyArgs args with
  | some e => exact det_pure _
  | none =>
    refine det_bind (det_unwrap _) fun cmd => det_bind (det_lift _) fun res => ?_
    have h : ∀ r : Command × Option String, Det env f u (openAll env args r) (openAll (env.failing f u) args r) := by
      intro r
      unfold openAll
      refine det_openK ?_
      cases args.inputMapPath with
      | none => exact det_pure _
      | some p => exact det_openK (det_pure _)
    cases res with
    | error e => exact det_pure _
    | ok => exact h _
    | warning t => exact h _

theorem det_finish {args : InstArgs} {cmd : Command} (hc : command? args.command = some cmd) :
    Det env f u (finish env args cmd) (finish (env.failing f u) args cmd) := by
  have hend : ∀ ok : Bool, Det env f u (sayDone ok) (sayDone ok) := fun ok => by
    unfold sayDone
    exact det_ite _ (det_bind det_logInfo fun _ => det_pure _) (det_pure _)
  have hs : Det env f u (saveAll env) (saveAll (env.failing f u)) := by
    unfold saveAll
    have h := det_bind (det_theDb (env := env) (f := f) (u := u) .main) fun m => det_ite (m.inTransaction = true)
      (det_bind (det_logInfo (m := .text "Committing...")) fun _ => det_commit .main) (det_pure true)
    exact det_bind (det_quiet fun _ => rfl) fun n => det_ite _ (det_bind det_logInfo fun _ => h) h
  rw [finish_parts, finish_parts]
  exact det_bind (det_bind (det_command hc args) fun _ => hs) hend

theorem det_runCommand {args : InstArgs} {cmd : Command} (hc : command? args.command = some cmd) (wn : Option String) :
    Det env f u (runCommand env args cmd wn) (runCommand (env.failing f u) args cmd wn) := by
  have hf := det_finish (env := env) (f := f) (u := u) hc
  by_cases h : args.doConfirmation = true ∧ env.answer ≠ some true
  · have e : runCommand (env.failing f u) args cmd wn = runCommand env args cmd wn := by
      funext w
      rw [runCommand_eq, runCommand_eq, if_pos h, if_pos h]
    rw [e]
    refine det_quiet fun w => ?_
    rw [runCommand_eq, if_pos h]
    rfl
  · have e : ∀ w, runCommand env args cmd wn w = finish env args cmd (w.say (preEvents args wn)) := fun w => by
      rw [runCommand_eq, if_neg h]
    have e' : ∀ w, runCommand (env.failing f u) args cmd wn w = finish (env.failing f u) args cmd (w.say (preEvents args wn)) :=
      fun w => by rw [runCommand_eq, if_neg h]
    refine ⟨fun w => ?_, fun w => ?_, fun w => ?_⟩
    · rw [e]; exact hf.ext (w.say _)
    · rw [e']; exact hf.ext' (w.say _)
    · rw [e, e']; exact hf.same _

/-- Two runs with the same arguments. -/
theorem det_computeThread (args : InstArgs) :
    Det env f u (computeThread env args) (computeThread (env.failing f u) args) := by
  rw [computeThread_eq, computeThread_eq]
  refine det_bind' (det_setup args) fun w r w' h => ?_
  cases r with
  | error e => exact det_pure _
  | ok r =>
    refine det_runCommand ?_ _
    rcases h with h | h
    · exact setup_command h
    · exact setup_command h

theorem det_worker (args : InstArgs) : Det env f u (worker env args) (worker (env.failing f u) args) := by
  unfold worker
  refine det_bind (det_computeThread args) fun r => ?_
  cases r
  · exact det_log _ _
  · exact det_pure _

/-- Runs with the same failures are the same. -/
theorem det_agree {m m' : Run α} (h : Det env f u m m') {w : World}
    (ha : ∀ n, n < (m w).2.trace.length → env.fail n = f n)
    (hu : ∀ n, n < (m w).2.trace.length → env.fail n = true → env.undo n = u n) : m w = m' w := by
  rcases h.same w with h | h
  · exact h
  · generalize (m w).2.trace = t at h ha hu
    generalize (m' w).2.trace = t' at h
    cases h with
    | fails p i s r r' h => exact absurd (ha p.length (by simp)) h
    | undoes p s r r' h h' h1 h2 =>
      have := hu p.length (by simp) h
      rw [h1] at this
      exact absurd (this.trans h2) (by simp)
    | keeps p s r r' h h' h1 h2 =>
      have := hu p.length (by simp) h
      rw [h1] at this
      exact absurd (this.trans h2) (by simp)

end

theorem works_same {env : Env} {args : InstArgs} (h : DbWorks env args) :
    computeThread env args World.start = computeThread (env.failing (fun _ => false) fun _ => false) args World.start :=
  det_agree (det_computeThread args) h fun n hn hf => absurd hf (by rw [h n hn]; simp)

theorem works_completes {env : Env} {args : InstArgs} {t t' : Table} {evs : List Event} (h : DbWorks env args)
    (hc : Completes env args t t' evs) : Completes (env.failing (fun _ => false) fun _ => false) args t t' evs := by
  obtain ⟨f, w, m, h1, h2, h3, h4⟩ := hc
  exact ⟨f, w, m, h1, h2, by rw [← works_same h]; exact h3, h4⟩

theorem Spec.EnvOk.failing {env : Env} (h : EnvOk env) (f u : Nat → Bool) : EnvOk (env.failing f u) := ⟨h.codec, h.full, h.ord⟩

end MapEditr
