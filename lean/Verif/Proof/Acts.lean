import Verif.Proof.Progress
import Verif.Proof.Shared
/-!
# What a run does to the counters and says, in order
-/

namespace MapEditr
open Spec Shared

/-- From `w` to `w'`, these things were done. -/
structure Went (w w' : World) (ext : List Act) : Prop where
  acts : w'.acts = w.acts ++ ext
  status : w'.status = after w.status ext
  events : w'.events = w.events ++ tells ext
  seen : w'.seen = w.seen ++ counts ext

theorem Went.refl (w : World) : Went w w [] :=
  ⟨(List.append_nil _).symm, rfl, (List.append_nil _).symm, (List.append_nil _).symm⟩

theorem Went.trans {w w1 w2 : World} {a b : List Act} (h : Went w w1 a) (h' : Went w1 w2 b) : Went w w2 (a ++ b) :=
  ⟨by rw [h'.acts, h.acts, List.append_assoc], by rw [h'.status, h.status, after_append],
    by rw [h'.events, h.events, tells_append, List.append_assoc],
    by rw [h'.seen, h.seen, counts_append, List.append_assoc]⟩

theorem Went.mute {w w1 w2 : World} {b : List Act} (h : Went w w1 []) (h' : Went w1 w2 b) : Went w w2 b := h.trans h'

theorem failed_acts (w : World) (env : Env) (i : DbId) (s : Sql) : (w.failed env i s).acts = w.acts := by
  rcases failed_cases w env i s with h | ⟨-, m, -, -, -, h⟩ <;> rw [h] <;> rfl

theorem went_same {w w' : World} (h1 : w'.acts = w.acts) (h2 : w'.status = w.status) (h3 : w'.events = w.events)
    (h4 : w'.seen = w.seen) : Went w w' [] :=
  ⟨by rw [h1, List.append_nil], h2, by rw [h3]; exact (List.append_nil _).symm, by rw [h4]; exact (List.append_nil _).symm⟩

/-! ## Parts that do none of it -/

/-- Says nothing and counts nothing. -/
def Mute (m : Run α) : Prop := ∀ w, Went w (m w).2 []

theorem mute_pure (a : α) : Mute (pure a : Run α) := fun _ => went_same rfl rfl rfl rfl

theorem mute_lift (r : Res α) : Mute (Run.lift r) := fun _ => went_same rfl rfl rfl rfl

theorem mute_unwrap (o : Option α) : Mute (Run.unwrap o) := mute_lift _

theorem mute_expect (o : Except DbErr α) : Mute (expect o) := mute_unwrap _

theorem mute_bind {m : Run α} {g : α → Run β} (h : Mute m) (hg : ∀ a, Mute (g a)) : Mute (m >>= g) := by
  intro w
  have h1 := h w
  rcases run_bind_cases m g w with ⟨a, w1, e1, e2⟩ | ⟨e, w1, e1, e2⟩
  · rw [e2]
    rw [e1] at h1
    exact h1.mute (hg a w1)
  · rw [e2]
    rw [e1] at h1
    exact h1

theorem mute_ite (c : Prop) [Decidable c] {m m' : Run α} (h : Mute m) (h' : Mute m') :
    Mute (if c then m else m') := by split <;> assumption

theorem mute_foldlM {f : β → α → Run β} (h : ∀ b a, Mute (f b a)) (l : List α) (b : β) :
    Mute (l.foldlM f b) := by
  induction l generalizing b with
  | nil => exact mute_pure b
  | cons a t ih =>
    rw [List.foldlM_cons]
    exact mute_bind (h b a) fun _ => ih _

theorem mute_exec (env : Env) (i : DbId) (s : Sql) : Mute (exec env i s) := fun w => by
  unfold exec
  split
  · exact went_same rfl rfl rfl rfl
  · split
    · exact went_same rfl rfl rfl rfl
    · split
      · exact went_same (failed_acts _ _ _ _) (failed_status _ _ _ _) (failed_events _ _ _ _) (failed_seen _ _ _ _)
      · exact went_same rfl rfl rfl rfl

theorem mute_theDb (i : DbId) : Mute (theDb i) := fun w => by
  unfold theDb; split <;> exact went_same rfl rfl rfl rfl

theorem mute_begin (env : Env) (i : DbId) : Mute (beginIfNeeded env i) :=
  mute_bind (mute_theDb i) fun _ => mute_ite _ (mute_exec _ _ _) (mute_pure _)

theorem mute_setFlag (i : DbId) (v : Bool) : Mute (setFlag i v) :=
  mute_bind (mute_theDb i) fun _ => fun _ => went_same rfl rfl rfl rfl

theorem mute_commit (env : Env) (i : DbId) : Mute (commitIfNeeded env i) :=
  mute_bind (mute_theDb i) fun _ => mute_ite _ (mute_bind (mute_exec _ _ _) fun _ =>
    mute_ite _ (mute_bind (mute_setFlag _ _) fun _ => mute_pure _) (mute_pure _)) (mute_pure _)

theorem mute_getBlock (env : Env) (i : DbId) (k : Int) : Mute (getBlock env i k) := by
  refine mute_bind (mute_begin env i) fun _ => mute_ite _ (mute_bind (mute_exec _ _ _) fun _ =>
    mute_ite _ (mute_bind (mute_theDb i) fun m => ?_) (mute_pure _)) (mute_pure _)
  split <;> exact mute_pure _

theorem mute_setBlock (env : Env) (i : DbId) (k : Int) (d : Bytes) : Mute (setBlock env i k d) :=
  mute_bind (mute_begin env i) fun _ => mute_ite _ (mute_bind (mute_exec _ _ _) fun _ =>
    mute_ite _ (mute_pure _) (mute_pure _)) (mute_pure _)

theorem mute_deleteBlock (env : Env) (i : DbId) (k : Int) : Mute (deleteBlock env i k) :=
  mute_bind (mute_begin env i) fun _ => mute_ite _ (mute_bind (mute_exec _ _ _) fun _ =>
    mute_ite _ (mute_pure _) (mute_pure _)) (mute_pure _)

theorem mute_ser (env : Env) (b : MapBlock) : Mute (ser env b) := fun _ => went_same rfl rfl rfl rfl

theorem mute_deser (env : Env) (d : Bytes) : Mute (deser env d) := by
  unfold deser
  split
  · exact mute_pure _
  · exact mute_pure _
  · exact mute_lift _

theorem mute_okOr (r : Res α) : Mute (Run.okOr r) := by
  unfold Run.okOr
  split
  · exact mute_pure _
  · exact mute_pure _
  · exact mute_lift _

theorem mute_getGenerated (env : Env) (i : DbId) (k : Int) : Mute (getGenerated env i k) := by
  refine mute_bind (mute_getBlock env i k) fun r => ?_
  split <;> exact mute_pure _

theorem mute_save (env : Env) (b : MapBlock) (k : Int) {f : Unit → Run α} (hf : Mute (f ())) :
    Mute (ser env b >>= fun s => setBlock env .main k s >>= fun r => expect r >>= f) :=
  mute_bind (mute_ser env b) fun _ => mute_bind (mute_setBlock _ _ _ _) fun _ =>
    mute_bind (mute_expect _) fun _ => hf

theorem mute_iterRows (env : Env) (i : DbId) : Mute (iterRows env i) :=
  mute_bind (mute_begin _ _) fun _ => mute_ite _ (mute_bind (mute_exec _ _ _) fun _ =>
    mute_ite _ (mute_bind (mute_theDb i) fun _ => mute_pure _) (mute_unwrap _)) (mute_unwrap _)

theorem mute_cloneCached (env : Env) (cache : CacheMap BlockResult) (key : Int) :
    Mute (cloneCached env cache key) := by
  unfold cloneCached
  split
  · exact mute_pure _
  · refine mute_bind (mute_getGenerated _ _ _) fun o => ?_
    cases o with
    | none => exact mute_pure _
    | some d => exact mute_bind (mute_deser _ _) fun _ => mute_pure _

theorem mute_overlayCached (env : Env) (cache : CacheMap (Option MapBlock)) (key : Int) :
    Mute (overlayCached env cache key) := by
  unfold overlayCached
  split
  · exact mute_pure _
  · refine mute_bind (mute_getGenerated _ _ _) fun o => ?_
    cases o with
    | none => exact mute_pure _
    | some d => exact mute_bind (mute_deser _ _) fun _ => mute_pure _

theorem mute_copyWhole (env : Env) (k : Int) : Mute (copyWhole env k) :=
  mute_bind (mute_getBlock _ _ _) fun _ => mute_bind (mute_expect _) fun _ =>
    mute_ite _ (mute_bind (mute_setBlock _ _ _ _) fun _ => mute_expect _) (mute_pure _)

theorem mute_vacuum (env : Env) (i : DbId) : Mute (dbVacuum env i) :=
  mute_bind (mute_commit _ _) fun _ => mute_ite _ (mute_bind (mute_exec _ _ _) fun _ =>
    mute_ite _ (mute_pure _) (mute_pure _)) (mute_pure _)

theorem mute_openMap (env : Env) (i : DbId) (p : String) : Mute (openMap env i p) := by
  intro w
  unfold openMap
  split
  · exact went_same rfl rfl rfl rfl
  · split <;> exact went_same rfl rfl rfl rfl

theorem mute_new (env : Env) (i : DbId) : Mute (MapDb.new env i) := by
  refine mute_bind (mute_exec _ _ _) fun _ => mute_ite _ (mute_bind (mute_bind (mute_exec _ _ _) fun _ =>
    mute_ite _ (mute_bind (mute_theDb _) fun _ => mute_ite _ (mute_pure _) (mute_pure _)) (mute_pure _))
    fun r => ?_) (mute_pure _)
  split
  · exact mute_pure _
  · exact mute_bind (mute_exec _ _ _) fun _ => mute_ite _ (mute_bind (mute_setFlag _ _) fun _ => mute_pure _)
      (mute_pure _)

theorem mute_openK (env : Env) (i : DbId) (p e1 e2 : String) {k : Run (Except String β)} (h : Mute k) :
    Mute (openK env i p e1 e2 k) := by
  unfold openK
  refine mute_bind (mute_openMap _ _ _) fun ok => mute_ite _ (mute_pure _) (mute_bind (mute_new _ _) fun r => ?_)
  split
  · exact mute_pure _
  · exact h

theorem mute_openAll (env : Env) (args : InstArgs) (r : β) : Mute (openAll env args r) := by
  unfold openAll
  refine mute_openK _ _ _ _ _ ?_
  split
  · exact mute_pure _
  · exact mute_openK _ _ _ _ _ (mute_pure _)

theorem mute_setup (env : Env) (args : InstArgs) : Mute (setup env args) := by
  rw [setup_eq]
  split
  · exact mute_pure _
  · refine mute_bind (mute_unwrap _) fun cmd => mute_bind (mute_lift _) fun r => ?_
    cases r with
    | error e => exact mute_pure _
    | ok => exact mute_openAll _ _ _
    | warning t => exact mute_openAll _ _ _

/-! ## Parts that only count -/

/-- Only counts, and `R` holds between the status before and each one on the way. -/
def Tallies (R : Status → Status → Prop) (m : Run α) : Prop := ∀ w, ∃ l : List Status, Went w (m w).2 (l.map .count) ∧
  ∀ s ∈ l, R w.status s

/-- The total and the kind of progress line stay. -/
def Keeps (s s' : Status) : Prop := s'.total = s.total ∧ s'.showProgress = s.showProgress

/-- The kind of progress line stays. -/
def KeepsBar (s s' : Status) : Prop := s'.showProgress = s.showProgress

/-- Reflexive and transitive. -/
structure Order (R : Status → Status → Prop) : Prop where
  refl : ∀ s, R s s
  trans : ∀ {a b c}, R a b → R b c → R a c

theorem order_keeps : Order Keeps := ⟨fun _ => ⟨rfl, rfl⟩, fun h h' => ⟨h'.1.trans h.1, h'.2.trans h.2⟩⟩
theorem order_bar : Order KeepsBar := ⟨fun _ => rfl, fun h h' => Eq.trans h' h⟩

theorem after_counts (s : Status) (l : List Status) : after s (l.map .count) = (l.getLast?).getD s := by
  induction l generalizing s with
  | nil => rfl
  | cons a t ih =>
    refine (ih a).trans ?_
    cases t with
    | nil => rfl
    | cons b t => rw [List.getLast?_cons_cons, List.getLast?_eq_some_getLast (List.cons_ne_nil b t)]; rfl

theorem after_in {R : Status → Status → Prop} (hR : Order R) {s : Status} {l : List Status} (h : ∀ x ∈ l, R s x) :
    R s (after s (l.map .count)) := by
  rw [after_counts]
  cases e : l.getLast? with
  | none => exact hR.refl s
  | some x => exact h x (List.mem_of_getLast? e)

section
variable {R : Status → Status → Prop}

theorem Mute.tallies {m : Run α} (h : Mute m) : Tallies R m := fun w => ⟨[], h w, nofun⟩

theorem tallies_bind (hR : Order R) {m : Run α} {g : α → Run β} (h : Tallies R m) (hg : ∀ a, Tallies R (g a)) :
    Tallies R (m >>= g) := by
  intro w
  obtain ⟨l, h1, h2⟩ := h w
  rcases run_bind_cases m g w with ⟨a, w1, e1, e2⟩ | ⟨e, w1, e1, e2⟩
  · rw [e2]
    rw [e1] at h1
    obtain ⟨l', h3, h4⟩ := hg a w1
    refine ⟨l ++ l', ?_, fun s hs => ?_⟩
    · rw [List.map_append]
      exact h1.trans h3
    · rcases List.mem_append.1 hs with hs | hs
      · exact h2 s hs
      · refine hR.trans (after_in hR h2) ?_
        rw [← h1.status]
        exact h4 s hs
  · rw [e2]
    rw [e1] at h1
    exact ⟨l, h1, h2⟩

theorem tallies_foldlM (hR : Order R) {f : β → α → Run β} (h : ∀ b a, Tallies R (f b a)) (l : List α) (b : β) :
    Tallies R (l.foldlM f b) := by
  induction l generalizing b with
  | nil => exact (mute_pure b).tallies
  | cons a t ih =>
    rw [List.foldlM_cons]
    exact tallies_bind hR (h b a) fun _ => ih _

theorem tallies_ite (c : Prop) [Decidable c] {m m' : Run α} (h : Tallies R m) (h' : Tallies R m') :
    Tallies R (if c then m else m') := by split <;> assumption

theorem tallies_upd {f : Status → Status} (h : ∀ s, R s (f s)) : Tallies R (Run.upd (World.setStatus f)) := fun w =>
  ⟨[f w.status], ⟨rfl, rfl, (List.append_nil _).symm, rfl⟩, fun s hs => by
    rw [List.mem_singleton.1 hs]
    exact h _⟩

end

/-- The total and the kind of progress line stay, and nothing is said. -/
abbrev Tally (m : Run α) : Prop := Tallies Keeps m

theorem tally_still {m : Run α} {g : α → Run β} (h : Mute m) (hg : ∀ a, Tally (g a)) : Tally (m >>= g) :=
  tallies_bind order_keeps h.tallies hg

theorem tally_incDone : Tally incDone := tallies_upd fun _ => ⟨rfl, rfl⟩
theorem tally_incFailed : Tally incFailed := tallies_upd fun _ => ⟨rfl, rfl⟩

theorem tally_ite (c : Prop) [Decidable c] {m m' : Run α} (h : Tally m) (h' : Tally m') :
    Tally (if c then m else m') := tallies_ite c h h'

theorem tally_done {g : Unit → Run β} (hg : ∀ u, Tally (g u)) : Tally (incDone >>= g) :=
  tallies_bind order_keeps tally_incDone hg

theorem tally_failed {g : Unit → Run β} (hg : ∀ u, Mute (g u)) : Tally (incFailed >>= g) :=
  tallies_bind order_keeps tally_incFailed fun u => (hg u).tallies

theorem tally_read (env : Env) (i : DbId) (k : Int) {m : Bytes → Run (Option α)} (hm : ∀ d, Mute (m d))
    {g : Option α → Run β} (h0 : Tally (g none)) (hg : ∀ b, Tally (g (some b))) :
    Tally (getBlock env i k >>= fun r => expect r >>= fun d => m d >>= g) := by
  refine tally_still (mute_getBlock _ _ _) fun r => tally_still (mute_expect _) fun d => tally_still (hm d) fun o => ?_
  cases o with
  | none => exact h0
  | some b => exact hg b

theorem tally_fillStep (env : Env) (area : Area) (invert : Bool) (node : Bytes) (count : Nat) (key : Int) :
    Tally (fillStep env area invert node count key) := by
  unfold fillStep
  refine tally_done fun _ => tally_read _ _ _ (fun _ => mute_okOr _) (tally_failed fun _ => mute_pure _) fun b => ?_
  simp only
  exact (mute_bind (mute_lift _) fun ⟨_, _⟩ => mute_save _ _ _ (mute_pure _)).tallies

theorem tally_replaceStep (env : Env) (args : InstArgs) (oldNode newNode : Bytes) (count : Nat) (key : Int) :
    Tally (replaceStep env args oldNode newNode count key) := by
  unfold replaceStep
  refine tally_read _ _ _ (fun _ => mute_okOr _) (tally_failed fun _ => mute_pure _) fun b => ?_
  simp only
  split
  · exact tally_still (mute_lift _) fun r => tally_still (mute_ser _ _) fun _ =>
      tally_still (mute_setBlock _ _ _ _) fun _ => tally_still (mute_expect _) fun _ =>
        tally_done fun _ => (mute_pure _).tallies
  · exact tally_done fun _ => (mute_pure _).tallies

theorem tally_param2Step (env : Env) (args : InstArgs) (val : UInt8) (node : Option Bytes) (count : Nat) (key : Int) :
    Tally (param2Step env args val node count key) := by
  unfold param2Step
  refine tally_done fun _ => tally_read _ _ _ (fun _ => mute_okOr _) (tally_failed fun _ => mute_pure _) fun b => ?_
  simp only
  split
  · exact (mute_pure _).tallies
  · exact (mute_bind (mute_lift _) fun ⟨_, _⟩ => mute_save _ _ _ (mute_pure _)).tallies

theorem tally_deleteMetaStep (env : Env) (args : InstArgs) (node : Option Bytes) (count : Nat) (key : Int) :
    Tally (deleteMetaStep env args node count key) := by
  unfold deleteMetaStep
  refine tally_done fun _ => tally_read _ _ _ (fun _ => mute_okOr _) (tally_failed fun _ => mute_pure _) fun b => ?_
  simp only
  split
  · exact (mute_pure _).tallies
  · refine (mute_bind (mute_lift _) fun r => ?_).tallies
    split
    · exact mute_save _ _ _ (mute_pure _)
    · exact mute_pure _

theorem tally_setMetaVarStep (env : Env) (args : InstArgs) (k v : Bytes) (nodes : List Bytes) (count : Nat) (key : Int) :
    Tally (setMetaVarStep env args k v nodes count key) := by
  unfold setMetaVarStep
  refine tally_done fun _ => tally_read _ _ _ (fun _ => mute_okOr _) (tally_failed fun _ => mute_pure _) fun b => ?_
  simp only
  exact (mute_ite _ (mute_pure _) (mute_bind (mute_lift _) fun ⟨_, _⟩ =>
    mute_ite _ (mute_save _ _ _ (mute_pure _)) (mute_pure _))).tallies

theorem tally_deleteTimersStep (env : Env) (args : InstArgs) (node : Option Bytes) (count : Nat) (key : Int) :
    Tally (deleteTimersStep env args node count key) := by
  unfold deleteTimersStep
  refine tally_done fun _ => tally_read _ _ _ (fun _ => mute_okOr _) (tally_failed fun _ => mute_pure _) fun b => ?_
  simp only
  exact (mute_ite _ (mute_pure _) (mute_bind (mute_lift _) fun ⟨_, _⟩ =>
    mute_ite _ (mute_save _ _ _ (mute_pure _)) (mute_pure _))).tallies

theorem tally_deleteObjectsStep (env : Env) (args : InstArgs) (obj : Option Bytes) (items : List Bytes) (count : Nat) (key : Int) :
    Tally (deleteObjectsStep env args obj items count key) := by
  unfold deleteObjectsStep
  refine tally_done fun _ => tally_read _ _ _ (fun _ => mute_okOr _) (tally_failed fun _ => mute_pure _) fun b => ?_
  simp only
  exact (mute_bind (mute_lift _) fun ⟨_, _⟩ =>
    mute_ite _ (mute_save _ _ _ (mute_pure _)) (mute_pure _)).tallies

theorem tally_replaceInInvStep (env : Env) (args : InstArgs) (item newItem : Bytes) (nodes : List Bytes) (count : Nat × Nat) (key : Int) :
    Tally (replaceInInvStep env args item newItem nodes count key) := by
  unfold replaceInInvStep
  refine tally_done fun _ => tally_read _ _ _ (fun _ => mute_okOr _) (tally_failed fun _ => mute_pure _) fun b => ?_
  simp only
  exact (mute_ite _ (mute_pure _) (mute_bind (mute_lift _) fun ⟨_, _⟩ =>
    mute_ite _ (mute_save _ _ _ (mute_pure _)) (mute_pure _))).tallies

theorem tally_cloneStep (env : Env) (a : Area) (o : Vec3) (cache : CacheMap BlockResult) (k : Int) :
    Tally (cloneStep env a o cache k) := by
  refine tally_done fun _ => tally_still (mute_cloneCached _ _ _) fun ⟨r, cache⟩ => ?_
  simp only
  split
  · exact (mute_pure _).tallies
  · exact tally_failed fun _ => mute_pure _
  · refine Mute.tallies (mute_bind (mute_unwrap _) fun part =>
      mute_bind (mute_foldlM (fun st pos => ?_) _ _) fun st =>
      mute_bind (mute_lift _) fun b => mute_save env _ _ (mute_pure _))
    unfold cloneSrc
    refine mute_ite _ (mute_pure _) (mute_bind (mute_lift _) fun k =>
      mute_bind (mute_cloneCached _ _ _) fun ⟨r, cache⟩ => ?_)
    simp only
    split
    · exact mute_bind (mute_lift _) fun _ => mute_pure _
    · exact mute_pure _

theorem tally_overlayStep (env : Env) (area : Option Area) (invert : Bool) (k : Int) :
    Tally (overlayStep env area invert k) := by
  refine tally_done fun _ => ?_
  cases area with
  | none => exact (mute_copyWhole env k).tallies
  | some a =>
    refine tally_ite _ (mute_copyWhole env k).tallies ?_
    unfold copyPart
    refine tally_still (mute_getGenerated _ _ _) fun o => ?_
    cases o with
    | none => exact (mute_pure _).tallies
    | some d =>
      refine tally_still (mute_getBlock _ _ _) fun _ => tally_still (mute_expect _) fun _ =>
        tally_still (mute_deser _ _) fun r => ?_
      cases r with
      | error e => exact tally_incFailed
      | ok src =>
        refine tally_still (mute_deser _ _) fun r => ?_
        cases r with
        | error e => exact tally_incFailed
        | ok dst =>
          refine tally_still (mute_unwrap _) fun part => ?_
          exact (mute_bind (mute_lift _) fun b => mute_bind (mute_lift _) fun m =>
            mute_bind (mute_lift _) fun b => mute_bind (mute_ser env _) fun _ =>
            mute_bind (mute_setBlock _ _ _ _) fun _ => mute_expect _).tallies

theorem tally_overlayOffsetStep (env : Env) (area : Option Area) (o : Vec3)
    (cache : CacheMap (Option MapBlock)) (k : Int) : Tally (overlayOffsetStep env area o cache k) := by
  refine tally_done fun _ => tally_still (mute_getGenerated _ _ _) fun r => ?_
  cases r with
  | none => exact (mute_pure _).tallies
  | some d =>
    refine tally_still (mute_deser _ _) fun r => ?_
    cases r with
    | error e => exact tally_failed fun _ => mute_pure _
    | ok dst =>
      have hrest : ∀ part : Area, Mute (do
          let (dst, cache) ← (part.sub o).toTouchingBlockArea.positions.foldlM
            (overlaySrc env (part.sub o) o (Vec3.fromBlockKey k)) (dst, cache)
          let dst ← Run.lift (cleanNimap env.build dst)
          expect (← setBlock env .main k (← ser env dst))
          return cache : Run (CacheMap (Option MapBlock))) := by
        intro part
        refine mute_bind (mute_foldlM (fun st pos => ?_) _ _) fun st =>
          mute_bind (mute_lift _) fun b => mute_save _ _ _ (mute_pure _)
        unfold overlaySrc
        refine mute_ite _ (mute_pure _) (mute_bind (mute_lift _) fun k =>
          mute_bind (mute_overlayCached _ _ _) fun ⟨r, cache⟩ => ?_)
        simp only
        split
        · exact mute_bind (mute_lift _) fun _ => mute_pure _
        · exact mute_pure _
      simp only
      split
      · exact (mute_bind (mute_pure _) hrest).tallies
      · exact (mute_bind (mute_unwrap _) hrest).tallies

/-! ## Stages -/

theorem news_append (a b : List Event) : news (a ++ b) = news a ++ news b := by
  induction a with
  | nil => rfl
  | cons x t ih =>
    cases x with
    | newState s => exact congrArg (s :: ·) ih
    | log _ _ => exact ih
    | confirmRequest => exact ih

theorem news_prefix {a b : List Act} (h : a <+: b) : (news (tells a)).length ≤ (news (tells b)).length := by
  obtain ⟨c, hc⟩ := tells_prefix h
  rw [← hc, news_append, List.length_append]
  omega

/-- These acts are those of a command in its `k`th stage: from the second on the total stays, from the fourth on
all counters. -/
structure Stage (k : Nat) (acts : List Act) : Prop where
  le : k ≤ 4
  news : news (tells acts) = STAGES.take k
  total : ∀ p, p <+: acts → 2 ≤ (Spec.news (tells p)).length → (after {} p).total = (after {} acts).total
  all : ∀ p, p <+: acts → 4 ≤ (Spec.news (tells p)).length → after {} p = after {} acts
  bar : ∀ p, p <+: acts → (after {} p).showProgress = true

theorem stages_length {k : Nat} (h : k ≤ 4) : (STAGES.take k).length = k := by
  rw [List.length_take]
  show min k 4 = k
  omega

theorem stage_nil : Stage 0 [] := ⟨by omega, rfl, fun p h => (by rw [List.prefix_nil.1 h]; exact fun _ => rfl),
  fun p h => (by rw [List.prefix_nil.1 h]; exact fun _ => rfl), fun p h => (by rw [List.prefix_nil.1 h]; rfl)⟩

theorem after_count (s v : Status) (l : List Act) : after s (l ++ [.count v]) = v := by
  rw [after_append]; rfl

theorem after_tell (s : Status) (e : Event) (l : List Act) : after s (l ++ [.tell e]) = after s l := by
  rw [after_append]; rfl

theorem tells_count (v : Status) (l : List Act) : tells (l ++ [.count v]) = tells l := by
  rw [tells_append]; exact List.append_nil _

theorem stage_count {k : Nat} {acts : List Act} {v : Status} (g : Stage k acts)
    (hb : KeepsBar (after {} acts) v) (h : k < 2 ∨ k < 4 ∧ v.total = (after {} acts).total) :
    Stage k (acts ++ [.count v]) := by
  have hn : ∀ p, p <+: acts → (Spec.news (tells p)).length ≤ k := by
    intro p hp
    have := news_prefix hp
    rw [g.news, stages_length g.le] at this
    exact this
  refine ⟨g.le, by rw [tells_count]; exact g.news, fun p hp h2 => ?_, fun p hp h4 => ?_, fun p hp => ?_⟩
  · rcases List.prefix_concat_iff.1 hp with rfl | hp
    · rfl
    · rw [after_count]
      rcases h with h | h
      · have := hn p hp
        omega
      · rw [h.2]
        exact g.total p hp h2
  · rcases List.prefix_concat_iff.1 hp with rfl | hp
    · rfl
    · have := hn p hp
      omega
  · rcases List.prefix_concat_iff.1 hp with rfl | hp
    · rw [after_count]
      exact hb.trans (g.bar acts (List.prefix_refl _))
    · exact g.bar p hp

theorem stage_tell {k : Nat} {acts : List Act} {e : Event} (g : Stage k acts) {k' : Nat} (hk : k' ≤ 4)
    (h : news (tells acts ++ [e]) = STAGES.take k') : Stage k' (acts ++ [.tell e]) := by
  refine ⟨hk, by rw [tells_append]; exact h, fun p hp h2 => ?_, fun p hp h4 => ?_, fun p hp => ?_⟩
  · rcases List.prefix_concat_iff.1 hp with rfl | hp
    · rfl
    · rw [after_tell]
      exact g.total p hp h2
  · rcases List.prefix_concat_iff.1 hp with rfl | hp
    · rfl
    · rw [after_tell]
      exact g.all p hp h4
  · rcases List.prefix_concat_iff.1 hp with rfl | hp
    · rw [after_tell]
      exact g.bar acts (List.prefix_refl _)
    · exact g.bar p hp

theorem stage_counts {k : Nat} {acts : List Act} {l : List Status} (g : Stage k acts)
    (hb : ∀ v ∈ l, KeepsBar (after {} acts) v) (h : k < 2 ∨ k < 4 ∧ ∀ v ∈ l, v.total = (after {} acts).total) :
    Stage k (acts ++ l.map .count) := by
  induction l generalizing acts with
  | nil => rw [List.map_nil, List.append_nil]; exact g
  | cons v t ih =>
    have hv := hb v List.mem_cons_self
    have g' := stage_count g hv (h.imp id fun h => ⟨h.1, h.2 v List.mem_cons_self⟩)
    have := ih g' (fun x hx => by
      rw [after_count]
      exact (hb x (List.mem_cons_of_mem _ hx)).trans hv.symm) (h.imp id fun h => ⟨h.1, fun x hx => by
        rw [after_count, h.2 v List.mem_cons_self]
        exact h.2 x (List.mem_cons_of_mem _ hx)⟩)
    rw [List.append_assoc] at this
    exact this

/-- The world records what was done so far. -/
structure Told (w : World) : Prop where
  status : w.status = after {} w.acts
  events : w.events = tells w.acts
  seen : w.seen = {} :: counts w.acts

theorem told_start : Told World.start := ⟨rfl, rfl, rfl⟩

theorem Went.told {w w' : World} {ext : List Act} (h : Went w w' ext) (g : Told w) : Told w' :=
  ⟨by rw [h.status, h.acts, after_append, g.status], by rw [h.events, h.acts, tells_append, g.events],
    by rw [h.seen, h.acts, counts_append, g.seen]; rfl⟩

/-- In the `k`th stage. -/
structure At (k : Nat) (w : World) : Prop where
  told : Told w
  stage : Stage k w.acts

theorem Went.at {w w' : World} {ext : List Act} (h : Went w w' ext) {k k' : Nat} (g : At k w)
    (hs : Stage k' (w.acts ++ ext)) : At k' w' := ⟨h.told g.told, by rw [h.acts]; exact hs⟩

/-- Leads from stage `k` to stage `k'`, if nothing fails. -/
def Moves (k k' : Nat) (m : Run α) : Prop := ∀ w, At k w → ∀ r w', m w = (r, w') →
  (∃ j, At j w') ∧ ((∃ a, r = .ok a) → At k' w')

theorem moves_bind {k k1 k2 : Nat} {m : Run α} {g : α → Run β} (h : Moves k k1 m) (hg : ∀ a, Moves k1 k2 (g a)) :
    Moves k k2 (m >>= g) := by
  intro w hw r w' e
  rcases run_bind_cases m g w with ⟨a, w1, e1, e2⟩ | ⟨x, w1, e1, e2⟩
  · rw [e2] at e
    exact hg a w1 ((h w hw _ _ e1).2 ⟨a, rfl⟩) r w' e
  · rw [e2] at e
    cases e
    exact ⟨(h w hw _ _ e1).1, fun ⟨a, ha⟩ => by cases ha⟩

theorem Mute.moves {k : Nat} {m : Run α} (h : Mute m) : Moves k k m := by
  intro w hw r w' e
  have h1 := h w
  rw [e] at h1
  have : At k w' := h1.at hw (by rw [List.append_nil]; exact hw.stage)
  exact ⟨⟨k, this⟩, fun _ => this⟩

theorem moves_tally {k : Nat} (hk : k < 4) {m : Run α} (h : Tally m) : Moves k k m := by
  intro w hw r w' e
  obtain ⟨l, h1, h2⟩ := h w
  rw [e] at h1
  rw [hw.told.status] at h2
  have : At k w' := h1.at hw (stage_counts hw.stage (fun v hv => (h2 v hv).2) (.inr ⟨hk, fun v hv => (h2 v hv).1⟩))
  exact ⟨⟨k, this⟩, fun _ => this⟩

theorem moves_bar {k : Nat} (hk : k < 2) {m : Run α} (h : Tallies KeepsBar m) : Moves k k m := by
  intro w hw r w' e
  obtain ⟨l, h1, h2⟩ := h w
  rw [e] at h1
  rw [hw.told.status] at h2
  have : At k w' := h1.at hw (stage_counts hw.stage (fun v hv => h2 v hv) (.inl hk))
  exact ⟨⟨k, this⟩, fun _ => this⟩

theorem went_setState (s : InstState) (w : World) :
    Went w (setState s w).2 [.count { w.status with state := s }, .tell (.newState s)] :=
  ⟨List.append_assoc w.acts [_] [_], rfl, rfl, rfl⟩

theorem moves_setState {k : Nat} (s : InstState) (h : STAGES[k]? = some s) : Moves k (k + 1) (setState s) := by
  intro w hw r w' e
  have hk : k < 4 := (List.getElem?_eq_some_iff.1 h).1
  have h1 := went_setState s w
  rw [e] at h1
  have g1 := stage_count (v := { w.status with state := s }) hw.stage
    (by rw [← hw.told.status]; exact rfl) (.inr ⟨hk, by rw [← hw.told.status]⟩)
  have g2 := stage_tell (e := .newState s) g1 (k' := k + 1) hk (by
    rw [tells_count, news_append, hw.stage.news, List.take_add_one, h]
    rfl)
  rw [List.append_assoc] at g2
  have : At (k + 1) w' := h1.at hw g2
  exact ⟨⟨_, this⟩, fun _ => this⟩

theorem moves_send {k : Nat} (e : Event) (he : ∀ s, e ≠ .newState s) : Moves k k (send e) := by
  intro w hw r w' h
  have h1 : Went w (send e w).2 [.tell e] := ⟨rfl, rfl, rfl, (List.append_nil _).symm⟩
  rw [h] at h1
  have : At k w' := h1.at hw (stage_tell hw.stage hw.stage.le (by
    rw [news_append, hw.stage.news]
    cases e with
    | newState s => exact absurd rfl (he s)
    | log _ _ => exact List.append_nil _
    | confirmRequest => exact List.append_nil _))
  exact ⟨⟨k, this⟩, fun _ => this⟩

theorem moves_log {k : Nat} (t : LogType) (m : Msg) : Moves k k (log t m) := moves_send _ nofun

theorem moves_ite {k k' : Nat} (c : Prop) [Decidable c] {m m' : Run α} (h : Moves k k' m) (h' : Moves k k' m') :
    Moves k k' (if c then m else m') := by split <;> assumption

theorem tallies_queryStep (keep : Int → Bytes → Bool) (keys : List Int) (x : (Int × Bytes) × Nat) :
    Tallies KeepsBar (queryStep keep keys x) := by
  unfold queryStep
  split
  · simp only
    split
    · exact tallies_bind order_bar (tallies_upd fun _ => rfl) fun _ => (mute_pure _).tallies
    · exact (mute_pure _).tallies
  · exact (mute_pure _).tallies

theorem moves_queryKeys (env : Env) (i : DbId) (strs : List Bytes) (area : Option Area) (invert partial_ : Bool) :
    Moves 0 2 (queryKeys env i strs area invert partial_) := by
  unfold queryKeys
  refine moves_bind (moves_setState .querying rfl) fun _ => ?_
  have hend : ∀ keys : List Int, Moves 1 2 (do
      setTotal keys.length
      setState .ignore
      return keys : Run (List Int)) := fun keys =>
    moves_bind (moves_bar (by omega) (tallies_upd fun _ => rfl)) fun _ =>
      moves_bind (moves_setState .ignore rfl) fun _ => (mute_pure _).moves
  simp only
  split
  · refine moves_bind (mute_iterRows _ _).moves fun rows => moves_bind (moves_bar (by omega) ?_) fun keys => hend keys
    exact tallies_foldlM order_bar (fun _ _ => tallies_queryStep _ _ _) _ _
  · exact moves_bind (mute_pure _).moves fun keys => hend keys

theorem moves_edit {f : β → Int → Run β} (h : ∀ b a, Tally (f b a)) (keys : List Int) (b : β)
    {g : β → Run γ} (hg : ∀ b, Moves 4 4 (g b)) :
    Moves 2 4 (beginEditing >>= fun _ => keys.foldlM f b >>= fun r => endEditing >>= fun _ => g r) :=
  moves_bind (moves_setState .editing rfl) fun _ =>
    moves_bind (moves_tally (by omega) (tallies_foldlM order_keeps h keys b)) fun r =>
      moves_bind (moves_setState .ignore rfl) fun _ => hg r

theorem moves_edit' {f : β → Int → Run β} (h : ∀ b a, Tally (f b a)) (keys : List Int) (b : β) :
    Moves 2 4 (beginEditing >>= fun _ => keys.foldlM f b >>= fun _ => endEditing) :=
  moves_bind (moves_setState .editing rfl) fun _ =>
    moves_bind (moves_tally (by omega) (tallies_foldlM order_keeps h keys b)) fun r => moves_setState .ignore rfl

theorem moves_fill (env : Env) (args : InstArgs) : Moves 0 4 (fill env args) := by
  unfold fill
  exact moves_bind (mute_unwrap _).moves fun area => moves_bind (mute_unwrap _).moves fun node =>
    moves_bind (moves_queryKeys _ _ _ _ _ _) fun keys => moves_edit (fun count key => tally_fillStep _ _ _ _ _ _) _ _ fun _ => moves_log _ _

theorem moves_replaceNodes (env : Env) (args : InstArgs) : Moves 0 4 (replaceNodes env args) := by
  unfold replaceNodes
  exact moves_bind (mute_unwrap _).moves fun area => moves_bind (mute_unwrap _).moves fun node =>
    moves_bind (moves_queryKeys _ _ _ _ _ _) fun keys => moves_edit (fun count key => tally_replaceStep _ _ _ _ _ _) _ _ fun _ => moves_log _ _

theorem moves_setParam2 (env : Env) (args : InstArgs) : Moves 0 4 (setParam2 env args) := by
  unfold setParam2
  exact moves_bind (mute_unwrap _).moves fun val =>
    moves_bind (moves_queryKeys _ _ _ _ _ _) fun keys => moves_edit (fun count key => tally_param2Step _ _ _ _ _ _) _ _ fun _ => moves_log _ _

theorem moves_deleteBlocks (env : Env) (args : InstArgs) : Moves 0 4 (deleteBlocks env args) := by
  unfold deleteBlocks forEach
  refine moves_bind (moves_queryKeys _ _ _ _ _ _) fun keys => moves_edit' (fun _ key => ?_) _ _
  exact tally_done fun _ => (mute_bind (mute_deleteBlock _ _ _) fun _ => mute_expect _).tallies

theorem moves_deleteMetadata (env : Env) (args : InstArgs) : Moves 0 4 (deleteMetadata env args) := by
  unfold deleteMetadata
  exact moves_bind (moves_queryKeys _ _ _ _ _ _) fun keys => moves_edit (fun count key => tally_deleteMetaStep _ _ _ _ _) _ _ fun _ => moves_log _ _

theorem moves_setMetaVar (env : Env) (args : InstArgs) : Moves 0 4 (setMetaVar env args) := by
  unfold setMetaVar
  exact moves_bind (mute_unwrap _).moves fun val =>
    moves_bind (moves_queryKeys _ _ _ _ _ _) fun keys => moves_edit (fun count key => tally_setMetaVarStep _ _ _ _ _ _ _) _ _ fun _ => moves_log _ _

theorem moves_deleteTimers (env : Env) (args : InstArgs) : Moves 0 4 (deleteTimers env args) := by
  unfold deleteTimers
  exact moves_bind (moves_queryKeys _ _ _ _ _ _) fun keys => moves_edit (fun count key => tally_deleteTimersStep _ _ _ _ _) _ _ fun _ => moves_log _ _

theorem moves_deleteObjects (env : Env) (args : InstArgs) : Moves 0 4 (deleteObjects env args) := by
  unfold deleteObjects
  exact moves_bind (moves_queryKeys _ _ _ _ _ _) fun keys => moves_edit (fun count key => tally_deleteObjectsStep _ _ _ _ _ _) _ _ fun _ => moves_log _ _

theorem moves_replaceInInv (env : Env) (args : InstArgs) : Moves 0 4 (replaceInInv env args) := by
  unfold replaceInInv
  exact moves_bind (mute_unwrap _).moves fun val =>
    moves_bind (moves_queryKeys _ _ _ _ _ _) fun keys => moves_edit (fun count key => tally_replaceInInvStep _ _ _ _ _ _ _) _ _ fun _ => moves_log _ _

theorem moves_overlay (env : Env) (cap : Nat) (args : InstArgs) : Moves 0 4 (overlay env cap args) := by
  unfold overlay
  refine moves_bind (mute_theDb _).moves fun _ => moves_ite _ ?_ ?_
  · unfold overlayNoOffset
    exact moves_bind (moves_queryKeys _ _ _ _ _ _) fun keys => moves_edit' (fun _ key => tally_overlayStep env _ _ _) _ _
  · unfold overlayWithOffset
    exact moves_bind (mute_unwrap _).moves fun off => moves_bind (moves_queryKeys _ _ _ _ _ _) fun keys =>
      moves_edit' (fun cache key => tally_overlayOffsetStep env _ _ _ _) _ _

theorem moves_clone (env : Env) (cap : Nat) (args : InstArgs) : Moves 0 4 (clone env cap args) := by
  unfold clone
  refine moves_bind (mute_unwrap _).moves fun src => moves_bind (mute_unwrap _).moves fun off =>
    moves_bind (moves_queryKeys _ _ _ _ _ _) fun keys => moves_bind (mute_lift _).moves fun ks =>
      moves_edit' (fun cache k => tally_cloneStep env _ _ _ _) ks _

theorem moves_command {name : String} {cmd : Command} (h : command? name = some cmd) (hv : name ≠ "vacuum")
    (env : Env) (args : InstArgs) : Moves 0 4 (cmd.func env args) := by
  unfold command? at h
  rw [Option.map_eq_some_iff] at h
  obtain ⟨⟨n, c⟩, h1, rfl⟩ := h
  have hn := List.find?_some h1
  have hn' : n = name := by simpa using hn
  have hm := List.mem_of_find?_eq_some h1
  unfold commands at hm
  simp only [List.mem_cons, List.not_mem_nil, or_false, Prod.mk.injEq] at hm
  rcases hm with ⟨_, rfl⟩ | ⟨_, rfl⟩ | ⟨_, rfl⟩ | ⟨_, rfl⟩ | ⟨_, rfl⟩ | ⟨_, rfl⟩ | ⟨_, rfl⟩ | ⟨_, rfl⟩ |
    ⟨_, rfl⟩ | ⟨_, rfl⟩ | ⟨_, rfl⟩ | ⟨e, rfl⟩
  · exact moves_clone _ _ _
  · exact moves_deleteBlocks _ _
  · exact moves_deleteMetadata _ _
  · exact moves_deleteObjects _ _
  · exact moves_deleteTimers _ _
  · exact moves_fill _ _
  · exact moves_replaceNodes _ _
  · exact moves_replaceInInv _ _
  · exact moves_overlay _ _ _
  · exact moves_setMetaVar _ _
  · exact moves_setParam2 _ _
  · exact absurd (hn'.symm.trans e) hv

theorem moves_finish (env : Env) (args : InstArgs) (cmd : Command) (h : Moves 0 4 (cmd.func env args)) :
    Moves 0 4 (finish env args cmd) := by
  unfold finish
  refine moves_bind h fun _ => ?_
  have hok : ∀ ok : Bool, Moves 4 4 (do
      if ok then
        logInfo (.text "Done.")
        return .ok ()
      else return .error "database operation failed" : Run (Except String Unit)) := fun ok =>
    moves_ite _ (moves_bind (moves_log _ _) fun _ => (mute_pure _).moves) (mute_pure _).moves
  have hm : Moves 4 4 (do
      let m ← theDb .main
      let ok ←
        if m.inTransaction then do
          logInfo (.text "Committing...")
          commitIfNeeded env .main
        else pure true
      if ok then
        logInfo (.text "Done.")
        return .ok ()
      else return .error "database operation failed" : Run (Except String Unit)) := by
    refine moves_bind (mute_theDb _).moves fun m => ?_
    simp only
    split
    · exact moves_bind (moves_log _ _) fun _ => moves_bind (mute_commit _ _).moves hok
    · exact moves_bind (mute_pure _).moves hok
  refine moves_bind (Mute.moves fun _ => went_same rfl rfl rfl rfl) fun fails => ?_
  simp only
  split
  · exact moves_bind (moves_log _ _) fun _ => hm
  · exact hm

theorem at_start : At 0 World.start := ⟨told_start, stage_nil⟩

theorem at_say {k : Nat} {w : World} (h : At k w) (es : List Event) (hes : ∀ e ∈ es, ∀ s, e ≠ .newState s) :
    At k (w.say es) := by
  induction es generalizing w with
  | nil => rw [say_nil]; exact h
  | cons e t ih =>
    have h1 := (moves_send (k := k) e (hes e List.mem_cons_self) w h _ _ rfl).2 ⟨(), rfl⟩
    have := ih h1 fun x hx => hes x (List.mem_cons_of_mem _ hx)
    have e1 : w.say (e :: t) = ((send e w).2).say t := say_append w [e] t
    rw [e1]
    exact this

theorem preEvents_news (args : InstArgs) (wn : Option String) : ∀ e ∈ preEvents args wn, ∀ s, e ≠ .newState s := by
  intro e he s hs
  subst hs
  unfold preEvents at he
  cases wn <;> cases args.doConfirmation <;> simp at he

theorem at_setup {env : Env} {args : InstArgs} {r : Res (Except String (Command × Option String))} {w : World}
    (h : setup env args World.start = (r, w)) : At 0 w := by
  have h1 := mute_setup env args World.start
  rw [h] at h1
  exact h1.at at_start (by rw [List.append_nil]; exact at_start.stage)

/-- A run that is not of `vacuum` is always in one of the stages. -/
theorem at_computeThread (env : Env) (args : InstArgs) (hv : args.command ≠ "vacuum") :
    ∃ k, At k (computeThread env args World.start).2 := by
  rw [computeThread_eq]
  refine run_bind_ind (P := fun w => ∃ k, At k w) (fun a w1 e1 => ?_) fun e w1 e1 => ⟨0, at_setup e1⟩
  have h1 := at_setup e1
  match a with
  | .error e => exact ⟨0, h1⟩
  | .ok (cmd, wn) =>
    have h2 := at_say h1 _ (preEvents_news args wn)
    simp only
    rw [runCommand_eq]
    split
    · exact ⟨0, h2⟩
    · exact (moves_finish env args cmd (moves_command (setup_iff.1 e1).2.1 hv env args) _ h2 _ _ rfl).1

theorem at_worker (env : Env) (args : InstArgs) (hv : args.command ≠ "vacuum") :
    ∃ k, At k (worker env args World.start).2 := by
  have h1 := at_computeThread env args hv
  unfold worker
  refine run_bind_ind (P := fun w => ∃ k, At k w) (fun a w1 e1 => ?_) fun e w1 e1 => ?_
  · rw [e1] at h1
    obtain ⟨k, h1⟩ := h1
    cases a with
    | ok _ => exact ⟨k, h1⟩
    | error e => exact (moves_log .error (.text e) w1 h1 _ _ rfl).1
  · rw [e1] at h1
    exact h1

/-- One that ends well has been through all. -/
theorem at_done {env : Env} {args : InstArgs} {t : Table} {w : World} (hv : args.command ≠ "vacuum")
    (h : EndsWell env args t w) : (worker env args World.start).2 = w ∧ At 4 w := by
  obtain ⟨f, m, h1, h2, h3, h4, h5⟩ := h
  refine ⟨by unfold worker; rw [run_bind_iff.2 ⟨_, _, h3, rfl⟩], ?_⟩
  rw [computeThread_eq, run_bind_iff] at h3
  obtain ⟨r, w0, h3, h6⟩ := h3
  have g0 := at_setup h3
  match r with
  | .error e => cases h6
  | .ok (cmd, wn) =>
    have g1 := at_say g0 _ (preEvents_news args wn)
    simp only at h6
    rw [runCommand_eq] at h6
    split at h6
    · cases h6
      have he : w0.events = [] := (mute_setup env args World.start).events.trans rfl |> fun e => by rw [h3] at e; exact e
      rw [show (w0.say (preEvents args wn)).events = w0.events ++ preEvents args wn from rfl, he] at h4
      unfold preEvents at h4
      cases wn <;> cases args.doConfirmation <;> simp at h4
    · exact (moves_finish env args cmd (moves_command (setup_iff.1 h3).2.1 hv env args) _ g1 _ _ h6).2 ⟨_, rfl⟩

/-! ## `vacuum` -/

/-- The world records all that is done. -/
def Records (m : Run α) : Prop := ∀ w, ∃ ext, Went w (m w).2 ext

theorem records_bind {m : Run α} {g : α → Run β} (h : Records m) (hg : ∀ a, Records (g a)) : Records (m >>= g) := by
  intro w
  obtain ⟨x, h1⟩ := h w
  rcases run_bind_cases m g w with ⟨a, w1, e1, e2⟩ | ⟨e, w1, e1, e2⟩
  · rw [e2]
    rw [e1] at h1
    obtain ⟨y, h2⟩ := hg a w1
    exact ⟨_, h1.trans h2⟩
  · rw [e2]
    rw [e1] at h1
    exact ⟨_, h1⟩

theorem Mute.records {m : Run α} (h : Mute m) : Records m := fun w => ⟨_, h w⟩

theorem records_send (e : Event) : Records (send e) := fun _ => ⟨[.tell e], rfl, rfl, rfl, (List.append_nil _).symm⟩

theorem records_setState (s : InstState) : Records (setState s) := fun w => ⟨_, went_setState s w⟩

theorem records_vacuum (env : Env) : Records (vacuum env) := by
  unfold vacuum
  refine records_bind (records_send _) fun _ => records_bind (fun w => ?_) fun _ => records_bind (records_setState _) fun _ =>
    records_bind (mute_vacuum _ _).records fun r => records_bind (records_setState _) fun _ => ?_
  · exact ⟨[.count { w.status with showProgress := false }], rfl, rfl, (List.append_nil _).symm, rfl⟩
  · cases r <;> exact records_send _

theorem records_ite (c : Prop) [Decidable c] {m m' : Run α} (h : Records m) (h' : Records m') :
    Records (if c then m else m') := by split <;> assumption

theorem records_finish (env : Env) (args : InstArgs) (cmd : Command) (h : Records (cmd.func env args)) :
    Records (finish env args cmd) := by
  unfold finish
  refine records_bind h fun _ => ?_
  have hok : ∀ ok : Bool, Records (do
      if ok then
        logInfo (.text "Done.")
        return .ok ()
      else return .error "database operation failed" : Run (Except String Unit)) := fun ok =>
    records_ite _ (records_bind (records_send _) fun _ => (mute_pure _).records) (mute_pure _).records
  have hm : Records (do
      let m ← theDb .main
      let ok ←
        if m.inTransaction then do
          logInfo (.text "Committing...")
          commitIfNeeded env .main
        else pure true
      if ok then
        logInfo (.text "Done.")
        return .ok ()
      else return .error "database operation failed" : Run (Except String Unit)) := by
    refine records_bind (mute_theDb _).records fun m => ?_
    simp only
    split
    · exact records_bind (records_send _) fun _ => records_bind (mute_commit _ _).records hok
    · exact records_bind (mute_pure _).records hok
  refine records_bind (Mute.records fun _ => went_same rfl rfl rfl rfl) fun fails => ?_
  simp only
  split
  · exact records_bind (records_send _) fun _ => hm
  · exact hm

theorem told_records {m : Run α} (h : Records m) {w : World} (g : Told w) : Told (m w).2 := by
  obtain ⟨_, h⟩ := h w
  exact h.told g

theorem told_worker (env : Env) (args : InstArgs) : Told (worker env args World.start).2 := by
  by_cases hv : args.command = "vacuum"
  rotate_left
  · obtain ⟨k, h⟩ := at_worker env args hv
    exact h.told
  have h1 : Told (computeThread env args World.start).2 := by
    rw [computeThread_eq]
    refine run_bind_ind (P := Told) (fun a w1 e1 => ?_) fun e w1 e1 => (at_setup e1).told
    have h1 := at_setup e1
    match a with
    | .error e => exact h1.told
    | .ok (cmd, wn) =>
      have h2 := (at_say h1 _ (preEvents_news args wn)).told
      simp only
      rw [runCommand_eq]
      split
      · exact h2
      · refine told_records (records_finish env args cmd ?_) h2
        have := (setup_iff.1 e1).2.1
        rw [hv] at this
        cases this
        exact records_vacuum env
  unfold worker
  refine run_bind_ind (P := Told) (fun a w1 e1 => ?_) fun e w1 e1 => ?_
  · rw [e1] at h1
    cases a with
    | ok _ => exact h1
    | error e => exact told_records (records_send _) h1
  · rw [e1] at h1
    exact h1

end MapEditr
