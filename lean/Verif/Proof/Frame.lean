import Verif.Proof.World
import Verif.Model.Instance
import Verif.Spec.Progress
/-! # Lemmas: what every command body does to the world, whatever the outcome

A `Frame Q` is a relation between the world before and after a computation (and whether it ended
normally) that holds for the database operations commands use.  It then holds for every command body
except `vacuum`. -/

namespace MapEditr
open Spec (lastState)
set_option linter.unusedSimpArgs false

/-- Whether a result is not an error. -/
def okay (r : Res α) : Bool := match r with | .ok _ => true | .error _ => false

/-- `Q` holds for all runs of `m`. -/
def Inv (Q : World → Bool → World → Prop) (m : Run α) : Prop := ∀ w, Q w (okay (m w).1) (m w).2

/-- What the body of a command sends: states, and results with numbers. -/
def CmdEvent (e : Event) : Prop := (∃ s, e = .newState s) ∨ ∃ m, e = .log .info m ∧ ∀ t, m ≠ .text t

/-- The body of a command sends what it may, and announces its states. -/
def Announces (w w' : World) : Prop := ∃ es, w'.events = w.events ++ es ∧ (∀ e ∈ es, CmdEvent e) ∧
  w'.status.state = lastState es w.status.state

theorem Announces.same {w w' : World} (h : w'.events = w.events) (h' : w'.status.state = w.status.state) : Announces w w' :=
  ⟨[], by simp [h], by simp, h'⟩

/-- Relations preserved by all steps of commands. -/
structure Frame (env : Env) (Q : World → Bool → World → Prop) : Prop where
  quiet : ∀ w b w', w'.dbs = w.dbs → w'.trace = w.trace → Announces w w' → Q w b w'
  trans : ∀ w w1 b w2, Q w true w1 → Q w1 b w2 → Q w b w2
  get : ∀ i k, Inv Q (getBlock env i k >>= expect)
  rows : ∀ i, Inv Q (iterRows env i)
  put : ∀ k d, Inv Q (setBlock env .main k d >>= expect)
  del : ∀ k, Inv Q (deleteBlock env .main k >>= expect)

/-- Also the reads whose failure is ignored. -/
structure CopyFrame (env : Env) (Q : World → Bool → World → Prop) : Prop extends Frame env Q where
  gen : ∀ i k, Inv Q (getGenerated env i k)

section
variable {env : Env} {Q : World → Bool → World → Prop}

theorem inv_bind (F : Frame env Q) {m : Run α} {f : α → Run β} (hm : Inv Q m) (hf : ∀ a, Inv Q (f a)) :
    Inv Q (m >>= f) := by
  intro w
  have h := hm w
  rw [run_bind]
  rcases h1 : m w with ⟨r, w1⟩
  rw [h1] at h
  cases r with
  | error e => exact h
  | ok a => exact F.trans _ _ _ _ h (hf a w1)

theorem inv_pure (F : Frame env Q) (a : α) : Inv Q (pure a : Run α) := fun w => F.quiet w _ w rfl rfl (.same rfl rfl)

theorem inv_lift (F : Frame env Q) (r : Res α) : Inv Q (Run.lift r) := fun w => F.quiet w _ w rfl rfl (.same rfl rfl)

theorem inv_unwrap (F : Frame env Q) (o : Option α) : Inv Q (Run.unwrap o) := inv_lift F _

theorem inv_expect (F : Frame env Q) (o : Except DbErr α) : Inv Q (expect o) := inv_unwrap F _

theorem inv_okOr (F : Frame env Q) (r : Res α) : Inv Q (Run.okOr r) := by
  unfold Run.okOr
  split
  · exact inv_pure F _
  · exact inv_pure F _
  · exact inv_lift F _

theorem inv_deser (F : Frame env Q) (d : Bytes) : Inv Q (deser env d) := by
  unfold deser
  split
  · exact inv_pure F _
  · exact inv_pure F _
  · exact inv_lift F _

theorem inv_ser (F : Frame env Q) (b : MapBlock) : Inv Q (ser env b) := fun w => F.quiet w _ w rfl rfl (.same rfl rfl)

theorem inv_theDb (F : Frame env Q) (i : DbId) : Inv Q (theDb i) := by
  intro w
  unfold theDb
  split <;> exact F.quiet w _ w rfl rfl (.same rfl rfl)

theorem inv_upd (F : Frame env Q) {f : World → World} (h : ∀ w, (f w).dbs = w.dbs ∧ (f w).trace = w.trace ∧
    (f w).events = w.events ∧ (f w).status.state = w.status.state) : Inv Q (Run.upd f) :=
  fun w => F.quiet w _ _ (h w).1 (h w).2.1 (.same (h w).2.2.1 (h w).2.2.2)

/-- A result with a number. -/
theorem inv_logInfo (F : Frame env Q) {m : Msg} (h : ∀ t, m ≠ .text t) : Inv Q (logInfo m) := fun w =>
  F.quiet w _ _ rfl rfl ⟨[.log .info m], rfl, by simpa using .inr ⟨m, rfl, h⟩, rfl⟩
theorem inv_setState (F : Frame env Q) (s : InstState) : Inv Q (setState s) := fun w =>
  F.quiet w _ _ rfl rfl ⟨[.newState s], rfl, by simpa using .inl ⟨s, rfl⟩, rfl⟩
theorem inv_incDone (F : Frame env Q) : Inv Q incDone := inv_upd F fun _ => ⟨rfl, rfl, rfl, rfl⟩
theorem inv_incFailed (F : Frame env Q) : Inv Q incFailed := inv_upd F fun _ => ⟨rfl, rfl, rfl, rfl⟩
theorem inv_setTotal (F : Frame env Q) (n : Nat) : Inv Q (setTotal n) := inv_upd F fun _ => ⟨rfl, rfl, rfl, rfl⟩
theorem inv_beginEditing (F : Frame env Q) : Inv Q beginEditing := inv_setState F _
theorem inv_endEditing (F : Frame env Q) : Inv Q endEditing := inv_setState F _

theorem inv_ite (c : Prop) [Decidable c] {m m' : Run α} (h : Inv Q m) (h' : Inv Q m') :
    Inv Q (if c then m else m') := by split <;> assumption

theorem inv_foldlM (F : Frame env Q) {f : β → α → Run β} (l : List α) (h : ∀ b a, Inv Q (f b a)) (b : β) :
    Inv Q (l.foldlM f b) := by
  induction l generalizing b with
  | nil => exact inv_pure F _
  | cons a t ih =>
    rw [List.foldlM_cons]
    exact inv_bind F (h b a) fun _ => ih _

/-- Reading a block that must be there. -/
theorem inv_get (F : Frame env Q) (i : DbId) (k : Int) {f : Bytes → Run β} (hf : ∀ d, Inv Q (f d)) :
    Inv Q (getBlock env i k >>= fun r => expect r >>= f) := by
  rw [← run_bind_assoc]
  exact inv_bind F (F.get i k) hf

/-- Saving a block. -/
theorem inv_save (F : Frame env Q) (b : MapBlock) (k : Int) {f : Unit → Run β} (hf : Inv Q (f ())) :
    Inv Q (ser env b >>= fun s => setBlock env .main k s >>= fun r => expect r >>= f) := by
  refine inv_bind F (inv_ser F b) fun s => ?_
  rw [← run_bind_assoc]
  exact inv_bind F (F.put k s) fun _ => hf

theorem inv_save_last (F : Frame env Q) (b : MapBlock) (k : Int) :
    Inv Q (ser env b >>= fun s => setBlock env .main k s >>= fun r => expect r) :=
  inv_bind F (inv_ser F b) fun s => F.put k s

theorem inv_queryKeys (F : Frame env Q) (i : DbId) (strs : List Bytes) (area : Option Area)
    (invert partial_ : Bool) : Inv Q (queryKeys env i strs area invert partial_) := by
  unfold queryKeys
  refine inv_bind F (inv_setState F _) fun _ => ?_
  have hend : ∀ keys : List Int, Inv Q (do
      setTotal keys.length
      setState .ignore
      return keys : Run (List Int)) := fun keys =>
    inv_bind F (inv_setTotal F _) fun _ => inv_bind F (inv_setState F _) fun _ => inv_pure F _
  refine inv_ite _ ?_ ?_
  · refine inv_bind F (F.rows i) fun rows => inv_bind F (inv_foldlM F _ (fun keys row => ?_) _) hend
    unfold queryStep
    refine inv_ite _ ?_ (inv_pure F _)
    refine inv_ite _ ?_ ?_
    · exact inv_bind F (inv_setTotal F _) fun _ => inv_pure F _
    · exact inv_pure F _
  · exact inv_bind F (inv_pure F _) hend

theorem inv_fill (F : Frame env Q) (args : InstArgs) : Inv Q (fill env args) := by
  unfold fill
  refine inv_bind F (inv_unwrap F _) fun area => inv_bind F (inv_unwrap F _) fun node =>
    inv_bind F (inv_queryKeys F _ _ _ _ _) fun keys => inv_bind F (inv_beginEditing F) fun _ =>
    inv_bind F (inv_foldlM F _ (fun count key => ?_) _) fun count =>
    inv_bind F (inv_endEditing F) fun _ => inv_logInfo F nofun
  unfold fillStep
  refine inv_bind F (inv_incDone F) fun _ => inv_get F _ _ fun data => inv_bind F (inv_okOr F _) fun o => ?_
  cases o with
  | none => exact inv_bind F (inv_incFailed F) fun _ => inv_pure F _
  | some b => exact inv_bind F (inv_lift F _) fun r => inv_save F _ _ (inv_pure F _)

theorem inv_replaceNodes (F : Frame env Q) (args : InstArgs) : Inv Q (replaceNodes env args) := by
  unfold replaceNodes
  refine inv_bind F (inv_unwrap F _) fun old => inv_bind F (inv_unwrap F _) fun new =>
    inv_bind F (inv_queryKeys F _ _ _ _ _) fun keys => inv_bind F (inv_beginEditing F) fun _ =>
    inv_bind F (inv_foldlM F _ (fun count key => ?_) _) fun count =>
    inv_bind F (inv_endEditing F) fun _ => inv_logInfo F nofun
  unfold replaceStep
  refine inv_get F _ _ fun data => inv_bind F (inv_okOr F _) fun o => ?_
  cases o with
  | none => exact inv_bind F (inv_incFailed F) fun _ => inv_pure F _
  | some b =>
    simp only
    split
    · exact inv_bind F (inv_lift F _) fun r => inv_save F _ _
        (inv_bind F (inv_incDone F) fun _ => inv_pure F _)
    · exact inv_bind F (inv_incDone F) fun _ => inv_pure F _

theorem inv_setParam2 (F : Frame env Q) (args : InstArgs) : Inv Q (setParam2 env args) := by
  unfold setParam2
  refine inv_bind F (inv_unwrap F _) fun val => 
    inv_bind F (inv_queryKeys F _ _ _ _ _) fun keys => inv_bind F (inv_beginEditing F) fun _ =>
    inv_bind F (inv_foldlM F _ (fun count key => ?_) _) fun count =>
    inv_bind F (inv_endEditing F) fun _ => inv_logInfo F nofun
  unfold param2Step
  refine inv_bind F (inv_incDone F) fun _ => inv_get F _ _ fun data => inv_bind F (inv_okOr F _) fun o => ?_
  cases o with
  | none => exact inv_bind F (inv_incFailed F) fun _ => inv_pure F _
  | some b => exact inv_ite _ (inv_pure F _) (inv_bind F (inv_lift F _) fun r => inv_save F _ _ (inv_pure F _))

theorem inv_deleteBlocks (F : Frame env Q) (args : InstArgs) : Inv Q (deleteBlocks env args) := by
  unfold deleteBlocks forEach
  refine inv_bind F (inv_queryKeys F _ _ _ _ _) fun keys => inv_bind F (inv_beginEditing F) fun _ =>
    inv_bind F (inv_foldlM F _ (fun count key => ?_) _) fun count => inv_endEditing F
  exact inv_bind F (inv_incDone F) fun _ => F.del _

theorem inv_deleteMetadata (F : Frame env Q) (args : InstArgs) : Inv Q (deleteMetadata env args) := by
  unfold deleteMetadata
  refine 
    inv_bind F (inv_queryKeys F _ _ _ _ _) fun keys => inv_bind F (inv_beginEditing F) fun _ =>
    inv_bind F (inv_foldlM F _ (fun count key => ?_) _) fun count =>
    inv_bind F (inv_endEditing F) fun _ => inv_logInfo F nofun
  unfold deleteMetaStep
  refine inv_bind F (inv_incDone F) fun _ => inv_get F _ _ fun data => inv_bind F (inv_okOr F _) fun o => ?_
  cases o with
  | none => exact inv_bind F (inv_incFailed F) fun _ => inv_pure F _
  | some b => exact inv_ite _ (inv_pure F _) (inv_bind F (inv_lift F _) fun r =>
      inv_ite _ (inv_save F _ _ (inv_pure F _)) (inv_pure F _))

theorem inv_setMetaVar (F : Frame env Q) (args : InstArgs) : Inv Q (setMetaVar env args) := by
  unfold setMetaVar
  refine inv_bind F (inv_unwrap F _) fun val => 
    inv_bind F (inv_queryKeys F _ _ _ _ _) fun keys => inv_bind F (inv_beginEditing F) fun _ =>
    inv_bind F (inv_foldlM F _ (fun count key => ?_) _) fun count =>
    inv_bind F (inv_endEditing F) fun _ => inv_logInfo F nofun
  unfold setMetaVarStep
  refine inv_bind F (inv_incDone F) fun _ => inv_get F _ _ fun data => inv_bind F (inv_okOr F _) fun o => ?_
  cases o with
  | none => exact inv_bind F (inv_incFailed F) fun _ => inv_pure F _
  | some b => exact inv_ite _ (inv_pure F _) (inv_bind F (inv_lift F _) fun ⟨_, _⟩ =>
      inv_ite _ (inv_save F _ _ (inv_pure F _)) (inv_pure F _))

theorem inv_deleteTimers (F : Frame env Q) (args : InstArgs) : Inv Q (deleteTimers env args) := by
  unfold deleteTimers
  refine 
    inv_bind F (inv_queryKeys F _ _ _ _ _) fun keys => inv_bind F (inv_beginEditing F) fun _ =>
    inv_bind F (inv_foldlM F _ (fun count key => ?_) _) fun count =>
    inv_bind F (inv_endEditing F) fun _ => inv_logInfo F nofun
  unfold deleteTimersStep
  refine inv_bind F (inv_incDone F) fun _ => inv_get F _ _ fun data => inv_bind F (inv_okOr F _) fun o => ?_
  cases o with
  | none => exact inv_bind F (inv_incFailed F) fun _ => inv_pure F _
  | some b => exact inv_ite _ (inv_pure F _) (inv_bind F (inv_lift F _) fun ⟨_, _⟩ =>
      inv_ite _ (inv_save F _ _ (inv_pure F _)) (inv_pure F _))

theorem inv_deleteObjects (F : Frame env Q) (args : InstArgs) : Inv Q (deleteObjects env args) := by
  unfold deleteObjects
  refine 
    inv_bind F (inv_queryKeys F _ _ _ _ _) fun keys => inv_bind F (inv_beginEditing F) fun _ =>
    inv_bind F (inv_foldlM F _ (fun count key => ?_) _) fun count =>
    inv_bind F (inv_endEditing F) fun _ => inv_logInfo F nofun
  unfold deleteObjectsStep
  refine inv_bind F (inv_incDone F) fun _ => inv_get F _ _ fun data => inv_bind F (inv_okOr F _) fun o => ?_
  cases o with
  | none => exact inv_bind F (inv_incFailed F) fun _ => inv_pure F _
  | some b => exact (inv_bind F (inv_lift F _) fun ⟨_, _⟩ =>
      inv_ite _ (inv_save F _ _ (inv_pure F _)) (inv_pure F _))

theorem inv_replaceInInv (F : Frame env Q) (args : InstArgs) : Inv Q (replaceInInv env args) := by
  unfold replaceInInv
  refine inv_bind F (inv_unwrap F _) fun val => 
    inv_bind F (inv_queryKeys F _ _ _ _ _) fun keys => inv_bind F (inv_beginEditing F) fun _ =>
    inv_bind F (inv_foldlM F _ (fun count key => ?_) _) fun count =>
    inv_bind F (inv_endEditing F) fun _ => inv_logInfo F nofun
  unfold replaceInInvStep
  refine inv_bind F (inv_incDone F) fun _ => inv_get F _ _ fun data => inv_bind F (inv_okOr F _) fun o => ?_
  cases o with
  | none => exact inv_bind F (inv_incFailed F) fun _ => inv_pure F _
  | some b => exact inv_ite _ (inv_pure F _) (inv_bind F (inv_lift F _) fun ⟨_, _⟩ =>
      inv_ite _ (inv_save F _ _ (inv_pure F _)) (inv_pure F _))

/-! ## Copying commands -/

theorem inv_cloneCached (C : CopyFrame env Q) (cache : CacheMap BlockResult) (key : Int) :
    Inv Q (cloneCached env cache key) := by
  have F := C.toFrame
  unfold cloneCached
  split
  · exact inv_pure F _
  · refine inv_bind F (C.gen _ _) fun o => ?_
    cases o with
    | none => exact inv_pure F _
    | some d => exact inv_bind F (inv_deser F d) fun _ => inv_pure F _

theorem inv_overlayCached (C : CopyFrame env Q) (cache : CacheMap (Option MapBlock)) (key : Int) :
    Inv Q (overlayCached env cache key) := by
  have F := C.toFrame
  unfold overlayCached
  split
  · exact inv_pure F _
  · refine inv_bind F (C.gen _ _) fun o => ?_
    cases o with
    | none => exact inv_pure F _
    | some d => exact inv_bind F (inv_deser F d) fun _ => inv_pure F _

theorem inv_clone (C : CopyFrame env Q) (cap : Nat) (args : InstArgs) : Inv Q (clone env cap args) := by
  have F := C.toFrame
  unfold clone
  refine inv_bind F (inv_unwrap F _) fun src => inv_bind F (inv_unwrap F _) fun off =>
    inv_bind F (inv_queryKeys F _ _ _ _ _) fun keys => inv_bind F (inv_lift F _) fun keys =>
    inv_bind F (inv_beginEditing F) fun _ =>
    inv_bind F (inv_foldlM F _ (fun cache key => ?_) _) fun count => inv_endEditing F
  unfold cloneStep
  refine inv_bind F (inv_incDone F) fun _ => inv_bind F (inv_cloneCached C _ _) fun ⟨r, cache⟩ => ?_
  simp only
  split
  · exact inv_pure F _
  · exact inv_bind F (inv_incFailed F) fun _ => inv_pure F _
  · refine inv_bind F (inv_unwrap F _) fun part => inv_bind F (inv_foldlM F _ (fun st pos => ?_) _) fun st =>
      inv_bind F (inv_lift F _) fun b => inv_save F _ _ (inv_pure F _)
    unfold cloneSrc
    refine inv_ite _ (inv_pure F _) (inv_bind F (inv_lift F _) fun k =>
      inv_bind F (inv_cloneCached C _ _) fun ⟨r, cache⟩ => ?_)
    simp only
    split
    · exact inv_bind F (inv_lift F _) fun _ => inv_pure F _
    · exact inv_pure F _

theorem inv_overlayStep (C : CopyFrame env Q) (area : Option Area) (invert : Bool) (key : Int) :
    Inv Q (overlayStep env area invert key) := by
  have F := C.toFrame
  have hw : ∀ key, Inv Q (copyWhole env key) := fun key => by
    unfold copyWhole
    refine inv_get F _ _ fun data => inv_ite _ (F.put _ _) (inv_pure F _)
  unfold overlayStep
  refine inv_bind F (inv_incDone F) fun _ => ?_
  split
  · refine inv_ite _ (hw _) ?_
    unfold copyPart
    refine inv_bind F (C.gen _ _) fun o => ?_
    cases o with
    | none => exact inv_pure F _
    | some d =>
      refine inv_get F _ _ fun data => inv_bind F (inv_deser F _) fun r => ?_
      cases r with
      | error e => exact inv_incFailed F
      | ok src =>
        refine inv_bind F (inv_deser F _) fun r => ?_
        cases r with
        | error e => exact inv_incFailed F
        | ok dst =>
          refine inv_bind F (inv_unwrap F _) fun part => ?_
          exact inv_bind F (inv_lift F _) fun b => inv_bind F (inv_lift F _) fun m =>
            inv_bind F (inv_lift F _) fun b => inv_save_last F _ _
  · exact hw _

theorem inv_overlay (C : CopyFrame env Q) (cap : Nat) (args : InstArgs) : Inv Q (overlay env cap args) := by
  have F := C.toFrame
  unfold overlay
  refine inv_bind F (inv_theDb F _) fun _ => inv_ite _ ?_ ?_
  · unfold overlayNoOffset
    exact inv_bind F (inv_queryKeys F _ _ _ _ _) fun keys => inv_bind F (inv_beginEditing F) fun _ =>
      inv_bind F (inv_foldlM F _ (fun _ key => inv_overlayStep C _ _ _) _) fun _ => inv_endEditing F
  · unfold overlayWithOffset
    refine inv_bind F (inv_unwrap F _) fun off =>
      inv_bind F (inv_queryKeys F _ _ _ _ _) fun keys => inv_bind F (inv_beginEditing F) fun _ =>
      inv_bind F (inv_foldlM F _ (fun cache key => ?_) _) fun _ => inv_endEditing F
    unfold overlayOffsetStep
    refine inv_bind F (inv_incDone F) fun _ => inv_bind F (C.gen _ _) fun o => ?_
    cases o with
    | none => exact inv_pure F _
    | some d =>
      refine inv_bind F (inv_deser F _) fun r => ?_
      cases r with
      | error e => exact inv_bind F (inv_incFailed F) fun _ => inv_pure F _
      | ok dst =>
        have hrest : ∀ part : Area, Inv Q (do
            let (dst, cache) ← (part.sub off).toTouchingBlockArea.positions.foldlM
              (overlaySrc env (part.sub off) off (Vec3.fromBlockKey key)) (dst, cache)
            let dst ← Run.lift (cleanNimap env.build dst)
            expect (← setBlock env .main key (← ser env dst))
            return cache : Run (CacheMap (Option MapBlock))) := by
          intro part
          refine inv_bind F (inv_foldlM F _ (fun st pos => ?_) _) fun st =>
            inv_bind F (inv_lift F _) fun b => inv_save F _ _ (inv_pure F _)
          unfold overlaySrc
          refine inv_ite _ (inv_pure F _) (inv_bind F (inv_lift F _) fun k =>
            inv_bind F (inv_overlayCached C _ _) fun ⟨r, cache⟩ => ?_)
          simp only
          split
          · exact inv_bind F (inv_lift F _) fun _ => inv_pure F _
          · exact inv_pure F _
        simp only
        split
        · exact inv_bind F (inv_pure F _) hrest
        · exact inv_bind F (inv_unwrap F _) hrest

/-- Every command but `vacuum`. -/
theorem inv_command (C : CopyFrame env Q) {name : String} {cmd : Command}
    (h : command? name = some cmd) (hv : name ≠ "vacuum") (args : InstArgs) : Inv Q (cmd.func env args) := by
  have F := C.toFrame
  unfold command? at h
  rw [Option.map_eq_some_iff] at h
  obtain ⟨⟨n, c⟩, h1, rfl⟩ := h
  have hn := List.find?_some h1
  have hm := List.mem_of_find?_eq_some h1
  simp only [beq_iff_eq] at hn
  subst hn
  unfold commands at hm
  simp only [List.mem_cons, List.not_mem_nil, or_false, Prod.mk.injEq] at hm
  rcases hm with ⟨_, rfl⟩ | ⟨_, rfl⟩ | ⟨_, rfl⟩ | ⟨_, rfl⟩ | ⟨_, rfl⟩ | ⟨_, rfl⟩ | ⟨_, rfl⟩ | ⟨_, rfl⟩ |
    ⟨_, rfl⟩ | ⟨_, rfl⟩ | ⟨_, rfl⟩ | ⟨h, rfl⟩
  · exact inv_clone C _ _
  · exact inv_deleteBlocks F _
  · exact inv_deleteMetadata F _
  · exact inv_deleteObjects F _
  · exact inv_deleteTimers F _
  · exact inv_fill F _
  · exact inv_replaceNodes F _
  · exact inv_replaceInInv F _
  · exact inv_overlay C _ _
  · exact inv_setMetaVar F _
  · exact inv_setParam2 F _
  · exact absurd h hv

/-- Every command that does not copy, but `vacuum`. -/
theorem inv_simple (F : Frame env Q) {name : String} {cmd : Command}
    (h : command? name = some cmd) (hv : name ≠ "vacuum") (hc : name ≠ "clone") (ho : name ≠ "overlay")
    (args : InstArgs) : Inv Q (cmd.func env args) := by
  unfold command? at h
  rw [Option.map_eq_some_iff] at h
  obtain ⟨⟨n, c⟩, h1, rfl⟩ := h
  have hn := List.find?_some h1
  have hm := List.mem_of_find?_eq_some h1
  simp only [beq_iff_eq] at hn
  subst hn
  unfold commands at hm
  simp only [List.mem_cons, List.not_mem_nil, or_false, Prod.mk.injEq] at hm
  rcases hm with ⟨h, rfl⟩ | ⟨_, rfl⟩ | ⟨_, rfl⟩ | ⟨_, rfl⟩ | ⟨_, rfl⟩ | ⟨_, rfl⟩ | ⟨_, rfl⟩ | ⟨_, rfl⟩ |
    ⟨h, rfl⟩ | ⟨_, rfl⟩ | ⟨_, rfl⟩ | ⟨h, rfl⟩
  · exact absurd h hc
  · exact inv_deleteBlocks F _
  · exact inv_deleteMetadata F _
  · exact inv_deleteObjects F _
  · exact inv_deleteTimers F _
  · exact inv_fill F _
  · exact inv_replaceNodes F _
  · exact inv_replaceInInv F _
  · exact absurd h ho
  · exact inv_setMetaVar F _
  · exact inv_setParam2 F _
  · exact absurd h hv

end

end MapEditr
