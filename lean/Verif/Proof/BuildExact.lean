import Verif.Proof.BuildRun
/-! # Lemmas: debug and release builds, the commands -/

namespace MapEditr
open Spec
set_option linter.unusedSimpArgs false

variable {env : Env}

theorem pair_queryStep (keep : Int → Bytes → Bool) (ks : List Int) (r : (Int × Bytes) × Nat) :
    Pair (queryStep keep ks r) (queryStep keep ks r) := by
  unfold queryStep; pairs

macro_rules | `(tactic| pair_leaf) => `(tactic| exact pair_queryStep _ _ _)

theorem pair_queryKeys (i : DbId) (l : List Bytes) (a : Option Area) (v p : Bool) :
    Pair (queryKeys (built .debug env) i l a v p) (queryKeys (built .release env) i l a v p) := by
  unfold queryKeys; pairs

macro_rules | `(tactic| pair_leaf) => `(tactic| exact pair_queryKeys _ _ _ _ _)

theorem pair_fillStep (a : Area) (i : Bool) (n : Bytes) (c : Nat) (k : Int) :
    Pair (fillStep (built .debug env) a i n c k) (fillStep (built .release env) a i n c k) := by
  unfold fillStep; pairs

macro_rules | `(tactic| pair_leaf) => `(tactic| exact pair_fillStep _ _ _ _ _)

theorem pair_fill (args : InstArgs) :
    Pair (fill (built .debug env) args) (fill (built .release env) args) := by
  unfold fill; pairs

macro_rules | `(tactic| pair_leaf) => `(tactic| exact pair_fill _)

theorem pair_replaceStep (args : InstArgs) (o n : Bytes) (c : Nat) (k : Int) :
    Pair (replaceStep (built .debug env) args o n c k) (replaceStep (built .release env) args o n c k) := by
  unfold replaceStep; pairs

macro_rules | `(tactic| pair_leaf) => `(tactic| exact pair_replaceStep _ _ _ _ _)

theorem pair_replaceNodes (args : InstArgs) :
    Pair (replaceNodes (built .debug env) args) (replaceNodes (built .release env) args) := by
  unfold replaceNodes; pairs

macro_rules | `(tactic| pair_leaf) => `(tactic| exact pair_replaceNodes _)

theorem pair_param2Step (args : InstArgs) (v : UInt8) (n : Option Bytes) (c : Nat) (k : Int) :
    Pair (param2Step (built .debug env) args v n c k) (param2Step (built .release env) args v n c k) := by
  unfold param2Step; pairs

macro_rules | `(tactic| pair_leaf) => `(tactic| exact pair_param2Step _ _ _ _ _)

theorem pair_setParam2 (args : InstArgs) :
    Pair (setParam2 (built .debug env) args) (setParam2 (built .release env) args) := by
  unfold setParam2; pairs

macro_rules | `(tactic| pair_leaf) => `(tactic| exact pair_setParam2 _)

theorem pair_deleteBlockStep (k : Int) :
    Pair (deleteBlockStep (built .debug env) k) (deleteBlockStep (built .release env) k) := by
  unfold deleteBlockStep; pairs

macro_rules | `(tactic| pair_leaf) => `(tactic| exact pair_deleteBlockStep _)

theorem pair_deleteBlocks (args : InstArgs) :
    Pair (deleteBlocks (built .debug env) args) (deleteBlocks (built .release env) args) := by
  unfold deleteBlocks forEach; pairs

macro_rules | `(tactic| pair_leaf) => `(tactic| exact pair_deleteBlocks _)

theorem pair_deleteMetaStep (args : InstArgs) (n : Option Bytes) (c : Nat) (k : Int) :
    Pair (deleteMetaStep (built .debug env) args n c k) (deleteMetaStep (built .release env) args n c k) := by
  unfold deleteMetaStep; pairs

macro_rules | `(tactic| pair_leaf) => `(tactic| exact pair_deleteMetaStep _ _ _ _)

theorem pair_deleteMetadata (args : InstArgs) :
    Pair (deleteMetadata (built .debug env) args) (deleteMetadata (built .release env) args) := by
  unfold deleteMetadata; pairs

macro_rules | `(tactic| pair_leaf) => `(tactic| exact pair_deleteMetadata _)

theorem pair_setMetaVarStep (args : InstArgs) (x y : Bytes) (l : List Bytes) (c : Nat) (k : Int) :
    Pair (setMetaVarStep (built .debug env) args x y l c k) (setMetaVarStep (built .release env) args x y l c k) := by
  unfold setMetaVarStep; pairs

macro_rules | `(tactic| pair_leaf) => `(tactic| exact pair_setMetaVarStep _ _ _ _ _ _)

theorem pair_setMetaVar (args : InstArgs) :
    Pair (setMetaVar (built .debug env) args) (setMetaVar (built .release env) args) := by
  unfold setMetaVar; pairs

macro_rules | `(tactic| pair_leaf) => `(tactic| exact pair_setMetaVar _)

theorem pair_deleteTimersStep (args : InstArgs) (n : Option Bytes) (c : Nat) (k : Int) :
    Pair (deleteTimersStep (built .debug env) args n c k) (deleteTimersStep (built .release env) args n c k) := by
  unfold deleteTimersStep; pairs

macro_rules | `(tactic| pair_leaf) => `(tactic| exact pair_deleteTimersStep _ _ _ _)

theorem pair_deleteTimers (args : InstArgs) :
    Pair (deleteTimers (built .debug env) args) (deleteTimers (built .release env) args) := by
  unfold deleteTimers; pairs

macro_rules | `(tactic| pair_leaf) => `(tactic| exact pair_deleteTimers _)

theorem pair_deleteObjectsStep (args : InstArgs) (n : Option Bytes) (l : List Bytes) (c : Nat) (k : Int) :
    Pair (deleteObjectsStep (built .debug env) args n l c k) (deleteObjectsStep (built .release env) args n l c k) := by
  unfold deleteObjectsStep; pairs

macro_rules | `(tactic| pair_leaf) => `(tactic| exact pair_deleteObjectsStep _ _ _ _ _)

theorem pair_deleteObjects (args : InstArgs) :
    Pair (deleteObjects (built .debug env) args) (deleteObjects (built .release env) args) := by
  unfold deleteObjects; pairs

macro_rules | `(tactic| pair_leaf) => `(tactic| exact pair_deleteObjects _)

theorem pair_replaceInInvStep (args : InstArgs) (x y : Bytes) (l : List Bytes) (c : Nat × Nat) (k : Int) :
    Pair (replaceInInvStep (built .debug env) args x y l c k) (replaceInInvStep (built .release env) args x y l c k) := by
  unfold replaceInInvStep; pairs

macro_rules | `(tactic| pair_leaf) => `(tactic| exact pair_replaceInInvStep _ _ _ _ _ _)

theorem pair_replaceInInv (args : InstArgs) :
    Pair (replaceInInv (built .debug env) args) (replaceInInv (built .release env) args) := by
  unfold replaceInInv; pairs

macro_rules | `(tactic| pair_leaf) => `(tactic| exact pair_replaceInInv _)

theorem pair_cloneSrc (a : Area) (o d : Vec3) (st : MapBlock × CacheMap BlockResult) (p : Vec3) :
    Pair (cloneSrc (built .debug env) a o d st p) (cloneSrc (built .release env) a o d st p) := by
  unfold cloneSrc; pairs

macro_rules | `(tactic| pair_leaf) => `(tactic| exact pair_cloneSrc _ _ _ _ _)

theorem pair_cloneStep (a : Area) (o : Vec3) (c : CacheMap BlockResult) (k : Int) :
    Pair (cloneStep (built .debug env) a o c k) (cloneStep (built .release env) a o c k) := by
  unfold cloneStep; pairs

macro_rules | `(tactic| pair_leaf) => `(tactic| exact pair_cloneStep _ _ _ _)

theorem pair_clone (n : Nat) (args : InstArgs) :
    Pair (clone (built .debug env) n args) (clone (built .release env) n args) := by
  unfold clone; pairs

macro_rules | `(tactic| pair_leaf) => `(tactic| exact pair_clone _ _)

theorem pair_copyPart (a : Area) (i : Bool) (k : Int) :
    Pair (copyPart (built .debug env) a i k) (copyPart (built .release env) a i k) := by
  unfold copyPart; pairs

macro_rules | `(tactic| pair_leaf) => `(tactic| exact pair_copyPart _ _ _)

theorem pair_overlayStep (a : Option Area) (i : Bool) (k : Int) :
    Pair (overlayStep (built .debug env) a i k) (overlayStep (built .release env) a i k) := by
  unfold overlayStep; pairs

macro_rules | `(tactic| pair_leaf) => `(tactic| exact pair_overlayStep _ _ _)

theorem pair_overlayNoOffset (args : InstArgs) :
    Pair (overlayNoOffset (built .debug env) args) (overlayNoOffset (built .release env) args) := by
  unfold overlayNoOffset; pairs

macro_rules | `(tactic| pair_leaf) => `(tactic| exact pair_overlayNoOffset _)

theorem pair_overlaySrc (a : Area) (o d : Vec3) (st : MapBlock × CacheMap (Option MapBlock)) (p : Vec3) :
    Pair (overlaySrc (built .debug env) a o d st p) (overlaySrc (built .release env) a o d st p) := by
  unfold overlaySrc; pairs

macro_rules | `(tactic| pair_leaf) => `(tactic| exact pair_overlaySrc _ _ _ _ _)

theorem pair_overlayOffsetStep (a : Option Area) (o : Vec3) (c : CacheMap (Option MapBlock)) (k : Int) :
    Pair (overlayOffsetStep (built .debug env) a o c k) (overlayOffsetStep (built .release env) a o c k) := by
  unfold overlayOffsetStep; pairs

macro_rules | `(tactic| pair_leaf) => `(tactic| exact pair_overlayOffsetStep _ _ _ _)

theorem pair_overlayWithOffset (n : Nat) (args : InstArgs) :
    Pair (overlayWithOffset (built .debug env) n args) (overlayWithOffset (built .release env) n args) := by
  unfold overlayWithOffset; pairs

macro_rules | `(tactic| pair_leaf) => `(tactic| exact pair_overlayWithOffset _ _)

theorem pair_overlay (n : Nat) (args : InstArgs) :
    Pair (overlay (built .debug env) n args) (overlay (built .release env) n args) := by
  unfold overlay; pairs

macro_rules | `(tactic| pair_leaf) => `(tactic| exact pair_overlay _ _)


/-! ## The whole worker -/

theorem pair_runCommand (args : InstArgs) (c c' : Command) (wn : Option String)
    (h : Pair (c.func (built .debug env) args) (c'.func (built .release env) args)) :
    Pair (runCommand (built .debug env) args c wn) (runCommand (built .release env) args c' wn) := by
  unfold runCommand; pairs

macro_rules | `(tactic| pair_leaf) => `(tactic| (refine pair_runCommand _ _ _ _ ?_; assumption))

theorem pair_unwrap_bind {o o' : Option α} {R : α → α → Prop} {k k' : α → Run β}
    (h : o = none ∧ o' = none ∨ ∃ a b, o = some a ∧ o' = some b ∧ R a b) (hk : ∀ a b, R a b → Pair (k a) (k' b)) :
    Pair (Run.unwrap o >>= k) (Run.unwrap o' >>= k') := by
  rcases h with ⟨e, e'⟩ | ⟨a, b, e, e', h⟩
  · rw [e, e']
    exact pair_quiet fun _ => rfl
  · rw [e, e']
    exact hk a b h

/-- The two entries for a command. -/
def Like (c c' : Command) : Prop :=
  (∀ env args, Pair (c.func (built .debug env) args) (c'.func (built .release env) args)) ∧
  ∀ args, Over (c.verify args) (c'.verify args)


theorem like_command (name : String) : command? name = none ∧ command? name = none ∨
    ∃ c c', command? name = some c ∧ command? name = some c' ∧ Like c c' := by
  unfold command? commands
  simp only [List.find?_cons, List.find?_nil]
  repeat' split
  all_goals first
    | exact .inl ⟨rfl, rfl⟩
    | (refine .inr ⟨_, _, rfl, rfl, fun env args => ?_, fun args => ?_⟩
       · first
         | exact pair_clone _ _
         | exact pair_overlay _ _
         | exact pair_vacuum
         | (dsimp only; pair_leaf)
       · dsimp only
         first | exact over_refl _ | over)

theorem pair_computeThread (args : InstArgs) :
    Pair (computeThread (built .debug env) args) (computeThread (built .release env) args) := by
  unfold computeThread
  split
  · exact pair_pure _
  · dsimp (instances := true) only [built_build]
    refine pair_unwrap_bind (like_command _) fun c c' h => ?_
    have h1 := h.1 env args
    have h2 := h.2 args
    pairs

theorem pair_worker (args : InstArgs) : Pair (worker (built .debug env) args) (worker (built .release env) args) := by
  unfold worker
  refine pair_bind (pair_computeThread args) fun a => ?_
  pairs

end MapEditr
