import Verif.Spec.Builds
import Verif.Model.MachineMain
/-! # Lemmas: debug and release builds, computations without a database -/

namespace MapEditr
open Spec

/-- The same, unless an integer overflows. -/
def Over (x y : Res α) : Prop := x = y ∨ Overflow x

theorem over_refl (x : Res α) : Over x x := .inl rfl

theorem over_bind {x y : Res α} {f g : α → Res β} (h : Over x y) (hf : ∀ a, Over (f a) (g a)) :
    Over (x >>= f) (y >>= g) := by
  rcases h with rfl | ⟨t, ht, rfl⟩
  · cases x with
    | error e => exact .inl rfl
    | ok a => exact hf a
  · exact .inr ⟨t, ht, rfl⟩

theorem over_ite (c : Prop) [Decidable c] {x y x' y' : Res α} (h : Over x y) (h' : Over x' y') :
    Over (if c then x else x') (if c then y else y') := by split <;> assumption

theorem over_foldlM {f g : β → α → Res β} (l : List α) (b : β) (h : ∀ b a, Over (f b a) (g b a)) :
    Over (l.foldlM f b) (l.foldlM g b) := by
  induction l generalizing b with
  | nil => exact over_refl _
  | cons a t ih =>
    rw [List.foldlM_cons, List.foldlM_cons]
    exact over_bind (h b a) fun _ => ih _

theorem over_mapM {f g : α → Res β} (l : List α) (h : ∀ a, Over (f a) (g a)) : Over (l.mapM f) (l.mapM g) := by
  induction l with
  | nil => simpa using over_refl _
  | cons a t ih =>
    rw [List.mapM_cons, List.mapM_cons]
    exact over_bind (h a) fun _ => over_bind ih fun _ => over_refl _

theorem over_u16 (n : Nat) : Over (u16 .debug n) (u16 .release n) := by
  unfold u16
  split
  · exact over_refl _
  · exact .inr ⟨"u16", by simp, rfl⟩

theorem over_u16sub (m n : Nat) : Over (u16sub .debug m n) (u16sub .release m n) := by
  unfold u16sub
  split
  · exact over_refl _
  · exact .inr ⟨"u16", by simp, rfl⟩

theorem over_i32 (n : Int) : Over (i32 .debug n) (i32 .release n) := by
  unfold i32
  split
  · exact over_refl _
  · exact .inr ⟨"i32", by simp, rfl⟩

theorem over_i64 (n : Int) : Over (i64 .debug n) (i64 .release n) := by
  unfold i64
  split
  · exact over_refl _
  · exact .inr ⟨"i64", by simp, rfl⟩

theorem over_u64 (n : Nat) : Over (Checked.u64 .debug n) (Checked.u64 .release n) := by
  unfold Checked.u64
  split
  · exact over_refl _
  · exact .inr ⟨"u64", by simp, rfl⟩

theorem over_u64sub (m n : Nat) : Over (Checked.u64sub .debug m n) (Checked.u64sub .release m n) := by
  unfold Checked.u64sub
  split
  · exact over_refl _
  · exact .inr ⟨"u64", by simp, rfl⟩

theorem over_u64mul (m n : Int) : Over (Checked.u64mul .debug m n) (Checked.u64mul .release m n) := by
  unfold Checked.u64mul
  split
  · exact over_refl _
  · exact .inr ⟨"u64", by simp, rfl⟩

/-- What is known of single functions. -/
syntax "over_leaf" : tactic
macro_rules | `(tactic| over_leaf) => `(tactic| first
  | exact over_u16 _ | exact over_i32 _ | exact over_i64 _ | exact over_u64 _ | exact over_u16sub _ _
  | exact over_u64sub _ _ | exact over_u64mul _ _)

/-- One step through the text of a function. -/
macro "over_step" : tactic => `(tactic| first
  | intro _
  | with_reducible exact over_refl _
  | with_reducible assumption
  | with_reducible over_leaf
  | with_reducible apply over_ite
  | with_reducible apply over_bind
  | with_reducible apply over_foldlM
  | with_reducible apply over_mapM
  | split
  | dsimp only)

/-- Through the text of a function. -/
macro "over" : tactic => `(tactic| repeat' over_step)

/-! ## Name tables -/

theorem over_removeShift (m : NameIdMap) (id : Nat) :
    Over (NameIdMap.removeShift .debug m id) (NameIdMap.removeShift .release m id) := by
  unfold NameIdMap.removeShift; over

theorem over_copyName (n : Nat) (m : NameIdMap) (e : Nat × Bytes) :
    Over (copyName .debug n m e) (copyName .release n m e) := by
  unfold copyName; over

theorem over_cleanStep (u : List Bool) (st : NameIdMap × List Nat) (e : Nat × Bytes) :
    Over (cleanStep .debug u st e) (cleanStep .release u st e) := by
  unfold cleanStep; over

macro_rules | `(tactic| over_leaf) => `(tactic| first
  | exact over_removeShift _ _ | exact over_copyName _ _ _ | exact over_cleanStep _ _ _)

theorem over_cleanNimap (b : MapBlock) : Over (cleanNimap .debug b) (cleanNimap .release b) := by
  unfold cleanNimap; over

theorem over_fillId (m : NameIdMap) (node : Bytes) : Over (fillId .debug m node) (fillId .release m node) := by
  unfold fillId; over

theorem over_replaceWhole (b : MapBlock) (old : Nat) (n : Bytes) :
    Over (replaceWhole .debug b old n) (replaceWhole .release b old n) := by
  unfold replaceWhole; over

theorem over_roundPos (v : Int) : Over (roundPos .debug v) (roundPos .release v) := by
  unfold roundPos; over

macro_rules | `(tactic| over_leaf) => `(tactic| first
  | exact over_cleanNimap _ | exact over_fillId _ _ | exact over_replaceWhole _ _ _ | exact over_roundPos _)

theorem over_canDelete (a : Option Area) (i : Bool) (n : Option Bytes) (l : List Bytes) (o : StaticObject) :
    Over (canDelete .debug a i n l o) (canDelete .release a i n l o) := by
  unfold canDelete; over

theorem over_removeRev {f g : α → Res Bool} (h : ∀ a, Over (f a) (g a)) (l : List α) :
    Over (removeRev f l) (removeRev g l) := by
  induction l with
  | nil => exact over_refl _
  | cons a t ih =>
    unfold removeRev
    exact over_bind ih fun _ => over_bind (h a) fun _ => over_refl _

macro_rules | `(tactic| over_leaf) => `(tactic| first
  | exact over_canDelete _ _ _ _ _ | exact over_removeRev (fun _ => over_canDelete _ _ _ _ _) _)

/-! ## With exact integers -/

theorem over_copyNode (s : List Nat) (d : Int) (n : Nat) (l : List Nat) (p : Vec3) :
    Over (copyNode .debug s d n l p) (copyNode .release s d n l p) := by
  unfold copyNode; over

macro_rules | `(tactic| over_leaf) => `(tactic| exact over_copyNode _ _ _ _ _)

theorem over_mergeBlocks (src dst : MapBlock) (sa da : Area) :
    Over (mergeBlocks .debug src dst sa da) (mergeBlocks .release src dst sa da) := by
  unfold mergeBlocks; over

macro_rules | `(tactic| over_leaf) => `(tactic| exact over_mergeBlocks _ _ _ _)

theorem over_mergeFrag (a : Area) (o d s : Vec3) (src dst : MapBlock) :
    Over (mergeFrag .debug a o d s src dst) (mergeFrag .release a o d s src dst) := by
  unfold mergeFrag; over

theorem over_fillBlock (a : Area) (i : Bool) (n : Bytes) (p : Vec3) (b : MapBlock) :
    Over (fillBlock .debug a i n p b) (fillBlock .release a i n p b) := by
  unfold fillBlock; over

theorem over_replacePart (b : MapBlock) (a : Area) (i : Bool) (old : Nat) (n : Bytes) :
    Over (replacePart .debug b a i old n) (replacePart .release b a i old n) := by
  unfold replacePart; over

macro_rules | `(tactic| over_leaf) => `(tactic| first
  | exact over_mergeFrag _ _ _ _ _ _ | exact over_fillBlock _ _ _ _ _ | exact over_replacePart _ _ _ _ _)

theorem over_doReplace (b : MapBlock) (k : Int) (old : Nat) (n : Bytes) (a : Option Area) (i : Bool) :
    Over (doReplace .debug b k old n a i) (doReplace .release b k old n a i) := by
  unfold doReplace; over

macro_rules | `(tactic| over_leaf) => `(tactic| exact over_doReplace _ _ _ _ _ _)

/-! ## With machine integers -/

namespace Checked

theorem over_fromBlockKey (key : Int) :
    Over (fromBlockKey .debug key) (fromBlockKey .release key) := by
  unfold fromBlockKey; over

macro_rules | `(tactic| over_leaf) => `(tactic| exact over_fromBlockKey _)

theorem over_toBlockKey (v : Vec3) :
    Over (toBlockKey .debug v) (toBlockKey .release v) := by
  unfold toBlockKey; over

macro_rules | `(tactic| over_leaf) => `(tactic| exact over_toBlockKey _)

theorem over_vadd (p q : Vec3) :
    Over (vadd .debug p q) (vadd .release p q) := by
  unfold vadd; over

macro_rules | `(tactic| over_leaf) => `(tactic| exact over_vadd _ _)

theorem over_vaddS (p : Vec3) (s : Int) :
    Over (vaddS .debug p s) (vaddS .release p s) := by
  unfold vaddS; over

macro_rules | `(tactic| over_leaf) => `(tactic| exact over_vaddS _ _)

theorem over_vsub (p q : Vec3) :
    Over (vsub .debug p q) (vsub .release p q) := by
  unfold vsub; over

macro_rules | `(tactic| over_leaf) => `(tactic| exact over_vsub _ _)

theorem over_vmul (p q : Vec3) :
    Over (vmul .debug p q) (vmul .release p q) := by
  unfold vmul; over

macro_rules | `(tactic| over_leaf) => `(tactic| exact over_vmul _ _)

theorem over_vmulS (p : Vec3) (s : Int) :
    Over (vmulS .debug p s) (vmulS .release p s) := by
  unfold vmulS; over

macro_rules | `(tactic| over_leaf) => `(tactic| exact over_vmulS _ _)

theorem over_span (lo hi : Int) :
    Over (span .debug lo hi) (span .release lo hi) := by
  unfold span; over

macro_rules | `(tactic| over_leaf) => `(tactic| exact over_span _ _)

theorem over_volume (a : Area) :
    Over (volume .debug a) (volume .release a) := by
  unfold volume; over

macro_rules | `(tactic| over_leaf) => `(tactic| exact over_volume _)

theorem over_axisContains (lo hi c : Int) :
    Over (axisContains .debug lo hi c) (axisContains .release lo hi c) := by
  unfold axisContains; over

macro_rules | `(tactic| over_leaf) => `(tactic| exact over_axisContains _ _ _)

theorem over_containsBlock (a : Area) (p : Vec3) :
    Over (containsBlock .debug a p) (containsBlock .release a p) := by
  unfold containsBlock; over

macro_rules | `(tactic| over_leaf) => `(tactic| exact over_containsBlock _ _)

theorem over_axisTouches (lo hi c : Int) :
    Over (axisTouches .debug lo hi c) (axisTouches .release lo hi c) := by
  unfold axisTouches; over

macro_rules | `(tactic| over_leaf) => `(tactic| exact over_axisTouches _ _ _)

theorem over_touchesBlock (a : Area) (p : Vec3) :
    Over (touchesBlock .debug a p) (touchesBlock .release a p) := by
  unfold touchesBlock; over

macro_rules | `(tactic| over_leaf) => `(tactic| exact over_touchesBlock _ _)

theorem over_toContainedBlockArea (a : Area) :
    Over (toContainedBlockArea .debug a) (toContainedBlockArea .release a) := by
  unfold toContainedBlockArea; over

macro_rules | `(tactic| over_leaf) => `(tactic| exact over_toContainedBlockArea _)

theorem over_absBlockOverlap (a : Area) (p : Vec3) :
    Over (absBlockOverlap .debug a p) (absBlockOverlap .release a p) := by
  unfold absBlockOverlap; over

macro_rules | `(tactic| over_leaf) => `(tactic| exact over_absBlockOverlap _ _)

theorem over_relBlockOverlap (a : Area) (p : Vec3) :
    Over (relBlockOverlap .debug a p) (relBlockOverlap .release a p) := by
  unfold relBlockOverlap; over

macro_rules | `(tactic| over_leaf) => `(tactic| exact over_relBlockOverlap _ _)

theorem over_areaAdd (a : Area) (v : Vec3) :
    Over (areaAdd .debug a v) (areaAdd .release a v) := by
  unfold areaAdd; over

macro_rules | `(tactic| over_leaf) => `(tactic| exact over_areaAdd _ _)

theorem over_areaSub (a : Area) (v : Vec3) :
    Over (areaSub .debug a v) (areaSub .release a v) := by
  unfold areaSub; over

macro_rules | `(tactic| over_leaf) => `(tactic| exact over_areaSub _ _)

theorem over_cloneSortKey (o : Vec3) (key : Int) :
    Over (cloneSortKey .debug o key) (cloneSortKey .release o key) := by
  unfold cloneSortKey; over

macro_rules | `(tactic| over_leaf) => `(tactic| exact over_cloneSortKey _ _)

theorem over_areaNext (it : AreaIter) :
    Over (areaNext .debug it) (areaNext .release it) := by
  unfold areaNext; over

macro_rules | `(tactic| over_leaf) => `(tactic| exact over_areaNext _)

theorem over_areaDrain (n : Nat) (it : AreaIter) :
    Over (areaDrain .debug n it) (areaDrain .release n it) := by
  induction n generalizing it with
  | zero => exact over_refl _
  | succ n ih =>
    unfold areaDrain
    refine over_bind (over_areaNext it) fun r => ?_
    split
    · exact over_refl _
    · exact over_bind (ih _) fun _ => over_refl _

macro_rules | `(tactic| over_leaf) => `(tactic| exact over_areaDrain _ _)

theorem over_positions (a : Area) :
    Over (positions .debug a) (positions .release a) := by
  unfold positions; over

macro_rules | `(tactic| over_leaf) => `(tactic| exact over_positions _)

theorem over_linIdx (p : Vec3) :
    Over (linIdx .debug p) (linIdx .release p) := by
  unfold linIdx; over

macro_rules | `(tactic| over_leaf) => `(tactic| exact over_linIdx _)

theorem over_invNew (a : Area) :
    Over (invNew .debug a) (invNew .release a) := by
  unfold invNew; over

macro_rules | `(tactic| over_leaf) => `(tactic| exact over_invNew _)

theorem over_skipOnce (it : InvIter) :
    Over (skipOnce .debug it) (skipOnce .release it) := by
  unfold skipOnce; over

macro_rules | `(tactic| over_leaf) => `(tactic| exact over_skipOnce _)

theorem over_skipLoop (n : Nat) (it : InvIter) :
    Over (skipLoop .debug n it) (skipLoop .release n it) := by
  induction n generalizing it with
  | zero => exact over_refl _
  | succ n ih =>
    unfold skipLoop
    exact over_ite _ (over_bind (over_skipOnce it) fun _ => ih _) (over_refl _)

macro_rules | `(tactic| over_leaf) => `(tactic| exact over_skipLoop _ _)

theorem over_invNext (it : InvIter) :
    Over (invNext .debug it) (invNext .release it) := by
  unfold invNext; over

macro_rules | `(tactic| over_leaf) => `(tactic| exact over_invNext _)

theorem over_invDrain (n : Nat) (it : InvIter) :
    Over (invDrain .debug n it) (invDrain .release n it) := by
  induction n generalizing it with
  | zero => exact over_refl _
  | succ n ih =>
    unfold invDrain
    refine over_bind (over_invNext it) fun r => ?_
    split
    · exact over_refl _
    · exact over_bind (ih _) fun _ => over_refl _

macro_rules | `(tactic| over_leaf) => `(tactic| exact over_invDrain _ _)

theorem over_inverseIndices (a : Area) :
    Over (inverseIndices .debug a) (inverseIndices .release a) := by
  unfold inverseIndices; over

macro_rules | `(tactic| over_leaf) => `(tactic| exact over_inverseIndices _)

theorem over_queryArea (a : Option Area) (i p : Bool) :
    Over (queryArea .debug a i p) (queryArea .release a i p) := by
  unfold queryArea; over

macro_rules | `(tactic| over_leaf) => `(tactic| exact over_queryArea _ _ _)

theorem over_queryKeeps (pats : List Bytes) (a : Option Area) (e i : Bool) (k : Int) (d : Bytes) :
    Over (queryKeeps .debug pats a e i k d) (queryKeeps .release pats a e i k d) := by
  unfold queryKeeps; over

macro_rules | `(tactic| over_leaf) => `(tactic| exact over_queryKeeps _ _ _ _ _ _)

theorem over_blockPartsValid (a b : Area) :
    Over (blockPartsValid .debug a b) (blockPartsValid .release a b) := by
  unfold blockPartsValid; over

macro_rules | `(tactic| over_leaf) => `(tactic| exact over_blockPartsValid _ _)

theorem over_copyNode (s : List Nat) (d : Int) (n : Nat) (l : List Nat) (p : Vec3) :
    Over (copyNode .debug s d n l p) (copyNode .release s d n l p) := by
  unfold copyNode; over

macro_rules | `(tactic| over_leaf) => `(tactic| exact over_copyNode _ _ _ _ _)

theorem over_copyRow (s : Bytes) (a : Area) (d : Int) (l : Bytes) (yz : Int × Int) :
    Over (copyRow .debug s a d l yz) (copyRow .release s a d l yz) := by
  unfold copyRow; over

macro_rules | `(tactic| over_leaf) => `(tactic| exact over_copyRow _ _ _ _ _)

theorem over_mergeBlocks (src dst : MapBlock) (sa da : Area) :
    Over (mergeBlocks .debug src dst sa da) (mergeBlocks .release src dst sa da) := by
  unfold mergeBlocks; over

macro_rules | `(tactic| over_leaf) => `(tactic| exact over_mergeBlocks _ _ _ _)

theorem over_copyMeta (a : Area) (d : Int) (m : MetaList) (e : Nat × NodeMeta) :
    Over (copyMeta .debug a d m e) (copyMeta .release a d m e) := by
  unfold copyMeta; over

macro_rules | `(tactic| over_leaf) => `(tactic| exact over_copyMeta _ _ _ _)

theorem over_mergeMetadata (src dst : MetaList) (sa da : Area) :
    Over (mergeMetadata .debug src dst sa da) (mergeMetadata .release src dst sa da) := by
  unfold mergeMetadata; over

macro_rules | `(tactic| over_leaf) => `(tactic| exact over_mergeMetadata _ _ _ _)

theorem over_partly (a : Area) (p : Vec3) :
    Over (partly .debug a p) (partly .release a p) := by
  unfold partly; over

macro_rules | `(tactic| over_leaf) => `(tactic| exact over_partly _ _)

theorem over_partArea (a : Option Area) (p : Vec3) :
    Over (partArea .debug a p) (partArea .release a p) := by
  unfold partArea; over

macro_rules | `(tactic| over_leaf) => `(tactic| exact over_partArea _ _)

theorem over_rowIdx (p : Vec3) :
    Over (rowIdx .debug p) (rowIdx .release p) := by
  unfold rowIdx; over

macro_rules | `(tactic| over_leaf) => `(tactic| exact over_rowIdx _)

theorem over_fillArea (l : List Nat) (id : Nat) (a : Area) (i : Bool) :
    Over (fillArea .debug l id a i) (fillArea .release l id a i) := by
  unfold fillArea; over

macro_rules | `(tactic| over_leaf) => `(tactic| exact over_fillArea _ _ _ _)

theorem over_fillBlock (a : Area) (i : Bool) (n : Bytes) (p : Vec3) (b : MapBlock) :
    Over (fillBlock .debug a i n p b) (fillBlock .release a i n p b) := by
  unfold fillBlock; over

macro_rules | `(tactic| over_leaf) => `(tactic| exact over_fillBlock _ _ _ _ _)

theorem over_nestedIdx (p : Vec3) :
    Over (nestedIdx .debug p) (nestedIdx .release p) := by
  unfold nestedIdx; over

macro_rules | `(tactic| over_leaf) => `(tactic| exact over_nestedIdx _)

theorem over_replacePart (b : MapBlock) (a : Area) (i : Bool) (old : Nat) (n : Bytes) :
    Over (replacePart .debug b a i old n) (replacePart .release b a i old n) := by
  unfold replacePart; over

macro_rules | `(tactic| over_leaf) => `(tactic| exact over_replacePart _ _ _ _ _)

theorem over_doReplace (b : MapBlock) (k : Int) (old : Nat) (n : Bytes) (a : Option Area) (i : Bool) :
    Over (doReplace .debug b k old n a i) (doReplace .release b k old n a i) := by
  unfold doReplace; over

macro_rules | `(tactic| over_leaf) => `(tactic| exact over_doReplace _ _ _ _ _ _)

theorem over_setParam2Partial (nd : NodeData) (a : Area) (i : Bool) (id : Option Nat) (v : UInt8) :
    Over (setParam2Partial .debug nd a i id v) (setParam2Partial .release nd a i id v) := by
  unfold setParam2Partial; over

macro_rules | `(tactic| over_leaf) => `(tactic| exact over_setParam2Partial _ _ _ _ _)

theorem over_param2Block (a : Option Area) (i : Bool) (id : Option Nat) (v : UInt8) (p : Vec3) (b : MapBlock) :
    Over (param2Block .debug a i id v p b) (param2Block .release a i id v p b) := by
  unfold param2Block; over

macro_rules | `(tactic| over_leaf) => `(tactic| exact over_param2Block _ _ _ _ _ _)

theorem over_blockCorner (k : Int) :
    Over (blockCorner .debug k) (blockCorner .release k) := by
  unfold blockCorner; over

macro_rules | `(tactic| over_leaf) => `(tactic| exact over_blockCorner _)

theorem over_metaToDelete (args : InstArgs) (id : Option Nat) (c : Vec3) (ns : List Nat) (l : MetaList) :
    Over (metaToDelete .debug args id c ns l) (metaToDelete .release args id c ns l) := by
  induction l with
  | nil => exact over_refl _
  | cons e t ih =>
    obtain ⟨k, m⟩ := e
    unfold metaToDelete
    over

macro_rules | `(tactic| over_leaf) => `(tactic| exact over_metaToDelete _ _ _ _ _)

theorem over_editMetas (args : InstArgs) (ids : List Nat) (c : Vec3) (ns : List Nat) (f : NodeMeta → NodeMeta × Nat) (l : MetaList) :
    Over (editMetas .debug args ids c ns f l) (editMetas .release args ids c ns f l) := by
  induction l with
  | nil => exact over_refl _
  | cons e t ih =>
    obtain ⟨k, m⟩ := e
    unfold editMetas
    over

macro_rules | `(tactic| over_leaf) => `(tactic| exact over_editMetas _ _ _ _ _ _)

theorem over_timerHit (args : InstArgs) (id : Option Nat) (c : Vec3) (ns : List Nat) (t : NodeTimer) :
    Over (timerHit .debug args id c ns t) (timerHit .release args id c ns t) := by
  unfold timerHit; over

macro_rules | `(tactic| over_leaf) => `(tactic| exact over_removeRev (fun _ => over_timerHit _ _ _ _ _) _)

theorem over_mergeFrag (a : Area) (o d s : Vec3) (src dst : MapBlock) :
    Over (mergeFrag .debug a o d s src dst) (mergeFrag .release a o d s src dst) := by
  unfold mergeFrag; over

macro_rules | `(tactic| over_leaf) => `(tactic| exact over_mergeFrag _ _ _ _ _ _)

theorem over_cloneVerify (args : InstArgs) :
    Over (cloneVerify .debug args) (cloneVerify .release args) := by
  unfold cloneVerify; over

macro_rules | `(tactic| over_leaf) => `(tactic| exact over_cloneVerify _)

theorem over_sortKeys (o : Vec3) (ks : List Int) :
    Over (sortKeys .debug o ks) (sortKeys .release o ks) := by
  unfold sortKeys; over

macro_rules | `(tactic| over_leaf) => `(tactic| exact over_sortKeys _ _)

theorem over_overlayVerify (args : InstArgs) :
    Over (overlayVerify .debug args) (overlayVerify .release args) := by
  unfold overlayVerify; over

macro_rules | `(tactic| over_leaf) => `(tactic| exact over_overlayVerify _)

theorem over_copiesWhole (a : Area) (i : Bool) (p : Vec3) :
    Over (copiesWhole .debug a i p) (copiesWhole .release a i p) := by
  unfold copiesWhole; over

macro_rules | `(tactic| over_leaf) => `(tactic| exact over_copiesWhole _ _ _)

theorem over_overlayPart (a : Option Area) (p : Vec3) :
    Over (overlayPart .debug a p) (overlayPart .release a p) := by
  unfold overlayPart; over

macro_rules | `(tactic| over_leaf) => `(tactic| exact over_overlayPart _ _)

theorem over_shiftArea (a : Option Area) (o : Vec3) :
    Over (shiftArea .debug a o) (shiftArea .release a o) := by
  unfold shiftArea; over

macro_rules | `(tactic| over_leaf) => `(tactic| exact over_shiftArea _ _)

end Checked
end MapEditr
