import Verif.Proof.Query
import Verif.Proof.Local
import Verif.Model.Commands
/-! # Lemmas: which nodes of a block are selected, and loops over them -/

namespace MapEditr
open Spec
set_option linter.unusedSimpArgs false
set_option linter.unusedVariables false

theorem posAt_inBlock (bp : Vec3) {i : Nat} (h : i < 4096) : InBlock bp (posAt bp i) := by
  unfold InBlock posAt; simp only; omega

theorem exists_posAt {bp p : Vec3} (h : InBlock bp p) : ∃ i, i < 4096 ∧ posAt bp i = p := by
  obtain ⟨x, y, z⟩ := p
  unfold InBlock at h
  simp only at h
  refine ⟨(x - bp.x * 16 + 16 * (y - bp.y * 16) + 256 * (z - bp.z * 16)).toNat, by omega, ?_⟩
  unfold posAt
  congr 1 <;> omega

/-- The node indices in a box, in the order of the box. -/
def boxIdx (a : Area) : List Nat := a.zyx.map fun p => asUsize (p.x + 16 * (p.y + 16 * p.z))

theorem localArea_box {a : Area} (h : LocalArea a) : LocalBox a := by
  unfold LocalArea at h; unfold LocalBox; omega

theorem boxIdx_spec {a : Area} (h : LocalArea a) :
    (boxIdx a).Nodup ∧ ∀ i, i ∈ boxIdx a ↔ i < 4096 ∧ outIdx a i = false := by
  unfold LocalArea at h
  constructor
  · unfold boxIdx
    rw [List.nodup_iff_pairwise_ne, List.pairwise_map]
    have h1 : a.zyx.Pairwise fun p q => InBox a.min a.max p ∧ InBox a.min a.max q ∧ ZyxLt p q := by
      refine (List.pairwise_iff_forall_sublist.2 ?_)
      intro p q hs
      have hm := hs.subset
      refine ⟨(mem_zyx a p).1 (hm (by simp)), (mem_zyx a q).1 (hm (by simp)), ?_⟩
      exact List.pairwise_iff_forall_sublist.1 (pairwise_zyx a) hs
    refine h1.imp ?_
    rintro ⟨px, py, pz⟩ ⟨qx, qy, qz⟩ ⟨h2, h3, h4⟩
    unfold InBox at h2 h3
    unfold ZyxLt at h4
    unfold asUsize
    simp only at *
    omega
  · intro i
    unfold boxIdx
    rw [← Bool.not_eq_true, outIdx_iff, Classical.not_not]
    constructor
    · intro hi
      obtain ⟨⟨px, py, pz⟩, hp, rfl⟩ := List.mem_map.1 hi
      rw [mem_zyx] at hp
      unfold InBox at hp
      unfold asUsize
      simp only at *
      omega
    · rintro ⟨h1, h2⟩
      refine List.mem_map.2 ⟨⟨((i % 16 : Nat) : Int), ((i / 16 % 16 : Nat) : Int), ((i / 256 % 16 : Nat) : Int)⟩, ?_, ?_⟩
      · rw [mem_zyx]; exact h2
      · unfold asUsize; simp only; omega

/-- The indices a command visits in a partly selected block. -/
def selIdx (part : Area) (invert : Bool) : List Nat :=
  if invert then (List.range 4096).filter (outIdx part) else boxIdx part

/-- A block partly covered by the area. -/
theorem part_spec {a : Area} (ha : a.isValid = true) {bp : Vec3} (h : partly a bp = true) :
    ∃ part, a.relBlockOverlap bp = some part ∧ LocalArea part ∧
      (∀ i, i < 4096 → (outIdx part i = false ↔ InBox a.min a.max (posAt bp i))) := by
  unfold partly at h
  have h1 := containsBlock_iff a bp
  have h2 := touchesBlock_iff a bp
  rw [isValid_iff] at ha
  have ht : a.touchesBlock bp = true := by
    cases h3 : a.touchesBlock bp with
    | true => rfl
    | false =>
      cases h4 : a.containsBlock bp with
      | false => rw [h3, h4] at h; cases h
      | true =>
        rw [h4] at h1
        rw [h3] at h2
        simp only [Bool.false_eq_true, false_iff, true_iff] at h1 h2
        omega
  rw [ht] at h2
  simp only [true_iff] at h2
  refine ⟨_, (filterValid_some _ _).2 ⟨?_, rfl⟩, ?_, ?_⟩
  · rw [isValid_iff]
    simp only [Vec3.sub, Vec3.mulS]
    omega
  · unfold LocalArea
    simp only [Vec3.sub, Vec3.mulS]
    omega
  · intro i hi
    rw [← Bool.not_eq_true, outIdx_iff, Classical.not_not]
    unfold InBox posAt
    simp only [Vec3.sub, Vec3.mulS]
    omega

/-- A partly covered block has a node in the area and one outside. -/
theorem partly_split {a : Area} (ha : a.isValid = true) {bp : Vec3} (h : partly a bp = true) :
    (∃ i, i < 4096 ∧ InBox a.min a.max (posAt bp i)) ∧
      ∃ i, i < 4096 ∧ ¬ InBox a.min a.max (posAt bp i) := by
  unfold partly at h
  have h1 := containsBlock_iff a bp
  have h2 := touchesBlock_iff a bp
  rw [isValid_iff] at ha
  cases h3 : a.touchesBlock bp with
  | false =>
    cases h4 : a.containsBlock bp with
    | false => rw [h3, h4] at h; cases h
    | true =>
      rw [h4] at h1
      rw [h3] at h2
      simp only [Bool.false_eq_true, false_iff, true_iff] at h1 h2
      omega
  | true =>
    cases h4 : a.containsBlock bp with
    | true => rw [h3, h4] at h; cases h
    | false =>
      rw [h4] at h1
      rw [h3] at h2
      simp only [Bool.false_eq_true, false_iff, true_iff] at h1 h2
      constructor
      · obtain ⟨i, hi, he⟩ := exists_posAt (bp := bp)
          (p := ⟨max a.min.x (bp.x * 16), max a.min.y (bp.y * 16), max a.min.z (bp.z * 16)⟩)
          (by unfold InBlock; simp only; omega)
        refine ⟨i, hi, ?_⟩
        rw [he]
        unfold InBox
        simp only
        omega
      · by_cases h5 : InBox a.min a.max (posAt bp 0)
        · refine ⟨4095, by omega, ?_⟩
          intro h6
          unfold InBox posAt at h5 h6
          simp only at h5 h6
          omega
        · exact ⟨0, by omega, h5⟩

theorem selected_iff (a : Area) (invert : Bool) (p : Vec3) :
    Selected (some a) invert p ↔ (InBox a.min a.max p ↔ invert = false) := Iff.rfl

theorem selIdx_spec {a : Area} {bp : Vec3} {part : Area} (hl : LocalArea part)
    (hp : ∀ i, i < 4096 → (outIdx part i = false ↔ InBox a.min a.max (posAt bp i))) (invert : Bool) :
    (selIdx part invert).Nodup ∧
      ∀ i, i ∈ selIdx part invert ↔ i < 4096 ∧ Selected (some a) invert (posAt bp i) := by
  unfold selIdx
  cases invert with
  | true =>
    refine ⟨List.nodup_range.filter _, ?_⟩
    intro i
    simp only [if_true, List.mem_filter, List.mem_range, selected_iff]
    constructor
    · rintro ⟨h1, h2⟩
      refine ⟨h1, ?_⟩
      rw [← hp i h1, h2]
    · rintro ⟨h1, h2⟩
      refine ⟨h1, ?_⟩
      rw [← hp i h1] at h2
      cases ho : outIdx part i with
      | true => rfl
      | false => simp [ho] at h2
  | false =>
    refine ⟨(boxIdx_spec hl).1, ?_⟩
    intro i
    simp only [Bool.false_eq_true, if_false, (boxIdx_spec hl).2, selected_iff]
    constructor
    · rintro ⟨h1, h2⟩
      exact ⟨h1, by rw [← hp i h1]; simp [h2]⟩
    · rintro ⟨h1, h2⟩
      exact ⟨h1, by rw [hp i h1]; simpa using h2⟩

/-- A block the area touches entirely or not at all is selected entirely, if at all. -/
theorem whole_spec {a : Area} (ha : a.isValid = true) {bp : Vec3} (h : partly a bp = false)
    {invert : Bool} (hw : ∃ p, InBlock bp p ∧ Selected (some a) invert p) :
    ∀ p, InBlock bp p → Selected (some a) invert p := by
  unfold partly at h
  have h1 := containsBlock_iff a bp
  have h2 := touchesBlock_iff a bp
  rw [isValid_iff] at ha
  obtain ⟨q, hq, hs⟩ := hw
  intro p hp
  rw [selected_iff] at hs ⊢
  refine Iff.trans ?_ hs
  unfold InBlock at hq hp
  unfold InBox
  cases h3 : a.containsBlock bp with
  | true =>
    rw [h3] at h1
    simp only [true_iff] at h1
    omega
  | false =>
    cases h4 : a.touchesBlock bp with
    | true => rw [h3, h4] at h; cases h
    | false =>
      rw [h4] at h2
      simp only [Bool.false_eq_true, false_iff] at h2
      omega

/-- The same for an optional area, as the commands ask. -/
theorem sel_cases {area : Option Area} (ha : AreaOk area) {bp : Vec3} {invert : Bool}
    (hw : ∃ p, InBlock bp p ∧ Selected area invert p) :
    (∃ a part, area.filter (fun a => partly a bp) = some a ∧ area = some a ∧
      a.relBlockOverlap bp = some part ∧ LocalArea part ∧ (selIdx part invert).Nodup ∧
      ∀ i, i ∈ selIdx part invert ↔ i < 4096 ∧ Selected area invert (posAt bp i)) ∨
    (area.filter (fun a => partly a bp) = none ∧ ∀ i, i < 4096 → Selected area invert (posAt bp i)) := by
  cases area with
  | none => exact .inr ⟨rfl, fun i _ => trivial⟩
  | some a =>
    cases hp : partly a bp with
    | true =>
      obtain ⟨part, h1, h2, h3⟩ := part_spec (ha a rfl) hp
      obtain ⟨h4, h5⟩ := selIdx_spec h2 h3 invert
      exact .inl ⟨a, part, by simp [Option.filter, hp], rfl, h1, h2, h4, h5⟩
    | false =>
      refine .inr ⟨by simp [Option.filter, hp], fun i hi => ?_⟩
      exact whole_spec (ha a rfl) hp hw _ (posAt_inBlock bp hi)

theorem inverseIndices_sel {part : Area} (h : LocalArea part) :
    inverseIndices part = .ok (selIdx part true) := inverseIndices_eq part (localArea_box h)

/-! ## Counting -/

theorem length_eq_count {l : List Nat} (hn : l.Nodup) {P : Nat → Prop} [DecidablePred P]
    (h : ∀ i, i ∈ l ↔ i < 4096 ∧ P i) : l.length = countNodes P := by
  unfold countNodes
  refine List.Perm.length_eq ((List.perm_ext_iff_of_nodup hn (List.nodup_range.filter _)).2 ?_)
  intro i
  rw [h i, List.mem_filter, List.mem_range, decide_eq_true_iff]

theorem countNodes_congr {P Q : Nat → Prop} [DecidablePred P] [DecidablePred Q]
    (h : ∀ i, i < 4096 → (P i ↔ Q i)) : countNodes P = countNodes Q := by
  refine length_eq_count (List.nodup_range.filter _) ?_
  intro i
  rw [List.mem_filter, List.mem_range, decide_eq_true_iff]
  constructor
  · rintro ⟨h1, h2⟩; exact ⟨h1, (h i h1).1 h2⟩
  · rintro ⟨h1, h2⟩; exact ⟨h1, (h i h1).2 h2⟩

theorem countNodes_zero {P : Nat → Prop} [DecidablePred P] (h : ∀ i, i < 4096 → ¬ P i) :
    countNodes P = 0 := by
  have := length_eq_count (l := []) List.nodup_nil (P := P)
    (fun i => ⟨fun h => (by cases h), fun hi => absurd hi.2 (h i hi.1)⟩)
  rw [← this]; rfl

theorem countNodes_all {P : Nat → Prop} [DecidablePred P] (h : ∀ i, i < 4096 → P i) :
    countNodes P = 4096 := by
  have := length_eq_count (l := List.range 4096) List.nodup_range (P := P)
    (fun i => ⟨fun hi => ⟨List.mem_range.1 hi, h i (List.mem_range.1 hi)⟩, fun hi => List.mem_range.2 hi.1⟩)
  rw [← this, List.length_range]

/-- The nodes counted and the others are 4096 together. -/
theorem countNodes_not (P : Nat → Prop) [DecidablePred P] :
    countNodes P + countNodes (fun i => ¬ P i) = 4096 := by
  unfold countNodes
  have h : ∀ l : List Nat, (l.filter fun i => decide (P i)).length +
      (l.filter fun i => decide (¬ P i)).length = l.length := by
    intro l
    induction l with
    | nil => rfl
    | cons a t ih =>
      rw [List.filter_cons, List.filter_cons, List.length_cons]
      by_cases hp : P a
      · rw [if_pos (decide_eq_true hp), if_neg (by simp [hp]), List.length_cons]; omega
      · rw [if_neg (by simp [hp]), if_pos (by simp [hp]), List.length_cons]; omega
  rw [h, List.length_range]

theorem countNodes_eq_zero {P : Nat → Prop} [DecidablePred P] :
    countNodes P = 0 ↔ ∀ i, i < 4096 → ¬ P i := by
  refine ⟨fun h i hi hp => ?_, countNodes_zero⟩
  unfold countNodes at h
  have := List.eq_nil_of_length_eq_zero h
  rw [List.filter_eq_nil_iff] at this
  exact this i (List.mem_range.2 hi) (decide_eq_true hp)

theorem countNodes_eq_all {P : Nat → Prop} [DecidablePred P] :
    countNodes P = 4096 ↔ ∀ i, i < 4096 → P i := by
  refine ⟨fun h i hi => ?_, countNodes_all⟩
  have h1 := countNodes_not P
  have h2 : countNodes (fun i => ¬ P i) = 0 := by omega
  exact Classical.not_not.1 (countNodes_eq_zero.1 h2 i hi)

theorem selIdx_volume {part : Area} (h : LocalArea part) : (selIdx part false).length = part.volume := by
  unfold selIdx boxIdx
  simp [length_zyx]

/-! ## Loops writing at the selected indices -/

/-- `for i in is { l[i] = v }`. -/
theorem foldlM_set {α : Type} (is : List Nat) (v : α) (l : List α) (h : ∀ i ∈ is, i < l.length) :
    ∃ l', is.foldlM (fun l i => setIdx l i v) l = .ok l' ∧ l'.length = l.length ∧
      ∀ i : Nat, (i ∈ is → l'[i]? = some v) ∧ (i ∉ is → l'[i]? = l[i]?) := by
  obtain ⟨l', h1, h2, h3⟩ := foldlM_pointwise (fun l i => setIdx l i v) (fun (p i : Nat) => p = i)
    (fun _ => some v) l.length is (by
      intro p hp l1 hl
      refine ⟨l1.set p v, setIdx_ok (by rw [hl]; exact h p hp), by simp [hl], ?_⟩
      intro i
      constructor
      · rintro rfl
        rw [List.getElem?_set_self (by rw [hl]; exact h p hp)]
      · intro hne
        rw [List.getElem?_set_ne hne]) l rfl
  refine ⟨l', h1, h2, fun i => ⟨fun hi => (h3 i).1 ⟨i, hi, rfl⟩, fun hi => (h3 i).2 ?_⟩⟩
  rintro ⟨p, hp, rfl⟩
  exact hi hp

/-- `for i in is { if test(i) { l[i] = v; count += 1 } }`, where the test does not depend on what
the loop has already written. -/
theorem foldlM_count {α : Type} (step : List α × Nat → Nat → Res (List α × Nat)) (test : Nat → Bool)
    (v : α) (l0 : List α) (is : List Nat) (hn : is.Nodup) (h : ∀ i ∈ is, i < l0.length)
    (hstep : ∀ i ∈ is, ∀ l n, l.length = l0.length → l[i]? = l0[i]? →
      step (l, n) i = .ok (if test i then (l.set i v, n + 1) else (l, n))) (n : Nat) :
    ∃ l', is.foldlM step (l0, n) = .ok (l', n + (is.filter test).length) ∧ l'.length = l0.length ∧
      ∀ i : Nat, (i ∈ is ∧ test i = true → l'[i]? = some v) ∧
        (¬ (i ∈ is ∧ test i = true) → l'[i]? = l0[i]?) := by
  induction is generalizing l0 n with
  | nil => exact ⟨l0, rfl, rfl, fun i => ⟨fun h => by simp at h, fun _ => rfl⟩⟩
  | cons j is ih =>
    rw [List.nodup_cons] at hn
    rw [List.foldlM_cons, hstep j List.mem_cons_self l0 n rfl rfl]
    have hj := h j List.mem_cons_self
    simp only [res_bind_ok]
    cases ht : test j with
    | true =>
      simp only [if_true]
      obtain ⟨l', h1, h2, h3⟩ := ih (l0.set j v) hn.2
        (fun i hi => by rw [List.length_set]; exact h i (List.mem_cons_of_mem _ hi))
        (fun i hi l n hl hli => by
          rw [List.length_set] at hl
          have hne : j ≠ i := fun e => hn.1 (e ▸ hi)
          rw [List.getElem?_set_ne hne] at hli
          exact hstep i (List.mem_cons_of_mem _ hi) l n hl hli) (n + 1)
      refine ⟨l', ?_, by rw [h2, List.length_set], ?_⟩
      · rw [h1, List.filter_cons, if_pos ht, List.length_cons]
        congr 2; omega
      · intro i
        by_cases hij : i = j
        · subst hij
          constructor
          · intro _
            rw [(h3 i).2 (fun hc => hn.1 hc.1), List.getElem?_set_self hj]
          · intro hc; exact absurd ⟨List.mem_cons_self, ht⟩ hc
        · have hiff : (i ∈ j :: is ∧ test i = true) ↔ (i ∈ is ∧ test i = true) := by
            simp [List.mem_cons, hij]
          rw [hiff]
          refine ⟨(h3 i).1, fun hc => ?_⟩
          rw [(h3 i).2 hc, List.getElem?_set_ne (fun e => hij e.symm)]
    | false =>
      simp only [Bool.false_eq_true, if_false]
      obtain ⟨l', h1, h2, h3⟩ := ih l0 hn.2 (fun i hi => h i (List.mem_cons_of_mem _ hi))
        (fun i hi => hstep i (List.mem_cons_of_mem _ hi)) n
      refine ⟨l', ?_, h2, ?_⟩
      · rw [h1, List.filter_cons, if_neg (by simp [ht])]
      · intro i
        have hiff : (i ∈ j :: is ∧ test i = true) ↔ (i ∈ is ∧ test i = true) := by
          constructor
          · rintro ⟨hm, ht'⟩
            rcases List.mem_cons.1 hm with rfl | hm
            · rw [ht] at ht'; cases ht'
            · exact ⟨hm, ht'⟩
          · rintro ⟨hm, ht'⟩; exact ⟨List.mem_cons_of_mem _ hm, ht'⟩
        rw [hiff]
        exact h3 i

end MapEditr
