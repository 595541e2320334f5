import Verif.Model.Checked
import Verif.Spec.Geometry
import Verif.Proof.Spatial
import Verif.Proof.Checked
/-!
# Properties C01–C11: coordinates, areas, iterators
-/

namespace MapEditr
open Spec

/-! ## C01 Block keys and block positions convert losslessly -/

/-- Position → key → position is the identity on the 4096³ cube, and the key is Minetest's. -/
theorem C01_pos_key_pos (v : Vec3) (h : ValidBlockPos v) :
    ∃ k, v.toBlockKey = .ok k ∧ k = keyOf v ∧ ValidKey k ∧ Vec3.fromBlockKey k = v := by
  refine ⟨keyOf v, ?_, rfl, keyOf_valid v h, fromBlockKey_keyOf v h⟩
  exact toBlockKey_valid v h

/-- Key → position → key is the identity on the keys of valid positions, and every such key
decodes to a valid position. -/
theorem C01_key_pos_key (k : Int) (h : ValidKey k) :
    ValidBlockPos (Vec3.fromBlockKey k) ∧ (Vec3.fromBlockKey k).toBlockKey = .ok k := by
  obtain ⟨h1, h2⟩ := keyOf_fromBlockKey k h
  exact ⟨h1, by rw [toBlockKey_valid _ h1, h2]⟩

/-- The valid keys are exactly the keys of valid positions. -/
theorem C01_valid_keys (k : Int) : ValidKey k ↔ ∃ v, ValidBlockPos v ∧ v.toBlockKey = .ok k := by
  constructor
  · intro h
    exact ⟨_, C01_key_pos_key k h⟩
  · rintro ⟨v, hv, hk⟩
    obtain ⟨k', h1, h2, h3, _⟩ := C01_pos_key_pos v hv
    rw [h1] at hk; injection hk with hk; exact hk ▸ h3

/-- No two blocks share a key. -/
theorem C01_no_shared_key (v w : Vec3) (k : Int) (hv : v.toBlockKey = .ok k)
    (hw : w.toBlockKey = .ok k) : v = w := by
  have hV : ValidBlockPos v := by
    apply Classical.byContradiction; intro h
    obtain ⟨w, hw⟩ := toBlockKey_invalid v h
    rw [hw] at hv; cases hv
  have hW : ValidBlockPos w := by
    apply Classical.byContradiction; intro h
    obtain ⟨w', hw'⟩ := toBlockKey_invalid w h
    rw [hw'] at hw; cases hw
  obtain ⟨k1, a1, -, -, a4⟩ := C01_pos_key_pos v hV
  obtain ⟨k2, b1, -, -, b4⟩ := C01_pos_key_pos w hW
  rw [a1] at hv; rw [b1] at hw
  injection hv with hv; injection hw with hw
  rw [← a4, ← b4, hv, hw]

example : (⟨-42, 2047, -99⟩ : Vec3).toBlockKey = .ok (-42 + 2047 * 4096 + -99 * 16777216) ∧
    Vec3.fromBlockKey (-42 + 2047 * 4096 + -99 * 16777216) = ⟨-42, 2047, -99⟩ ∧
    ValidBlockPos ⟨-42, 2047, -99⟩ := by decide

/-! ## C02 Out-of-range block positions are refused -/

/-- `to_block_key` stops the program for every position outside the cube; in particular it never
answers with a key. -/
theorem C02_out_of_range_refused (v : Vec3) (h : ¬ ValidBlockPos v) :
    ∃ why, v.toBlockKey = .error (.panic why) :=
  toBlockKey_invalid v h

/-- A key that is returned is always the key of a position in range (no aliasing). -/
theorem C02_never_aliased (v : Vec3) (k : Int) (h : v.toBlockKey = .ok k) :
    ValidBlockPos v ∧ k = keyOf v := by
  have hV : ValidBlockPos v := by
    apply Classical.byContradiction; intro h'
    obtain ⟨w, hw⟩ := toBlockKey_invalid v h'
    rw [hw] at h; cases h
  obtain ⟨k1, a1, a2, -, -⟩ := C01_pos_key_pos v hV
  rw [a1] at h; injection h with h
  exact ⟨hV, h ▸ a2⟩

example : ¬ ValidBlockPos ⟨0, 2048, 0⟩ ∧ (⟨0, 2048, 0⟩ : Vec3).toBlockKey ≠ .ok (2048 * 4096) := by
  decide

/-! ## C03 Area built from two corners -/

/-- Membership in the area of two corners, in any order. -/
theorem C03_from_unsorted (a b p : Vec3) :
    (Area.fromUnsorted a b).contains p = true ↔
      ((a.x ≤ p.x ∧ p.x ≤ b.x) ∨ (b.x ≤ p.x ∧ p.x ≤ a.x)) ∧
      ((a.y ≤ p.y ∧ p.y ≤ b.y) ∨ (b.y ≤ p.y ∧ p.y ≤ a.y)) ∧
      ((a.z ≤ p.z ∧ p.z ≤ b.z) ∨ (b.z ≤ p.z ∧ p.z ≤ a.z)) := by
  simp only [contains_iff, Area.fromUnsorted]
  omega

/-- The order of the corners does not matter. -/
theorem C03_corner_order (a b : Vec3) : Area.fromUnsorted a b = Area.fromUnsorted b a := by
  simp only [Area.fromUnsorted, Int.min_comm, Int.max_comm]

/-- The area is valid and contains both corners (so it is never empty). -/
theorem C03_valid (a b : Vec3) : (Area.fromUnsorted a b).isValid = true ∧
    (Area.fromUnsorted a b).contains a = true ∧ (Area.fromUnsorted a b).contains b = true := by
  simp only [isValid_iff, contains_iff, Area.fromUnsorted]
  omega

example : Area.fromUnsorted ⟨10, 80, 42⟩ ⟨10, -50, 99⟩ = ⟨⟨10, -50, 42⟩, ⟨10, 80, 99⟩⟩ := by decide

/-! ## C04 Iterating an area -/

/-- For every valid area the iterator ends, and the sequence it yields contains exactly the
positions of the area, in strictly ascending z-y-x order (hence each once). -/
theorem C04_iteration (a : Area) (h : a.isValid = true) :
    ∃ l, (∃ n, ∀ m, n ≤ m → (AreaIter.new a.min a.max).drain m = (l, true)) ∧
      (∀ p, p ∈ l ↔ InBox a.min a.max p) ∧ l.Pairwise ZyxLt := by
  refine ⟨a.zyx, ⟨_, drain_area_ge a h⟩, ?_, pairwise_zyx a⟩
  intro p; rw [mem_zyx]

/-- Strictly ascending implies each position occurs once. -/
theorem C04_each_once (a : Area) (h : a.isValid = true) :
    a.positions.Nodup ∧ ∀ p, p ∈ a.positions ↔ a.contains p = true := by
  rw [positions_eq a h]
  refine ⟨nodup_zyx a, fun p => ?_⟩
  rw [mem_zyx, contains_iff]; rfl

example : (⟨⟨0, -1, 2⟩, ⟨1, 0, 2⟩⟩ : Area).isValid = true ∧
    (⟨⟨0, -1, 2⟩, ⟨1, 0, 2⟩⟩ : Area).positions
      = [⟨0, -1, 2⟩, ⟨1, -1, 2⟩, ⟨0, 0, 2⟩, ⟨1, 0, 2⟩] := by decide

/-! ## C05 Inverse iteration -/

/-- For every box inside a block, the inverse iterator ends after yielding exactly the indices
0..4095 whose node is outside the box, ascending. -/
theorem C05_inverse_iteration (a : Area) (h : a.isValid = true)
    (hlo : 0 ≤ a.min.x ∧ 0 ≤ a.min.y ∧ 0 ≤ a.min.z) (hhi : a.max.x ≤ 15 ∧ a.max.y ≤ 15 ∧ a.max.z ≤ 15) :
    ∃ it l, InvIter.new a = .ok it ∧ it.drain 4097 = (l, true) ∧ l.Pairwise (· < ·) ∧
      ∀ i, i ∈ l ↔ i < 4096 ∧
        ¬ InBox a.min a.max ⟨((i % 16 : Nat) : Int), ((i / 16 % 16 : Nat) : Int), ((i / 256 : Nat) : Int)⟩ := by
  have hb : LocalBox a := by
    simp only [isValid_iff] at h
    unfold LocalBox; omega
  obtain ⟨it, h1, h2⟩ := invDrain_area a hb
  refine ⟨it, _, h1, h2, ?_, ?_⟩
  · exact List.Pairwise.filter _ List.pairwise_lt_range
  · intro i
    rw [List.mem_filter, List.mem_range, outIdx_iff]
    constructor
    · rintro ⟨hi, hn⟩
      have : i / 256 % 16 = i / 256 := by omega
      rw [this] at hn
      exact ⟨hi, hn⟩
    · rintro ⟨hi, hn⟩
      have : i / 256 % 16 = i / 256 := by omega
      rw [this]
      exact ⟨hi, hn⟩

/-- So a loop over the iterator visits exactly these indices, each once. -/
theorem C05_indices (a : Area) (h : a.isValid = true)
    (hlo : 0 ≤ a.min.x ∧ 0 ≤ a.min.y ∧ 0 ≤ a.min.z) (hhi : a.max.x ≤ 15 ∧ a.max.y ≤ 15 ∧ a.max.z ≤ 15) :
    ∃ l, inverseIndices a = .ok l ∧ l.Pairwise (· < ·) ∧
      ∀ i, i ∈ l ↔ i < 4096 ∧
        ¬ InBox a.min a.max ⟨((i % 16 : Nat) : Int), ((i / 16 % 16 : Nat) : Int), ((i / 256 : Nat) : Int)⟩ := by
  obtain ⟨it, l, h1, h2, h3, h4⟩ := C05_inverse_iteration a h hlo hhi
  refine ⟨l, ?_, h3, h4⟩
  unfold inverseIndices
  rw [h1]
  show Except.ok _ = _
  rw [h2]

/-- A box reaching outside the block is refused. -/
theorem C05_outside_refused (a : Area)
    (h : a.min.x < 0 ∨ a.min.y < 0 ∨ a.min.z < 0 ∨ 15 < a.max.x ∨ 15 < a.max.y ∨ 15 < a.max.z) :
    ∃ why, inverseIndices a = .error (.panic why) := by
  unfold inverseIndices InvIter.new rassert
  rw [if_neg (by simp; omega)]
  exact ⟨_, rfl⟩

/-- A non-trivial box: all but the last row of the block is selected. -/
def exBox : Area := ⟨⟨0, 0, 0⟩, ⟨15, 15, 14⟩⟩

example : exBox.isValid = true ∧ (0 ≤ exBox.min.x ∧ 0 ≤ exBox.min.y ∧ 0 ≤ exBox.min.z)
    ∧ (exBox.max.x ≤ 15 ∧ exBox.max.y ≤ 15 ∧ exBox.max.z ≤ 15)
    ∧ ¬ InBox exBox.min exBox.max ⟨3, 0, 15⟩ := by decide

/-! ## C06 Containing and touching blocks -/

/-- `contains_block` holds iff all nodes of the block are in the area. -/
theorem C06_contains_block (a : Area) (bp : Vec3) :
    a.containsBlock bp = true ↔ ∀ p, InBlock bp p → InBox a.min a.max p := by
  simp only [containsBlock_iff]
  constructor
  · intro h p hp
    unfold InBlock at hp; unfold InBox; omega
  · intro h
    have h1 := h ⟨bp.x * 16, bp.y * 16, bp.z * 16⟩ (by unfold InBlock; simp only; omega)
    have h2 := h ⟨bp.x * 16 + 15, bp.y * 16 + 15, bp.z * 16 + 15⟩ (by unfold InBlock; simp only; omega)
    unfold InBox at h1 h2; simp only at h1 h2; omega

/-- `touches_block` holds iff some node of the block is in the (valid) area. -/
theorem C06_touches_block (a : Area) (h : a.isValid = true) (bp : Vec3) :
    a.touchesBlock bp = true ↔ ∃ p, InBlock bp p ∧ InBox a.min a.max p := by
  simp only [isValid_iff] at h
  simp only [touchesBlock_iff]
  constructor
  · intro ht
    refine ⟨⟨max a.min.x (bp.x * 16), max a.min.y (bp.y * 16), max a.min.z (bp.z * 16)⟩, ?_, ?_⟩
    · unfold InBlock; simp only; omega
    · unfold InBox; simp only; omega
  · rintro ⟨p, h1, h2⟩
    unfold InBlock at h1; unfold InBox at h2; omega

/-- The contained block area has exactly the contained blocks; it is absent iff there are none. -/
theorem C06_contained_area (a : Area) (bp : Vec3) :
    (∃ c, a.toContainedBlockArea = some c ∧ c.contains bp = true) ↔
      ∀ p, InBlock bp p → InBox a.min a.max p := by
  rw [← C06_contains_block]
  simp only [Area.toContainedBlockArea, filterValid_some, containsBlock_iff]
  constructor
  · rintro ⟨c, ⟨h1, rfl⟩, h2⟩
    rw [contains_iff] at h2; simp only at h2; omega
  · intro h
    refine ⟨_, ⟨?_, rfl⟩, ?_⟩
    · rw [isValid_iff]; simp only; omega
    · rw [contains_iff]; simp only; omega

theorem C06_contained_area_none (a : Area) :
    a.toContainedBlockArea = none ↔ ∀ bp, ¬ ∀ p, InBlock bp p → InBox a.min a.max p := by
  constructor
  · intro h bp hc
    obtain ⟨c, h1, -⟩ := (C06_contained_area a bp).2 hc
    rw [h] at h1; cases h1
  · intro h
    cases hc : a.toContainedBlockArea with
    | none => rfl
    | some c =>
      exfalso
      apply h c.min
      apply (C06_contained_area a c.min).1
      refine ⟨c, hc, ?_⟩
      simp only [Area.toContainedBlockArea, filterValid_some] at hc
      obtain ⟨hv, rfl⟩ := hc
      rw [isValid_iff] at hv
      rw [contains_iff]; simp only at hv ⊢; omega

/-- The touching block area has exactly the touched blocks. -/
theorem C06_touching_area (a : Area) (h : a.isValid = true) (bp : Vec3) :
    a.toTouchingBlockArea.contains bp = true ↔ ∃ p, InBlock bp p ∧ InBox a.min a.max p := by
  rw [← C06_touches_block a h]
  simp only [touchesBlock_iff, contains_iff, Area.toTouchingBlockArea]
  omega

example : (⟨⟨-1, -32, 16⟩, ⟨30, -17, 54⟩⟩ : Area).toContainedBlockArea
      = some ⟨⟨0, -2, 1⟩, ⟨0, -2, 2⟩⟩ ∧
    (⟨⟨16, 0, 1⟩, ⟨31, 15, 15⟩⟩ : Area).toContainedBlockArea = none := by decide

/-! ## C07 Overlap of an area with a block -/

/-- The absolute overlap contains exactly the common nodes, and is absent iff there are none. -/
theorem C07_abs_overlap (a : Area) (bp : Vec3) :
    (∀ o, a.absBlockOverlap bp = some o → o.isValid = true ∧
      ∀ p, InBox o.min o.max p ↔ InBlock bp p ∧ InBox a.min a.max p) ∧
    (a.absBlockOverlap bp = none ↔ ¬ ∃ p, InBlock bp p ∧ InBox a.min a.max p) := by
  simp only [Area.absBlockOverlap, filterValid_some, filterValid_none]
  simp only [Vec3.mulS, Vec3.addS]
  constructor
  · rintro o ⟨hv, rfl⟩
    refine ⟨hv, fun p => ?_⟩
    unfold InBox InBlock; simp only; omega
  · constructor
    · intro hv
      · simp only [isValid_iff] at hv
        rintro ⟨p, h1, h2⟩
        unfold InBlock at h1; unfold InBox at h2; omega
    · intro hn hv
      simp only [isValid_iff] at hv
      apply hn
      refine ⟨⟨max a.min.x (bp.x * 16), max a.min.y (bp.y * 16), max a.min.z (bp.z * 16)⟩, ?_, ?_⟩
      · unfold InBlock; simp only; omega
      · unfold InBox; simp only; omega

/-- The relative overlap is the absolute one shifted to block-local coordinates; it lies within
0..15 and is absent exactly when the absolute one is. -/
theorem C07_rel_overlap (a : Area) (bp : Vec3) :
    (∀ o, a.relBlockOverlap bp = some o →
      o.isValid = true ∧ 0 ≤ o.min.x ∧ 0 ≤ o.min.y ∧ 0 ≤ o.min.z ∧
      o.max.x ≤ 15 ∧ o.max.y ≤ 15 ∧ o.max.z ≤ 15 ∧
      ∀ p, InBox o.min o.max p ↔
        InBlock bp (shift p ⟨bp.x * 16, bp.y * 16, bp.z * 16⟩) ∧
        InBox a.min a.max (shift p ⟨bp.x * 16, bp.y * 16, bp.z * 16⟩)) ∧
    (a.relBlockOverlap bp = none ↔ ¬ ∃ p, InBlock bp p ∧ InBox a.min a.max p) := by
  simp only [Area.relBlockOverlap, filterValid_some, filterValid_none]
  simp only [Vec3.mulS, Vec3.sub]
  constructor
  · rintro o ⟨hv, rfl⟩
    refine ⟨hv, by simp only; omega, by simp only; omega, by simp only; omega, by simp only; omega,
      by simp only; omega, by simp only; omega, fun p => ?_⟩
    unfold InBox InBlock shift; simp only; omega
  · constructor
    · intro hv
      · simp only [isValid_iff] at hv
        rintro ⟨p, h1, h2⟩
        unfold InBlock at h1; unfold InBox at h2; omega
    · intro hn hv
      simp only [isValid_iff] at hv
      apply hn
      refine ⟨⟨max a.min.x (bp.x * 16), max a.min.y (bp.y * 16), max a.min.z (bp.z * 16)⟩, ?_, ?_⟩
      · unfold InBlock; simp only; omega
      · unfold InBox; simp only; omega

example : (⟨⟨-3, -3, -3⟩, ⟨15, 15, 15⟩⟩ : Area).absBlockOverlap ⟨-1, 0, 0⟩
      = some ⟨⟨-3, 0, 0⟩, ⟨-1, 15, 15⟩⟩ ∧
    (⟨⟨-3, -3, -3⟩, ⟨15, 15, 15⟩⟩ : Area).relBlockOverlap ⟨-1, 0, 0⟩
      = some ⟨⟨13, 0, 0⟩, ⟨15, 15, 15⟩⟩ ∧
    (⟨⟨-3, -3, -3⟩, ⟨15, 15, 15⟩⟩ : Area).relBlockOverlap ⟨1, 1, 1⟩ = none := by decide

/-! ## C08 Volume -/

/-- The volume of a valid area is the number of positions the iterator yields. -/
theorem C08_volume (a : Area) (h : a.isValid = true) :
    ∃ l, (AreaIter.new a.min a.max).drain (a.volume + 1) = (l, true) ∧ l.length = a.volume := by
  refine ⟨a.zyx, drain_area_ge a h _ (Nat.le_refl _), ?_⟩
  exact length_zyx a

example : (⟨⟨1, -3000, 800⟩, ⟨4000, 999, 4799⟩⟩ : Area).volume = 4000 ^ 3 ∧
    (⟨⟨1, -3000, 800⟩, ⟨4000, 999, 4799⟩⟩ : Area).isValid = true := by decide

/-! ## C09 Intersection and translation -/

/-- The intersection contains exactly the common nodes; it is absent iff there are none. -/
theorem C09_intersection (a b : Area) :
    (∀ o, a.intersection b = some o → o.isValid = true ∧
      ∀ p, InBox o.min o.max p ↔ InBox a.min a.max p ∧ InBox b.min b.max p) ∧
    (a.intersection b = none ↔ ¬ ∃ p, InBox a.min a.max p ∧ InBox b.min b.max p) := by
  simp only [Area.intersection, filterValid_some, filterValid_none]
  constructor
  · rintro o ⟨hv, rfl⟩
    refine ⟨hv, fun p => ?_⟩
    unfold InBox; simp only; omega
  · constructor
    · intro hv
      · simp only [isValid_iff] at hv
        rintro ⟨p, h1, h2⟩
        unfold InBox at h1 h2; omega
    · intro hn hv
      simp only [isValid_iff] at hv
      apply hn
      refine ⟨⟨max a.min.x b.min.x, max a.min.y b.min.y, max a.min.z b.min.z⟩, ?_, ?_⟩
      · unfold InBox; simp only; omega
      · unfold InBox; simp only; omega

/-- Translating an area translates its nodes; subtracting undoes adding. -/
theorem C09_translation (a : Area) (v p : Vec3) :
    ((a.add v).contains (shift p v) = true ↔ a.contains p = true) ∧
    ((a.sub v).contains p = true ↔ a.contains (shift p v) = true) ∧
    (a.add v).sub v = a := by
  refine ⟨?_, ?_, ?_⟩
  · simp only [contains_iff, Area.add, Vec3.add, shift]; omega
  · simp only [contains_iff, Area.sub, Vec3.sub, shift]; omega
  · ext <;> simp only [Area.add, Area.sub, Vec3.add, Vec3.sub] <;> omega

example : (⟨⟨-10, -8, -10⟩, ⟨10, 8, 10⟩⟩ : Area).intersection ⟨⟨-12, 0, -2⟩, ⟨-8, 13, 2⟩⟩
      = some ⟨⟨-10, 0, -2⟩, ⟨-8, 8, 2⟩⟩ ∧
    (⟨⟨0, 0, 0⟩, ⟨2, 2, 2⟩⟩ : Area).intersection ⟨⟨0, -1, 3⟩, ⟨2, 1, 5⟩⟩ = none := by decide

/-! ## C10 No coordinate arithmetic overflows -/

/-- An area accepted by argument checking (`src/instance.rs` `verify_args`): sorted corners within
±31000. -/
def AcceptedArea (a : Area) : Prop :=
  a.isValid = true ∧ -31000 ≤ a.min.x ∧ a.max.x ≤ 31000 ∧ -31000 ≤ a.min.y ∧ a.max.y ≤ 31000 ∧
    -31000 ≤ a.min.z ∧ a.max.z ≤ 31000

/-- An offset accepted by argument checking: within ±62000. -/
def AcceptedOffset (v : Vec3) : Prop :=
  -62000 ≤ v.x ∧ v.x ≤ 62000 ∧ -62000 ≤ v.y ∧ v.y ≤ 62000 ∧ -62000 ≤ v.z ∧ v.z ≤ 62000

/-- In both builds, every coordinate computation on an accepted area, its image under an accepted
offset, and a block with a valid key yields the exact mathematical value. -/
theorem C10_no_overflow (b : Build) (a : Area) (ofs : Vec3) (k : Int) (bp : Vec3)
    (ha : AcceptedArea a) (ho : AcceptedOffset ofs) (hk : ValidKey k)
    (hbp : bp = Vec3.fromBlockKey k) :
    Checked.fromBlockKey b k = .ok bp ∧
    Checked.toBlockKey b bp = .ok k ∧
    Checked.areaAdd b a ofs = .ok (a.add ofs) ∧
    Checked.volume b a = .ok (a.volume : Int) ∧
    Checked.cloneSortKey b ofs k =
      .ok (keyOf ⟨if ofs.x > 0 then -bp.x - 1 else bp.x, if ofs.y > 0 then -bp.y - 1 else bp.y,
        if ofs.z > 0 then -bp.z - 1 else bp.z⟩) ∧
    -- for the area itself and for the shifted area (the destination of clone/overlay)
    (∀ a', a' = a ∨ a' = a.add ofs →
      Checked.containsBlock b a' bp = .ok (a'.containsBlock bp) ∧
      Checked.touchesBlock b a' bp = .ok (a'.touchesBlock bp) ∧
      Checked.toContainedBlockArea b a' = .ok a'.toContainedBlockArea ∧
      Checked.absBlockOverlap b a' bp = .ok (a'.absBlockOverlap bp) ∧
      Checked.relBlockOverlap b a' bp = .ok (a'.relBlockOverlap bp)) ∧
    -- the part of a destination block, shifted back to the source
    (∀ o, (a.add ofs).absBlockOverlap bp = some o →
      Checked.areaSub b o ofs = .ok (o.sub ofs)) ∧
    (Checked.areaSub b ⟨bp.mulS 16, (bp.mulS 16).addS 15⟩ ofs
      = .ok (Area.sub ⟨bp.mulS 16, (bp.mulS 16).addS 15⟩ ofs)) ∧
    -- absolute position of a node of the block
    (∀ i, Checked.vadd b (Vec3.fromU16Key i) (bp.mulS 16) = .ok ((Vec3.fromU16Key i).add (bp.mulS 16))) := by
  obtain ⟨hp, hkey⟩ := keyOf_fromBlockKey k hk
  rw [← hbp] at hp hkey
  obtain ⟨hv, ha⟩ := ha
  simp only [isValid_iff] at hv
  have hp' := hp
  unfold ValidBlockPos at hp'
  unfold AcceptedOffset at ho
  have hadd : Checked.areaAdd b a ofs = .ok (a.add ofs) :=
    Checked.areaAdd_eq b a ofs (by omega) (by omega) (by omega) (by omega) (by omega) (by omega)
  refine ⟨?_, ?_, hadd, ?_, ?_, ?_, ?_, ?_, ?_⟩
  · rw [Checked.fromBlockKey_eq b k hk, hbp]
  · rw [Checked.toBlockKey_eq b bp, toBlockKey_valid bp hp, hkey]
  · exact Checked.volume_eq b a (by omega) (by omega) (by omega) (by omega) (by omega) (by omega)
  · rw [Checked.cloneSortKey_eq b ofs k hk, ← hbp]
  · rintro a' (rfl | rfl)
    · exact Checked.areaFns_eq b _ bp hp (by omega) (by omega) (by omega) (by omega) (by omega) (by omega)
    · apply Checked.areaFns_eq b _ bp hp <;> simp only [Area.add, Vec3.add] <;> omega
  · intro o ho'
    simp only [Area.absBlockOverlap, filterValid_some] at ho'
    obtain ⟨hv', rfl⟩ := ho'
    simp only [isValid_iff, Area.add, Vec3.add, Vec3.mulS, Vec3.addS] at hv'
    apply Checked.areaSub_eq <;> simp only [Area.add, Vec3.add, Vec3.mulS, Vec3.addS] <;> omega
  · apply Checked.areaSub_eq <;> simp only [Vec3.mulS, Vec3.addS] <;> omega
  · intro i
    rw [fromU16Key_eq]
    apply Checked.vadd_eq <;> simp only [Vec3.mulS] <;> omega

/-- What goes wrong without the check: an unchecked corner overflows in the debug build. -/
example : ∃ why, Checked.areaAdd .debug ⟨⟨0, 0, 0⟩, ⟨2147483647, 0, 0⟩⟩ ⟨1, 0, 0⟩ = .error (.panic why) :=
  ⟨_, rfl⟩

example : AcceptedArea ⟨⟨-31000, 0, 5⟩, ⟨31000, 100, 6⟩⟩ ∧ AcceptedOffset ⟨62000, -62000, 1⟩ ∧
    ValidKey (-34368129024) := by
  refine ⟨?_, ?_, ?_⟩
  · unfold AcceptedArea; decide
  · unfold AcceptedOffset; decide
  · decide

/-! ## C11 Node indices and coordinates -/

/-- Decoding an index gives block-local coordinates that encode to the index. -/
theorem C11_index_pos_index (i : Nat) (h : i < 4096) :
    InBox ⟨0, 0, 0⟩ ⟨15, 15, 15⟩ (Vec3.fromU16Key i) ∧ idxOf (Vec3.fromU16Key i) = i ∧
    (Vec3.fromU16Key i).x + 16 * ((Vec3.fromU16Key i).y + 16 * (Vec3.fromU16Key i).z) = i := by
  rw [fromU16Key_eq]
  refine ⟨?_, ?_, ?_⟩
  · unfold InBox; simp only; omega
  · unfold idxOf; simp only; omega
  · simp only; omega

/-- Encoding a block-local position gives an index that decodes to the position. -/
theorem C11_pos_index_pos (p : Vec3) (h : InBox ⟨0, 0, 0⟩ ⟨15, 15, 15⟩ p) :
    ∃ i : Nat, i < 4096 ∧ (i : Int) = p.x + 16 * p.y + 256 * p.z ∧ Vec3.fromU16Key i = p := by
  unfold InBox at h; simp only at h
  refine ⟨(p.x + 16 * p.y + 256 * p.z).toNat, by omega, by omega, ?_⟩
  rw [fromU16Key_eq]
  ext <;> simp only <;> omega

/-- Distinct positions of a block have distinct indices, distinct indices distinct positions. -/
theorem C11_injective (i j : Nat) (hi : i < 4096) (hj : j < 4096)
    (h : Vec3.fromU16Key i = Vec3.fromU16Key j) : i = j := by
  rw [← (C11_index_pos_index i hi).2.1, ← (C11_index_pos_index j hj).2.1, h]

example : Vec3.fromU16Key 0x9F5 = ⟨5, 15, 9⟩ ∧ 0x9F5 < 4096 := by decide

end MapEditr
