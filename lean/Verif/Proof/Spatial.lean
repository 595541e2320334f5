import Verif.Spec.Geometry
/-!
# Helper lemmas about positions, areas and iterators
-/

namespace MapEditr
open Spec

theorem wrapI32_id {n : Int} (h1 : -2147483648 ≤ n) (h2 : n ≤ 2147483647) : wrapI32 n = n := by
  unfold wrapI32; omega

theorem wrapI32_range (n : Int) : -2147483648 ≤ wrapI32 n ∧ wrapI32 n ≤ 2147483647 := by
  unfold wrapI32; omega

theorem tdiv_exact (a : Int) (b : Int) (_hb : 0 < b) (h : a % b = 0) : a.tdiv b = a / b := by
  have hd : b ∣ a := Int.dvd_of_emod_eq_zero h
  rw [Int.tdiv_eq_ediv_of_dvd hd]

/-- Closed form of `from_block_key`. -/
theorem fromBlockKey_eq (k : Int) : Vec3.fromBlockKey k =
    let x := (k + 2048) % 4096 - 2048
    let r := (k - x) / 4096
    let y := (r + 2048) % 4096 - 2048
    ⟨x, y, wrapI32 ((r - y) / 4096)⟩ := by
  unfold Vec3.fromBlockKey
  simp only
  have h1 : (k - ((k + 2048) % 4096 - 2048)) % 4096 = 0 := by omega
  rw [tdiv_exact _ _ (by omega) h1]
  generalize (k - ((k + 2048) % 4096 - 2048)) / 4096 = r
  have h2 : (r - ((r + 2048) % 4096 - 2048)) % 4096 = 0 := by omega
  rw [tdiv_exact _ _ (by omega) h2]
  rw [wrapI32_id (n := (k + 2048) % 4096 - 2048) (by omega) (by omega),
    wrapI32_id (n := (r + 2048) % 4096 - 2048) (by omega) (by omega)]

theorem fromBlockKey_keyOf (v : Vec3) (h : ValidBlockPos v) : Vec3.fromBlockKey (keyOf v) = v := by
  obtain ⟨x, y, z⟩ := v
  obtain ⟨h1, h2, h3, h4, h5, h6⟩ := h
  simp only at h1 h2 h3 h4 h5 h6
  rw [fromBlockKey_eq]
  simp only [keyOf]
  have e1 : (x + 4096 * y + 16777216 * z + 2048) % 4096 - 2048 = x := by omega
  rw [e1]
  have e2 : (x + 4096 * y + 16777216 * z - x) / 4096 = y + 4096 * z := by omega
  rw [e2]
  have e3 : (y + 4096 * z + 2048) % 4096 - 2048 = y := by omega
  rw [e3]
  have e4 : (y + 4096 * z - y) / 4096 = z := by omega
  rw [e4, wrapI32_id (by omega) (by omega)]

theorem keyOf_fromBlockKey (k : Int) (h : ValidKey k) :
    ValidBlockPos (Vec3.fromBlockKey k) ∧ keyOf (Vec3.fromBlockKey k) = k := by
  obtain ⟨h1, h2⟩ := h
  rw [fromBlockKey_eq]
  simp only
  rw [wrapI32_id (by omega) (by omega)]
  constructor
  · refine ⟨?_, ?_, ?_, ?_, ?_, ?_⟩ <;> simp only <;> omega
  · simp only [keyOf]; omega

theorem keyOf_valid (v : Vec3) (h : ValidBlockPos v) : ValidKey (keyOf v) := by
  obtain ⟨h1, h2, h3, h4, h5, h6⟩ := h
  unfold ValidKey keyOf; omega

theorem keyOf_inj (v w : Vec3) (hv : ValidBlockPos v) (hw : ValidBlockPos w)
    (h : keyOf v = keyOf w) : v = w := by
  rw [← fromBlockKey_keyOf v hv, ← fromBlockKey_keyOf w hw, h]

theorem toBlockKey_valid (v : Vec3) (h : ValidBlockPos v) : v.toBlockKey = .ok (keyOf v) := by
  obtain ⟨h1, h2, h3, h4, h5, h6⟩ := h
  unfold Vec3.toBlockKey rassert
  rw [if_pos (by simp; omega)]
  show Except.ok _ = _
  congr 1
  unfold keyOf; omega

theorem toBlockKey_invalid (v : Vec3) (h : ¬ ValidBlockPos v) :
    ∃ w, v.toBlockKey = .error (.panic w) := by
  unfold Vec3.toBlockKey rassert
  rw [if_neg (by simp; unfold ValidBlockPos at h; omega)]
  exact ⟨_, rfl⟩

/-! ### Bit masks of node indices -/

theorem fromU16Key_eq (k : Nat) : Vec3.fromU16Key k =
    ⟨((k % 16 : Nat) : Int), ((k / 16 % 16 : Nat) : Int), ((k / 256 % 16 : Nat) : Int)⟩ := by
  unfold Vec3.fromU16Key
  have h : ∀ n : Nat, n &&& 0xF = n % 16 := fun n => Nat.and_two_pow_sub_one_eq_mod n 4
  rw [h, h, h, Nat.shiftRight_eq_div_pow, Nat.shiftRight_eq_div_pow]

/-! ### Ranges and boxes -/

theorem mem_rangeI (lo hi x : Int) : x ∈ rangeI lo hi ↔ lo ≤ x ∧ x ≤ hi := by
  unfold rangeI
  simp only [List.mem_map, List.mem_range]
  constructor
  · rintro ⟨i, hi', rfl⟩; omega
  · intro h; exact ⟨(x - lo).toNat, by omega, by omega⟩

theorem length_rangeI (lo hi : Int) : (rangeI lo hi).length = (hi - lo + 1).toNat := by
  simp [rangeI]

theorem rangeI_empty (lo hi : Int) (h : hi < lo) : rangeI lo hi = [] := by
  unfold rangeI
  rw [show (hi - lo + 1).toNat = 0 by omega]; rfl

theorem rangeI_cons (lo hi : Int) (h : lo ≤ hi) : rangeI lo hi = lo :: rangeI (lo + 1) hi := by
  unfold rangeI
  rw [show (hi - lo + 1).toNat = (hi - (lo + 1) + 1).toNat + 1 by omega, List.range_succ_eq_map]
  simp only [List.map_cons, List.map_map]
  congr 1
  · simp
  · apply List.map_congr_left
    intro a _
    simp only [Function.comp]
    omega

theorem pairwise_rangeI (lo hi : Int) : (rangeI lo hi).Pairwise (· < ·) := by
  unfold rangeI
  rw [List.pairwise_map]
  exact List.pairwise_lt_range.imp (by intro a b h; omega)

theorem mem_zyx (a : Area) (p : Vec3) : p ∈ a.zyx ↔ InBox a.min a.max p := by
  obtain ⟨px, py, pz⟩ := p
  unfold Area.zyx InBox
  simp only [List.mem_flatMap, List.mem_map, mem_rangeI]
  constructor
  · rintro ⟨z, hz, y, hy, x, hx, h⟩
    cases h
    exact ⟨hx.1, hx.2, hy.1, hy.2, hz.1, hz.2⟩
  · rintro ⟨h1, h2, h3, h4, h5, h6⟩
    exact ⟨pz, ⟨h5, h6⟩, py, ⟨h3, h4⟩, px, ⟨h1, h2⟩, rfl⟩

theorem pairwise_zyx (a : Area) : a.zyx.Pairwise ZyxLt := by
  unfold Area.zyx
  rw [List.pairwise_flatMap]
  constructor
  · intro z _
    rw [List.pairwise_flatMap]
    constructor
    · intro y _
      rw [List.pairwise_map]
      exact (pairwise_rangeI _ _).imp (by intro x x' h; exact .inr ⟨rfl, .inr ⟨rfl, h⟩⟩)
    · refine (pairwise_rangeI _ _).imp ?_
      intro y y' h p hp q hq
      simp only [List.mem_map] at hp hq
      obtain ⟨_, _, rfl⟩ := hp
      obtain ⟨_, _, rfl⟩ := hq
      exact .inr ⟨rfl, .inl h⟩
  · refine (pairwise_rangeI _ _).imp ?_
    intro z z' h p hp q hq
    simp only [List.mem_flatMap, List.mem_map] at hp hq
    obtain ⟨_, _, _, _, rfl⟩ := hp
    obtain ⟨_, _, _, _, rfl⟩ := hq
    exact .inl h

theorem zyxLt_irrefl (p : Vec3) : ¬ ZyxLt p p := by unfold ZyxLt; omega

theorem nodup_zyx (a : Area) : a.zyx.Nodup := by
  refine (pairwise_zyx a).imp ?_
  intro p q h e
  subst e
  exact zyxLt_irrefl _ h

theorem length_flatMap_const {α β} (l : List α) (f : α → List β) (n : Nat)
    (h : ∀ a ∈ l, (f a).length = n) : (l.flatMap f).length = l.length * n := by
  induction l with
  | nil => simp
  | cons a t ih =>
    simp only [List.flatMap_cons, List.length_append, List.length_cons]
    rw [h a (by simp), ih (fun b hb => h b (by simp [hb])), Nat.succ_mul]; omega

theorem length_zyx (a : Area) : a.zyx.length = a.volume := by
  unfold Area.zyx Area.volume
  rw [length_flatMap_const _ _ ((a.max.y - a.min.y + 1).toNat * (a.max.x - a.min.x + 1).toNat)]
  · rw [length_rangeI]
    generalize (a.max.z - a.min.z + 1).toNat = z
    generalize (a.max.y - a.min.y + 1).toNat = y
    generalize (a.max.x - a.min.x + 1).toNat = x
    rw [Nat.mul_comm z, Nat.mul_comm y]
  · intro z _
    rw [length_flatMap_const _ _ ((a.max.x - a.min.x + 1).toNat)]
    · rw [length_rangeI]
    · intro y _; simp [length_rangeI]

/-! ### `AreaIterator` -/

/-- What is still to be visited from a position inside the box. -/
def remaining (it : AreaIter) : List Vec3 :=
  if it.pos.z > it.max.z then []
  else
    (rangeI it.pos.x it.max.x).map (fun x => ⟨x, it.pos.y, it.pos.z⟩)
    ++ ((rangeI (it.pos.y + 1) it.max.y).flatMap fun y =>
        (rangeI it.min.x it.max.x).map fun x => ⟨x, y, it.pos.z⟩)
    ++ ((rangeI (it.pos.z + 1) it.max.z).flatMap fun z =>
        (rangeI it.min.y it.max.y).flatMap fun y =>
          (rangeI it.min.x it.max.x).map fun x => ⟨x, y, z⟩)

/-- The iterator's position is inside the box, or past its last layer. -/
def IterOk (it : AreaIter) : Prop :=
  it.min.x ≤ it.max.x ∧ it.min.y ≤ it.max.y ∧
  it.min.x ≤ it.pos.x ∧ it.pos.x ≤ it.max.x ∧ it.min.y ≤ it.pos.y ∧ it.pos.y ≤ it.max.y

theorem next_remaining (it : AreaIter) (h : IterOk it) :
    (it.pos.z > it.max.z ∧ it.next = (none, it) ∧ remaining it = []) ∨
    (∃ p it', it.next = (some p, it') ∧ remaining it = p :: remaining it' ∧ IterOk it') := by
  obtain ⟨⟨ix, iy, iz⟩, ⟨ax, ay, az⟩, ⟨px, py, pz⟩⟩ := it
  obtain ⟨h1, h2, h3, h4, h5, h6⟩ := h
  simp only at h1 h2 h3 h4 h5 h6
  by_cases hz : pz > az
  · left; exact ⟨hz, by simp [AreaIter.next, hz], by simp [remaining, hz]⟩
  · right
    refine ⟨⟨px, py, pz⟩, ?_⟩
    unfold AreaIter.next
    simp only [hz, if_false]
    refine ⟨_, rfl, ?_, ?_⟩
    · by_cases hx : px + 1 > ax
      · have hpx : px = ax := by omega
        subst hpx
        simp only [hx, if_true]
        by_cases hy : py + 1 > ay
        · have hpy : py = ay := by omega
          subst hpy
          simp only [hy, if_true]
          unfold remaining
          simp only [hz, if_false]
          rw [rangeI_cons px px (by omega), rangeI_empty (px + 1) px (by omega),
            rangeI_empty (py + 1) py (by omega)]
          simp only [List.map_cons, List.map_nil, List.flatMap_nil, List.append_nil,
            List.cons_append, List.nil_append]
          congr 1
          by_cases hz2 : pz + 1 > az
          · rw [if_pos hz2, rangeI_empty (pz + 1) az (by omega)]; rfl
          · rw [if_neg hz2, rangeI_cons (pz + 1) az (by omega), List.flatMap_cons,
              rangeI_cons iy py (by omega), List.flatMap_cons]
        · simp only [hy, if_false]
          unfold remaining
          simp only [hz, if_false]
          rw [rangeI_cons px px (by omega), rangeI_empty (px + 1) px (by omega),
            rangeI_cons (py + 1) ay (by omega)]
          simp only [List.map_cons, List.map_nil, List.flatMap_cons,
            List.cons_append, List.nil_append]
      · simp only [hx, if_false]
        unfold remaining
        simp only [hz, if_false]
        rw [rangeI_cons px ax (by omega)]
        simp only [List.map_cons, List.cons_append]
    · by_cases hx : px + 1 > ax
      · simp only [hx, if_true]
        by_cases hy : py + 1 > ay
        · simp only [hy, if_true]
          unfold IterOk; simp only; omega
        · simp only [hy, if_false]
          unfold IterOk; simp only; omega
      · simp only [hx, if_false]
        unfold IterOk; simp only; omega

theorem drain_remaining (it : AreaIter) (h : IterOk it) (fuel : Nat)
    (hf : (remaining it).length < fuel) : it.drain fuel = (remaining it, true) := by
  induction fuel generalizing it with
  | zero => omega
  | succ n ih =>
    rcases next_remaining it h with ⟨_, hn, hr⟩ | ⟨p, it', hn, hr, hok⟩
    · simp [AreaIter.drain, hn, hr]
    · rw [hr] at hf ⊢
      simp only [List.length_cons] at hf
      have := ih it' hok (by omega)
      unfold AreaIter.drain
      rw [hn]
      simp only [this]

theorem remaining_new (a : Area) (h : a.isValid) :
    remaining (AreaIter.new a.min a.max) = a.zyx := by
  unfold Area.isValid at h
  simp only [decide_eq_true_eq] at h
  obtain ⟨hx, hy, hz⟩ := h
  unfold remaining AreaIter.new Area.zyx
  simp only
  rw [if_neg (by omega), rangeI_cons a.min.z a.max.z hz, List.flatMap_cons,
    rangeI_cons a.min.y a.max.y hy, List.flatMap_cons]

theorem drain_area (a : Area) (h : a.isValid) :
    (AreaIter.new a.min a.max).drain (a.volume + 1) = (a.zyx, true) := by
  rw [drain_remaining, remaining_new a h]
  · unfold Area.isValid at h
    simp only [decide_eq_true_eq] at h
    unfold IterOk AreaIter.new; simp only; omega
  · rw [remaining_new a h, length_zyx]; omega

theorem isValid_iff (a : Area) : a.isValid = true ↔
    (a.min.x ≤ a.max.x ∧ a.min.y ≤ a.max.y ∧ a.min.z ≤ a.max.z) := decide_eq_true_iff

theorem contains_iff (a : Area) (p : Vec3) : a.contains p = true ↔
    (a.min.x ≤ p.x ∧ p.x ≤ a.max.x ∧ a.min.y ≤ p.y ∧ p.y ≤ a.max.y
    ∧ a.min.z ≤ p.z ∧ p.z ≤ a.max.z) := decide_eq_true_iff

theorem filterValid_some (a o : Area) : a.filterValid = some o ↔ a.isValid = true ∧ a = o := by
  unfold Area.filterValid
  split <;> simp [*]

theorem filterValid_none (a : Area) : a.filterValid = none ↔ ¬ a.isValid = true := by
  unfold Area.filterValid
  split <;> simp [*]

theorem containsBlock_iff (a : Area) (bp : Vec3) : a.containsBlock bp = true ↔
    (a.min.x ≤ bp.x * 16 ∧ bp.x * 16 + 15 ≤ a.max.x ∧ a.min.y ≤ bp.y * 16 ∧ bp.y * 16 + 15 ≤ a.max.y
    ∧ a.min.z ≤ bp.z * 16 ∧ bp.z * 16 + 15 ≤ a.max.z) := by
  unfold Area.containsBlock; exact decide_eq_true_iff

theorem touchesBlock_iff (a : Area) (bp : Vec3) : a.touchesBlock bp = true ↔
    (a.min.x ≤ bp.x * 16 + 15 ∧ bp.x * 16 ≤ a.max.x ∧ a.min.y ≤ bp.y * 16 + 15 ∧ bp.y * 16 ≤ a.max.y
    ∧ a.min.z ≤ bp.z * 16 + 15 ∧ bp.z * 16 ≤ a.max.z) := by
  unfold Area.touchesBlock; exact decide_eq_true_iff

theorem drain_area_ge (a : Area) (h : a.isValid = true) (m : Nat) (hm : a.volume + 1 ≤ m) :
    (AreaIter.new a.min a.max).drain m = (a.zyx, true) := by
  rw [drain_remaining, remaining_new a h]
  · unfold Area.isValid at h
    simp only [decide_eq_true_eq] at h
    unfold IterOk AreaIter.new; simp only; omega
  · rw [remaining_new a h, length_zyx]; omega

theorem positions_eq (a : Area) (h : a.isValid) : a.positions = a.zyx := by
  unfold Area.positions; rw [drain_area a h]


/-! ### `InverseBlockIterator` -/

/-- Index `i` denotes a node outside the area. -/
def outIdx (a : Area) (i : Nat) : Bool := !a.contains (Vec3.fromU16Key i)

theorem outIdx_iff (a : Area) (i : Nat) : outIdx a i = true ↔
    ¬ (a.min.x ≤ ((i % 16 : Nat) : Int) ∧ ((i % 16 : Nat) : Int) ≤ a.max.x
      ∧ a.min.y ≤ ((i / 16 % 16 : Nat) : Int) ∧ ((i / 16 % 16 : Nat) : Int) ≤ a.max.y
      ∧ a.min.z ≤ ((i / 256 % 16 : Nat) : Int) ∧ ((i / 256 % 16 : Nat) : Int) ≤ a.max.z) := by
  unfold outIdx Area.contains
  rw [fromU16Key_eq]
  simp only [Bool.not_eq_true', decide_eq_false_iff_not]

/-- A valid box inside a block. -/
def LocalBox (a : Area) : Prop :=
  0 ≤ a.min.x ∧ a.min.x ≤ a.max.x ∧ a.max.x < 16 ∧ 0 ≤ a.min.y ∧ a.min.y ≤ a.max.y ∧ a.max.y < 16
    ∧ 0 ≤ a.min.z ∧ a.min.z ≤ a.max.z ∧ a.max.z < 16

instance (a : Area) : Decidable (LocalBox a) := by unfold LocalBox; infer_instance

/-- Loop invariant of the inverse iterator. -/
def InvOk (it : InvIter) : Prop :=
  LocalBox it.area ∧ it.skipLen = (it.area.max.x - it.area.min.x + 1).toNat ∧
  (it.canSkip = true →
    it.skipPos.x = it.area.min.x ∧ it.area.min.y ≤ it.skipPos.y ∧ it.skipPos.y ≤ it.area.max.y ∧
    it.area.min.z ≤ it.skipPos.z ∧ it.skipPos.z ≤ it.area.max.z ∧
    it.skipIdx = (it.skipPos.x + it.skipPos.y * 16 + it.skipPos.z * 256).toNat ∧
    it.idx ≤ it.skipIdx ∧ ∀ i, it.idx ≤ i → i < it.skipIdx → outIdx it.area i = true) ∧
  (it.canSkip = false → ∀ i, it.idx ≤ i → i < 4096 → outIdx it.area i = true)

/-- Indices still to be yielded. -/
def invRemaining (it : InvIter) : List Nat :=
  (List.range' it.idx (4096 - it.idx)).filter (outIdx it.area)

theorem skipOnce_ok (it : InvIter) (h : InvOk it) (hc : it.canSkip = true)
    (hi : it.skipIdx ≤ it.idx) :
    InvOk it.skipOnce ∧ invRemaining it.skipOnce = invRemaining it ∧
    (it.skipOnce.canSkip = true → it.skipIdx + 16 ≤ it.skipOnce.skipIdx) := by
  obtain ⟨⟨⟨ix, iy, iz⟩, ⟨ax, ay, az⟩⟩, idx, cs, ⟨sx, sy, sz⟩, si, sl⟩ := it
  obtain ⟨hb, hl, h1, -⟩ := h
  simp only at hc; subst hc
  simp only at hl hi
  obtain ⟨e1, e2, e3, e4, e5, e6, e7, e8⟩ := h1 rfl
  obtain ⟨b1, b2, b3, b4, b5, b6, b7, b8, b9⟩ := hb
  simp only at *
  have hidx : idx = si := by omega
  -- the skipped indices are inside the area
  have hskip : ∀ i, si ≤ i → i < si + sl →
      outIdx ⟨⟨ix, iy, iz⟩, ⟨ax, ay, az⟩⟩ i = false := by
    intro i h1 h2
    rw [Bool.eq_false_iff]
    intro hh
    rw [outIdx_iff] at hh
    simp only at hh
    omega
  have hrem : (List.range' idx (4096 - idx)).filter (outIdx ⟨⟨ix, iy, iz⟩, ⟨ax, ay, az⟩⟩)
      = (List.range' (idx + sl) (4096 - (idx + sl))).filter
          (outIdx ⟨⟨ix, iy, iz⟩, ⟨ax, ay, az⟩⟩) := by
    rw [show 4096 - idx = sl + (4096 - (idx + sl)) by omega, ← List.range'_append_1,
      List.filter_append]
    rw [List.filter_eq_nil_iff.2, List.nil_append]
    intro i hi'
    rw [List.mem_range'_1] at hi'
    rw [hskip i (by omega) (by omega)]; simp
  unfold InvIter.skipOnce
  simp only
  by_cases hy : sy + 1 > ay
  · simp only [hy, if_true]
    by_cases hz : sz + 1 > az
    · simp only [hz, if_true]
      refine ⟨⟨⟨b1, b2, b3, b4, b5, b6, b7, b8, b9⟩, hl, by simp, ?_⟩, hrem.symm, by simp⟩
      intro _ i h1 h2
      simp only at h1
      rw [outIdx_iff]; simp only
      omega
    · simp only [hz, if_false]
      refine ⟨⟨⟨b1, b2, b3, b4, b5, b6, b7, b8, b9⟩, hl, ?_, by simp⟩, hrem.symm, ?_⟩
      · intro _
        refine ⟨e1, by simp only; omega, by simp only; omega, by simp only; omega, by simp only; omega, rfl, by simp only; omega, ?_⟩
        intro i h1 h2
        simp only at h1 h2
        rw [outIdx_iff]; simp only
        omega
      · intro _; omega
  · simp only [hy, if_false]
    refine ⟨⟨⟨b1, b2, b3, b4, b5, b6, b7, b8, b9⟩, hl, ?_, by simp⟩, hrem.symm, ?_⟩
    · intro _
      refine ⟨e1, (by simp only; omega), (by simp only; omega), e4, e5, rfl, (by simp only; omega), ?_⟩
      intro i h1 h2
      simp only at h1 h2
      rw [outIdx_iff]; simp only
      omega
    · intro _; omega

theorem skipLoop_ok (fuel : Nat) (it : InvIter) (h : InvOk it)
    (hf : it.canSkip = true → 4096 ≤ it.skipIdx + 16 * fuel) :
    InvOk (it.skipLoop fuel) ∧ invRemaining (it.skipLoop fuel) = invRemaining it ∧
    ((it.skipLoop fuel).canSkip = true → (it.skipLoop fuel).idx < (it.skipLoop fuel).skipIdx) := by
  induction fuel generalizing it with
  | zero =>
    refine ⟨h, rfl, ?_⟩
    intro hc
    simp only [InvIter.skipLoop] at hc ⊢
    have := hf hc
    obtain ⟨⟨b1, b2, b3, b4, b5, b6, b7, b8, b9⟩, -, h1, -⟩ := h
    obtain ⟨e1, e2, e3, e4, e5, e6, e7, -⟩ := h1 hc
    omega
  | succ n ih =>
    unfold InvIter.skipLoop
    by_cases hcond : (it.canSkip && decide (it.idx ≥ it.skipIdx)) = true
    · rw [if_pos hcond]
      simp only [Bool.and_eq_true, decide_eq_true_eq] at hcond
      obtain ⟨k1, k2, k3⟩ := skipOnce_ok it h hcond.1 hcond.2
      obtain ⟨j1, j2, j3⟩ := ih it.skipOnce k1 (by
        intro hc; have := k3 hc; have := hf hcond.1; omega)
      exact ⟨j1, by rw [j2, k2], j3⟩
    · rw [if_neg hcond]
      refine ⟨h, rfl, ?_⟩
      intro hc
      simp only [hc, Bool.true_and, decide_eq_true_eq] at hcond
      omega

theorem invNext_ok (it : InvIter) (h : InvOk it) :
    (∃ it', it.next = (none, it') ∧ invRemaining it = []) ∨
    (∃ i it', it.next = (some i, it') ∧ invRemaining it = i :: invRemaining it' ∧ InvOk it') := by
  obtain ⟨h1, h2, h3⟩ := skipLoop_ok 257 it h (by intro _; omega)
  unfold InvIter.next
  simp only
  generalize InvIter.skipLoop 257 it = jt at h1 h2 h3
  by_cases hi : jt.idx < 4096
  · right
    rw [if_pos hi]
    refine ⟨_, _, rfl, ?_, ?_⟩
    · rw [← h2]
      unfold invRemaining
      simp only
      rw [show 4096 - jt.idx = (4096 - (jt.idx + 1)) + 1 by omega, List.range'_succ,
        List.filter_cons, if_pos]
      obtain ⟨-, -, g1, g2⟩ := h1
      cases hc : jt.canSkip with
      | true => exact (g1 hc).2.2.2.2.2.2.2 _ (Nat.le_refl _) (h3 hc)
      | false => exact g2 hc _ (Nat.le_refl _) hi
    · obtain ⟨g0, g00, g1, g2⟩ := h1
      refine ⟨g0, g00, ?_, ?_⟩
      · intro hc
        obtain ⟨e1, e2, e3, e4, e5, e6, e7, e8⟩ := g1 hc
        have := h3 hc
        exact ⟨e1, e2, e3, e4, e5, e6, by simp only; omega,
          fun i hi1 hi2 => e8 i (by simp only at hi1; omega) hi2⟩
      · intro hc i hi1 hi2
        exact g2 hc i (by simp only at hi1; omega) hi2
  · left
    rw [if_neg hi]
    refine ⟨_, rfl, ?_⟩
    rw [← h2]
    unfold invRemaining
    rw [show 4096 - jt.idx = 0 by omega]
    rfl

theorem invDrain_ok (fuel : Nat) (it : InvIter) (h : InvOk it)
    (hf : (invRemaining it).length < fuel) : it.drain fuel = (invRemaining it, true) := by
  induction fuel generalizing it with
  | zero => omega
  | succ n ih =>
    rcases invNext_ok it h with ⟨it', hn, hr⟩ | ⟨i, it', hn, hr, hok⟩
    · unfold InvIter.drain; rw [hn, hr]
    · rw [hr] at hf ⊢
      simp only [List.length_cons] at hf
      have := ih it' hok (by omega)
      unfold InvIter.drain
      rw [hn]
      simp only [this]

theorem invNew_ok (a : Area) (h : LocalBox a) :
    ∃ it, InvIter.new a = .ok it ∧ InvOk it ∧ it.idx = 0 ∧ it.area = a := by
  obtain ⟨b1, b2, b3, b4, b5, b6, b7, b8, b9⟩ := h
  unfold InvIter.new rassert
  rw [if_pos (by simp; omega)]
  refine ⟨_, rfl, ⟨⟨b1, b2, b3, b4, b5, b6, b7, b8, b9⟩, rfl, ?_, by simp⟩, rfl, rfl⟩
  intro _
  refine ⟨rfl, Int.le_refl _, b5, Int.le_refl _, b8, rfl, Nat.zero_le _, ?_⟩
  intro i h1 h2
  have h2' : i < (a.min.x + a.min.y * 16 + a.min.z * 256).toNat := h2
  show outIdx a i = true
  rw [outIdx_iff]
  omega

theorem invDrain_area (a : Area) (h : LocalBox a) :
    ∃ it, InvIter.new a = .ok it ∧
      it.drain 4097 = ((List.range 4096).filter (outIdx a), true) := by
  obtain ⟨it, h1, h2, h3, h4⟩ := invNew_ok a h
  refine ⟨it, h1, ?_⟩
  rw [invDrain_ok 4097 it h2]
  · unfold invRemaining
    rw [h3, h4, List.range_eq_range']
  · unfold invRemaining
    rw [h3]
    have := List.length_filter_le (outIdx it.area) (List.range' 0 (4096 - 0))
    rw [List.length_range'] at this
    omega

theorem inverseIndices_eq (a : Area) (h : LocalBox a) :
    inverseIndices a = .ok ((List.range 4096).filter (outIdx a)) := by
  obtain ⟨it, h1, h2⟩ := invDrain_area a h
  unfold inverseIndices
  rw [h1]
  show Except.ok _ = _
  rw [h2]

end MapEditr
