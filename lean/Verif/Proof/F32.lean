import Verif.Model.F32
/-!
# Rounding: error bounds and monotonicity
-/

namespace MapEditr

theorem nearest_spec {a b : Nat} (hb : 0 < b) :
    2 * a ≤ 2 * (nearest a b * b) + b ∧ 2 * (nearest a b * b) ≤ 2 * a + b := by
  have h := Nat.div_add_mod a b
  have h2 := Nat.mod_lt a hb
  rw [Nat.mul_comm] at h
  have e : (a / b + 1) * b = a / b * b + b := by rw [Nat.add_mul, Nat.one_mul]
  unfold nearest
  simp only
  split
  · omega
  · split
    · rw [e]; omega
    · split
      · omega
      · rw [e]; omega

/-- A whole number at least as near as every other stays. -/
theorem nearest_mul {n b : Nat} (hb : 0 < b) : nearest (n * b) b = n := by
  unfold nearest
  simp only [Nat.mul_mod_left, Nat.mul_zero, hb, if_true]
  exact Nat.mul_div_cancel n hb

theorem nearest_mono {a a' b : Nat} (hb : 0 < b) (h : a ≤ a') : nearest a b ≤ nearest a' b := by
  have h1 := Nat.div_add_mod a b
  have h2 := Nat.mod_lt a hb
  have h1' := Nat.div_add_mod a' b
  have h2' := Nat.mod_lt a' hb
  have h3 : a / b ≤ a' / b := Nat.div_le_div_right h
  rcases Nat.eq_or_lt_of_le h3 with he | hl
  · have h4 : a % b ≤ a' % b := by rw [he] at h1; omega
    unfold nearest
    simp only
    rw [he]
    split <;> split <;> (try split) <;> (try split) <;> (try split) <;> omega
  · have h5 : nearest a b ≤ a / b + 1 := by
      unfold nearest
      simp only
      split
      · omega
      · split
        · omega
        · split <;> omega
    have h6 : a' / b ≤ nearest a' b := by
      unfold nearest
      simp only
      split
      · omega
      · split
        · omega
        · split <;> omega
    omega

theorem nearest_scale {a b c : Nat} (hc : 0 < c) : nearest (a * c) (b * c) = nearest a b := by
  unfold nearest
  simp only [Nat.mul_div_mul_right _ _ hc, Nat.mul_mod_mul_right]
  have e1 : 2 * (a % b * c) < b * c ↔ 2 * (a % b) < b := by
    rw [← Nat.mul_assoc]; exact Nat.mul_lt_mul_right hc
  have e2 : b * c < 2 * (a % b * c) ↔ b < 2 * (a % b) := by
    rw [← Nat.mul_assoc]; exact Nat.mul_lt_mul_right hc
  simp only [e1, e2]

/-- The exponent used for `a / b`. -/
def rndExp (a b : Nat) : Nat := Nat.log2 (a / b) - 23

theorem rnd_eq (a b : Nat) : rnd a b = nearest a (b * 2 ^ rndExp a b) * 2 ^ rndExp a b := rfl

theorem rndExp_le {a b : Nat} (h : 2 ^ 23 * b ≤ a) (hb : 0 < b) : 2 ^ 23 * 2 ^ rndExp a b * b ≤ a := by
  have h1 : 2 ^ 23 ≤ a / b := (Nat.le_div_iff_mul_le hb).2 h
  have h0 : a / b ≠ 0 := by omega
  have h2 : 23 ≤ Nat.log2 (a / b) := (Nat.le_log2 h0).2 h1
  have h3 : 2 ^ Nat.log2 (a / b) ≤ a / b := Nat.log2_self_le h0
  unfold rndExp
  rw [← Nat.pow_add, Nat.add_sub_cancel' h2]
  exact (Nat.le_div_iff_mul_le hb).1 h3

theorem lt_rndExp {a b : Nat} (hb : 0 < b) : a < 2 ^ 24 * 2 ^ rndExp a b * b := by
  have h3 : a / b < 2 ^ (Nat.log2 (a / b) + 1) := Nat.lt_log2_self
  unfold rndExp
  rw [← Nat.pow_add]
  have h4 : 2 ^ (Nat.log2 (a / b) + 1) ≤ 2 ^ (24 + (Nat.log2 (a / b) - 23)) :=
    Nat.pow_le_pow_right (by decide) (by omega)
  exact (Nat.div_lt_iff_lt_mul hb).1 (Nat.lt_of_lt_of_le h3 h4)

theorem rndExp_mono {a a' b : Nat} (h : a ≤ a') : rndExp a b ≤ rndExp a' b := by
  unfold rndExp
  have h1 : a / b ≤ a' / b := Nat.div_le_div_right h
  have h2 : Nat.log2 (a / b) ≤ Nat.log2 (a' / b) := by
    rcases Nat.eq_zero_or_pos (a / b) with h0 | h0
    · rw [h0]; simp
    · exact (Nat.le_log2 (by omega)).2 (Nat.le_trans (Nat.log2_self_le (by omega)) h1)
  omega

/-- Relative error at most `2 ^ -24`. -/
theorem rnd_err {a b : Nat} (hb : 0 < b) (h : 2 ^ 23 * b ≤ a) :
    2 ^ 24 * a ≤ 2 ^ 24 * (rnd a b * b) + a ∧ 2 ^ 24 * (rnd a b * b) ≤ 2 ^ 24 * a + a := by
  have hp : 0 < 2 ^ rndExp a b := Nat.pow_pos (by decide)
  have h1 := nearest_spec (a := a) (b := b * 2 ^ rndExp a b) (Nat.mul_pos hb hp)
  have h2 := rndExp_le h hb
  have e : rnd a b * b = nearest a (b * 2 ^ rndExp a b) * (b * 2 ^ rndExp a b) := by
    rw [rnd_eq, Nat.mul_assoc, Nat.mul_comm b]
  rw [e]
  have e2 : 2 ^ 23 * 2 ^ rndExp a b * b = 2 ^ 23 * (b * 2 ^ rndExp a b) := by
    rw [Nat.mul_assoc, Nat.mul_comm b]
  rw [e2] at h2
  generalize nearest a (b * 2 ^ rndExp a b) * (b * 2 ^ rndExp a b) = x at *
  generalize b * 2 ^ rndExp a b = y at *
  omega

/-- Whole numbers of up to 24 bits are exact. -/
theorem rnd_small {n : Nat} (h : n < 2 ^ 24) : rnd n 1 = n := by
  have h0 : rndExp n 1 = 0 := by
    unfold rndExp
    rw [Nat.div_one]
    rcases Nat.eq_zero_or_pos n with rfl | hn
    · decide
    · have := (Nat.log2_lt (by omega)).2 h
      omega
  rw [rnd_eq, h0]
  have := nearest_mul (n := n) (b := 1) (by decide)
  simpa using this

/-- Numbers `x * 2 ^ e` with `x` of up to 24 bits are exact. -/
theorem rnd_exact {x e b : Nat} (hb : 0 < b) (hx : x < 2 ^ 24) (hl : 2 ^ 23 ≤ x) :
    rnd (x * 2 ^ e * b) b = x * 2 ^ e := by
  have hp : 0 < 2 ^ e := Nat.pow_pos (by decide)
  have h0 : rndExp (x * 2 ^ e * b) b = e := by
    unfold rndExp
    rw [Nat.mul_div_cancel _ hb]
    have h1 : Nat.log2 (x * 2 ^ e) = 23 + e := by
      refine (Nat.log2_eq_iff ?_).2 ⟨?_, ?_⟩
      · exact Nat.ne_of_gt (Nat.mul_pos (by omega) hp)
      · rw [Nat.pow_add]
        exact Nat.mul_le_mul_right _ hl
      · rw [show 23 + e + 1 = 24 + e by omega, Nat.pow_add]
        exact Nat.mul_lt_mul_of_pos_right hx hp
    rw [h1]
    omega
  rw [rnd_eq, h0]
  congr 1
  rw [Nat.mul_assoc, Nat.mul_comm (2 ^ e)]
  exact nearest_mul (Nat.mul_pos hb hp)

theorem rnd_mono {a a' b : Nat} (hb : 0 < b) (h : a ≤ a') : rnd a b ≤ rnd a' b := by
  have hk := rndExp_mono (b := b) h
  rcases Nat.eq_or_lt_of_le hk with he | hl
  · rw [rnd_eq, rnd_eq, he]
    exact Nat.mul_le_mul_right _ (nearest_mono (Nat.mul_pos hb (Nat.pow_pos (by decide))) h)
  · -- `a / b < 2 ^ (24 + k) ≤ 2 ^ (23 + k') ≤ a' / b`
    have h1 : rnd a b ≤ 2 ^ 24 * 2 ^ rndExp a b := by
      have hp : 0 < 2 ^ rndExp a b := Nat.pow_pos (by decide)
      have h2 := Nat.le_of_lt (lt_rndExp (a := a) hb)
      rw [rnd_eq]
      refine Nat.mul_le_mul_right _ ?_
      have := nearest_mono (Nat.mul_pos hb hp) h2
      rwa [Nat.mul_assoc, Nat.mul_comm (2 ^ rndExp a b), nearest_mul (Nat.mul_pos hb hp)] at this
    have h2 : 2 ^ 23 * 2 ^ rndExp a' b ≤ rnd a' b := by
      have hp : 0 < 2 ^ rndExp a' b := Nat.pow_pos (by decide)
      have h0 : a' / b ≠ 0 := by
        intro h0
        rw [rndExp, rndExp, h0] at hl
        simp at hl
      have h3 : 2 ^ Nat.log2 (a' / b) ≤ a' / b := Nat.log2_self_le h0
      have h4 : Nat.log2 (a' / b) = 23 + rndExp a' b := by
        unfold rndExp at hl ⊢
        omega
      rw [h4, Nat.pow_add] at h3
      have h5 := (Nat.le_div_iff_mul_le hb).1 h3
      rw [rnd_eq]
      refine Nat.mul_le_mul_right _ ?_
      have := nearest_mono (Nat.mul_pos hb hp) h5
      rwa [Nat.mul_assoc, Nat.mul_comm (2 ^ rndExp a' b), nearest_mul (Nat.mul_pos hb hp)] at this
    have h3 : 2 ^ 24 * 2 ^ rndExp a b ≤ 2 ^ 23 * 2 ^ rndExp a' b := by
      rw [← Nat.pow_add, ← Nat.pow_add]
      exact Nat.pow_le_pow_right (by decide) (by omega)
    omega

end MapEditr
