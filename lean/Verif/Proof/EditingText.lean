import Verif.Proof.BigNum
/-!
# The progress line
-/

namespace MapEditr
open Spec

theorem rnd_le_pow {a b e : Nat} (hb : 0 < b) (he : 23 ≤ e) (h : a ≤ 2 ^ e * b) : rnd a b ≤ 2 ^ e := by
  have h1 := rnd_mono hb h
  have h2 := rnd_exact (x := 2 ^ 23) (e := e - 23) hb (by decide) (by decide)
  rw [← Nat.pow_add, Nat.add_sub_cancel' he] at h2
  omega

theorem rnd_pos {n : Nat} (h : 0 < n) : 0 < rnd n 1 := by
  have := rnd_mono (a := 1) (a' := n) (b := 1) (by decide) h
  rw [rnd_small (by decide)] at this
  exact this

theorem rnd_nat_err (n : Nat) : 2 ^ 24 * n ≤ 2 ^ 24 * rnd n 1 + n ∧ 2 ^ 24 * rnd n 1 ≤ 2 ^ 24 * n + n := by
  rcases Nat.lt_or_ge n (2 ^ 24) with h | h
  · rw [rnd_small h]; omega
  · have := rnd_err (a := n) (b := 1) (by decide) (by omega)
    rwa [Nat.mul_one] at this

theorem progress_le {done total : Nat} (h : done ≤ total) : progressF32 done total ≤ 2 ^ S := by
  unfold progressF32
  split
  · exact Nat.zero_le _
  · refine rnd_le_pow (rnd_pos (by omega)) (by decide) ?_
    rw [Nat.mul_comm]
    exact Nat.mul_le_mul_left _ (rnd_mono (by decide) h)

theorem progress_full {total : Nat} (h : 0 < total) : progressF32 total total = 2 ^ S := by
  unfold progressF32
  rw [if_neg (by omega), Nat.mul_comm]
  have h2 := rnd_exact (x := 2 ^ 23) (e := S - 23) (rnd_pos h) (by decide) (by decide)
  exact h2

/-- How near the computed progress is. -/
theorem progress_near {done total : Nat} (hd : 0 < done) (h : done ≤ total) (ht : total < 2 ^ 64) :
    2 ^ 24 * (rnd done 1 * 2 ^ S) ≤ 2 ^ 24 * (progressF32 done total * rnd total 1) + rnd done 1 * 2 ^ S ∧
    2 ^ 24 * (progressF32 done total * rnd total 1) ≤ 2 ^ 24 * (rnd done 1 * 2 ^ S) + rnd done 1 * 2 ^ S := by
  unfold progressF32
  rw [if_neg (by omega)]
  refine rnd_err (rnd_pos (by omega)) ?_
  have h1 : rnd total 1 ≤ 2 ^ 64 := rnd_le_pow (by decide) (by decide) (by omega)
  have h2 := rnd_pos hd
  have h3 : 1 * 2 ^ S ≤ rnd done 1 * 2 ^ S := Nat.mul_le_mul_right _ h2
  have h4 : 2 ^ 23 * rnd total 1 ≤ 2 ^ 23 * 2 ^ 64 := Nat.mul_le_mul_left _ h1
  have h5 : 2 ^ 23 * 2 ^ 64 ≤ 1 * 2 ^ S := by decide
  omega

/-- Tenths of a percent shown. -/
def tenths (done total : Nat) : Nat := nearest (rnd (progressF32 done total * 100) 1 * 10) (2 ^ S)

/-- Bars shown. -/
def barsOf (done total : Nat) : Nat := rnd (progressF32 done total * TOTAL_BARS) 1 / 2 ^ S

theorem pow_S : (2 : Nat) ^ S = 1427247692705959881058285969449495136382746624 := by decide +kernel

theorem bars_le {done total : Nat} (h : done ≤ total) : barsOf done total ≤ 25 := by
  unfold barsOf TOTAL_BARS
  have h1 : progressF32 done total * 25 ≤ 2 ^ S * 25 := Nat.mul_le_mul_right _ (progress_le h)
  have h2 := rnd_mono (b := 1) (by decide) h1
  have h3 : rnd (2 ^ S * 25) 1 = 2 ^ S * 25 := by decide +kernel
  rw [h3] at h2
  have h4 := Nat.div_le_div_right (c := 2 ^ S) h2
  rwa [Nat.mul_div_cancel_left _ (Nat.pow_pos (by decide))] at h4

theorem tenths_le {done total : Nat} (h : done ≤ total) : tenths done total ≤ 1000 := by
  unfold tenths
  have h1 : progressF32 done total * 100 ≤ 2 ^ S * 100 := Nat.mul_le_mul_right _ (progress_le h)
  have h2 := rnd_mono (b := 1) (by decide) h1
  have h3 : rnd (2 ^ S * 100) 1 = 2 ^ S * 100 := by decide +kernel
  rw [h3] at h2
  have h4 := nearest_mono (b := 2 ^ S) (Nat.pow_pos (by decide)) (Nat.mul_le_mul_right 10 h2)
  have h5 : nearest (2 ^ S * 100 * 10) (2 ^ S) = 1000 := by decide +kernel
  omega

/-- A progress that is not zero is large enough for exact rounding. -/
theorem progress_big {done total : Nat} (hd : 0 < done) (h : done ≤ total) (ht : total < 2 ^ 64) :
    2 ^ 23 ≤ progressF32 done total := by
  have h1 := (progress_near hd h ht).1
  have h2 : rnd total 1 ≤ 2 ^ 64 := rnd_le_pow (by decide) (by decide) (by omega)
  have h3 := rnd_pos hd
  have h4 : 1 * 2 ^ S ≤ rnd done 1 * 2 ^ S := Nat.mul_le_mul_right _ h3
  rcases Nat.lt_or_ge (progressF32 done total) (2 ^ 23) with hlt | hge
  · exfalso
    have h5 : progressF32 done total * rnd total 1 ≤ 2 ^ 23 * 2 ^ 64 := Nat.mul_le_mul (Nat.le_of_lt hlt) h2
    rw [pow_S] at *
    omega
  · exact hge

theorem tenths_near {done total : Nat} (h : done ≤ total) (ht : total < 2 ^ 64) :
    1000 * (tenths done total * total) ≤ 1000 * 1000 * done + 501 * total ∧
    1000 * 1000 * done ≤ 1000 * (tenths done total * total) + 501 * total := by
  rcases Nat.eq_zero_or_pos done with rfl | hd
  · have e : tenths 0 total = 0 := by
      unfold tenths progressF32
      split
      · decide +kernel
      · rw [rnd_small (n := 0) (by decide), Nat.zero_mul]
        have : rnd 0 (rnd total 1) = 0 := by
          rw [rnd_eq]
          simp [nearest]
        rw [this]
        decide +kernel
    rw [e]
    omega
  have h1 := progress_near hd h ht
  have h2 := rnd_nat_err done
  have h3 := rnd_nat_err total
  have hb := progress_big hd h ht
  have h4 := rnd_err (a := progressF32 done total * 100) (b := 1) (by decide) (by omega)
  have h5 := nearest_spec (a := rnd (progressF32 done total * 100) 1 * 10) (b := 2 ^ S) (Nat.pow_pos (by decide))
  change _ ≤ 2 * (tenths done total * 2 ^ S) + _ ∧ 2 * (tenths done total * 2 ^ S) ≤ _ at h5
  generalize tenths done total = P at *
  generalize rnd (progressF32 done total * 100) 1 = q at *
  generalize progressF32 done total = p at *
  generalize rnd done 1 = df at *
  generalize rnd total 1 = tf at *
  have k1 := Nat.mul_le_mul_right p h3.1
  have k2 := Nat.mul_le_mul_right p h3.2
  have k3 := Nat.mul_le_mul_right total h4.1
  have k4 := Nat.mul_le_mul_right total h4.2
  have k5 := Nat.mul_le_mul_right total h5.1
  have k6 := Nat.mul_le_mul_right total h5.2
  simp only [Nat.mul_one, Nat.add_mul, Nat.mul_assoc] at k1 k2 k3 k4 k5 k6 h1
  rw [pow_S] at *
  have e1 : 100 * total = total * 100 := Nat.mul_comm _ _
  have e2 : 10 * total = total * 10 := Nat.mul_comm _ _
  have e3 : 1427247692705959881058285969449495136382746624 * total =
    total * 1427247692705959881058285969449495136382746624 := Nat.mul_comm _ _
  rw [e1, ← Nat.mul_assoc p] at k3 k4
  rw [e2, e3, ← Nat.mul_assoc q, ← Nat.mul_assoc P] at k5 k6
  rw [Nat.mul_comm tf p, Nat.mul_comm total p] at k1 k2
  generalize p * total = X at *
  generalize p * tf = Y at *
  generalize q * total = Z at *
  generalize P * total = W at *
  constructor
  · omega
  · omega

theorem bars_near {done total : Nat} (h : done ≤ total) (ht : total < 2 ^ 64) :
    1000000 * (barsOf done total * total) ≤ 25 * 1000001 * done ∧
    25 * 999999 * done ≤ 1000000 * ((barsOf done total + 1) * total) := by
  rcases Nat.eq_zero_or_pos done with rfl | hd
  · have e : barsOf 0 total = 0 := by
      unfold barsOf progressF32
      split
      · decide +kernel
      · rw [rnd_small (n := 0) (by decide), Nat.zero_mul]
        have : rnd 0 (rnd total 1) = 0 := by
          rw [rnd_eq]
          simp [nearest]
        rw [this]
        decide +kernel
    rw [e]
    omega
  have h1 := progress_near hd h ht
  have h2 := rnd_nat_err done
  have h3 := rnd_nat_err total
  have hb := progress_big hd h ht
  have h4 := rnd_err (a := progressF32 done total * 25) (b := 1) (by decide) (by omega)
  have h5 : rnd (progressF32 done total * 25) 1 < (barsOf done total + 1) * 2 ^ S := by
    have := Nat.lt_mul_div_succ (rnd (progressF32 done total * 25) 1) (b := 2 ^ S) (Nat.pow_pos (by decide))
    rw [Nat.mul_comm (barsOf done total + 1)]
    exact this
  have h6 : barsOf done total * 2 ^ S ≤ rnd (progressF32 done total * 25) 1 := Nat.div_mul_le_self _ _
  generalize barsOf done total = P at *
  generalize rnd (progressF32 done total * 25) 1 = q at *
  generalize progressF32 done total = p at *
  generalize rnd done 1 = df at *
  generalize rnd total 1 = tf at *
  have k1 := Nat.mul_le_mul_right p h3.1
  have k2 := Nat.mul_le_mul_right p h3.2
  have k3 := Nat.mul_le_mul_right total h4.1
  have k4 := Nat.mul_le_mul_right total h4.2
  have k5 := Nat.mul_le_mul_right total (Nat.le_of_lt h5)
  have k6 := Nat.mul_le_mul_right total h6
  simp only [Nat.mul_one, Nat.add_mul, Nat.mul_assoc, Nat.one_mul] at k1 k2 k3 k4 k5 k6 h1
  rw [pow_S] at *
  have e1 : 25 * total = total * 25 := Nat.mul_comm _ _
  have e3 : 1427247692705959881058285969449495136382746624 * total =
    total * 1427247692705959881058285969449495136382746624 := Nat.mul_comm _ _
  rw [e1, ← Nat.mul_assoc p] at k3 k4
  rw [e3, ← Nat.mul_assoc P] at k5 k6
  rw [Nat.mul_comm tf p, Nat.mul_comm total p] at k1 k2
  rw [Nat.add_mul, Nat.one_mul]
  generalize p * total = X at *
  generalize p * tf = Y at *
  generalize q * total = Z at *
  generalize P * total = W at *
  constructor
  · omega
  · omega

/-- Up to 9 billion years, the remaining time can be computed. -/
theorem remaining_ok {etaNs progress : Nat} (he : etaNs < 10 ^ 9 * 2 ^ 58) (hp : progress ≤ 2 ^ S) :
    ∃ r, remainingSecs etaNs progress = .ok r := by
  unfold remainingSecs
  split
  · rename_i h1
    simp only
    rw [if_neg (by omega)]
    have hb : 2 ^ (S - 4) ≤ progress := Nat.le_trans (by decide) h1
    have hpos : 0 < progress := by
      have : 0 < 2 ^ (S - 4) := Nat.pow_pos (by decide)
      omega
    have ha : asSecsF32 etaNs ≤ 2 ^ (59 + S) := by
      unfold asSecsF32
      refine rnd_le_pow (by decide) (by decide) ?_
      have a1 : etaNs / 10 ^ 9 ≤ 2 ^ 58 := by omega
      have a2 : rnd (etaNs / 10 ^ 9) 1 ≤ 2 ^ 58 := rnd_le_pow (by decide) (by decide) (by omega)
      have a3 : rnd (etaNs % 10 ^ 9) 1 ≤ 2 ^ 30 := rnd_le_pow (by decide) (by decide) (by omega)
      have a4 : rnd (rnd (etaNs % 10 ^ 9) 1 * 2 ^ S) (10 ^ 9) ≤ 2 ^ (S + 1) := by
        refine rnd_le_pow (by decide) (by decide) ?_
        have := Nat.mul_le_mul_right (2 ^ S) a3
        refine Nat.le_trans this ?_
        decide
      have a5 := Nat.mul_le_mul_right (2 ^ S) a2
      have a6 : 2 ^ 58 * 2 ^ S + 2 ^ (S + 1) ≤ 2 ^ (59 + S) * 1 := by decide
      omega
    have hq : rnd (asSecsF32 etaNs * 2 ^ S) progress ≤ 2 ^ (63 + S) := by
      refine rnd_le_pow hpos (by decide) ?_
      have a1 := Nat.mul_le_mul_right (2 ^ S) ha
      have a2 := Nat.mul_le_mul_left (2 ^ (63 + S)) hb
      have a3 : 2 ^ (59 + S) * 2 ^ S ≤ 2 ^ (63 + S) * 2 ^ (S - 4) := by decide
      omega
    have ho : rnd (2 ^ S - progress) 1 ≤ 2 ^ S := rnd_le_pow (by decide) (by decide) (by omega)
    have hr : rnd (rnd (asSecsF32 etaNs * 2 ^ S) progress * rnd (2 ^ S - progress) 1) (2 ^ S) ≤ 2 ^ (63 + S) :=
      rnd_le_pow (Nat.pow_pos (by decide)) (by decide) (Nat.mul_le_mul hq ho)
    have a1 : 2 ^ (63 + S) < 2 ^ 64 * 2 ^ S := by decide
    rw [if_neg (by omega)]
    exact ⟨_, rfl⟩
  · exact ⟨_, rfl⟩

theorem remaining_full (etaNs : Nat) : remainingSecs etaNs (2 ^ S) = .ok (some 0) := by
  unfold remainingSecs
  rw [if_pos (by decide)]
  simp only
  rw [if_neg (by omega), Nat.sub_self, rnd_small (n := 0) (by decide), Nat.mul_zero]
  have : rnd 0 (2 ^ S) = 0 := by
    rw [rnd_eq]
    simp [nearest]
  rw [this, if_neg (by decide)]
  congr 1

theorem fixed_one (d : Nat) : fixed 1 d = dec (d / 10) ++ '.' :: dec (d % 10) := by
  unfold fixed
  have h : dec (d % 10 ^ 1) = [(d % 10).digitChar] := Nat.toDigits_of_lt_base (by omega)
  rw [if_neg (by omega)]
  simp only [h]
  rfl

/-- The error of rounding, also below the normal range. -/
theorem rnd_err' {a b : Nat} (hb : 0 < b) :
    2 ^ 24 * a ≤ 2 ^ 24 * (rnd a b * b) + a + 2 ^ 24 * b ∧ 2 ^ 24 * (rnd a b * b) ≤ 2 ^ 24 * a + a + 2 ^ 24 * b := by
  rcases Nat.lt_or_ge a (2 ^ 23 * b) with h | h
  · have h0 : rndExp a b = 0 := by
      unfold rndExp
      have h1 : a / b < 2 ^ 23 := (Nat.div_lt_iff_lt_mul hb).2 h
      rcases Nat.eq_zero_or_pos (a / b) with h2 | h2
      · rw [h2]; decide
      · have := (Nat.log2_lt (by omega)).2 h1
        omega
    have h1 := nearest_spec (a := a) hb
    rw [rnd_eq, h0, Nat.pow_zero, Nat.mul_one, Nat.mul_one]
    omega
  · have := rnd_err hb h
    omega

theorem secs_near (ns : Nat) :
    2 ^ 24 * (ns * 2 ^ S) ≤ 2 ^ 24 * (asSecsF32 ns * 10 ^ 9) + 4 * (ns * 2 ^ S) + 2 ^ 59 ∧
    2 ^ 24 * (asSecsF32 ns * 10 ^ 9) ≤ 2 ^ 24 * (ns * 2 ^ S) + 4 * (ns * 2 ^ S) + 2 ^ 59 := by
  unfold asSecsF32
  have h0 := Nat.div_add_mod ns (10 ^ 9)
  have h1 := rnd_nat_err (ns / 10 ^ 9)
  have h2 := rnd_nat_err (ns % 10 ^ 9)
  have h3 := rnd_err' (a := rnd (ns % 10 ^ 9) 1 * 2 ^ S) (b := 10 ^ 9) (by decide)
  generalize rnd (rnd (ns % 10 ^ 9) 1 * 2 ^ S) (10 ^ 9) = nq at *
  generalize rnd (ns % 10 ^ 9) 1 = nf at *
  generalize rnd (ns / 10 ^ 9) 1 = sf at *
  have h4 := rnd_nat_err (sf * 2 ^ S + nq)
  generalize rnd (sf * 2 ^ S + nq) 1 = e at *
  generalize ns / 10 ^ 9 = s at *
  generalize ns % 10 ^ 9 = n at *
  rw [← h0]
  clear h0
  rw [pow_S] at *
  simp only [Nat.reducePow] at *
  constructor <;> omega

/-- Step 1: `r * p` is about `e * (U - p)`. -/
theorem rem_step1 {U e p q om r w : Nat}
    (a1 : 2 ^ 24 * (e * U) ≤ 2 ^ 24 * (q * p) + e * U + 2 ^ 24 * p ∧
      2 ^ 24 * (q * p) ≤ 2 ^ 24 * (e * U) + e * U + 2 ^ 24 * p)
    (a2 : 2 ^ 24 * w ≤ 2 ^ 24 * om + w ∧ 2 ^ 24 * om ≤ 2 ^ 24 * w + w) (hom : om ≤ U)
    (a3 : 2 ^ 24 * (q * om) ≤ 2 ^ 24 * (r * U) + q * om + 2 ^ 24 * U ∧
      2 ^ 24 * (r * U) ≤ 2 ^ 24 * (q * om) + q * om + 2 ^ 24 * U) :
    2 ^ 24 * (e * w * U) ≤ 2 ^ 24 * (r * p * U) + 4 * (e * w * U) + 3 * 2 ^ 24 * (p * U) ∧
    2 ^ 24 * (r * p * U) ≤ 2 ^ 24 * (e * w * U) + 4 * (e * w * U) + 3 * 2 ^ 24 * (p * U) := by
  have b1 := Nat.mul_le_mul_right om a1.1
  have b2 := Nat.mul_le_mul_right om a1.2
  have b3 := Nat.mul_le_mul_right (e * U) a2.1
  have b4 := Nat.mul_le_mul_right (e * U) a2.2
  have b5 := Nat.mul_le_mul_right p a3.1
  have b6 := Nat.mul_le_mul_right p a3.2
  have b7 := Nat.mul_le_mul_left p hom
  simp only [Nat.add_mul] at b1 b2 b3 b4 b5 b6
  have e1 : 2 ^ 24 * (e * U) * om = 2 ^ 24 * (om * (e * U)) := by
    rw [Nat.mul_assoc, Nat.mul_comm (e * U)]
  have e2 : 2 ^ 24 * (q * p) * om = 2 ^ 24 * (q * p * om) := by rw [Nat.mul_assoc]
  have e3 : e * U * om = om * (e * U) := Nat.mul_comm _ _
  have e4 : 2 ^ 24 * p * om = 2 ^ 24 * (p * om) := by rw [Nat.mul_assoc]
  have e5 : 2 ^ 24 * w * (e * U) = 2 ^ 24 * (e * w * U) := by
    rw [Nat.mul_assoc, Nat.mul_comm e w, Nat.mul_assoc w]
  have e6 : 2 ^ 24 * om * (e * U) = 2 ^ 24 * (om * (e * U)) := by rw [Nat.mul_assoc]
  have e7 : w * (e * U) = e * w * U := by rw [Nat.mul_comm e w, Nat.mul_assoc w]
  have e8 : 2 ^ 24 * (q * om) * p = 2 ^ 24 * (q * p * om) := by
    rw [Nat.mul_assoc, Nat.mul_right_comm q]
  have e9 : 2 ^ 24 * (r * U) * p = 2 ^ 24 * (r * p * U) := by
    rw [Nat.mul_assoc, Nat.mul_right_comm r]
  have e10 : q * om * p = q * p * om := Nat.mul_right_comm _ _ _
  have e11 : 2 ^ 24 * U * p = 2 ^ 24 * (p * U) := by rw [Nat.mul_assoc, Nat.mul_comm U]
  rw [e1, e2, e3, e4] at b1 b2
  rw [e5, e6, e7] at b3 b4
  rw [e8, e9, e10, e11] at b5 b6
  generalize om * (e * U) = x1 at *
  generalize q * p * om = x2 at *
  generalize p * om = x3 at *
  generalize e * w * U = x4 at *
  generalize r * p * U = x5 at *
  generalize p * U = x6 at *
  clear e1 e2 e3 e4 e5 e6 e7 e8 e9 e10 e11 a1 a2 a3
  omega

/-- Step 2: `r * d` is about `e * (t - d)`. -/
theorem rem_step2 {U e p r w d k : Nat} (hp : p + w = U)
    (a : 2 ^ 24 * (e * w) ≤ 2 ^ 24 * (r * p) + 4 * (e * w) + 3 * 2 ^ 24 * p ∧
      2 ^ 24 * (r * p) ≤ 2 ^ 24 * (e * w) + 4 * (e * w) + 3 * 2 ^ 24 * p)
    (b : 2 ^ 24 * (d * U) ≤ 2 ^ 24 * (p * (d + k)) + 4 * (d * U) ∧
      2 ^ 24 * (p * (d + k)) ≤ 2 ^ 24 * (d * U) + 4 * (d * U)) :
    2 ^ 24 * (e * (k * U)) ≤ 2 ^ 24 * (r * (d * U)) + 10 * (e * (d * U) + e * (k * U)) + 4 * 2 ^ 24 * (d * U) ∧
    2 ^ 24 * (r * (d * U)) ≤ 2 ^ 24 * (e * (k * U)) + 10 * (e * (d * U) + e * (k * U)) + 4 * 2 ^ 24 * (d * U) := by
  have hw : p * (d + k) + w * (d + k) = d * U + k * U := by
    rw [← Nat.add_mul, hp, Nat.mul_comm, Nat.add_mul]
  have c1 := Nat.mul_le_mul_right (d + k) a.1
  have c2 := Nat.mul_le_mul_right (d + k) a.2
  have e1 : ∀ c x y, c * (x * y) * (d + k) = c * (x * (y * (d + k))) := by
    intro c x y; rw [Nat.mul_assoc, Nat.mul_assoc]
  have e2 : ∀ c x, c * x * (d + k) = c * (x * (d + k)) := fun c x => Nat.mul_assoc _ _ _
  rw [Nat.add_mul, Nat.add_mul, e1, e1, e1, e2] at c1 c2
  clear e1 e2 a hp
  generalize p * (d + k) = P at *
  generalize w * (d + k) = W at *
  generalize d * U = D at *
  generalize k * U = K at *
  have c3 := Nat.mul_le_mul_left r b.1
  have c4 := Nat.mul_le_mul_left r b.2
  have c5 := Nat.mul_le_mul_left e b.1
  have c6 := Nat.mul_le_mul_left e b.2
  have c7 := congrArg (e * ·) hw
  simp only [Nat.mul_add, Nat.mul_left_comm r (2 ^ 24), Nat.mul_left_comm e (2 ^ 24), Nat.mul_left_comm r 4,
    Nat.mul_left_comm e 4] at c3 c4 c5 c6 c7
  generalize r * P = x1 at *
  generalize e * W = x2 at *
  generalize r * D = x3 at *
  generalize e * D = x4 at *
  generalize e * P = x5 at *
  generalize e * K = x6 at *
  constructor <;> omega

/-- Step 3: the seconds shown, times `d`, are about the elapsed time times `t - d`. -/
theorem rem_step3 {E e r d k N s : Nat} (_hd : 0 < d) (hk : k < 2 ^ 64)
    (a : 2 ^ 24 * (e * k) ≤ 2 ^ 24 * (r * d) + 10 * (e * d + e * k) + 4 * 2 ^ 24 * d ∧
      2 ^ 24 * (r * d) ≤ 2 ^ 24 * (e * k) + 10 * (e * d + e * k) + 4 * 2 ^ 24 * d)
    (b : 2 ^ 24 * (E * 2 ^ S) ≤ 2 ^ 24 * (e * 10 ^ 9) + 4 * (E * 2 ^ S) + 2 ^ 59 ∧
      2 ^ 24 * (e * 10 ^ 9) ≤ 2 ^ 24 * (E * 2 ^ S) + 4 * (E * 2 ^ S) + 2 ^ 59)
    (hN : 2 * (r * 10 ^ 9) ≤ 2 * (N * 2 ^ S) + 2 ^ S ∧ 2 * (N * 2 ^ S) ≤ 2 * (r * 10 ^ 9) + 2 ^ S)
    (hs : s = N / 10 ^ 9) :
    10 ^ 6 * (10 ^ 9 * (s * d)) ≤ 10 ^ 6 * (E * k) + (E * d + E * k) + 10 ^ 6 * d ∧
    10 ^ 6 * (E * k) ≤ 10 ^ 6 * (10 ^ 9 * (s * d) + 10 ^ 9 * d) + (E * d + E * k) + 10 ^ 6 * d := by
  have s1 : s * 10 ^ 9 ≤ N ∧ N + 1 ≤ s * 10 ^ 9 + 10 ^ 9 := by omega
  clear hs
  rw [pow_S] at *
  have c1 := Nat.mul_le_mul_right k b.1
  have c2 := Nat.mul_le_mul_right k b.2
  have c3 := Nat.mul_le_mul_right d b.1
  have c4 := Nat.mul_le_mul_right d b.2
  have c5 := Nat.mul_le_mul_right d hN.1
  have c6 := Nat.mul_le_mul_right d hN.2
  have c7 := Nat.mul_le_mul_right d s1.1
  have c8 := Nat.mul_le_mul_right d s1.2
  have m : ∀ x c y : Nat, x * c * y = c * (x * y) := by
    intro x c y; rw [Nat.mul_comm x c, Nat.mul_assoc]
  simp only [Nat.add_mul, Nat.mul_assoc (2 ^ 24), Nat.mul_assoc 4, Nat.mul_assoc 2, m _ (10 ^ 9),
    m _ 1427247692705959881058285969449495136382746624, Nat.one_mul] at c1 c2 c3 c4 c5 c6 c7 c8
  simp only [Nat.reducePow] at *
  generalize e * k = x1 at *
  generalize e * d = x2 at *
  generalize r * d = x3 at *
  generalize E * k = x4 at *
  generalize E * d = x5 at *
  generalize N * d = x6 at *
  generalize s * d = x7 at *
  clear m b hN s1
  constructor <;> omega

/-- The progress times the total is about the number of blocks done. -/
theorem progress_mul_near {done total : Nat} (hd : 0 < done) (h : done ≤ total) (ht : total < 2 ^ 64) :
    2 ^ 24 * (done * 2 ^ S) ≤ 2 ^ 24 * (progressF32 done total * total) + 4 * (done * 2 ^ S) ∧
    2 ^ 24 * (progressF32 done total * total) ≤ 2 ^ 24 * (done * 2 ^ S) + 4 * (done * 2 ^ S) := by
  have h1 := progress_near hd h ht
  have h2 := rnd_nat_err done
  have h3 := rnd_nat_err total
  have k1 := Nat.mul_le_mul_left (progressF32 done total) h3.1
  have k2 := Nat.mul_le_mul_left (progressF32 done total) h3.2
  have j1 := Nat.mul_le_mul_right (2 ^ S) h2.1
  have j2 := Nat.mul_le_mul_right (2 ^ S) h2.2
  generalize progressF32 done total = p at *
  generalize rnd done 1 = df at *
  generalize rnd total 1 = tf at *
  simp only [Nat.mul_add, Nat.add_mul, Nat.mul_left_comm p (2 ^ 24), Nat.mul_assoc (2 ^ 24)] at k1 k2 j1 j2
  generalize p * total = X at *
  generalize p * tf = Y at *
  generalize done * 2 ^ S = D at *
  generalize df * 2 ^ S = F at *
  clear h h2 h3 ht hd
  constructor <;> omega

/-- The remaining time is shown from a tenth on. -/
theorem remaining_shown {etaNs done total : Nat} {r : Option Nat} (h : done ≤ total) (ht : total < 2 ^ 64)
    (hr : remainingSecs etaNs (progressF32 done total) = .ok r) :
    (r.isSome → 999999 * total ≤ 10000000 * done) ∧ (r = none → 10000000 * done ≤ 1000001 * total) := by
  have hx : r.isSome ↔ 13421773 * 2 ^ (S - 27) ≤ progressF32 done total := by
    unfold remainingSecs at hr
    split at hr
    · rename_i h1
      simp only at hr
      split at hr
      · cases hr
      · split at hr
        · cases hr
        · injection hr with hr
          subst hr
          simp [h1]
    · rename_i h1
      injection hr with hr
      subst hr
      simp [h1]
  have e : 13421773 * 2 ^ (S - 27) = 142724771397360781361693993591040810086825984 := by decide +kernel
  rcases Nat.eq_zero_or_pos done with rfl | hd
  · refine ⟨fun hs => ?_, fun _ => by omega⟩
    exfalso
    have h1 := hx.1 hs
    have : progressF32 0 total = 0 := by
      unfold progressF32
      split
      · rfl
      · rw [rnd_small (n := 0) (by decide), Nat.zero_mul, rnd_eq]
        simp [nearest]
    rw [this, e] at h1
    omega
  · have h1 := progress_mul_near hd h ht
    rw [pow_S] at h1
    rw [e] at hx
    generalize progressF32 done total = p at *
    constructor
    · intro hs
      have := Nat.mul_le_mul_right total (hx.1 hs)
      generalize p * total = X at *
      clear hr hx
      omega
    · intro hn
      have h2 : ¬ (142724771397360781361693993591040810086825984 ≤ p) := by
        rw [← hx, hn]
        simp
      have := Nat.mul_le_mul_right total (Nat.le_of_lt (Nat.lt_of_not_le h2))
      generalize p * total = X at *
      clear hr hx
      omega

theorem remaining_near {etaNs done total s : Nat} (hd : 0 < done) (h : done ≤ total) (ht : total < 2 ^ 64)
    (hr : remainingSecs etaNs (progressF32 done total) = .ok (some s)) :
    10 ^ 6 * (10 ^ 9 * (s * done)) ≤ 10 ^ 6 * (etaNs * (total - done)) + etaNs * total + 10 ^ 6 * done ∧
    10 ^ 6 * (etaNs * (total - done)) ≤ 10 ^ 6 * (10 ^ 9 * (s * done) + 10 ^ 9 * done) + etaNs * total +
      10 ^ 6 * done := by
  obtain ⟨k, rfl⟩ := Nat.exists_eq_add_of_le h
  have hp := progress_le h
  have hU : 0 < 2 ^ S := Nat.pow_pos (by decide)
  have hpos := progress_big hd h ht
  have hP := progress_mul_near hd h ht
  unfold remainingSecs at hr
  split at hr
  · simp only at hr
    rw [if_neg (by omega)] at hr
    split at hr
    · cases hr
    · rename_i hlt
      injection hr with hr
      injection hr with hr
      have a1 := rnd_err' (a := asSecsF32 etaNs * 2 ^ S) (b := progressF32 done (done + k)) (by omega)
      have a2 := rnd_nat_err (2 ^ S - progressF32 done (done + k))
      have ho : rnd (2 ^ S - progressF32 done (done + k)) 1 ≤ 2 ^ S :=
        rnd_le_pow (by decide) (by decide) (by omega)
      have a3 := rnd_err' (a := rnd (asSecsF32 etaNs * 2 ^ S) (progressF32 done (done + k)) *
        rnd (2 ^ S - progressF32 done (done + k)) 1) (b := 2 ^ S) hU
      have hN := nearest_spec (a := rnd (rnd (asSecsF32 etaNs * 2 ^ S) (progressF32 done (done + k)) *
        rnd (2 ^ S - progressF32 done (done + k)) 1) (2 ^ S) * 10 ^ 9) hU
      have b := secs_near etaNs
      have hs := hr.symm
      clear hr hlt
      revert hs hN a3 ho a2 a1
      generalize rnd (2 ^ S - progressF32 done (done + k)) 1 = om
      generalize rnd (asSecsF32 etaNs * 2 ^ S) (progressF32 done (done + k)) = q
      generalize rnd (q * om) (2 ^ S) = r
      generalize nearest (r * 10 ^ 9) (2 ^ S) = N
      generalize progressF32 done (done + k) = p at *
      generalize asSecsF32 etaNs = e at *
      intro a1 a2 ho a3 hN hs
      have w1 : p + (2 ^ S - p) = 2 ^ S := by omega
      generalize 2 ^ S - p = w at *
      have z1 := rem_step1 a1 a2 ho a3
      have z2 : 2 ^ 24 * (e * w) ≤ 2 ^ 24 * (r * p) + 4 * (e * w) + 3 * 2 ^ 24 * p ∧
          2 ^ 24 * (r * p) ≤ 2 ^ 24 * (e * w) + 4 * (e * w) + 3 * 2 ^ 24 * p := by
        simp only [← Nat.mul_assoc, ← Nat.add_mul] at z1 ⊢
        exact ⟨Nat.le_of_mul_le_mul_right z1.1 hU, Nat.le_of_mul_le_mul_right z1.2 hU⟩
      have z3 := rem_step2 w1 z2 hP
      have z4 : 2 ^ 24 * (e * k) ≤ 2 ^ 24 * (r * done) + 10 * (e * done + e * k) + 4 * 2 ^ 24 * done ∧
          2 ^ 24 * (r * done) ≤ 2 ^ 24 * (e * k) + 10 * (e * done + e * k) + 4 * 2 ^ 24 * done := by
        simp only [← Nat.mul_assoc, ← Nat.add_mul] at z3 ⊢
        exact ⟨Nat.le_of_mul_le_mul_right z3.1 hU, Nat.le_of_mul_le_mul_right z3.2 hU⟩
      have z5 := rem_step3 hd (by omega) z4 b hN hs
      rw [Nat.add_sub_cancel_left, Nat.mul_add etaNs]
      exact z5
  · cases hr

/-- The remaining time as shown. -/
def remText : Option Nat → List Char
  | some s => fmtDuration s
  | none => "--:--".toList

theorem line_shape (bars tenths : Nat) (elapsed remaining : List Char) :
    ('\r' :: '[' :: (List.replicate bars '=' ++ List.replicate (TOTAL_BARS - bars) ' ') ++ "] ".toList ++
      fixed 1 tenths ++ "% | ".toList ++ elapsed ++ " elapsed | ".toList ++ remaining ++ " remaining".toList) =
    progressLine bars tenths elapsed remaining := by
  rw [fixed_one]
  unfold progressLine TOTAL_BARS dec
  have : "\r[".toList = ['\r', '['] := by decide
  rw [this]
  simp only [List.cons_append, List.append_assoc, List.nil_append]

theorem editingText_line {done total realNs etaNs : Nat} {r : Option Nat}
    (hr : remainingSecs etaNs (progressF32 done total) = .ok r) :
    editingText done total realNs etaNs true =
      .ok (progressLine (barsOf done total) (tenths done total) (fmtDuration (realNs / 10 ^ 9)) (remText r)) := by
  rw [← line_shape]
  unfold editingText barsOf tenths
  rw [if_pos rfl]
  simp only [hr, bind, Except.bind, pure, Except.pure]
  cases r <;> rfl

end MapEditr
