import Verif.Proof.F32
import Verif.Model.Screen
import Verif.Spec.Screen
/-!
# `fmt_big_num`
-/

namespace MapEditr
open Spec

theorem dec_digits {n : Nat} {c : Char} (h : c ∈ dec n) : c.isDigit = true :=
  Nat.isDigit_of_mem_toDigits (by omega) (by omega) h

theorem dec_value (n : Nat) : Nat.ofDigitChars 10 (dec n) 0 = n :=
  Nat.ofDigitChars_toDigits (b := 10) (n := n) (by omega) (by omega)

theorem dec_ne_nil (n : Nat) : dec n ≠ [] := Nat.toDigits_ne_nil

theorem zeros_value (k : Nat) (l : List Char) :
    Nat.ofDigitChars 10 (List.replicate k '0' ++ l) 0 = Nat.ofDigitChars 10 l 0 := by
  induction k with
  | zero => simp
  | succ k ih =>
    rw [List.replicate_succ, List.cons_append, Nat.ofDigitChars_cons]
    exact ih

/-- The digits after the point. -/
def fracDigits (p d : Nat) : List Char :=
  List.replicate (p - (dec (d % 10 ^ p)).length) '0' ++ dec (d % 10 ^ p)

theorem fracDigits_length {p : Nat} (d : Nat) (hp : 0 < p) : (fracDigits p d).length = p := by
  unfold fracDigits
  have h : (dec (d % 10 ^ p)).length ≤ p :=
    (Nat.length_toDigits_le_iff (by omega) hp).2 (Nat.mod_lt _ (Nat.pow_pos (by omega)))
  rw [List.length_append, List.length_replicate]
  omega

/-- What `{:.p}` shows reads as the rounded value. -/
theorem fixed_reads {p d v : Nat} {suf : List Char × Nat} (hs : suf ∈ SUFFIXES) (hv : v * 10 ^ p = d * suf.2) :
    Reads (fixed p d ++ suf.1) v := by
  unfold fixed
  split
  · rename_i h0
    subst h0
    refine ⟨dec d, [], suf, hs, dec_ne_nil _, fun c hc => dec_digits (by simpa using hc), by simp, ?_⟩
    rw [List.append_nil, dec_value]
    exact hv
  · rename_i h0
    have hp : 0 < p := by omega
    have hl := fracDigits_length d hp
    refine ⟨dec (d / 10 ^ p), fracDigits p d, suf, hs, dec_ne_nil _, fun c hc => ?_, ?_, ?_⟩
    · rcases List.mem_append.1 hc with hc | hc
      · exact dec_digits hc
      · rcases List.mem_append.1 hc with hc | hc
        · rw [List.eq_of_mem_replicate hc]
          decide
        · exact dec_digits hc
    · have : fracDigits p d ≠ [] := by
        intro h
        rw [h] at hl
        simp at hl
        omega
      rw [if_neg this]
      rfl
    · rw [Nat.ofDigitChars_append, Nat.ofDigitChars_eq_ofDigitChars_zero, hl, dec_value]
      unfold fracDigits
      rw [zeros_value, dec_value, Nat.div_add_mod, hv]

/-- Places after the point for a mantissa in units of `2 ^ -23`. -/
def placesOf (m : Nat) : Nat := if m ≥ 100 * 2 ^ 23 then 0 else if m ≥ 10 * 2 ^ 23 then 1 else 2

/-- The thousandfold of what is shown of the mantissa. -/
def shown (m : Nat) : Nat := nearest (m * 10 ^ placesOf m) (2 ^ 23) * 10 ^ (3 - placesOf m)

theorem shown_le {m : Nat} (h : 2 ^ 23 ≤ m) :
    2 ^ 23 * 1000 * shown m ≤ 1005 * 1000 * m ∧ 995 * 1000 * m ≤ 2 ^ 23 * 1000 * shown m := by
  have h1 := nearest_spec (a := m * 10 ^ placesOf m) (b := 2 ^ 23) (by decide)
  unfold shown
  revert h1
  unfold placesOf
  split
  · intro h1
    simp only [Nat.pow_zero, Nat.mul_one, Nat.sub_zero] at *
    omega
  · split
    · intro h1
      simp only [Nat.pow_one, Nat.reduceSub] at *
      omega
    · intro h1
      simp only [Nat.reduceSub] at *
      omega

theorem shown_high {m : Nat} (h : m ≥ 100 * 2 ^ 23) : shown m = nearest m (2 ^ 23) * 1000 := by
  unfold shown placesOf
  rw [if_pos h, Nat.pow_zero, Nat.mul_one]

theorem shown_mid {m : Nat} (h : ¬ m ≥ 100 * 2 ^ 23) (h' : m ≥ 10 * 2 ^ 23) :
    shown m = nearest (m * 10) (2 ^ 23) * 100 := by
  unfold shown placesOf
  rw [if_neg h, if_pos h']

theorem shown_low {m : Nat} (h : ¬ m ≥ 100 * 2 ^ 23) (h' : ¬ m ≥ 10 * 2 ^ 23) :
    shown m = nearest (m * 100) (2 ^ 23) * 10 := by
  unfold shown placesOf
  rw [if_neg h, if_neg h']

theorem shown_mono {m m' : Nat} (h : m ≤ m') : shown m ≤ shown m' := by
  have hn : ∀ {a a' : Nat}, a ≤ a' → nearest a (2 ^ 23) ≤ nearest a' (2 ^ 23) := nearest_mono (by decide)
  have hx : ∀ n, nearest (n * 2 ^ 23) (2 ^ 23) = n := fun n => nearest_mul (by decide)
  by_cases h1 : m ≥ 100 * 2 ^ 23
  · rw [shown_high h1, shown_high (Nat.le_trans h1 h)]
    exact Nat.mul_le_mul_right _ (hn h)
  by_cases h2 : m ≥ 10 * 2 ^ 23
  · rw [shown_mid h1 h2]
    by_cases h1' : m' ≥ 100 * 2 ^ 23
    · rw [shown_high h1']
      have a1 := hn (a := m * 10) (a' := 1000 * 2 ^ 23) (by omega)
      have a2 := hn (a := 100 * 2 ^ 23) (a' := m') h1'
      rw [hx] at a1 a2
      omega
    · rw [shown_mid h1' (Nat.le_trans h2 h)]
      exact Nat.mul_le_mul_right _ (hn (Nat.mul_le_mul_right _ h))
  · rw [shown_low h1 h2]
    have a1 := hn (a := m * 100) (a' := 1000 * 2 ^ 23) (by omega)
    rw [hx] at a1
    by_cases h1' : m' ≥ 100 * 2 ^ 23
    · rw [shown_high h1']
      have a2 := hn (a := 100 * 2 ^ 23) (a' := m') h1'
      rw [hx] at a2
      omega
    by_cases h2' : m' ≥ 10 * 2 ^ 23
    · rw [shown_mid h1' h2']
      have a2 := hn (a := 100 * 2 ^ 23) (a' := m' * 10) (by omega)
      rw [hx] at a2
      omega
    · rw [shown_low h1' h2']
      exact Nat.mul_le_mul_right _ (hn (Nat.mul_le_mul_right _ h))

theorem shown_ge {m : Nat} (h : 2 ^ 23 ≤ m) : 1000 ≤ shown m := by
  have h1 := shown_mono h
  have : shown (2 ^ 23) = 1000 := by decide +kernel
  omega

theorem shown_top {m : Nat} (h : m ≤ 1000 * 2 ^ 23) : shown m ≤ 1000 * 1000 := by
  have h1 := shown_mono h
  have : shown (1000 * 2 ^ 23) = 1000 * 1000 := by decide +kernel
  omega

/-- The value shown for the `f32` number `f`. -/
def bigVal (f : Nat) : Nat :=
  if 999999995904 ≤ f then shown (rnd (f * 2 ^ 23) 999999995904) * 10 ^ 9
  else if 10 ^ 9 ≤ f then shown (rnd (f * 2 ^ 23) (10 ^ 9)) * 10 ^ 6
  else if 10 ^ 6 ≤ f then shown (rnd (f * 2 ^ 23) (10 ^ 6)) * 10 ^ 3
  else if 10 ^ 3 ≤ f then shown (rnd (f * 2 ^ 23) (10 ^ 3))
  else f

theorem shown_places {m c : Nat} : shown m * c * 10 ^ placesOf m =
    nearest (m * 10 ^ placesOf m) (2 ^ 23) * (c * 1000) := by
  have h : placesOf m ≤ 3 := by
    unfold placesOf
    split <;> (try split) <;> omega
  have e : 10 ^ (3 - placesOf m) * 10 ^ placesOf m = 1000 := by
    rw [← Nat.pow_add, Nat.sub_add_cancel h]
  unfold shown
  generalize nearest (m * 10 ^ placesOf m) (2 ^ 23) = x
  rw [Nat.mul_right_comm x, Nat.mul_assoc (x * c), e, Nat.mul_assoc]

theorem fmtBigNum_reads (n : Nat) : Reads (fmtBigNum n) (bigVal (rnd n 1)) := by
  have e1 : rnd (10 ^ 12) 1 = 999999995904 := by decide +kernel
  have e2 : rnd (10 ^ 9) 1 = 10 ^ 9 := by decide +kernel
  have e3 : rnd (10 ^ 6) 1 = 10 ^ 6 := by decide +kernel
  have e4 : rnd (10 ^ 3) 1 = 10 ^ 3 := by decide +kernel
  unfold fmtBigNum
  simp only
  generalize rnd n 1 = f
  unfold ABBREVS bigVal
  simp only [List.find?_cons, e1, e2, e3, e4]
  by_cases h1 : 999999995904 ≤ f
  · simp only [h1, decide_true, if_true, e1]
    exact fixed_reads (suf := (['T'], 10 ^ 12)) (by decide) shown_places
  simp only [h1, decide_false, if_false]
  by_cases h2 : 10 ^ 9 ≤ f
  · simp only [h2, decide_true, if_true, e2]
    exact fixed_reads (suf := (['B'], 10 ^ 9)) (by decide) shown_places
  simp only [h2, decide_false, if_false]
  by_cases h3 : 10 ^ 6 ≤ f
  · simp only [h3, decide_true, if_true, e3]
    exact fixed_reads (suf := (['M'], 10 ^ 6)) (by decide) shown_places
  simp only [h3, decide_false, if_false]
  by_cases h4 : 10 ^ 3 ≤ f
  · simp only [h4, decide_true, if_true, e4]
    refine fixed_reads (suf := (['k'], 10 ^ 3)) (by decide) ?_
    have := shown_places (m := rnd (f * 2 ^ 23) (10 ^ 3)) (c := 1)
    rw [Nat.mul_one, Nat.one_mul] at this
    exact this
  · simp only [h4, decide_false, if_false, List.find?_nil]
    refine ⟨dec f, [], ([], 1), by decide, dec_ne_nil _, fun c hc => dec_digits (by simpa using hc), by simp, ?_⟩
    simp [dec_value]

theorem bigVal_mono {f f' : Nat} (h : f ≤ f') : bigVal f ≤ bigVal f' := by
  have hm : ∀ u, 0 < u → shown (rnd (f * 2 ^ 23) u) ≤ shown (rnd (f' * 2 ^ 23) u) := fun u hu =>
    shown_mono (rnd_mono hu (Nat.mul_le_mul_right _ h))
  -- at most 1000 of a unit below the next
  have ht : ∀ u t, 0 < u → rnd (t * 2 ^ 23) u ≤ 1000 * 2 ^ 23 → f < t → shown (rnd (f * 2 ^ 23) u) ≤ 1000 * 1000 :=
    fun u t hu h1 h2 => shown_top (Nat.le_trans (rnd_mono hu (Nat.mul_le_mul_right _ (Nat.le_of_lt h2))) h1)
  have hb : ∀ u, 0 < u → rnd (u * 2 ^ 23) u = 2 ^ 23 → u ≤ f' → 1000 ≤ shown (rnd (f' * 2 ^ 23) u) :=
    fun u hu h1 h2 => shown_ge (Nat.le_trans (Nat.le_of_eq h1.symm) (rnd_mono hu (Nat.mul_le_mul_right _ h2)))
  have hbT := hb 999999995904 (by decide) (by decide +kernel)
  have hbB := hb (10 ^ 9) (by decide) (by decide +kernel)
  have hbM := hb (10 ^ 6) (by decide) (by decide +kernel)
  have hbk := hb (10 ^ 3) (by decide) (by decide +kernel)
  have htB := ht (10 ^ 9) 999999995904 (by decide) (by decide +kernel)
  have htM := ht (10 ^ 6) (10 ^ 9) (by decide) (by decide +kernel)
  have htk := ht (10 ^ 3) (10 ^ 6) (by decide) (by decide +kernel)
  have hmT := hm 999999995904 (by decide)
  have hmB := hm (10 ^ 9) (by decide)
  have hmM := hm (10 ^ 6) (by decide)
  have hmk := hm (10 ^ 3) (by decide)
  unfold bigVal
  split <;> (try split) <;> (try split) <;> (try split) <;> (try split) <;> (try split) <;> (try split) <;>
    (try split) <;> omega

theorem bigVal_near {n : Nat} : 10000 * bigVal (rnd n 1) ≤ 10051 * n ∧ 9949 * n ≤ 10000 * bigVal (rnd n 1) := by
  have hf : 2 ^ 24 * n ≤ 2 ^ 24 * rnd n 1 + n ∧ 2 ^ 24 * rnd n 1 ≤ 2 ^ 24 * n + n := by
    rcases Nat.lt_or_ge n (2 ^ 24) with h | h
    · rw [rnd_small h]; omega
    · have := rnd_err (a := n) (b := 1) (by decide) (by omega)
      rwa [Nat.mul_one] at this
  generalize rnd n 1 = f at *
  have key : ∀ u, 0 < u → u ≤ f → 2 ^ 24 * (f * 2 ^ 23) ≤ 2 ^ 24 * (rnd (f * 2 ^ 23) u * u) + f * 2 ^ 23 ∧
      2 ^ 24 * (rnd (f * 2 ^ 23) u * u) ≤ 2 ^ 24 * (f * 2 ^ 23) + f * 2 ^ 23 := fun u hu h =>
    rnd_err hu (by rw [Nat.mul_comm]; exact Nat.mul_le_mul_right _ h)
  have hge : ∀ u, 0 < u → rnd (u * 2 ^ 23) u = 2 ^ 23 → u ≤ f → 2 ^ 23 ≤ rnd (f * 2 ^ 23) u :=
    fun u hu h1 h2 => Nat.le_trans (Nat.le_of_eq h1.symm) (rnd_mono hu (Nat.mul_le_mul_right _ h2))
  unfold bigVal
  split
  · rename_i h
    have h1 := key _ (by decide) h
    have h2 := shown_le (hge _ (by decide) (by decide +kernel) h)
    omega
  split
  · rename_i h
    have h1 := key _ (by decide) h
    have h2 := shown_le (hge _ (by decide) (by decide +kernel) h)
    omega
  split
  · rename_i h
    have h1 := key _ (by decide) h
    have h2 := shown_le (hge _ (by decide) (by decide +kernel) h)
    omega
  split
  · rename_i h
    have h1 := key _ (by decide) h
    have h2 := shown_le (hge _ (by decide) (by decide +kernel) h)
    omega
  · omega

end MapEditr
