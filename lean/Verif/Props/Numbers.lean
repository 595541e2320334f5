import Verif.Proof.BigNum
/-!
# Abbreviated numbers (C73)
-/

namespace MapEditr
open Spec

/-- **C73**: the number shown is within 0.51 % of the true one. -/
theorem C73_close (n : Nat) : ∃ v, Reads (fmtBigNum n) v ∧ 10000 * v ≤ 10051 * n ∧ 9949 * n ≤ 10000 * v :=
  ⟨_, fmtBigNum_reads n, bigVal_near⟩

/-- A number below a thousand is shown exactly. -/
theorem C73_small (n : Nat) (h : n < 1000) : fmtBigNum n = Nat.toDigits 10 n := by
  have e1 : rnd (10 ^ 12) 1 = 999999995904 := by decide +kernel
  have e2 : rnd (10 ^ 9) 1 = 10 ^ 9 := by decide +kernel
  have e3 : rnd (10 ^ 6) 1 = 10 ^ 6 := by decide +kernel
  have e4 : rnd (10 ^ 3) 1 = 10 ^ 3 := by decide +kernel
  unfold fmtBigNum
  simp only
  rw [rnd_small (by omega)]
  unfold ABBREVS
  have h1 : decide (rnd (10 ^ 12) 1 ≤ n) = false := by rw [e1]; simp; omega
  have h2 : decide (rnd (10 ^ 9) 1 ≤ n) = false := by rw [e2]; simp; omega
  have h3 : decide (rnd (10 ^ 6) 1 ≤ n) = false := by rw [e3]; simp; omega
  have h4 : decide (rnd (10 ^ 3) 1 ≤ n) = false := by rw [e4]; simp; omega
  simp only [List.find?_cons, h1, h2, h3, h4, List.find?_nil]
  rfl

/-- A numeral stands for one number only. -/
theorem C73_unambiguous {s : List Char} {v w : Nat} (hv : Reads s v) (hw : Reads s w) : v = w := by
  have key : ∀ {i f : List Char} {suf : List Char × Nat}, suf ∈ SUFFIXES → (∀ c ∈ i ++ f, c.isDigit = true) →
      s = i ++ (if f = [] then [] else '.' :: f) ++ suf.1 →
      i = s.takeWhile Char.isDigit ∧
      f = ((s.dropWhile Char.isDigit).drop 1).takeWhile Char.isDigit ∧
      suf.1 = s.filter Char.isAlpha := by
    intro i f suf hs hd e
    have hi : ∀ c ∈ i, c.isDigit = true := fun c hc => hd c (List.mem_append_left _ hc)
    have hf : ∀ c ∈ f, c.isDigit = true := fun c hc => hd c (List.mem_append_right _ hc)
    have na : ∀ c : Char, c.isDigit = true → c.isAlpha = false := by
      intro c hc
      have h1 : 48 ≤ c.toNat ∧ c.toNat ≤ 57 := by
        unfold Char.isDigit at hc
        simp only [ge_iff_le, Bool.and_eq_true, decide_eq_true_eq, UInt32.le_iff_toNat_le] at hc
        exact hc
      unfold Char.isAlpha Char.isUpper Char.isLower
      simp only [ge_iff_le, Bool.or_eq_false_iff, Bool.and_eq_false_iff, decide_eq_false_iff_not,
        UInt32.le_iff_toNat_le]
      have : c.val.toNat = c.toNat := rfl
      rw [this]
      have ha : 'A'.val.toNat = 65 := rfl
      have ha' : 'a'.val.toNat = 97 := rfl
      rw [ha, ha']
      constructor <;> omega
    have fi : ∀ l : List Char, (∀ c ∈ l, c.isDigit = true) → l.filter Char.isAlpha = [] := by
      intro l hl
      rw [List.filter_eq_nil_iff]
      intro c hc
      rw [na c (hl c hc)]
      decide
    have sf : suf.1.takeWhile Char.isDigit = [] ∧ suf.1.dropWhile Char.isDigit = suf.1 ∧
        suf.1.filter Char.isAlpha = suf.1 ∧ (suf.1.drop 1) = [] := by
      unfold SUFFIXES at hs
      simp only [List.mem_cons, List.not_mem_nil, or_false] at hs
      rcases hs with rfl | rfl | rfl | rfl | rfl <;> decide
    subst e
    by_cases h0 : f = []
    · subst h0
      simp only [if_true, List.append_nil]
      refine ⟨?_, ?_, ?_⟩
      · rw [List.takeWhile_append_of_pos hi, sf.1, List.append_nil]
      · rw [List.dropWhile_append_of_pos hi, sf.2.1, sf.2.2.2]
        rfl
      · rw [List.filter_append, fi i hi, sf.2.2.1, List.nil_append]
    · simp only [h0, if_false, List.append_assoc, List.cons_append]
      have d1 : ('.' :: (f ++ suf.1)).takeWhile Char.isDigit = [] := by
        rw [List.takeWhile_cons]; rfl
      have d2 : ('.' :: (f ++ suf.1)).dropWhile Char.isDigit = '.' :: (f ++ suf.1) := by
        rw [List.dropWhile_cons]; rfl
      refine ⟨?_, ?_, ?_⟩
      · rw [List.takeWhile_append_of_pos hi, d1, List.append_nil]
      · rw [List.dropWhile_append_of_pos hi, d2, List.drop_one, List.tail_cons, List.takeWhile_append_of_pos hf,
          sf.1, List.append_nil]
      · rw [List.filter_append, fi i hi, List.nil_append, List.filter_cons_of_neg (by decide), List.filter_append,
          fi f hf, sf.2.2.1, List.nil_append]
  obtain ⟨i, f, suf, hs, _, hd, e, hx⟩ := hv
  obtain ⟨i', f', suf', hs', _, hd', e', hx'⟩ := hw
  have k := key hs hd e
  have k' := key hs' hd' e'
  have h1 : i = i' := k.1.trans k'.1.symm
  have h2 : f = f' := k.2.1.trans k'.2.1.symm
  have h3 : suf.1 = suf'.1 := k.2.2.trans k'.2.2.symm
  have h4 : suf = suf' := by
    unfold SUFFIXES at hs hs'
    simp only [List.mem_cons, List.not_mem_nil, or_false] at hs hs'
    rcases hs with rfl | rfl | rfl | rfl | rfl <;> rcases hs' with rfl | rfl | rfl | rfl | rfl <;>
      first | rfl | (exfalso; revert h3; decide)
  subst h1 h2 h4
  rw [← hx'] at hx
  exact Nat.eq_of_mul_eq_mul_right (Nat.pow_pos (by decide)) hx

/-- A larger number is never shown as a smaller one. -/
theorem C73_mono {m n v w : Nat} (h : m ≤ n) (hv : Reads (fmtBigNum m) v) (hw : Reads (fmtBigNum n) w) : v ≤ w := by
  rw [C73_unambiguous hv (fmtBigNum_reads m), C73_unambiguous hw (fmtBigNum_reads n)]
  exact bigVal_mono (rnd_mono (by decide) h)

/-- Some numerals and what they stand for. -/
example : Reads "12.3k".toList 12300 ∧ Reads "999".toList 999 ∧ Reads "1.67B".toList 1670000000 :=
  ⟨⟨['1', '2'], ['3'], (['k'], 1000), by decide, by decide, by decide, by decide, by decide⟩,
   ⟨['9', '9', '9'], [], ([], 1), by decide, by decide, by decide, by decide, by decide⟩,
   ⟨['1'], ['6', '7'], (['B'], 1000000000), by decide, by decide, by decide, by decide, by decide⟩⟩

/-- The tests of `src/utils.rs:188-205`, and two cases at the limits of a suffix. -/
example : [0, 3, 42, 999, 1000, 33870, 470999, 555678000, 1672234000, 77864672234000, 99999, 999999].map fmtBigNum =
    ["0", "3", "42", "999", "1.00k", "33.9k", "471k", "556M", "1.67B", "77.9T", "100.0k", "1000k"].map
      String.toList := by decide +kernel

end MapEditr
