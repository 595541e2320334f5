import Verif.Proof.EditingText
/-!
# What stays on the terminal line
-/

namespace MapEditr
open Spec

/-- Text without control characters. -/
def NoCtl (l : List Char) : Prop := '\n' ∉ l ∧ '\r' ∉ l

theorem put_plain (line : List Char) : ∀ (l : List Char) (c : Nat), NoCtl l → c ≤ line.length →
    l.foldl Term.put ⟨line, c⟩ = ⟨line.take c ++ l ++ line.drop (c + l.length), c + l.length⟩ := by
  intro l
  induction l generalizing line with
  | nil => intro c _ _; simp
  | cons x l ih =>
    intro c hp hc
    have hx : x ≠ '\n' ∧ x ≠ '\r' :=
      ⟨fun h => hp.1 (h ▸ List.mem_cons_self), fun h => hp.2 (h ▸ List.mem_cons_self)⟩
    have hl : NoCtl l := ⟨fun h => hp.1 (List.mem_cons_of_mem _ h), fun h => hp.2 (List.mem_cons_of_mem _ h)⟩
    rw [List.foldl_cons]
    have e : Term.put ⟨line, c⟩ x = ⟨line.take c ++ x :: line.drop (c + 1), c + 1⟩ := by
      unfold Term.put
      rw [if_neg hx.1, if_neg hx.2]
    rw [e, ih _ _ hl (by simp; omega)]
    have ht : (line.take c).length = c := by rw [List.length_take]; omega
    have e1 : (line.take c ++ x :: line.drop (c + 1)).take (c + 1) = line.take c ++ [x] := by
      rw [List.take_append, ht, List.take_of_length_le (by omega)]
      simp
    have e2 : (line.take c ++ x :: line.drop (c + 1)).drop (c + 1 + l.length) = line.drop (c + (x :: l).length) := by
      rw [List.drop_append, ht, List.drop_of_length_le (by omega)]
      have : c + 1 + l.length - c = l.length + 1 := by omega
      rw [this, List.drop_succ_cons, List.drop_drop, List.nil_append, List.length_cons]
      congr 1
      omega
    rw [e1, e2, List.length_cons]
    congr 1
    · simp
    · omega

/-- Printing a line over another. -/
theorem put_over (line : List Char) (c : Nat) {l : List Char} (hp : NoCtl l) :
    ('\r' :: l).foldl Term.put ⟨line, c⟩ = ⟨l ++ line.drop l.length, l.length⟩ := by
  rw [List.foldl_cons]
  have e : Term.put ⟨line, c⟩ '\r' = ⟨line, 0⟩ := rfl
  rw [e, put_plain _ _ _ hp (by omega)]
  simp

theorem put_start {out : List Char} (h : AtLineStart out) : out.foldl Term.put ⟨[], 0⟩ = ⟨[], 0⟩ := by
  rcases h with rfl | h
  · rfl
  · obtain ⟨o, rfl⟩ := List.getLast?_eq_some_iff.1 h
    rw [List.foldl_append]
    rfl

/-- Lines printed over one another, none shorter than the one before: the last one is what is seen. -/
theorem put_lines {ls : List (List Char)} (hp : ∀ l ∈ ls, NoCtl l)
    (hl : ls.Pairwise fun a b => a.length ≤ b.length) {line : List Char} {c : Nat}
    (h0 : ∀ l ∈ ls, line.length ≤ l.length) :
    ((ls.map ('\r' :: ·)).flatten.foldl Term.put ⟨line, c⟩).line = ls.getLast?.getD line := by
  induction ls generalizing line c with
  | nil => rfl
  | cons l ls ih =>
    have h1 := List.pairwise_cons.1 hl
    rw [List.map_cons, List.flatten_cons, List.foldl_append, put_over _ _ (hp l List.mem_cons_self)]
    have e : line.drop l.length = [] := List.drop_of_length_le (h0 l List.mem_cons_self)
    rw [e, List.append_nil, ih (fun x hx => hp x (List.mem_cons_of_mem _ hx)) h1.2 h1.1]
    cases h2 : ls.getLast? with
    | none =>
      rw [List.getLast?_eq_none_iff] at h2
      subst h2
      rfl
    | some x =>
      rw [List.getLast?_cons, h2]
      rfl

theorem shown_lines {ls : List (List Char)} (hp : ∀ l ∈ ls, NoCtl l)
    (hl : ls.Pairwise fun a b => a.length ≤ b.length) {out : List Char} (ho : AtLineStart out) :
    shownLine (out ++ (ls.map ('\r' :: ·)).flatten) = ls.getLast?.getD [] := by
  unfold shownLine
  rw [List.foldl_append, put_start ho]
  exact put_lines hp hl (fun _ _ => Nat.zero_le _)

/-! ## NoCtl text -/

theorem NoCtl.append {a b : List Char} (ha : NoCtl a) (hb : NoCtl b) : NoCtl (a ++ b) :=
  ⟨fun h => (List.mem_append.1 h).elim ha.1 hb.1, fun h => (List.mem_append.1 h).elim ha.2 hb.2⟩

theorem plain_dec (n : Nat) : NoCtl (dec n) :=
  ⟨fun h => absurd (dec_digits h) (by decide), fun h => absurd (dec_digits h) (by decide)⟩

theorem plain_replicate {n : Nat} {c : Char} (h : c ≠ '\n') (h' : c ≠ '\r') : NoCtl (List.replicate n c) :=
  ⟨fun hm => h (List.eq_of_mem_replicate hm).symm, fun hm => h' (List.eq_of_mem_replicate hm).symm⟩

instance (l : List Char) : Decidable (NoCtl l) := inferInstanceAs (Decidable (_ ∧ _))

theorem plain_pad2 (n : Nat) : NoCtl (pad2 n) := by
  unfold pad2
  split
  · exact NoCtl.append (a := ['0']) (by decide) (plain_dec n)
  · exact plain_dec n

theorem plain_duration (s : Nat) : NoCtl (fmtDuration s) := by
  unfold fmtDuration
  split
  · exact ((plain_pad2 _).append (by decide)).append (plain_pad2 _)
  · exact ((((plain_dec _).append (by decide)).append (plain_pad2 _)).append (by decide)).append (plain_pad2 _)

theorem plain_rem (r : Option Nat) : NoCtl (remText r) := by
  cases r with
  | none => decide
  | some s => exact plain_duration s

/-- A progress line without the `\r`. -/
def lineBody (bars tenths : Nat) (elapsed remaining : List Char) : List Char :=
  ['['] ++ List.replicate bars '=' ++ List.replicate (25 - bars) ' ' ++ "] ".toList ++
    dec (tenths / 10) ++ ['.'] ++ dec (tenths % 10) ++ "% | ".toList ++ elapsed ++
    " elapsed | ".toList ++ remaining ++ " remaining".toList

theorem progressLine_eq (bars tenths : Nat) (elapsed remaining : List Char) :
    progressLine bars tenths elapsed remaining = '\r' :: lineBody bars tenths elapsed remaining := by
  unfold progressLine lineBody dec
  have : "\r[".toList = ['\r', '['] := by decide
  rw [this]
  simp only [List.cons_append, List.append_assoc, List.nil_append]

theorem plain_lineBody {bars tenths : Nat} {elapsed remaining : List Char} (he : NoCtl elapsed)
    (hr : NoCtl remaining) : NoCtl (lineBody bars tenths elapsed remaining) := by
  unfold lineBody
  refine NoCtl.append (NoCtl.append (NoCtl.append (NoCtl.append (NoCtl.append (NoCtl.append (NoCtl.append
    (NoCtl.append (NoCtl.append (NoCtl.append (NoCtl.append ?_ ?_) ?_) ?_) ?_) ?_) ?_) ?_) he) ?_) hr) ?_
  · decide
  · exact plain_replicate (by decide) (by decide)
  · exact plain_replicate (by decide) (by decide)
  · decide
  · exact plain_dec _
  · decide
  · exact plain_dec _
  all_goals decide

theorem lineBody_length {bars tenths : Nat} {elapsed remaining : List Char} (hb : bars ≤ 25) :
    (lineBody bars tenths elapsed remaining).length =
      55 + (dec (tenths / 10)).length + elapsed.length + remaining.length := by
  unfold lineBody
  have h1 : (dec (tenths % 10)).length = 1 := by
    have h : dec (tenths % 10) = [(tenths % 10).digitChar] := Nat.toDigits_of_lt_base (by omega)
    rw [h]
    rfl
  have e1 : "] ".toList.length = 2 := by decide
  have e2 : "% | ".toList.length = 4 := by decide
  have e3 : " elapsed | ".toList.length = 11 := by decide
  have e4 : " remaining".toList.length = 10 := by decide
  simp only [List.length_append, List.length_replicate, List.length_cons, List.length_nil, e1, e2, e3, e4, h1]
  omega

/-! ## Lengths -/

theorem dec_length_mono {m n : Nat} (h : m ≤ n) : (dec m).length ≤ (dec n).length := by
  have hn : (dec n).length ≠ 0 := by
    intro h0
    exact dec_ne_nil n (List.length_eq_zero_iff.1 h0)
  have h1 : n < 10 ^ (dec n).length := (Nat.length_toDigits_le_iff (by omega) (by omega)).1 (Nat.le_refl _)
  exact (Nat.length_toDigits_le_iff (by omega) (by omega)).2 (by omega)

theorem pad2_length {n : Nat} (h : n < 60) : (pad2 n).length = 2 := by
  unfold pad2
  split
  · rename_i h1
    have : dec n = [n.digitChar] := Nat.toDigits_of_lt_base h1
    rw [this]
    rfl
  · rename_i h1
    have h2 : (dec n).length ≤ 2 := (Nat.length_toDigits_le_iff (by omega) (by omega)).2 (by omega)
    have h3 := dec_length_mono (m := 10) (n := n) (by omega)
    have h4 : (dec 10).length = 2 := by decide
    omega

theorem duration_length (s : Nat) :
    (fmtDuration s).length = if s < 3600 then 5 else (dec (s / 3600)).length + 6 := by
  unfold fmtDuration
  have h1 := pad2_length (n := s / 60 % 60) (by omega)
  have h2 := pad2_length (n := s % 60) (by omega)
  split
  · simp only [List.length_append, h1, h2, List.length_cons, List.length_nil]
  · simp only [List.length_append, h1, h2, List.length_cons, List.length_nil]

theorem duration_length_mono {s s' : Nat} (h : s ≤ s') : (fmtDuration s).length ≤ (fmtDuration s').length := by
  rw [duration_length, duration_length]
  have := dec_length_mono (m := s / 3600) (n := s' / 3600) (Nat.div_le_div_right h)
  split <;> split <;> omega

theorem tenths_mono {done done' total : Nat} (h : done ≤ done') : tenths done total ≤ tenths done' total := by
  have hp : progressF32 done total ≤ progressF32 done' total := by
    unfold progressF32
    split
    · exact Nat.le_refl _
    · exact rnd_mono (rnd_pos (by omega)) (Nat.mul_le_mul_right _ (rnd_mono (by decide) h))
  unfold tenths
  exact nearest_mono (Nat.pow_pos (by decide)) (Nat.mul_le_mul_right _
    (rnd_mono (by decide) (Nat.mul_le_mul_right _ hp)))

end MapEditr
