import Verif.Proof.Term
import Verif.Props.Progress
import Verif.Props.Helpers
/-!
# The progress line (C74, C77)

Its numbers come from `f32` arithmetic, which rounds; the durations it prints are checked in C64.
-/

namespace MapEditr
open Spec

/-- **C74**: as long as no more blocks are done than there are, and the editing has taken less than
nine billion years, the line is printed.  The bar has 25 places, of which the share of the blocks done,
rounded down, is filled; the percentage is right to 0.0501; the elapsed time is exact. -/
theorem C74_line (done total realNs etaNs : Nat) (h : done ≤ total) (ht : total < 2 ^ 64)
    (he : etaNs < 10 ^ 9 * 2 ^ 58) :
    ∃ bars tenths remaining,
      editingText done total realNs etaNs true =
        .ok (progressLine bars tenths (fmtDuration (realNs / 10 ^ 9)) remaining) ∧
      bars ≤ 25 ∧ 10 ^ 6 * (bars * total) ≤ 25 * (10 ^ 6 + 1) * done ∧
      25 * (10 ^ 6 - 1) * done ≤ 10 ^ 6 * ((bars + 1) * total) ∧
      tenths ≤ 1000 ∧ OffBy (501 * total) (1000 * (tenths * total)) (1000 * (1000 * done)) := by
  obtain ⟨r, hr⟩ := remaining_ok (etaNs := etaNs) he (progress_le h)
  have h1 := tenths_near h ht
  have h2 := bars_near h ht
  exact ⟨barsOf done total, tenths done total, remText r, editingText_line hr, bars_le h, h2.1, h2.2, tenths_le h,
    by omega, by omega⟩

/-- The remaining time is shown from a tenth on.  With `d` of `t` blocks done in `e` nanoseconds, it is
`e * (t - d) / d`, rounded down to seconds, but for a millionth of `e * t / d` and a nanosecond. -/
theorem C74_remaining (done total realNs etaNs : Nat) (h : done ≤ total) (ht : total < 2 ^ 64)
    (he : etaNs < 10 ^ 9 * 2 ^ 58) :
    ∃ bars tenths remaining,
      editingText done total realNs etaNs true =
        .ok (progressLine bars tenths (fmtDuration (realNs / 10 ^ 9)) remaining) ∧
      (remaining = "--:--".toList ∧ 10 ^ 7 * done ≤ (10 ^ 6 + 1) * total ∨
       ∃ s, remaining = fmtDuration s ∧ (10 ^ 6 - 1) * total ≤ 10 ^ 7 * done ∧
        10 ^ 6 * (10 ^ 9 * (s * done)) ≤ 10 ^ 6 * (etaNs * (total - done)) + etaNs * total + 10 ^ 6 * done ∧
        10 ^ 6 * (etaNs * (total - done)) ≤
          10 ^ 6 * (10 ^ 9 * ((s + 1) * done)) + etaNs * total + 10 ^ 6 * done) := by
  obtain ⟨r, hr⟩ := remaining_ok (etaNs := etaNs) he (progress_le h)
  have hs := remaining_shown h ht hr
  refine ⟨barsOf done total, tenths done total, remText r, editingText_line hr, ?_⟩
  cases r with
  | none => exact .inl ⟨rfl, hs.2 rfl⟩
  | some s =>
    refine .inr ⟨s, rfl, hs.1 rfl, ?_⟩
    rcases Nat.eq_zero_or_pos done with rfl | hd
    · have h0 := hs.1 rfl
      have : total = 0 := by omega
      subst this
      simp
    · have := remaining_near hd h ht hr
      rw [Nat.add_mul, Nat.one_mul, Nat.mul_add (10 ^ 9)]
      exact this

/-- In the end, the bar is full, and no time remains. -/
theorem C74_end (total realNs etaNs : Nat) (h : 0 < total) :
    editingText total total realNs etaNs true =
      .ok (progressLine 25 1000 (fmtDuration (realNs / 10 ^ 9)) "00:00".toList) := by
  have hp := progress_full h
  have hr : remainingSecs etaNs (progressF32 total total) = .ok (some 0) := by
    rw [hp]
    exact remaining_full etaNs
  rw [editingText_line hr]
  have h1 : barsOf total total = 25 := by
    unfold barsOf
    rw [hp]
    decide +kernel
  have h2 : tenths total total = 1000 := by
    unfold tenths
    rw [hp]
    decide +kernel
  rw [h1, h2]
  rfl

/-- Before the first block, and on an empty map, everything is zero. -/
theorem C74_begin (total realNs etaNs : Nat) :
    editingText 0 total realNs etaNs true =
      .ok (progressLine 0 0 (fmtDuration (realNs / 10 ^ 9)) "--:--".toList) := by
  have hp : progressF32 0 total = 0 := by
    unfold progressF32
    split
    · rfl
    · rw [rnd_small (n := 0) (by decide), Nat.zero_mul, rnd_eq]
      simp [nearest]
  have hr : remainingSecs etaNs (progressF32 0 total) = .ok none := by
    rw [hp]
    unfold remainingSecs
    rw [if_neg (by decide +kernel)]
  rw [editingText_line hr]
  have h1 : barsOf 0 total = 0 := by
    unfold barsOf
    rw [hp]
    decide +kernel
  have h2 : tenths 0 total = 0 := by
    unfold tenths
    rw [hp]
    decide +kernel
  rw [h1, h2]
  rfl

/-- Without progress, only the time is shown. -/
theorem C74_plain (done total realNs etaNs : Nat) :
    editingText done total realNs etaNs false =
      .ok ("\rProcessing... ".toList ++ fmtDuration (realNs / 10 ^ 9) ++ " elapsed".toList) := rfl

/-- Whatever the command and the map, at no time would printing the line panic. -/
theorem C74_run (env : Env) (args : InstArgs) (s : Status) (hs : s ∈ (worker env args World.start).2.seen)
    (ht : s.total < 2 ^ 64) (realNs etaNs : Nat) (he : etaNs < 10 ^ 9 * 2 ^ 58) :
    ∃ text, editingText s.done s.total realNs etaNs s.showProgress = .ok text := by
  cases s.showProgress
  · exact ⟨_, rfl⟩
  · obtain ⟨_, _, _, h, _⟩ := C74_line s.done s.total realNs etaNs ((C72_progress env args).1 s hs).1 ht he
    exact ⟨_, h⟩

/-- If more were done than there is, the program would panic: 11 of 10 blocks after one second.  By C72
this never happens. -/
example : editingText 11 10 (10 ^ 9) (10 ^ 9) true = .error (.panic "negative duration") := by decide +kernel

/-- A third of a million blocks after 100 seconds. -/
example : editingText 333333 1000000 (120 * 10 ^ 9) (100 * 10 ^ 9) true =
    .ok (progressLine 8 333 "02:00".toList "03:20".toList) := by decide +kernel

example : editingText 333333 1000000 (120 * 10 ^ 9) (100 * 10 ^ 9) true =
    .ok "\r[========                 ] 33.3% | 02:00 elapsed | 03:20 remaining".toList := by decide +kernel

/-! ## Lines printed over one another (C77) -/

/-- What `print_editing_status` is called with, times in nanoseconds. -/
structure Progress where
  done : Nat
  total : Nat
  realNs : Nat
  etaNs : Nat

/-- Successive values in one stage of editing. -/
def Progress.Before (a b : Progress) : Prop :=
  a.done ≤ b.done ∧ a.total = b.total ∧ a.realNs ≤ b.realNs ∧ a.etaNs ≤ b.etaNs

/-- The line printed. -/
def Progress.text (a : Progress) : Res (List Char) := editingText a.done a.total a.realNs a.etaNs true

/-- **C77** fails: what the user sees after two lines printed over one another need not be the second one. -/
theorem C77_clean_false : ¬ ∀ a b : Progress, a.Before b → b.done ≤ b.total → ∀ ta tb, a.text = .ok ta →
    b.text = .ok tb → shownLine (ta ++ tb) = tb.drop 1 := by
  intro h
  have := h ⟨500, 1000, 3700 * 10 ^ 9, 3700 * 10 ^ 9⟩ ⟨600, 1000, 3800 * 10 ^ 9, 3800 * 10 ^ 9⟩
    ⟨by decide, rfl, by decide, by decide⟩ (by decide)
    "\r[============             ] 50.0% | 1:01:40 elapsed | 1:01:40 remaining".toList
    "\r[===============          ] 60.0% | 1:03:20 elapsed | 42:13 remaining".toList
    (by decide +kernel) (by decide +kernel)
  revert this
  decide +kernel

/-- What is seen in that case: two letters remain of the longer line. -/
example : shownLine ("\r[============             ] 50.0% | 1:01:40 elapsed | 1:01:40 remaining".toList ++
    "\r[===============          ] 60.0% | 1:03:20 elapsed | 42:13 remaining".toList) =
    "[===============          ] 60.0% | 1:03:20 elapsed | 42:13 remainingng".toList := by decide +kernel

/-- Holds as long as the estimated time for the whole map (`eta * total / done`) is below 3590 seconds
whenever a tenth is done: the last line is seen as it is.  Missing: estimates of an hour and more, where
it is false. -/
theorem C77_clean_partial (l : List Progress) (hl : l.Pairwise Progress.Before)
    (hd : ∀ a ∈ l, a.done ≤ a.total ∧ a.total < 2 ^ 64 ∧ a.etaNs < 10 ^ 9 * 2 ^ 58)
    (he : ∀ a ∈ l, 999999 * a.total ≤ 10 ^ 7 * a.done → a.etaNs * a.total ≤ 3590 * 10 ^ 9 * a.done)
    (out : List Char) (ho : AtLineStart out) :
    ∃ texts, l.mapM Progress.text = .ok texts ∧
      shownLine (out ++ texts.flatten) = (texts.getLast?.getD []).drop 1 := by
  have key : ∀ a ∈ l, ∃ r, a.text = .ok ('\r' :: lineBody (barsOf a.done a.total) (tenths a.done a.total)
      (fmtDuration (a.realNs / 10 ^ 9)) (remText r)) ∧ (remText r).length = 5 := by
    intro a ha
    obtain ⟨h1, h2, h3⟩ := hd a ha
    obtain ⟨r, hr⟩ := remaining_ok (etaNs := a.etaNs) h3 (progress_le h1)
    refine ⟨r, ?_, ?_⟩
    · rw [← progressLine_eq]
      exact editingText_line hr
    · cases r with
      | none => decide
      | some s =>
        have h4 := (remaining_shown h1 h2 hr).1 rfl
        have h5 := he a ha h4
        rcases Nat.eq_zero_or_pos a.done with h0 | h0
        · rw [h0] at hr
          exfalso
          have : progressF32 0 a.total = 0 := by
            unfold progressF32
            split
            · rfl
            · rw [rnd_small (n := 0) (by decide), Nat.zero_mul, rnd_eq]
              simp [nearest]
          rw [this] at hr
          unfold remainingSecs at hr
          rw [if_neg (by decide +kernel)] at hr
          cases hr
        · have h6 := (remaining_near h0 h1 h2 hr).1
          have h7 : a.etaNs * (a.total - a.done) ≤ a.etaNs * a.total := Nat.mul_le_mul_left _ (Nat.sub_le _ _)
          have h8 : s < 3600 := by
            rcases Nat.lt_or_ge s 3600 with hs | hs
            · exact hs
            · have := Nat.mul_le_mul_right a.done hs
              generalize s * a.done = x at *
              generalize a.etaNs * a.total = y at *
              generalize a.etaNs * (a.total - a.done) = z at *
              omega
          change (fmtDuration s).length = 5
          rw [duration_length, if_pos h8]
  have hb : ∃ bodies : List (List Char), l.mapM Progress.text = .ok (bodies.map ('\r' :: ·)) ∧
      (∀ b ∈ bodies, NoCtl b ∧ ∃ a ∈ l, b.length =
        60 + (dec (tenths a.done a.total / 10)).length + (fmtDuration (a.realNs / 10 ^ 9)).length) ∧
      bodies.Pairwise fun a b => a.length ≤ b.length := by
    clear he
    induction l with
    | nil => exact ⟨[], rfl, by simp, List.Pairwise.nil⟩
    | cons a l ih =>
      obtain ⟨h1, h2⟩ := List.pairwise_cons.1 hl
      obtain ⟨bodies, h3, h4, h5⟩ := ih h2 (fun x hx => hd x (List.mem_cons_of_mem _ hx))
        (fun x hx => key x (List.mem_cons_of_mem _ hx))
      obtain ⟨r, h6, h7⟩ := key a List.mem_cons_self
      refine ⟨lineBody (barsOf a.done a.total) (tenths a.done a.total) (fmtDuration (a.realNs / 10 ^ 9)) (remText r)
        :: bodies, ?_, ?_, ?_⟩
      · rw [List.mapM_cons, h6, h3]
        rfl
      · intro b hb
        rcases List.mem_cons.1 hb with rfl | hb
        · refine ⟨plain_lineBody (plain_duration _) (plain_rem _), a, List.mem_cons_self, ?_⟩
          rw [lineBody_length (bars_le (hd a List.mem_cons_self).1), h7]
          omega
        · obtain ⟨h8, x, h9, h10⟩ := h4 b hb
          exact ⟨h8, x, List.mem_cons_of_mem _ h9, h10⟩
      · refine List.pairwise_cons.2 ⟨fun b hb => ?_, h5⟩
        obtain ⟨_, x, h9, h10⟩ := h4 b hb
        obtain ⟨g1, g2, g3, _⟩ := h1 x h9
        rw [lineBody_length (bars_le (hd a List.mem_cons_self).1), h7, h10, ← g2]
        have k1 := dec_length_mono (Nat.div_le_div_right (c := 10) (tenths_mono (total := a.total) g1))
        have k2 := duration_length_mono (Nat.div_le_div_right (c := 10 ^ 9) g3)
        omega
  obtain ⟨bodies, h1, h2, h3⟩ := hb
  refine ⟨_, h1, ?_⟩
  rw [shown_lines (fun b hb => (h2 b hb).1) h3 ho, List.getLast?_map]
  cases bodies.getLast? <;> rfl

/-- The lines of the query never get shorter, because the number of blocks found only grows (C72): each is
seen as it is. -/
theorem C77_query (l : List Nat) (hl : l.Pairwise (· ≤ ·)) (out : List Char) (ho : AtLineStart out) :
    shownLine (out ++ (l.map queryingText).flatten) = ((l.map queryingText).getLast?.getD []).drop 1 := by
  have e : ∀ n, queryingText n = '\r' :: ("Querying mapblocks... ".toList ++ dec n ++ " found.".toList) := by
    intro n
    unfold queryingText
    have : "\rQuerying mapblocks... ".toList = '\r' :: "Querying mapblocks... ".toList := by decide
    rw [this]
    rfl
  have em : l.map queryingText = (l.map fun n => "Querying mapblocks... ".toList ++ dec n ++ " found.".toList).map
      ('\r' :: ·) := by
    rw [List.map_map]
    exact List.map_congr_left (fun n _ => e n)
  rw [em, shown_lines ?_ ?_ ho]
  · simp only [List.getLast?_map]
    cases l.getLast? <;> rfl
  · intro b hb
    obtain ⟨n, _, rfl⟩ := List.mem_map.1 hb
    exact (NoCtl.append (by decide) (plain_dec n)).append (by decide)
  · rw [List.pairwise_map]
    refine hl.imp fun h => ?_
    simp only [List.length_append]
    have := dec_length_mono h
    omega

/-- Three lines, after a message, as the partial theorem has it. -/
example : shownLine ("info: done\n".toList ++
    (match [(⟨0, 1000, 0, 0⟩ : Progress), ⟨500, 1000, 10 ^ 9, 10 ^ 9⟩, ⟨1000, 1000, 2 * 10 ^ 9, 2 * 10 ^ 9⟩].mapM
      Progress.text with | .ok t => t.flatten | .error _ => [])) =
    "[=========================] 100.0% | 00:02 elapsed | 00:00 remaining".toList := by decide +kernel

end MapEditr
