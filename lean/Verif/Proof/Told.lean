import Verif.Spec.Told
import Verif.Props.Report
import Verif.Props.Numbers
/-! # Lemmas: what the user reads -/

namespace MapEditr
open Spec

theorem numeral (n : Nat) : Numeral n (fmtBigNum n) := by
  obtain ⟨v, h1, h2, h3⟩ := C73_close n
  refine ⟨v, h1, h2, h3, fun h => ?_⟩
  rw [C73_small n h] at h1
  refine C73_unambiguous h1 ⟨Nat.toDigits 10 n, [], ([], 1), by decide, dec_ne_nil n, ?_, by simp, ?_⟩
  · intro c hc
    rw [List.append_nil] at hc
    exact dec_digits hc
  · rw [List.append_nil]
    have := dec_value n
    unfold dec at this
    simp only [List.length_nil, Nat.pow_zero, Nat.mul_one]
    exact this.symm

theorem format_plain {a : List Char} (ha : '{' ∉ a) (rest : List Char) (as : List (List Char)) :
    format (a ++ rest) as = a ++ format rest as := by
  induction a with
  | nil => rfl
  | cons c t ih =>
    have h1 : c ≠ '{' := fun h => ha (by rw [h]; exact List.mem_cons_self)
    have h2 : '{' ∉ t := fun h => ha (List.mem_cons_of_mem _ h)
    rw [List.cons_append, List.cons_append, ← ih h2]
    conv => lhs; unfold format
    split
    · rename_i h
      injection h with h _
      exact absurd h h1
    · rename_i h _
      injection h with h h'
      subst h; subst h'
      rfl
    · rename_i h; cases h

theorem format_end {a : List Char} (ha : '{' ∉ a) (as : List (List Char)) : format a as = a := by
  have := format_plain ha [] as
  rw [List.append_nil] at this
  rw [this]
  unfold format
  exact List.append_nil _

theorem format_hole (t x : List Char) (as : List (List Char)) :
    format ('{' :: '}' :: t) (x :: as) = x ++ format t as := by
  rw [format]

theorem not_mem_parts {a b : List Char} {c : Char} (h : c ∉ a ++ b) : c ∉ a ∧ c ∉ b :=
  ⟨fun h' => h (List.mem_append_left _ h'), fun h' => h (List.mem_append_right _ h')⟩

/-- What is printed of a message says it. -/
theorem says_render (m : Msg) : MsgText m m.render := by
  cases m with
  | text s => exact rfl
  | count what n =>
    intro a b h h'
    obtain ⟨ha, hb⟩ := not_mem_parts h'
    refine ⟨_, numeral n, ?_⟩
    show format what.toList _ = _
    rw [h, List.append_assoc, format_plain ha, List.cons_append, List.cons_append, List.nil_append, format_hole,
      format_end hb, List.append_assoc]
  | count2 what m n =>
    intro a b c h h'
    obtain ⟨h', hc⟩ := not_mem_parts h'
    obtain ⟨ha, hb⟩ := not_mem_parts h'
    refine ⟨_, _, numeral m, numeral n, ?_⟩
    show format what.toList _ = _
    rw [h]
    simp only [List.append_assoc, List.cons_append, List.nil_append]
    rw [format_plain ha, format_hole, format_plain hb, format_hole, format_end hc]

theorem displays_mono {out : List Char} {es : List Event} (h : Displays out es) (s : List Char) :
    Displays (out ++ s) es := by
  induction h with
  | nil => exact .nil _
  | other _ h2 ih => exact .other ih h2
  | log h1 h2 h3 =>
    rw [List.append_assoc _ _ s]
    exact .log h1 h2 h3

theorem entryFor (t : LogType) (m : Msg) : EntryFor t m (logText t m.render) := by
  refine ⟨_, says_render m, fun h1 h2 => ?_⟩
  rw [C75_entry t _ h1 h2]
  cases t <;> rfl

theorem displays_step {u u' : Ui} {k : Tick} {es : List Event} (h : Displays u.out es) (hu : UiOk u)
    (hs : u.step k = .ok u') : Displays u'.out (es ++ tickEvents [k]) := by
  obtain ⟨⟨s, h1⟩, _⟩ := step_out hs
  obtain ⟨s', h2⟩ := receive_out u k
  obtain ⟨nl, h3, _⟩ := newlineIf_out u
  cases hk : k.recv with
  | timeout =>
    have : tickEvents [k] = [] := by simp [tickEvents, hk]
    rw [this, List.append_nil, h1, h2, List.append_assoc]
    exact displays_mono h _
  | event e =>
    have he : tickEvents [k] = [e] := by simp [tickEvents, hk]
    rw [he]
    by_cases hl : ∃ t m, e = .log t m
    · obtain ⟨t, m, rfl⟩ := hl
      have : (u.receive k).1.out = u.out ++ nl ++ logText t m.render := by
        simp only [Ui.receive, hk, h3]
      rw [h1, this]
      refine .log (displays_mono h _) ?_ (entryFor t m)
      rw [← h3]
      exact newlineIf_ok hu
    · rw [h1, h2, List.append_assoc]
      exact .other (displays_mono h _) fun t m e' => hl ⟨t, m, e'⟩

theorem displays_run {ks : List Tick} : ∀ {u u' : Ui} {es : List Event}, u.run ks = .ok u' → UiOk u →
    (∀ k ∈ ks, Typed k) → Displays u.out es → Displays u'.out (es ++ tickEvents ks) := by
  induction ks with
  | nil =>
    intro u u' es h _ _ hd
    injection h with h
    subst h
    rw [show tickEvents [] = [] from rfl, List.append_nil]
    exact hd
  | cons k ks ih =>
    intro u u' es h hu hk hd
    rw [run_cons] at h
    cases h1 : u.step k with
    | error e => rw [h1] at h; cases h
    | ok v =>
      rw [h1] at h
      have := ih h ((step_out h1).2.1 hu (hk k List.mem_cons_self)) (fun x hx => hk x (List.mem_cons_of_mem _ hx))
        (displays_step hd hu h1)
      have e : tickEvents (k :: ks) = tickEvents [k] ++ tickEvents ks := by
        unfold tickEvents
        rw [← List.filterMap_append]
        rfl
      rw [e, ← List.append_assoc]
      exact this

theorem displays_mem {out : List Char} {es : List Event} (h : Displays out es) {t : LogType} {m : Msg}
    (hm : .log t m ∈ es) : ∃ pre entry post, out = pre ++ entry ++ post ∧ AtLineStart pre ∧ EntryFor t m entry := by
  induction h with
  | nil => cases hm
  | other _ h2 ih =>
    rcases List.mem_append.1 hm with hm | hm
    · exact ih hm
    · rw [List.mem_singleton] at hm
      exact absurd hm.symm (h2 t m)
  | @log pre entry post es t' m' h1 h2 h3 ih =>
    rcases List.mem_append.1 hm with hm | hm
    · obtain ⟨p, e, q, rfl, h4, h5⟩ := ih hm
      exact ⟨p, e, q ++ entry ++ post, by simp only [List.append_assoc], h4, h5⟩
    · rw [List.mem_singleton] at hm
      injection hm with e1 e2
      subst e1; subst e2
      exact ⟨pre, entry, post, rfl, h2, h3⟩

/-! ## Entries of one line -/

theorem reads_chars {s : List Char} {v : Nat} (h : Reads s v) : '\n' ∉ s ∧ '\r' ∉ s := by
  obtain ⟨i, f, suf, hs, _, hd, rfl, _⟩ := h
  have h1 : ∀ c ∈ i ++ f, c ≠ '\n' ∧ c ≠ '\r' := by
    intro c hc
    have := hd c hc
    constructor <;> (rintro rfl; revert this; decide)
  have h2 : '\n' ∉ suf.1 ∧ '\r' ∉ suf.1 := by
    unfold SUFFIXES at hs
    simp only [List.mem_cons, List.not_mem_nil, or_false] at hs
    rcases hs with rfl | rfl | rfl | rfl | rfl <;> decide
  have h3 : ∀ x : Char, (x ≠ '.') → (∀ c ∈ i ++ f, c ≠ x) → x ∉ suf.1 →
      x ∉ i ++ (if f = [] then [] else '.' :: f) ++ suf.1 := by
    intro x hx hc hsuf hm
    rcases List.mem_append.1 hm with hm | hm
    · rcases List.mem_append.1 hm with hm | hm
      · exact hc x (List.mem_append_left _ hm) rfl
      · split at hm
        · cases hm
        · rcases List.mem_cons.1 hm with hm | hm
          · exact hx hm
          · exact hc x (List.mem_append_right _ hm) rfl
    · exact hsuf hm
  exact ⟨h3 _ (by decide) (fun c hc => (h1 c hc).1) h2.1, h3 _ (by decide) (fun c hc => (h1 c hc).2) h2.2⟩

theorem logEntry_line {msg : List Char} (h : '\n' ∉ msg) (kind : String) :
    logEntry kind msg = kind.toList ++ ": ".toList ++ msg ++ ['\n'] := by
  have : msg.flatMap (fun c => if c = '\n' then '\n' :: List.replicate (kind.length + 2) ' ' else [c]) = msg := by
    induction msg with
    | nil => rfl
    | cons c t ih =>
      have h1 : c ≠ '\n' := fun e => h (by rw [e]; exact List.mem_cons_self)
      rw [List.flatMap_cons, ih (fun e => h (List.mem_cons_of_mem _ e)), if_neg h1]
      rfl
  unfold logEntry
  rw [this]

theorem last_not {msg : List Char} (h : '\n' ∉ msg) : msg.getLast? ≠ some '\n' :=
  fun e => h (List.mem_of_getLast? e)

/-- Characters a message may have around the numbers. -/
def Bland (s : String) : Prop := '{' ∉ s.toList ∧ '\n' ∉ s.toList ∧ '\r' ∉ s.toList

instance (s : String) : Decidable (Bland s) := by unfold Bland; infer_instance

theorem tells_of {out : List Char} {what a b : String} {n : Nat} (h : ∃ pre entry post, out = pre ++ entry ++ post ∧
    AtLineStart pre ∧ EntryFor .info (.count what n) entry)
    (hw : what.toList = a.toList ++ ['{', '}'] ++ b.toList) (ha : Bland a) (hb : Bland b) : ShowsLine out a n b := by
  obtain ⟨pre, entry, post, rfl, h1, msg, h2, h3⟩ := h
  obtain ⟨N, hN, rfl⟩ := h2 _ _ hw (by rw [List.mem_append]; exact fun h => h.elim ha.1 hb.1)
  obtain ⟨v, hv, _⟩ := id hN
  obtain ⟨c1, c2⟩ := reads_chars hv
  have n1 : '\n' ∉ a.toList ++ N ++ b.toList := by
    simp only [List.mem_append, not_or]
    exact ⟨⟨ha.2.1, c1⟩, hb.2.1⟩
  have n2 : '\r' ∉ a.toList ++ N ++ b.toList := by
    simp only [List.mem_append, not_or]
    exact ⟨⟨ha.2.2, c2⟩, hb.2.2⟩
  rw [h3 n2 (last_not n1), logEntry_line n1]
  refine ⟨pre, N, post, ?_, h1, hN⟩
  have : "info: ".toList = (kindName .info).toList ++ ": ".toList := by decide
  rw [this]
  simp only [List.append_assoc]

theorem tells2_of {out : List Char} {what a b c : String} {m n : Nat} (h : ∃ pre entry post, out = pre ++ entry ++ post ∧
    AtLineStart pre ∧ EntryFor .info (.count2 what m n) entry)
    (hw : what.toList = a.toList ++ ['{', '}'] ++ b.toList ++ ['{', '}'] ++ c.toList) (ha : Bland a) (hb : Bland b)
    (hc : Bland c) : ShowsLine2 out a m b n c := by
  obtain ⟨pre, entry, post, rfl, h1, msg, h2, h3⟩ := h
  obtain ⟨M, N, hM, hN, rfl⟩ := h2 _ _ _ hw (by
    simp only [List.mem_append, not_or]
    exact ⟨⟨ha.1, hb.1⟩, hc.1⟩)
  obtain ⟨v, hv, _⟩ := id hN
  obtain ⟨v', hv', _⟩ := id hM
  obtain ⟨c1, c2⟩ := reads_chars hv
  obtain ⟨d1, d2⟩ := reads_chars hv'
  have n1 : '\n' ∉ a.toList ++ M ++ b.toList ++ N ++ c.toList := by
    simp only [List.mem_append, not_or]
    exact ⟨⟨⟨⟨ha.2.1, d1⟩, hb.2.1⟩, c1⟩, hc.2.1⟩
  have n2 : '\r' ∉ a.toList ++ M ++ b.toList ++ N ++ c.toList := by
    simp only [List.mem_append, not_or]
    exact ⟨⟨⟨⟨ha.2.2, d2⟩, hb.2.2⟩, c2⟩, hc.2.2⟩
  rw [h3 n2 (last_not n1), logEntry_line n1]
  refine ⟨pre, M, N, post, ?_, h1, hM, hN⟩
  have : "info: ".toList = (kindName .info).toList ++ ": ".toList := by decide
  rw [this]
  simp only [List.append_assoc]

end MapEditr
