import Verif.Spec.Stacks
import Verif.Proof.EditMetas
/-!
# The inventory edit as a function
-/

namespace MapEditr
open Spec

theorem textLines_line {l r : Bytes} (h : (10 : UInt8) ∉ l) : textLines (l ++ 10 :: r) = l :: textLines r := by
  induction l with
  | nil => simp [textLines]
  | cons c l ih =>
    have hc : c ≠ 10 := fun e => h (by rw [e]; exact List.mem_cons_self)
    rw [List.cons_append, textLines, if_neg hc, ih fun e => h (List.mem_cons_of_mem _ e)]

theorem textLines_text {ls : List Bytes} (h : Lines ls) : textLines (linesText ls) = ls := by
  unfold linesText
  induction ls with
  | nil => rfl
  | cons l ls ih =>
    rw [List.flatMap_cons, List.append_assoc, List.singleton_append, textLines_line (h l List.mem_cons_self),
      ih fun x hx => h x (List.mem_cons_of_mem _ hx)]

theorem invText_lines (ls : List Bytes) : invText ls = linesText (ls ++ [endWord]) := by
  unfold invText linesText
  rw [endInv_word]
  simp

theorem lines_end {ls : List Bytes} (h : Lines ls) : Lines (ls ++ [endWord]) := by
  intro l hl
  rcases List.mem_append.1 hl with hl | hl
  · exact h l hl
  · rw [List.mem_singleton.1 hl]
    exact endWord_newline

/-- An inventory has only one set of lines. -/
theorem invLines_same {inv : Bytes} {ls ls' : List Bytes} (h : InvLines inv ls) (h' : InvLines inv ls') : ls' = ls := by
  have e1 := textLines_text (lines_end h.2.1)
  have e2 := textLines_text (lines_end h'.2.1)
  rw [← invText_lines, ← h.1] at e1
  rw [← invText_lines, ← h'.1, e1] at e2
  exact (List.append_cancel_right e2).symm

theorem itemLine_tail {item tail l : Bytes} (h : ItemLine item tail l) : tail = l.drop (5 + item.length) := by
  obtain ⟨-, rfl⟩ := h
  have : (ascii "Item " ++ item).length = 5 + item.length := by
    rw [List.length_append]
    rfl
  rw [← this, List.drop_left]

theorem takeWhile_words {c r : Bytes} (h : (32 : UInt8) ∉ c) :
    (c ++ 32 :: r).takeWhile (· ≠ 32) = c ∧ (c ++ 32 :: r).dropWhile (· ≠ 32) = 32 :: r := by
  induction c with
  | nil => simp
  | cons x c ih =>
    have hx : x ≠ 32 := fun e => h (by rw [e]; exact List.mem_cons_self)
    obtain ⟨h1, h2⟩ := ih fun e => h (List.mem_cons_of_mem _ e)
    rw [List.cons_append, List.takeWhile_cons_of_pos (by simpa using hx), List.dropWhile_cons_of_pos (by simpa using hx),
      h1, h2]
    exact ⟨rfl, rfl⟩

theorem takeWhile_word {c : Bytes} (h : (32 : UInt8) ∉ c) :
    c.takeWhile (· ≠ 32) = c ∧ c.dropWhile (· ≠ 32) = [] := by
  induction c with
  | nil => simp
  | cons x c ih =>
    have hx : x ≠ 32 := fun e => h (by rw [e]; exact List.mem_cons_self)
    obtain ⟨h1, h2⟩ := ih fun e => h (List.mem_cons_of_mem _ e)
    rw [List.takeWhile_cons_of_pos (by simpa using hx), List.dropWhile_cons_of_pos (by simpa using hx), h1, h2]
    exact ⟨rfl, rfl⟩

theorem shortTail_fn {t s : Bytes} (h : ShortTail t s) : s = shortTail t := by
  cases h with
  | none => rfl
  | count c hc =>
    obtain ⟨h1, h2⟩ := takeWhile_word hc
    unfold shortTail
    simp only [h1, h2]
    exact (if_pos (.inl trivial)).symm
  | wear c w rest hc hw ht =>
    have e : 32 :: c ++ 32 :: w ++ rest = 32 :: (c ++ 32 :: (w ++ rest)) := by simp
    rw [e]
    obtain ⟨h1, h2⟩ := takeWhile_words (r := w ++ rest) hc
    have h3 : (w ++ rest).takeWhile (· ≠ 32) = w := by
      rcases ht with rfl | ⟨r, rfl⟩
      · rw [List.append_nil]; exact (takeWhile_word hw).1
      · exact (takeWhile_words hw).1
    unfold shortTail
    simp only [h1, h2, List.drop_one, List.tail_cons, h3]
    by_cases hz : w = ascii "0"
    · rw [if_pos hz]
      exact (if_pos (.inr hz)).symm
    · rw [if_neg hz, if_neg (by rintro (e | e); cases e; exact hz e)]

theorem newLine_fn {item newItem tail l l' : Bytes} {delMeta : Bool} (h : ItemLine item tail l)
    (hn : NewLine newItem delMeta tail l') : l' = lineEdit item newItem delMeta l := by
  unfold lineEdit
  rw [if_pos (isStack_iff.2 ⟨tail, h⟩)]
  simp only
  rw [← itemLine_tail h]
  rcases hn with ⟨h1, rfl⟩ | ⟨h1, h2, rfl⟩ | ⟨h1, h2, s, h3, rfl⟩
  · rw [if_pos h1]
  · rw [if_neg h1, h2]
    rfl
  · rw [if_neg h1, h2, if_pos rfl, shortTail_fn h3]

theorem linesEdit_fn {item newItem : Bytes} {delMeta : Bool} {ls ls' : List Bytes} {n : Nat}
    (h : LinesEdit item newItem delMeta ls ls' n) : ls' = ls.map (lineEdit item newItem delMeta) := by
  induction h with
  | nil => rfl
  | item tail l l' h1 h2 _ ih => rw [List.map_cons, ← newLine_fn h1 h2, ← ih]
  | other l h1 _ ih =>
    rw [List.map_cons, ← ih]
    unfold lineEdit
    rw [if_neg fun e => h1 (isStack_iff.1 e)]

theorem lineEdit_end (item newItem : Bytes) (delMeta : Bool) : lineEdit item newItem delMeta endWord = endWord := by
  unfold lineEdit
  rw [if_neg]
  have he : endWord = 69 :: endWord.tail := by decide
  have hhead : ascii "Item " = 73 :: ascii "tem " := by decide
  rw [he]
  unfold IsStack
  rw [hhead]
  rintro (h | ⟨r, h⟩) <;> simp at h

/-- The edit that `InvEdit` describes is the one `stacksEdit` computes. -/
theorem invEdit_fn {item newItem : Bytes} {delMeta : Bool} {m m' : NodeMeta} {n : Nat}
    (h : InvEdit item newItem delMeta m m' n) : m' = stacksEdit item newItem delMeta m := by
  obtain ⟨h1, ls, ls', ⟨h2, h3, -⟩, ⟨h4, -, -⟩, h5⟩ := h
  obtain ⟨vars, inv⟩ := m
  obtain ⟨vars', inv'⟩ := m'
  simp only at h1 h2 h4
  unfold stacksEdit
  simp only [h1]
  congr 1
  rw [h4, invText_lines, h2, invText_lines, textLines_text (lines_end h3), List.map_append, List.map_singleton,
    lineEdit_end, linesEdit_fn h5]

theorem publish_stacksEdit (item newItem : Bytes) (delMeta : Bool) (m : NodeMeta) :
    publish (stacksEdit item newItem delMeta m) = stacksEdit item newItem delMeta (publish m) := rfl

/-! ## Plain inventories -/

theorem plain_end : PlainInv endInv :=
  ⟨[], ⟨rfl, nofun, nofun⟩, nofun⟩

theorem plain_good {item inv : Bytes} (h : PlainInv inv) :
    ∃ lines, InvLines inv lines ∧ ∀ l ∈ lines, ∀ tail, ItemLine item tail l → ¬ endWord <:+: tail := by
  obtain ⟨lines, h1, h2⟩ := h
  refine ⟨lines, h1, fun l hl tail ht he => ?_⟩
  obtain ⟨-, rfl⟩ := ht
  exact h2 _ hl ⟨item ++ tail, by simp⟩ (he.trans ⟨ascii "Item " ++ item, [], by simp⟩)

/-- The word has no space, so it lies on one side of each. -/
theorem infix_space {a r : Bytes} (h : endWord <:+: a ++ 32 :: r) : endWord <:+: a ∨ endWord <:+: r := by
  have hsp : (32 : UInt8) ∉ endWord := by decide
  obtain ⟨p, q, h⟩ := h
  rw [List.append_assoc] at h
  rcases List.append_eq_append_iff.1 h with ⟨c, h1, h2⟩ | ⟨c, h1, h2⟩
  · -- a = p ++ c, endWord ++ q = c ++ 32 :: r
    rcases List.append_eq_append_iff.1 h2 with ⟨e, g1, g2⟩ | ⟨e, g1, g2⟩
    · exact .inl ⟨p, e, by rw [h1, g1, List.append_assoc]⟩
    · cases e with
      | nil =>
        rw [List.append_nil] at g1
        exact .inl ⟨p, [], by rw [h1, g1, List.append_nil]⟩
      | cons x e =>
        simp only [List.cons_append, List.cons.injEq] at g2
        exact absurd (by rw [g1, ← g2.1]; simp) hsp
  · cases c with
    | nil =>
      rw [List.nil_append] at h2
      have : endWord = 69 :: endWord.tail := by decide
      rw [this, List.cons_append] at h2
      injection h2 with h3
      cases h3
    | cons x c =>
      simp only [List.cons_append, List.cons.injEq] at h2
      exact .inr ⟨c, q, by rw [h2.2, List.append_assoc]⟩

theorem infix_cons_space {r : Bytes} (h : endWord <:+: 32 :: r) : endWord <:+: r := by
  rcases infix_space (a := []) h with h | h
  · have := List.IsInfix.length_le h
    exact absurd this (by decide)
  · exact h

theorem infix_tail {a t : Bytes} (ht : Tail t) (h : endWord <:+: a ++ t) : endWord <:+: a ∨ endWord <:+: t := by
  rcases ht with rfl | ⟨r, rfl⟩
  · rw [List.append_nil] at h
    exact .inl h
  · exact (infix_space h).imp_right fun e => e.trans ⟨[32], [], by simp⟩

theorem shortTail_infix {t s : Bytes} (h : ShortTail t s) : Tail s ∧ (endWord <:+: s → endWord <:+: t) := by
  have hnil : ¬ endWord <:+: [] := fun h => absurd (List.IsInfix.length_le h) (by decide)
  cases h with
  | none => exact ⟨.inl rfl, id⟩
  | count c hc =>
    split
    · exact ⟨.inl rfl, fun h => absurd h hnil⟩
    · exact ⟨.inr ⟨c, rfl⟩, id⟩
  | wear c w rest hc hw ht =>
    split
    · split
      · exact ⟨.inl rfl, fun h => absurd h hnil⟩
      · exact ⟨.inr ⟨c, rfl⟩, fun h => h.trans ⟨[], 32 :: w ++ rest, by simp⟩⟩
    · exact ⟨.inr ⟨c ++ 32 :: w, rfl⟩, fun h => h.trans ⟨[], rest, by simp⟩⟩

/-- Lines that `replaceininv` writes. -/
theorem newLine_plain {item newItem tail l l' : Bytes} {delMeta : Bool} (h : ItemLine item tail l)
    (hn : NewLine newItem delMeta tail l') (hw : ¬ endWord <:+: newItem) (hl : ¬ endWord <:+: l) :
    ¬ endWord <:+: l' := by
  have hitem : ∀ s, Tail s → (endWord <:+: s → endWord <:+: tail) → ¬ endWord <:+: ascii "Item " ++ newItem ++ s := by
    intro s hs h1 h2
    have e : ascii "Item " ++ newItem ++ s = ascii "Item" ++ 32 :: (newItem ++ s) := by
      have : ascii "Item " = ascii "Item" ++ [32] := by decide
      rw [this]
      simp
    rw [e] at h2
    rcases infix_space h2 with h2 | h2
    · exact absurd (List.IsInfix.length_le h2) (by decide)
    · rcases infix_tail hs h2 with h2 | h2
      · exact hw h2
      · obtain ⟨-, rfl⟩ := h
        exact hl ((h1 h2).trans ⟨ascii "Item " ++ item, [], by simp⟩)
  rcases hn with ⟨-, rfl⟩ | ⟨-, -, rfl⟩ | ⟨-, -, s, h3, rfl⟩
  · intro h
    exact absurd (List.IsInfix.length_le h) (by decide)
  · exact hitem _ h.1 id
  · exact hitem _ (shortTail_infix h3).1 (shortTail_infix h3).2

theorem linesEdit_plain {item newItem : Bytes} {delMeta : Bool} {ls ls' : List Bytes} {n : Nat}
    (h : LinesEdit item newItem delMeta ls ls' n) (hw : ¬ endWord <:+: newItem)
    (hl : ∀ l ∈ ls, ascii "Item " <+: l → ¬ endWord <:+: l) :
    ∀ l ∈ ls', ascii "Item " <+: l → ¬ endWord <:+: l := by
  induction h with
  | nil => exact hl
  | item tail l l' h1 h2 _ ih =>
    intro x hx hp
    rcases List.mem_cons.1 hx with rfl | hx
    · refine newLine_plain h1 h2 hw (hl l List.mem_cons_self ?_)
      obtain ⟨-, rfl⟩ := h1
      exact ⟨item ++ tail, by simp⟩
    · exact ih (fun y hy => hl y (List.mem_cons_of_mem _ hy)) x hx hp
  | other l h1 _ ih =>
    intro x hx hp
    rcases List.mem_cons.1 hx with rfl | hx
    · exact hl x List.mem_cons_self hp
    · exact ih (fun y hy => hl y (List.mem_cons_of_mem _ hy)) x hx hp

theorem invEdit_plain {item newItem : Bytes} {delMeta : Bool} {m m' : NodeMeta} {n : Nat}
    (h : InvEdit item newItem delMeta m m' n) (hw : ¬ endWord <:+: newItem) (hp : PlainInv m.inv) : PlainInv m'.inv := by
  obtain ⟨-, ls, ls', h2, h3, h4⟩ := h
  obtain ⟨lines, g1, g2⟩ := hp
  have := invLines_same h2 g1
  subst this
  exact ⟨ls', h3, linesEdit_plain h4 hw g2⟩

end MapEditr
