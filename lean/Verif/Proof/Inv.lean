import Verif.Model.Commands
import Verif.Spec.Inventory
import Verif.Proof.ByteIO
/-! # Lemmas: splitting text, replacing item lines -/

namespace MapEditr
open Spec

theorem splitOn_word (sep : UInt8) (w : Bytes) (h : sep ∉ w) : splitOn sep w = [w] := by
  induction w with
  | nil => rfl
  | cons c t ih =>
    have hc : (c == sep) = false := by
      rw [beq_eq_false_iff_ne]; intro e; exact h (by simp [e])
    simp only [splitOn, hc, Bool.false_eq_true, if_false]
    rw [ih (fun h1 => h (by simp [h1]))]

theorem splitOn_sep (sep : UInt8) (w r : Bytes) (h : sep ∉ w) :
    splitOn sep (w ++ sep :: r) = w :: splitOn sep r := by
  induction w with
  | nil => simp [splitOn]
  | cons c t ih =>
    have hc : (c == sep) = false := by
      rw [beq_eq_false_iff_ne]; intro e; exact h (by simp [e])
    rw [List.cons_append]
    simp only [splitOn, hc, Bool.false_eq_true, if_false]
    rw [ih (fun h1 => h (by simp [h1]))]

theorem idxOf?_none (s : Bytes) (c : UInt8) (h : c ∉ s) : s.idxOf? c = none := by
  rw [List.idxOf?_eq_none_iff]; exact h

theorem idxOf?_word (w r : Bytes) (c : UInt8) (h : c ∉ w) :
    (w ++ c :: r).idxOf? c = some w.length := by
  induction w with
  | nil => simp [List.idxOf?_cons]
  | cons a t ih =>
    rw [List.cons_append, List.idxOf?_cons, if_neg, ih (fun h1 => h (by simp [h1]))]
    · rfl
    · intro e; exact h (by simp [beq_iff_eq.1 e])

theorem splitN_word (n : Nat) (w : Bytes) (h : 32 ∉ w) : splitN 32 (n + 1) w = [w] := by
  cases n with
  | zero => rfl
  | succ n =>
    simp only [splitN]
    rw [idxOf?_none w 32 h]

theorem splitN_sep (n : Nat) (w r : Bytes) (h : 32 ∉ w) :
    splitN 32 (n + 2) (w ++ 32 :: r) = w :: splitN 32 (n + 1) r := by
  simp only [splitN]
  rw [idxOf?_word w r 32 h]
  simp [List.drop_append, List.drop_eq_nil_of_le (Nat.le_succ w.length)]

theorem split_first (c : UInt8) (s : Bytes) : c ∉ s ∨ ∃ w r, s = w ++ c :: r ∧ c ∉ w := by
  induction s with
  | nil => left; simp
  | cons a t ih =>
    by_cases h : a = c
    · right; exact ⟨[], t, by simp [h], by simp⟩
    · rcases ih with h1 | ⟨w, r, h1, h2⟩
      · left; simp [h1]; exact fun e => h e.symm
      · right; exact ⟨a :: w, r, by simp [h1], by simp [h2]; exact fun e => h e.symm⟩

theorem splitN_join (n : Nat) (s : Bytes) :
    (splitN 32 (n + 1) s).flatMap (fun p => [32] ++ p) = 32 :: s := by
  induction n generalizing s with
  | zero => simp [splitN]
  | succ n ih =>
    rcases split_first 32 s with h | ⟨w, r, rfl, h⟩
    · rw [splitN_word _ _ h]; simp
    · rw [splitN_sep _ _ _ h, List.flatMap_cons, ih]; simp

theorem itemWord : ascii "Item " = ascii "Item" ++ [32] := by decide
theorem itemWord_space : 32 ∉ ascii "Item" := by decide

/-- The pieces after the item name. -/
def partsOf (tail : Bytes) : List Bytes :=
  match tail with
  | [] => []
  | _ :: r => splitN 32 3 r

theorem replaceLine_item {item newItem tail line : Bytes} {dm : Bool} (hi : 32 ∉ item)
    (h : ItemLine item tail line) :
    replaceLine item newItem dm line = (newItemLine (partsOf tail) newItem dm ++ [10], 1) := by
  obtain ⟨ht, rfl⟩ := h
  unfold replaceLine
  rw [if_neg (by simp [ascii])]
  have h1 : ascii "Item " ++ item ++ tail = ascii "Item" ++ 32 :: (item ++ tail) := by
    rw [itemWord]; simp
  rw [h1, splitN_sep 3 _ _ itemWord_space]
  rcases ht with rfl | ⟨r, rfl⟩
  · rw [List.append_nil, splitN_word 3 _ hi]
    simp [partsOf]
  · rw [splitN_sep 2 _ _ hi]
    simp [partsOf]

theorem replaceLine_other {item newItem line : Bytes} {dm : Bool} (hl : line ≠ [])
    (h : ¬ ∃ tail, ItemLine item tail line) :
    replaceLine item newItem dm line = (line ++ [10], 0) := by
  unfold replaceLine
  rw [if_neg (by simpa using hl)]
  rcases split_first 32 line with h1 | ⟨w, r, rfl, h1⟩
  · rw [splitN_word _ _ h1]
  · rw [splitN_sep _ _ _ h1]
    rcases split_first 32 r with h2 | ⟨i, r', rfl, h2⟩
    · rw [splitN_word _ _ h2]
      simp only
      rw [if_neg]
      intro hc
      rw [Bool.and_eq_true, beq_iff_eq, beq_iff_eq] at hc
      obtain ⟨rfl, rfl⟩ := hc
      exact h ⟨[], .inl rfl, by rw [itemWord]; simp⟩
    · rw [splitN_sep _ _ _ h2]
      simp only
      rw [if_neg]
      intro hc
      rw [Bool.and_eq_true, beq_iff_eq, beq_iff_eq] at hc
      obtain ⟨rfl, rfl⟩ := hc
      exact h ⟨32 :: r', .inr ⟨_, rfl⟩, by rw [itemWord]; simp⟩

theorem replaceLine_nil (item newItem : Bytes) (dm : Bool) : replaceLine item newItem dm [] = ([], 0) :=
  rfl

theorem newItemLine_spec (newItem tail : Bytes) (dm : Bool) (ht : Tail tail) :
    NewLine newItem dm tail (newItemLine (partsOf tail) newItem dm) := by
  unfold newItemLine
  by_cases hn : newItem = []
  · rw [if_pos (by simp [hn])]
    exact .inl ⟨hn, rfl⟩
  · rw [if_neg (by simpa using hn)]
    right
    cases dm with
    | false =>
      left
      refine ⟨hn, rfl, ?_⟩
      simp only [Bool.false_eq_true, if_false]
      congr 1
      rcases ht with rfl | ⟨r, rfl⟩
      · rfl
      · exact splitN_join 2 r
    | true =>
      right
      refine ⟨hn, rfl, ?_⟩
      simp only [if_true]
      rcases ht with rfl | ⟨r, rfl⟩
      · refine ⟨[], .none, ?_⟩
        simp [partsOf]
      · unfold partsOf
        simp only
        rcases split_first 32 r with h | ⟨c, r', rfl, h⟩
        · rw [splitN_word _ _ h]
          refine ⟨_, .count r h, ?_⟩
          simp only [List.getElem?_cons_zero, Option.getD_some, List.getElem?_cons_succ,
            List.getElem?_nil, Option.getD_none, bne_self_eq_false, Bool.or_false]
          by_cases hc : r = ascii "1"
          · subst hc; simp
          · rw [if_pos (by simpa using hc), if_neg hc]; simp
        · rw [splitN_sep _ _ _ h]
          rcases split_first 32 r' with h' | ⟨w, r'', rfl, h'⟩
          · rw [splitN_word _ _ h']
            refine ⟨_, by simpa using ShortTail.wear c r' [] h h' (.inl rfl), ?_⟩
            simp only [List.getElem?_cons_zero, Option.getD_some, List.getElem?_cons_succ]
            by_cases hw : r' = ascii "0"
            · subst hw
              by_cases hc : c = ascii "1"
              · subst hc; simp
              · simp [hc]
            · simp [hw]
          · rw [splitN_sep _ _ _ h']
            refine ⟨_, by simpa using ShortTail.wear c w (32 :: r'') h h' (.inr ⟨_, rfl⟩), ?_⟩
            simp only [List.getElem?_cons_zero, Option.getD_some, List.getElem?_cons_succ]
            by_cases hw : w = ascii "0"
            · subst hw
              by_cases hc : c = ascii "1"
              · subst hc; simp
              · simp [hc]
            · simp [hw]

/-- All lines of a text. -/
theorem replaceLines_spec (item newItem : Bytes) (dm : Bool) (hi : 32 ∉ item) (lines : List Bytes)
    (hne : ∀ l ∈ lines, l ≠ []) : ∃ lines' n, LinesEdit item newItem dm lines lines' n ∧
      (lines.map (replaceLine item newItem dm)).flatMap (·.1) = linesText lines' ∧
      ((lines.map (replaceLine item newItem dm)).map (·.2)).sum = n := by
  induction lines with
  | nil => exact ⟨[], 0, .nil, rfl, rfl⟩
  | cons l t ih =>
    obtain ⟨ls, n, h1, h2, h3⟩ := ih (fun x hx => hne x (by simp [hx]))
    by_cases h : ∃ tail, ItemLine item tail l
    · obtain ⟨tail, ht⟩ := h
      refine ⟨_, _, .item tail l _ ht (newItemLine_spec newItem tail dm ht.1) h1, ?_, ?_⟩
      · rw [List.map_cons, List.flatMap_cons, h2, replaceLine_item hi ht]
        simp [linesText]
      · rw [List.map_cons, List.map_cons, List.sum_cons, h3, replaceLine_item hi ht]
        simp only
        omega
    · refine ⟨_, _, .other l h h1, ?_, ?_⟩
      · rw [List.map_cons, List.flatMap_cons, h2, replaceLine_other (hne l (by simp)) h]
        simp [linesText]
      · rw [List.map_cons, List.map_cons, List.sum_cons, h3, replaceLine_other (hne l (by simp)) h]
        simp

theorem linesEdit_zero {item newItem : Bytes} {dm : Bool} {ls ls' : List Bytes} {n : Nat}
    (h : LinesEdit item newItem dm ls ls' n) (hn : n = 0) : ls' = ls := by
  induction h with
  | nil => rfl
  | item => omega
  | other l _ _ ih => rw [ih hn]

theorem linesEdit_append {item newItem : Bytes} {dm : Bool} {ls ls' ms ms' : List Bytes} {m n : Nat}
    (h : LinesEdit item newItem dm ls ls' n) (h' : LinesEdit item newItem dm ms ms' m) :
    LinesEdit item newItem dm (ls ++ ms) (ls' ++ ms') (n + m) := by
  induction h with
  | nil => simpa using h'
  | item tail l l' a b _ ih =>
    rw [show ∀ n, n + 1 + m = n + m + 1 by omega]
    exact .item tail l l' a b ih
  | other l a _ ih => exact .other l a ih

theorem splitOn_text (lines : List Bytes) (last : Bytes) (h : Lines lines) (hl : (10 : UInt8) ∉ last) :
    splitOn 10 (linesText lines ++ last) = lines ++ [last] := by
  induction lines with
  | nil => simpa [linesText] using splitOn_word 10 last hl
  | cons l t ih =>
    have : linesText (l :: t) ++ last = l ++ 10 :: (linesText t ++ last) := by simp [linesText]
    rw [this, splitOn_sep 10 l _ (h l (by simp)), ih (fun x hx => h x (by simp [hx]))]
    rfl

/-- Blank lines contribute nothing. -/
theorem replaceLine_filter (item newItem : Bytes) (dm : Bool) (lines : List Bytes) :
    (lines.map (replaceLine item newItem dm)).flatMap Prod.fst =
      ((lines.filter (fun l => l ≠ [])).map (replaceLine item newItem dm)).flatMap Prod.fst ∧
    ((lines.map (replaceLine item newItem dm)).map Prod.snd).sum =
      (((lines.filter (fun l => l ≠ [])).map (replaceLine item newItem dm)).map Prod.snd).sum := by
  induction lines with
  | nil => exact ⟨rfl, rfl⟩
  | cons l t ih =>
    by_cases h : l = []
    · subst h
      rw [List.filter_cons_of_neg (by simp)]
      refine ⟨?_, ?_⟩
      · rw [← ih.1]; simp [replaceLine_nil]
      · rw [← ih.2]; simp [replaceLine_nil]
    · rw [List.filter_cons_of_pos (by simpa using h)]
      refine ⟨?_, ?_⟩
      · rw [List.map_cons, List.flatMap_cons, ih.1]; rfl
      · rw [List.map_cons, List.map_cons, List.sum_cons, ih.2]; rfl

theorem invReplace_text (item newItem : Bytes) (dm : Bool) (hi : 32 ∉ item) (lines : List Bytes)
    (last : Bytes) (hl : Lines lines) (hla : (10 : UInt8) ∉ last) : ∃ lines' n,
      LinesEdit item newItem dm ((lines ++ [last]).filter (fun l => l ≠ [])) lines' n ∧
      invReplace (linesText lines ++ last) item newItem dm =
        if n = 0 then (linesText lines ++ last, 0) else (linesText lines', n) := by
  obtain ⟨ls, n, h1, h2, h3⟩ := replaceLines_spec item newItem dm hi
    ((lines ++ [last]).filter (fun l => l ≠ [])) (fun l hl => by simpa using (List.mem_filter.1 hl).2)
  refine ⟨ls, n, h1, ?_⟩
  obtain ⟨e1, e2⟩ := replaceLine_filter item newItem dm (lines ++ [last])
  rw [h2] at e1
  rw [h3] at e2
  unfold invReplace
  rw [splitOn_text lines last hl hla]
  simp only [e1, e2]
  by_cases h : n = 0
  · subst h; simp
  · rw [if_pos (by omega), if_neg h]

theorem invReplace_spec (item newItem : Bytes) (dm : Bool) (hi : 32 ∉ item) (lines : List Bytes)
    (hl : Lines lines) (hne : ∀ l ∈ lines, l ≠ []) : ∃ lines' n,
      LinesEdit item newItem dm lines lines' n ∧
      invReplace (linesText lines) item newItem dm = (linesText lines', n) := by
  obtain ⟨ls, n, h1, h2⟩ := invReplace_text item newItem dm hi lines [] hl (by simp)
  have e : (lines ++ [[]]).filter (fun l => l ≠ []) = lines := by
    rw [List.filter_append, List.filter_cons_of_neg (by simp), List.filter_nil, List.append_nil,
      List.filter_eq_self]
    intro l hl
    simpa using hne l hl
  rw [e] at h1
  refine ⟨ls, n, h1, ?_⟩
  rw [List.append_nil] at h2
  rw [h2]
  split
  · next h => rw [linesEdit_zero h1 h, h]
  · rfl

end MapEditr
