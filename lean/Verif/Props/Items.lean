import Verif.Proof.Inv
/-! # C44, C45: item names of dropped items, item lines of inventories -/

namespace MapEditr
open Spec

/-! ## C44 -/

theorem takeWhile_upTo {name s : Bytes} (h : UpTo name s) :
    (s.takeWhile fun c => !(c == 32 || c == 34)) = name := by
  obtain ⟨h1, h2, h3⟩ := h
  have hall : ∀ c ∈ name, (!(c == 32 || c == 34)) = true := by
    intro c hc
    have a : c ≠ 32 := fun e => h1 (e ▸ hc)
    have b : c ≠ 34 := fun e => h2 (e ▸ hc)
    simp [a, b]
  rcases h3 with rfl | ⟨c, r, hc, rfl⟩
  · simpa using List.takeWhile_append_of_pos (l₂ := []) hall
  · rw [List.takeWhile_append_of_pos hall, List.takeWhile_cons_of_neg]
    · simp
    · rcases hc with rfl | rfl <;> decide

theorem firstAt_search {pat pre rest data : Bytes} (hp : pat ≠ []) (h : FirstAt pat pre rest data) :
    searchIn pat data = some pre.length := by
  rw [searchIn_some hp]
  refine ⟨?_, h.2⟩
  rw [h.1, List.append_assoc, List.drop_left]
  exact List.prefix_append _ _

theorem drop_pat {pre pat rest : Bytes} : (pre ++ pat ++ rest).drop (pre.length + pat.length) = rest := by
  rw [← List.length_append, List.drop_left]

/-- **C44**, new table form: the name is what follows the first `itemstring="`, up to the first space
or quote. -/
theorem C44_new_table {data pre rest name : Bytes} (hr : ascii "return" <+: data)
    (hf : FirstAt (ascii "itemstring=\"") pre rest data) (hn : UpTo name rest) :
    getItemName data = name := by
  unfold getItemName getItemNameStart
  rw [if_pos (List.isPrefixOf_iff_prefix.2 hr)]
  rw [show ITEM_NAME_PAT_NEW = ascii "itemstring=\"" from rfl, firstAt_search (by decide) hf]
  simp only
  rw [hf.1, drop_pat]
  exact takeWhile_upTo hn

example : getItemName (ascii "return {itemstring=\"default:stone 5\", age=3}") = ascii "default:stone" :=
  C44_new_table (pre := ascii "return {") (rest := ascii "default:stone 5\", age=3}")
    (by decide) ⟨by decide, by decide⟩
    ⟨by decide, by decide, .inr ⟨32, ascii "5\", age=3}", .inl rfl, by decide⟩⟩

/-- **C44**, old table form (data without the new form): the name is what follows the first
`["itemstring"] = "`, up to the first space or quote. -/
theorem C44_old_table {data pre rest name : Bytes} (hr : ascii "return" <+: data)
    (hnew : ∀ i, ¬ ascii "itemstring=\"" <+: data.drop i)
    (hf : FirstAt (ascii "[\"itemstring\"] = \"") pre rest data) (hn : UpTo name rest) :
    getItemName data = name := by
  unfold getItemName getItemNameStart
  rw [if_pos (List.isPrefixOf_iff_prefix.2 hr)]
  rw [show ITEM_NAME_PAT_NEW = ascii "itemstring=\"" from rfl,
    show ITEM_NAME_PAT_OLD = ascii "[\"itemstring\"] = \"" from rfl,
    (searchIn_none (by decide)).2 hnew, firstAt_search (by decide) hf]
  simp only
  rw [hf.1, drop_pat]
  exact takeWhile_upTo hn

example : getItemName (ascii "return {[\"itemstring\"] = \"default:dirt\"}") = ascii "default:dirt" :=
  C44_old_table (pre := ascii "return {") (rest := ascii "default:dirt\"}")
    (by decide)
    ((searchIn_none (by decide)).1 (by decide)) ⟨by decide, by decide⟩
    ⟨by decide, by decide, .inr ⟨34, ascii "}", .inr rfl, by decide⟩⟩

/-- **C44**, plain form, partial: the data is the name if it is a bare name not beginning with
`return`.  Missing: plain item strings with a count, see `C44_false`. -/
theorem C44_plain_partial {data : Bytes} (hr : ¬ ascii "return" <+: data) : getItemName data = data := by
  unfold getItemName
  rw [if_neg (fun h => hr (List.isPrefixOf_iff_prefix.1 h))]

example : getItemName (ascii "default:torch") = ascii "default:torch" :=
  C44_plain_partial (by decide)

/-- **C44** is false for plain item strings: with a count the whole string is taken as the name, and
a name that begins with `return` is taken as a table. -/
theorem C44_false :
    (¬ ∀ data name : Bytes, UpTo name data → ¬ ascii "return" <+: data → getItemName data = name) ∧
    (¬ ∀ data : Bytes, UpTo data data → getItemName data = data) := by
  refine ⟨fun h => ?_, fun h => ?_⟩
  · exact absurd (h (ascii "default:stone 5") (ascii "default:stone")
      ⟨by decide, by decide, .inr ⟨32, ascii "5", .inl rfl, by decide⟩⟩ (by decide)) (by decide)
  · exact absurd (h (ascii "returner:wand") ⟨by decide, by decide, .inl rfl⟩) (by decide)

/-! ## C45 -/

/-- **C45** for inventories in which every line is non-empty and ends with a newline (all that
Minetest writes): lines are rewritten one by one, `Item <item>...` lines as specified and all others
not at all, and the count is the number of such lines; with no match the text is the same.
Missing: texts with blank lines, see `C45_false` and `C45_any_text_partial`. -/
theorem C45_lines_partial (item newItem : Bytes) (delMeta : Bool) (hi : 32 ∉ item)
    (lines : List Bytes) (hl : Lines lines) (hne : ∀ l ∈ lines, l ≠ []) :
    ∃ lines' n, LinesEdit item newItem delMeta lines lines' n ∧
      invReplace (linesText lines) item newItem delMeta = (linesText lines', n) ∧
      (n = 0 → lines' = lines) := by
  obtain ⟨ls, n, h1, h2⟩ := invReplace_spec item newItem delMeta hi lines hl hne
  exact ⟨ls, n, h1, h2, linesEdit_zero h1⟩

/-- A word ends at the first space. -/
theorem words_eq : ∀ {c c' r r' : Bytes}, 32 ∉ c → 32 ∉ c' → Tail r → Tail r' → c ++ r = c' ++ r' →
    c = c' ∧ r = r' := by
  intro c
  induction c with
  | nil =>
    intro c' r r' _ h2 h3 h4 e
    cases c' with
    | nil => exact ⟨rfl, e⟩
    | cons a t =>
      rcases h3 with rfl | ⟨x, rfl⟩
      · simp at e
      · simp at e; exact absurd e.1 (fun e => h2 (by simp [e]))
  | cons a t ih =>
    intro c' r r' h1 h2 h3 h4 e
    cases c' with
    | nil =>
      rcases h4 with rfl | ⟨x, rfl⟩
      · simp at e
      · simp at e; exact absurd e.1.symm (fun e => h1 (by simp [← e]))
    | cons a' t' =>
      simp at e
      obtain ⟨rfl, e⟩ := e
      have := ih (c' := t') (fun h => h1 (by simp [h])) (fun h => h2 (by simp [h])) h3 h4 e
      exact ⟨by rw [this.1], this.2⟩

/-- The shortest way to write count and wear is unique. -/
theorem shortTail_det : ∀ {t s1 s2}, ShortTail t s1 → ShortTail t s2 → s1 = s2 := by
  intro t s1 s2 h1 h2
  cases h1 with
  | none => cases h2; rfl
  | count c hc =>
    generalize ht : (32 :: c : Bytes) = t at h2
    cases h2 with
    | none => simp at ht
    | count c' hc' => simp at ht; subst ht; rfl
    | wear c' w rest h3 h4 h5 =>
      simp at ht; subst ht
      exact absurd (by simp) hc
  | wear c w rest h3 h4 h5 =>
    generalize ht : (32 :: c ++ 32 :: w ++ rest : Bytes) = t at h2
    cases h2 with
    | none => simp at ht
    | count c' hc' =>
      simp at ht; subst ht
      exact absurd (by simp) hc'
    | wear c' w' rest' h3' h4' h5' =>
      simp at ht
      have e1 := words_eq h3 h3' (.inr ⟨_, rfl⟩) (.inr ⟨_, rfl⟩) ht
      obtain ⟨rfl, e2⟩ := e1
      simp at e2
      obtain ⟨rfl, -⟩ := words_eq h4 h4' h5 h5' e2
      rfl

/-- The line edit determines the new text: at most one result satisfies C45. -/
theorem C45_determined {item newItem : Bytes} {delMeta : Bool} {ls ls1 ls2 : List Bytes} {n1 n2 : Nat}
    (h1 : LinesEdit item newItem delMeta ls ls1 n1) (h2 : LinesEdit item newItem delMeta ls ls2 n2) :
    ls1 = ls2 ∧ n1 = n2 := by
  have tails : ∀ {t1 t2 l}, ItemLine item t1 l → ItemLine item t2 l → t1 = t2 := by
    intro t1 t2 l h1 h2
    have := h1.2.symm.trans h2.2
    exact List.append_cancel_left this
  induction h1 generalizing ls2 n2 with
  | nil => cases h2; exact ⟨rfl, rfl⟩
  | item tail l l' a b _ ih =>
    cases h2 with
    | item tail' _ l'' a' b' h' =>
      obtain ⟨rfl, rfl⟩ := ih h'
      refine ⟨?_, rfl⟩
      have := tails a a'
      subst this
      have : l' = l'' := by
        rcases b with ⟨b0, b1⟩ | ⟨b0, b1, b2⟩ | ⟨b0, b1, s, b2, b3⟩ <;>
        rcases b' with ⟨c0, c1⟩ | ⟨c0, c1, c2⟩ | ⟨c0, c1, s', c2, c3⟩ <;>
        first
        | (rw [b1, c1]; done)
        | (rw [b2, c2]; done)
        | exact absurd b0 c0
        | exact absurd c0 b0
        | (rw [b1] at c1; exact absurd c1 (by decide))
        | (rw [b3, c3, shortTail_det b2 c2])
      rw [this]
    | other _ a' => exact absurd ⟨tail, a⟩ a'
  | other l a _ ih =>
    cases h2 with
    | item tail' _ l'' a' => exact absurd ⟨tail', a'⟩ a
    | other _ a' h' =>
      obtain ⟨rfl, rfl⟩ := ih h'
      exact ⟨rfl, rfl⟩

/-- **C45** for any text (every text is lines followed by an unfinished line): as above, but when
something is replaced, blank lines disappear and the text ends with a newline. -/
theorem C45_any_text_partial (item newItem : Bytes) (delMeta : Bool) (hi : 32 ∉ item)
    (lines : List Bytes) (last : Bytes) (hl : Lines lines) (hla : (10 : UInt8) ∉ last) :
    ∃ lines' n, LinesEdit item newItem delMeta ((lines ++ [last]).filter fun l => l ≠ []) lines' n ∧
      invReplace (linesText lines ++ last) item newItem delMeta =
        if n = 0 then (linesText lines ++ last, 0) else (linesText lines', n) :=
  invReplace_text item newItem delMeta hi lines last hl hla

/-- Every text has the form required by `C45_any_text_partial`. -/
theorem C45_every_text (s : Bytes) : ∃ lines last, Lines lines ∧ (10 : UInt8) ∉ last ∧
    s = linesText lines ++ last := by
  induction s with
  | nil => exact ⟨[], [], by simp [Lines], by simp, rfl⟩
  | cons c t ih =>
    obtain ⟨lines, last, h1, h2, rfl⟩ := ih
    by_cases hc : c = 10
    · subst hc
      exact ⟨[] :: lines, last, by intro l hl; rcases List.mem_cons.1 hl with rfl | h; simp; exact h1 l h,
        h2, by simp [linesText]⟩
    · cases lines with
      | nil => exact ⟨[], c :: last, by simp [Lines], by simp [h2]; exact fun e => hc e.symm, by simp [linesText]⟩
      | cons l ls =>
        refine ⟨(c :: l) :: ls, last, ?_, h2, by simp [linesText]⟩
        intro x hx
        rcases List.mem_cons.1 hx with rfl | h
        · have := h1 l (by simp)
          simp [this]; exact fun e => hc e.symm
        · exact h1 x (by simp [h])

/-- **C45** is false for texts with blank lines: another line's replacement removes them. -/
theorem C45_false : ¬ ∀ (item newItem : Bytes) (delMeta : Bool) (lines : List Bytes), 32 ∉ item →
    Lines lines → ∃ lines' n, LinesEdit item newItem delMeta lines lines' n ∧
      invReplace (linesText lines) item newItem delMeta = (linesText lines', n) := by
  intro h
  obtain ⟨ls, n, h1, h2⟩ := h (ascii "a:b") (ascii "a:c") false [[], ascii "Item a:b"] (by decide)
    (by unfold Lines; decide)
  have hcon : LinesEdit (ascii "a:b") (ascii "a:c") false [[], ascii "Item a:b"]
      [[], ascii "Item a:c"] 1 := by
    refine .other _ ?_ (.item [] _ _ ⟨.inl rfl, by decide⟩ (.inr (.inl ⟨by decide, rfl, by decide⟩)) .nil)
    rintro ⟨t, -, ht⟩
    simp [ascii] at ht
  obtain ⟨rfl, rfl⟩ := C45_determined h1 hcon
  exact absurd h2 (by decide)

example : invReplace (ascii "List main 3\nItem a:b 5 20 x\nItem a:bc\nEmpty\nEndInventoryList\nEndInventory\n")
      (ascii "a:b") (ascii "m:new") true =
    (ascii "List main 3\nItem m:new 5 20\nItem a:bc\nEmpty\nEndInventoryList\nEndInventory\n", 1) := by
  decide

example : ∃ ls : List Bytes, Lines ls ∧ (∀ l ∈ ls, l ≠ []) ∧ 32 ∉ ascii "a:b" ∧
    linesText ls = ascii "List main 1\nItem a:b 99\n" :=
  ⟨[ascii "List main 1", ascii "Item a:b 99"], by unfold Lines; decide, by decide, by decide, by decide⟩

end MapEditr
