import Verif.Model.SMap
/-! # Lemmas: sorted maps -/

set_option linter.unusedSimpArgs false

namespace MapEditr.SMap

variable {α β γ : Type} [KeyOrd α]

theorem lt_irrefl (a : α) : ¬ KeyOrd.lt a a = true := by rw [KeyOrd.irrefl]; simp

theorem lt_asymm {a b : α} (h : KeyOrd.lt a b = true) : ¬ KeyOrd.lt b a = true := fun h' =>
  lt_irrefl a (KeyOrd.trans _ _ _ h h')

theorem lt_ne {a b : α} (h : KeyOrd.lt a b = true) : a ≠ b := fun e => by
  subst e; exact lt_irrefl _ h

theorem sorted_nil : Sorted ([] : SMap α β) := List.Pairwise.nil

theorem sorted_cons {e : α × β} {m : SMap α β} :
    Sorted (e :: m) ↔ (∀ x ∈ m, KeyOrd.lt e.1 x.1 = true) ∧ Sorted m := List.pairwise_cons

theorem get?_nil (k : α) : get? ([] : SMap α β) k = none := rfl

theorem get?_cons (e : α × β) (m : SMap α β) (k : α) :
    get? (e :: m) k = if e.1 == k then some e.2 else get? m k := rfl

theorem get?_none_of_lt {m : SMap α β} {k : α} (h : ∀ x ∈ m, KeyOrd.lt k x.1 = true) :
    get? m k = none := by
  induction m with
  | nil => rfl
  | cons e t ih =>
    rw [get?_cons]
    have h1 := h e (by simp)
    have h2 : ¬ (e.1 == k) = true := by
      rw [beq_iff_eq]; exact (lt_ne h1).symm
    rw [if_neg h2]
    exact ih fun x hx => h x (by simp [hx])

theorem get?_some_mem {m : SMap α β} {k : α} {v : β} (h : get? m k = some v) : (k, v) ∈ m := by
  induction m with
  | nil => simp [get?] at h
  | cons e t ih =>
    rw [get?_cons] at h
    split at h
    · rename_i h1
      rw [beq_iff_eq] at h1
      have : e = (k, v) := by
        cases e; simp at h h1; simp [h, h1]
      simp [this]
    · exact List.mem_cons_of_mem _ (ih h)

theorem get?_of_mem {m : SMap α β} (hs : Sorted m) {k : α} {v : β} (h : (k, v) ∈ m) :
    get? m k = some v := by
  induction m with
  | nil => simp at h
  | cons e t ih =>
    rw [sorted_cons] at hs
    rw [get?_cons]
    rcases List.mem_cons.1 h with h | h
    · subst h; simp
    · have := hs.1 _ h
      have h2 : ¬ (e.1 == k) = true := by rw [beq_iff_eq]; exact lt_ne this
      rw [if_neg h2]; exact ih hs.2 h

theorem mem_iff_get? {m : SMap α β} (hs : Sorted m) {k : α} {v : β} :
    (k, v) ∈ m ↔ get? m k = some v := ⟨get?_of_mem hs, get?_some_mem⟩

theorem ext {m n : SMap α β} (hm : Sorted m) (hn : Sorted n) (h : ∀ k, get? m k = get? n k) :
    m = n := by
  induction m generalizing n with
  | nil =>
    cases n with
    | nil => rfl
    | cons e t => have := h e.1; simp [get?_cons, get?_nil] at this
  | cons e t ih =>
    cases n with
    | nil => have := h e.1; simp [get?_cons, get?_nil] at this
    | cons f u =>
      have hm' := sorted_cons.1 hm
      have hn' := sorted_cons.1 hn
      have hk : e.1 = f.1 := by
        apply KeyOrd.tri
        · cases hlt : KeyOrd.lt e.1 f.1 with
          | false => rfl
          | true =>
            exfalso
            have h1 : get? (f :: u) e.1 = none := by
              apply get?_none_of_lt
              intro x hx
              rcases List.mem_cons.1 hx with hx | hx
              · subst hx; exact hlt
              · exact KeyOrd.trans _ _ _ hlt (hn'.1 x hx)
            have := h e.1
            rw [h1, get?_cons] at this
            simp at this
        · cases hlt : KeyOrd.lt f.1 e.1 with
          | false => rfl
          | true =>
            exfalso
            have h1 : get? (e :: t) f.1 = none := by
              apply get?_none_of_lt
              intro x hx
              rcases List.mem_cons.1 hx with hx | hx
              · subst hx; exact hlt
              · exact KeyOrd.trans _ _ _ hlt (hm'.1 x hx)
            have := h f.1
            rw [h1, get?_cons] at this
            simp at this
      have hv : e.2 = f.2 := by
        have := h e.1
        simp [get?_cons, hk] at this
        exact this
      have he : e = f := Prod.ext hk hv
      subst he
      congr 1
      apply ih hm'.2 hn'.2
      intro k
      by_cases hke : e.1 = k
      · subst hke
        rw [get?_none_of_lt hm'.1, get?_none_of_lt hn'.1]
      · have := h k
        have h2 : ¬ (e.1 == k) = true := by rw [beq_iff_eq]; exact hke
        rw [get?_cons, get?_cons, if_neg h2, if_neg h2] at this
        exact this

theorem get?_insert (m : SMap α β) (k : α) (v : β) (q : α) :
    get? (insert m k v) q = if k == q then some v else get? m q := by
  induction m with
  | nil => simp [insert, get?]
  | cons e t ih =>
    obtain ⟨k', v'⟩ := e
    simp only [insert]
    split
    · rw [get?_cons]
    · split
      · rename_i h1 h2
        rw [beq_iff_eq] at h2; subst h2
        rw [get?_cons, get?_cons]
        split <;> rfl
      · rename_i h1 h2
        rw [get?_cons, get?_cons, ih]
        by_cases hq : k' == q
        · have : ¬ (k == q) = true := by
            rw [beq_iff_eq] at hq ⊢
            intro e; subst e; subst hq; simp at h2
          simp [hq, this]
        · simp [hq]

theorem mem_insert {m : SMap α β} {k : α} {v : β} {x : α × β} (h : x ∈ insert m k v) :
    x = (k, v) ∨ x ∈ m := by
  induction m with
  | nil => simp [insert] at h; exact Or.inl h
  | cons e t ih =>
    obtain ⟨k', v'⟩ := e
    simp only [insert] at h
    split at h
    · simpa using h
    · split at h
      · rcases List.mem_cons.1 h with h | h
        · exact Or.inl h
        · exact Or.inr (List.mem_cons_of_mem _ h)
      · rcases List.mem_cons.1 h with h | h
        · exact Or.inr (by simp [h])
        · rcases ih h with h | h
          · exact Or.inl h
          · exact Or.inr (List.mem_cons_of_mem _ h)

theorem mem_insert_self (m : SMap α β) (k : α) (v : β) : (k, v) ∈ insert m k v :=
  get?_some_mem (by rw [get?_insert]; simp)

theorem sorted_insert {m : SMap α β} (hs : Sorted m) (k : α) (v : β) : Sorted (insert m k v) := by
  induction m with
  | nil => exact List.pairwise_singleton _ _
  | cons e t ih =>
    obtain ⟨k', v'⟩ := e
    have hs' := sorted_cons.1 hs
    simp only [insert]
    split
    · rename_i h
      rw [sorted_cons]
      refine ⟨?_, hs⟩
      intro x hx
      rcases List.mem_cons.1 hx with hx | hx
      · subst hx; exact h
      · exact KeyOrd.trans _ _ _ h (hs'.1 x hx)
    · split
      · rename_i h1 h2
        rw [beq_iff_eq] at h2; subst h2
        exact sorted_cons.2 ⟨hs'.1, hs'.2⟩
      · rename_i h1 h2
        rw [sorted_cons]
        refine ⟨?_, ih hs'.2⟩
        intro x hx
        rcases mem_insert hx with hx | hx
        · subst hx
          show KeyOrd.lt k' k = true
          cases h3 : KeyOrd.lt k' k with
          | true => rfl
          | false =>
            exfalso
            have := KeyOrd.tri k' k h3 (by simpa using h1)
            subst this; simp at h2
        · exact hs'.1 x hx

theorem length_insert_le (m : SMap α β) (k : α) (v : β) :
    (insert m k v).length ≤ m.length + 1 := by
  induction m with
  | nil => simp [insert]
  | cons e t ih =>
    obtain ⟨k', v'⟩ := e
    simp only [insert]
    split
    · simp
    · split
      · simp
      · simp; exact ih

theorem length_le_insert (m : SMap α β) (k : α) (v : β) :
    m.length ≤ (insert m k v).length := by
  induction m with
  | nil => simp [insert]
  | cons e t ih =>
    obtain ⟨k', v'⟩ := e
    simp only [insert]
    split
    · simp
    · split
      · simp
      · simp; exact ih

theorem sorted_filter {m : SMap α β} (hs : Sorted m) (p : α × β → Bool) : Sorted (m.filter p) :=
  List.Pairwise.filter p hs

theorem sorted_erase {m : SMap α β} (hs : Sorted m) (k : α) : Sorted (erase m k) :=
  sorted_filter hs _

theorem get?_erase (m : SMap α β) (k q : α) :
    get? (erase m k) q = if k == q then none else get? m q := by
  induction m with
  | nil => simp [erase, get?]
  | cons e t ih =>
    have ih' : get? (List.filter (fun e => !(e.1 == k)) t) q
        = if k == q then none else get? t q := ih
    unfold erase
    rw [List.filter_cons]
    by_cases he : e.1 = k
    · subst he
      simp only [BEq.rfl, Bool.not_true, Bool.false_eq_true, if_false]
      rw [ih', get?_cons]
      split <;> rfl
    · have : (e.1 == k) = false := by simpa using he
      simp only [this, Bool.not_false, if_true]
      rw [get?_cons, get?_cons, ih']
      by_cases hq : e.1 = q
      · subst hq
        have : (k == e.1) = false := by simpa using fun h : k = e.1 => he h.symm
        simp [this]
      · simp [hq]

theorem mem_erase {m : SMap α β} {k : α} {x : α × β} :
    x ∈ erase m k ↔ x ∈ m ∧ x.1 ≠ k := by
  unfold erase; simp [List.mem_filter]

/-- Inserting a batch: the last entry for a key wins. -/
def insertAll (m : SMap α β) (l : List (α × β)) : SMap α β :=
  l.foldl (fun m e => insert m e.1 e.2) m

theorem insertAll_nil (m : SMap α β) : insertAll m [] = m := rfl
theorem insertAll_cons (m : SMap α β) (e : α × β) (l : List (α × β)) :
    insertAll m (e :: l) = insertAll (insert m e.1 e.2) l := rfl

theorem sorted_insertAll {m : SMap α β} (hs : Sorted m) (l : List (α × β)) :
    Sorted (insertAll m l) := by
  induction l generalizing m with
  | nil => exact hs
  | cons e t ih => exact ih (sorted_insert hs _ _)

theorem mem_insertAll {m : SMap α β} {l : List (α × β)} {x : α × β} (h : x ∈ insertAll m l) :
    x ∈ m ∨ x ∈ l := by
  induction l generalizing m with
  | nil => exact Or.inl h
  | cons e t ih =>
    rcases ih h with h | h
    · rcases mem_insert h with h | h
      · exact Or.inr (by simp [h])
      · exact Or.inl h
    · exact Or.inr (List.mem_cons_of_mem _ h)

theorem length_insertAll_le (m : SMap α β) (l : List (α × β)) :
    (insertAll m l).length ≤ m.length + l.length := by
  induction l generalizing m with
  | nil => simp [insertAll]
  | cons e t ih =>
    have h1 := ih (insert m e.1 e.2)
    have h2 := length_insert_le m e.1 e.2
    rw [insertAll_cons]; simp; omega

/-- Keys pairwise distinct. -/
def KeysNodup (l : List (α × β)) : Prop := (l.map (·.1)).Nodup

theorem keysNodup_of_sorted {m : SMap α β} (hs : Sorted m) : KeysNodup m := by
  unfold KeysNodup
  rw [List.nodup_iff_pairwise_ne, List.pairwise_map]
  exact List.Pairwise.imp (fun h => lt_ne h) hs

theorem get?_insertAll {m : SMap α β} {l : List (α × β)} (hl : KeysNodup l) (q : α) :
    get? (insertAll m l) q = (get? l q).or (get? m q) := by
  induction l generalizing m with
  | nil => simp [insertAll, get?]
  | cons e t ih =>
    have hl' : e.1 ∉ t.map (·.1) ∧ (t.map (·.1)).Nodup := List.nodup_cons.1 hl
    rw [insertAll_cons, ih hl'.2, get?_insert, get?_cons]
    by_cases hq : e.1 = q
    · subst hq
      have : get? t e.1 = none := by
        cases h : get? t e.1 with
        | none => rfl
        | some v =>
          exfalso
          exact hl'.1 (List.mem_map.2 ⟨_, get?_some_mem h, rfl⟩)
      simp [this]
    · simp [hq]

theorem get?_perm_nodup {l m : List (α × β)} (hp : l.Perm m) (hm : KeysNodup m) (q : α) :
    get? l q = get? m q := by
  induction hp with
  | nil => rfl
  | cons e _ ih =>
    rw [get?_cons, get?_cons, ih (List.nodup_cons.1 hm).2]
  | swap a b l =>
    have hne : b.1 ≠ a.1 := by
      have := (List.nodup_cons.1 hm).1
      simp at this
      exact fun h => this.1 h.symm
    rw [get?_cons, get?_cons, get?_cons, get?_cons]
    by_cases h1 : b.1 = q
    · subst h1
      have : (a.1 == b.1) = false := by simpa using fun h : a.1 = b.1 => hne h.symm
      simp [this]
    · simp [h1]
  | trans h1 h2 ih1 ih2 =>
    rename_i l1 l2 l3
    have hm2 : KeysNodup l2 := by
      unfold KeysNodup at hm ⊢
      exact ((h2.map (·.1)).nodup_iff).2 hm
    rw [ih1 hm2, ih2 hm]

/-- Re-inserting the entries of a map in any order rebuilds it. -/
theorem insertAll_perm {l m : SMap α β} (hp : l.Perm m) (hs : Sorted m) : insertAll [] l = m := by
  have hl : KeysNodup l := by
    have := keysNodup_of_sorted hs
    unfold KeysNodup at this ⊢
    exact ((hp.map (·.1)).nodup_iff).2 this
  apply ext (sorted_insertAll sorted_nil _) hs
  intro k
  rw [get?_insertAll hl, get?_nil, Option.or_none]
  exact get?_perm_nodup hp (keysNodup_of_sorted hs) k

theorem insertAll_sorted {m : SMap α β} (hs : Sorted m) : insertAll [] m = m :=
  insertAll_perm (List.Perm.refl _) hs

/-- Mapping values keeps sortedness. -/
theorem sorted_mapVal {m : SMap α β} (hs : Sorted m) (f : α → β → γ) :
    Sorted (m.map fun e => (e.1, f e.1 e.2)) := by
  unfold Sorted
  rw [List.pairwise_map]
  exact hs

theorem get?_mapVal (m : SMap α β) (f : α → β → γ) (k : α) :
    get? (m.map fun e => (e.1, f e.1 e.2)) k = (get? m k).map (f k) := by
  induction m with
  | nil => rfl
  | cons e t ih =>
    rw [List.map_cons, get?_cons, get?_cons, ih]
    by_cases h : e.1 = k
    · subst h; simp
    · simp [h]

theorem get?_filter {m : SMap α β} (hs : Sorted m) (p : α × β → Bool) (k : α) :
    get? (m.filter p) k = (get? m k).filter (fun v => p (k, v)) := by
  cases h : get? m k with
  | none =>
    cases h2 : get? (m.filter p) k with
    | none => rfl
    | some v =>
      have := get?_some_mem h2
      rw [List.mem_filter] at this
      rw [get?_of_mem hs this.1] at h
      simp at h
  | some v =>
    have hm := get?_some_mem h
    rw [Option.filter_some]
    split
    · rename_i hp
      exact get?_of_mem (sorted_filter hs p) (List.mem_filter.2 ⟨hm, hp⟩)
    · rename_i hp
      cases h2 : get? (m.filter p) k with
      | none => rfl
      | some w =>
        have := get?_some_mem h2
        rw [List.mem_filter] at this
        have h3 := get?_of_mem hs this.1
        rw [h] at h3
        cases h3
        exact absurd this.2 hp

theorem has_iff {m : SMap α β} {k : α} : has m k = true ↔ ∃ v, get? m k = some v := by
  unfold has; rw [Option.isSome_iff_exists]

end MapEditr.SMap
