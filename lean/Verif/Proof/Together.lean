import Verif.Proof.Locks
import Verif.Spec.Together
/-! # Lemmas about several runs at the same time -/

namespace MapEditr
open Spec Locks

theorem whose_inj {r r' : Nat} {i i' : DbId} (h : whose r i = whose r' i') : r = r' ∧ i = i' := by
  unfold whose at h
  simp only [Who.other.injEq] at h
  cases i <;> cases i' <;> simp at h ⊢ <;> omega

theorem part_snoc (r : Nat) (S : List Turn) (u : Turn) : part r (S ++ [u]) =
    if u.run = r ∧ u.did.stmt ≠ .rollback then part r S ++ [u.did] else part r S := by
  unfold part
  rw [List.filter_append, List.map_append]
  by_cases h : u.run = r ∧ u.did.stmt ≠ .rollback
  · rw [if_pos h]; simp [h]
  · rw [if_neg h]
    have : (u.run == r && u.did.stmt != .rollback) = false := by
      rw [Bool.eq_false_iff]
      intro e
      simp only [Bool.and_eq_true, beq_iff_eq, bne_iff_ne] at e
      exact h e
    simp [this]

theorem together_snoc (uses : Nat → DbId → Bool) (f : File) (S : List Turn) (u : Turn) :
    together uses f (S ++ [u]) = u.act uses (together uses f S) := by
  unfold together; rw [List.foldl_append]; rfl

theorem act_other {uses : Nat → DbId → Bool} {f : File} {u : Turn} {r : Nat} {i : DbId}
    (h : ¬ (u.run = r ∧ u.did.db = i ∧ u.did.ok = true)) : Undisturbed f (u.act uses f) (whose r i) := by
  unfold Turn.act
  split
  · rename_i hc
    simp only [Bool.and_eq_true] at hc
    cases hg : f.step (whose u.run u.did.db) u.spill u.keep u.did.stmt with
    | none => exact undisturbed_refl _ _
    | some g =>
      refine undisturbed_step (fun e => ?_) hg
      obtain ⟨e1, e2⟩ := whose_inj e
      exact h ⟨e1.symm, e2.symm, hc.1⟩
  · exact undisturbed_refl _ _

theorem all_init {uses : Nat → DbId → Bool} {f : File} {S : List Turn} {u : Turn} (h : AllAllowed uses f (S ++ [u])) :
    AllAllowed uses f S := by
  intro n v hn
  have hlt : n < S.length := (List.getElem?_eq_some_iff.1 hn).1
  have := h n v (by rw [List.getElem?_append_left hlt]; exact hn)
  rwa [List.take_append_of_le_length (by omega)] at this

theorem all_last {uses : Nat → DbId → Bool} {f : File} {S : List Turn} {u : Turn} (h : AllAllowed uses f (S ++ [u]))
    (ho : u.did.ok = true) (hu : uses u.run u.did.db = true) :
    ∃ g, (together uses f S).step (whose u.run u.did.db) u.spill u.keep u.did.stmt = some g ∧
      together uses f (S ++ [u]) = g := by
  have := h S.length u (by simp) ho hu
  rw [List.take_left' rfl] at this
  obtain ⟨g, hg⟩ := Option.isSome_iff_exists.1 this
  refine ⟨g, hg, ?_⟩
  rw [together_snoc]
  unfold Turn.act
  rw [if_pos (by rw [ho, hu]; rfl), hg]; rfl

theorem getsLock_snoc {uses : Nat → DbId → Bool} {f : File} {S : List Turn} {u : Turn} {r : Nat} {i : DbId} {n : Nat}
    (hn : n < S.length) : GetsLock uses f (S ++ [u]) r i n ↔ GetsLock uses f S r i n := by
  unfold GetsLock
  rw [List.take_append_of_le_length (by omega), List.take_append_of_le_length (by omega), List.getElem?_append_left hn]

theorem getsLock_last {uses : Nat → DbId → Bool} {f : File} {S : List Turn} {u : Turn} {r : Nat} {i : DbId} :
    GetsLock uses f (S ++ [u]) r i S.length ↔ whose r i ∉ (together uses f S).readers ∧
      (whose r i ∈ (together uses f (S ++ [u])).readers ∨ (u.run = r ∧ u.did = ⟨i, .commit, true⟩)) := by
  unfold GetsLock
  rw [List.take_left' rfl, List.take_of_length_le (by simp), List.getElem?_append_right (by omega), Nat.sub_self]
  simp

theorem meets_init {uses : Nat → DbId → Bool} {f : File} {S : List Turn} {u : Turn} {r : Nat} {i : DbId} {t : Table}
    (h : MeetsAt uses f (S ++ [u]) r i t) : MeetsAt uses f S r i t := by
  intro n hn hg
  have := h n (by rw [List.length_append]; omega) ((getsLock_snoc hn).2 hg)
  rwa [List.take_append_of_le_length (by omega)] at this

theorem meets_last {uses : Nat → DbId → Bool} {f : File} {S : List Turn} {u : Turn} {r : Nat} {i : DbId} {t : Table}
    (h : MeetsAt uses f (S ++ [u]) r i t) (h1 : whose r i ∉ (together uses f S).readers)
    (h2 : whose r i ∈ (together uses f (S ++ [u])).readers ∨ (u.run = r ∧ u.did = ⟨i, .commit, true⟩)) :
    (together uses f S).content = t := by
  have := h S.length (by simp) (getsLock_last.2 ⟨h1, h2⟩)
  rwa [List.take_left' rfl] at this

/-- How a run stands to the file, all along. -/
theorem stands_together {uses : Nat → DbId → Bool} {f : File} {r : Nat} {b : Bool} {i : DbId} {t : Table}
    (hi : uses r i = true) (hf : Idle f) (S : List Turn) : ∀ P, phases b (part r S) = some P → AllAllowed uses f S →
      MeetsAt uses f S r i t → (∀ u ∈ S, ¬ (u.run = r ∧ u.did.db = i ∧ u.did.stmt = .rollback)) → ∃ v : Sight, v.cur = seesAlone i t (part r S) ∧
        Stands (P i) (together uses f S) (whose r i) t v := by
  induction S using snoc_ind with
  | nil =>
    intro P hP _ _ _
    cases hP
    refine ⟨⟨t, false, false⟩, rfl, hf.1 _, ?_, ?_, rfl⟩
    · show whose r i ∉ f.readers
      rw [hf.2.1]; simp
    · show f.writer ≠ _
      rw [hf.2.2.1]; simp
  | snoc S u ih =>
    intro Q hQ ha hl hcl
    have hcl' := fun v hv => hcl v (List.mem_append_left _ hv)
    have hcu := hcl u (List.mem_append_right _ (List.mem_singleton.2 rfl))
    have hact := together_snoc uses f S u
    rw [part_snoc] at hQ ⊢
    by_cases hrr : u.run = r ∧ u.did.stmt ≠ .rollback
    · rw [if_pos hrr] at hQ ⊢
      have hr := hrr.1
      obtain ⟨P, hP, hs⟩ := phases_last hQ
      obtain ⟨v, hv, h0⟩ := ih P hP (all_init ha) (meets_init hl) hcl'
      rw [seesAlone_snoc]
      by_cases hd : u.did.db = i ∧ u.did.ok = true
      · obtain ⟨hd, ho⟩ := hd
        obtain ⟨h1, -⟩ := phaseStep_ok hs ho
        obtain ⟨g, hg, e⟩ := all_last ha ho (by rw [hr, hd]; exact hi)
        rw [if_pos ⟨hd, ho⟩]
        refine ⟨v.next u.keep u.did.stmt, step_sees _ (phases_no_rollback (b := b) (by rw [hQ]; rfl) ho) hv, ?_⟩
        have hl' := fun h1 h2 => meets_last hl h1 h2
        rw [e] at hl' ⊢
        rw [hr] at hg
        rw [hd] at h1 hg
        refine (stands_self h0 h1 hg fun e1 e2 => hl' e1 (e2.imp id fun e => ⟨hr, ?_⟩)).1
        obtain ⟨r', ⟨db, stmt, ok⟩, sp, kp⟩ := u
        simp only at e ho hd
        subst e; subst ho; subst hd; rfl
      · rw [if_neg hd]
        have hQ' : Q i = P i := by
          by_cases ho : u.did.ok = true
          · exact (phaseStep_ok hs ho).2.1 i fun e => hd ⟨e.symm, ho⟩
          · rw [phaseStep_bad hs ho]
        rw [hQ', hact]
        exact ⟨v, hv, stands_same h0 (act_other fun e => hd e.2)⟩
    · rw [if_neg hrr] at hQ ⊢
      obtain ⟨v, hv, h0⟩ := ih Q hQ (all_init ha) (meets_init hl) hcl'
      rw [hact]
      exact ⟨v, hv, stands_same h0 (act_other fun e => hrr ⟨e.1, fun e' => hcu ⟨e.1, e.2.1, e'⟩⟩)⟩

theorem noneClosed_init {S : List Turn} {u : Turn} (h : NoneClosed (S ++ [u])) : NoneClosed S := by
  intro m n v w hmn hm hn
  exact h m n v w hmn (by rw [List.getElem?_append_left (List.getElem?_eq_some_iff.1 hm).1]; exact hm)
    (by rw [List.getElem?_append_left (List.getElem?_eq_some_iff.1 hn).1]; exact hn)

theorem noneClosed_last {S : List Turn} {u : Turn} (h : NoneClosed (S ++ [u])) :
    ∀ v ∈ S, ¬ (v.run = u.run ∧ v.did.db = u.did.db ∧ v.did.stmt = .rollback) := by
  rintro v hv ⟨h1, h2, h3⟩
  obtain ⟨m, hm⟩ := List.mem_iff_getElem?.1 hv
  have hlt : m < S.length := (List.getElem?_eq_some_iff.1 hm).1
  exact h m S.length v u hlt (by rw [List.getElem?_append_left hlt]; exact hm) (by simp) h3 ⟨h1.symm, h2.symm⟩

/-- There is at most one first lock. -/
theorem meets_together {uses : Nat → DbId → Bool} {f : File} {r : Nat} {b : Bool} {i : DbId} (hi : uses r i = true)
    (S : List Turn) : ∀ P, phases b (part r S) = some P → AllAllowed uses f S → NoneClosed S →
      ∃ t, MeetsAt uses f S r i t ∧ ((∃ n, n < S.length ∧ GetsLock uses f S r i n) →
        ((P i = .looking ∧ whose r i ∈ (together uses f S).readers) ∨ P i = .over) ∨
          ∃ u ∈ S, u.run = r ∧ u.did.db = i ∧ u.did.stmt = .rollback) := by
  induction S using snoc_ind with
  | nil =>
    intro P _ _ _
    exact ⟨[], (fun n h => absurd h (Nat.not_lt_zero n)), fun ⟨n, h, _⟩ => absurd h (Nat.not_lt_zero n)⟩
  | snoc S u ih =>
    intro Q hQ ha hcl
    have len : (S ++ [u]).length = S.length + 1 := by simp
    have old : ∀ t, MeetsAt uses f S r i t → ¬ GetsLock uses f (S ++ [u]) r i S.length →
        ((∃ n, n < S.length ∧ GetsLock uses f S r i n) →
          ((Q i = .looking ∧ whose r i ∈ (together uses f (S ++ [u])).readers) ∨ Q i = .over) ∨
            ∃ v ∈ S ++ [u], v.run = r ∧ v.did.db = i ∧ v.did.stmt = .rollback) →
        ∃ t, MeetsAt uses f (S ++ [u]) r i t ∧ ((∃ n, n < (S ++ [u]).length ∧ GetsLock uses f (S ++ [u]) r i n) →
          ((Q i = .looking ∧ whose r i ∈ (together uses f (S ++ [u])).readers) ∨ Q i = .over) ∨
            ∃ v ∈ S ++ [u], v.run = r ∧ v.did.db = i ∧ v.did.stmt = .rollback) := by
      intro t ht hn hq
      refine ⟨t, fun n hlt hf => ?_, fun ⟨n, hlt, hf⟩ => ?_⟩
      · rcases Nat.lt_or_eq_of_le (Nat.le_of_lt_succ (len ▸ hlt)) with h | rfl
        · rw [List.take_append_of_le_length (by omega)]
          exact ht n h ((getsLock_snoc h).1 hf)
        · exact absurd hf hn
      · rcases Nat.lt_or_eq_of_le (Nat.le_of_lt_succ (len ▸ hlt)) with h | rfl
        · exact hq ⟨n, h, (getsLock_snoc h).1 hf⟩
        · exact absurd hf hn
    rw [part_snoc] at hQ
    by_cases hd : u.run = r ∧ u.did.db = i ∧ u.did.ok = true
    · obtain ⟨hr, hd, ho⟩ := hd
      obtain ⟨g, hg, e⟩ := all_last ha ho (by rw [hr, hd]; exact hi)
      by_cases hb : u.did.stmt = .rollback
      · rw [if_neg fun h => h.2 hb] at hQ
        obtain ⟨t, ht, -⟩ := ih Q hQ (all_init ha) (noneClosed_init hcl)
        refine old t ht (fun hf => ?_) fun _ => .inr ⟨u, List.mem_append_right _ (List.mem_singleton.2 rfl), hr, hd, hb⟩
        obtain ⟨f1, f2⟩ := getsLock_last.1 hf
        rcases f2 with f2 | ⟨-, f3⟩
        · rw [hb] at hg
          cases hg
          rw [e, hr, hd] at f2
          exact f1 (List.mem_filter.1 f2).1
        · rw [f3] at hb; cases hb
      · rw [if_pos ⟨hr, hb⟩] at hQ
        obtain ⟨P, hP, hs⟩ := phases_last hQ
        obtain ⟨t, ht, hh⟩ := ih P hP (all_init ha) (noneClosed_init hcl)
        have hno : ¬ ∃ v ∈ S, v.run = r ∧ v.did.db = i ∧ v.did.stmt = .rollback := by
          rintro ⟨v, hv, h1, h2, h3⟩
          exact noneClosed_last hcl v hv ⟨h1.trans hr.symm, h2.trans hd.symm, h3⟩
        have hh := fun h => (hh h).resolve_right hno
        obtain ⟨h1, -⟩ := phaseStep_ok hs ho
        obtain ⟨o1, o2, o3⟩ := own_readers h1 hg
        rw [hr, hd] at o1 o2
        rw [hd] at o3
        rw [e] at old ⊢
        by_cases hf : GetsLock uses f (S ++ [u]) r i S.length
        · obtain ⟨f1, f2⟩ := getsLock_last.1 hf
          rw [e] at f2
          have f2 := f2.imp (fun x => x) (fun x : u.run = r ∧ u.did = ⟨i, .commit, true⟩ =>
            show u.did.stmt = .commit by rw [x.2])
          have hnot : ¬ ∃ n, n < S.length ∧ GetsLock uses f S r i n := by
            intro h
            rcases hh h with ⟨-, h⟩ | h
            · exact f1 h
            · have hq := o3 h
              rcases o2 f1 f2 with ⟨h', -⟩ | ⟨-, h'⟩
              · rw [hq] at h'; cases h'
              · rw [h] at h'; cases h'
          refine ⟨(together uses f S).content, fun n hlt hf' => ?_, fun _ => .inl ?_⟩
          · rcases Nat.lt_or_eq_of_le (Nat.le_of_lt_succ (len ▸ hlt)) with h | rfl
            · exact absurd ⟨n, h, (getsLock_snoc h).1 hf'⟩ hnot
            · rw [List.take_left' rfl]
          · rcases o2 f1 f2 with h | ⟨h, -⟩
            · exact .inl h
            · exact .inr h
        · refine old t ht hf fun h => .inl ?_
          rcases hh h with ⟨h2, h3⟩ | h2
          · exact o1 h2 h3
          · exact .inr (o3 h2)
    · obtain ⟨P, hP, hQ'⟩ : ∃ P, phases b (part r S) = some P ∧ Q i = P i := by
        by_cases hr : u.run = r ∧ u.did.stmt ≠ .rollback
        · rw [if_pos hr] at hQ
          obtain ⟨P, hP, hs⟩ := phases_last hQ
          refine ⟨P, hP, ?_⟩
          by_cases ho : u.did.ok = true
          · exact (phaseStep_ok hs ho).2.1 i fun e => hd ⟨hr.1, e.symm, ho⟩
          · rw [phaseStep_bad hs ho]
        · rw [if_neg hr] at hQ
          exact ⟨Q, hQ, rfl⟩
      obtain ⟨t, ht, hh⟩ := ih P hP (all_init ha) (noneClosed_init hcl)
      have hu : Undisturbed (together uses f S) (together uses f (S ++ [u])) (whose r i) := by
        rw [together_snoc]; exact act_other hd
      refine old t ht (fun hf => ?_) fun h => ?_
      · obtain ⟨f1, f2⟩ := getsLock_last.1 hf
        rcases f2 with f2 | ⟨f2, f3⟩
        · exact f1 (hu.readers.1 f2)
        · exact hd ⟨f2, by rw [f3]; exact ⟨rfl, rfl⟩⟩
      · rw [hQ']
        rcases hh h with (⟨h2, h3⟩ | h2) | ⟨v, h2, h3⟩
        · exact .inl (.inl ⟨h2, hu.readers.2 h3⟩)
        · exact .inl (.inr h2)
        · exact .inr ⟨v, List.mem_append_left _ h2, h3⟩

end MapEditr
