import Verif.Proof.Together
/-! # Lemmas about one run after another -/

namespace MapEditr
open Spec Locks

theorem all_snoc {uses : Nat → DbId → Bool} {f : File} {S : List Turn} {u : Turn} (h : AllAllowed uses f S)
    (hl : u.did.ok = true → uses u.run u.did.db = true →
      ((together uses f S).step (whose u.run u.did.db) u.spill u.keep u.did.stmt).isSome = true) :
    AllAllowed uses f (S ++ [u]) := by
  intro n v hn ho hu
  by_cases hlt : n < S.length
  · rw [List.getElem?_append_left hlt] at hn
    rw [List.take_append_of_le_length (by omega)]
    exact h n v hn ho hu
  · rw [List.getElem?_append_right (by omega)] at hn
    obtain ⟨h1, h2⟩ := List.getElem?_eq_some_iff.1 hn
    simp only [List.length_singleton] at h1
    have : n = S.length := by omega
    subst this
    simp only [Nat.sub_self, List.getElem_cons_zero] at h2
    subst h2
    rw [List.take_left' rfl]
    exact hl ho hu

/-- Nobody else has a lock, or is in a transaction. -/
def LoneOf (p : Phase) (f : File) (x : Who) : Prop := Lone p f x ∧ ∀ y, y ≠ x → f.inTx y = false

theorem only_step {p q : Phase} {f : File} {x : Who} {sp kp : Bool} {s : Sql} (h : LoneOf p f x) (hp : p.next s = some q) :
    ∃ g, f.step x sp kp s = some g ∧ LoneOf q g x := by
  obtain ⟨g, h1, h2⟩ := lone_step (sp := sp) (kp := kp) h.1 hp
  exact ⟨g, h1, h2, fun y hy => (undisturbed_step hy h1).inTx.trans (h.2 y hy)⟩

theorem only_leave {p : Phase} {f : File} {x : Who} (h : LoneOf p f x) : Idle (f.leave x) := by
  obtain ⟨-, h2, h3⟩ := lone_leave (q := .over) h.1 (by simp)
  refine ⟨fun y => ?_, ?_, ?_⟩
  · by_cases hy : y = x
    · subst hy; exact upd_self _ _ _
    · exact (upd_other _ _ hy).trans (h.2 y hy)
  · show f.readers.filter (fun y => !(y == x)) = []
    rw [List.filter_eq_nil_iff]
    intro y hy
    simp [h.1.2.1 y hy]
  · rcases h3 with h3 | h3
    · exact h3
    · exfalso
      have : (if f.writer = some x then none else f.writer) = some x := h3
      split at this
      · cases this
      · contradiction

theorem idle_leave {f : File} (h : Idle f) (x : Who) : Idle (f.leave x) :=
  only_leave (p := .fresh) ⟨⟨by simp [h.1], by simp [h.2.1], .inl h.2.2⟩, fun y _ => h.1 y⟩

theorem idle_only {f : File} (h : Idle f) (x : Who) : LoneOf .fresh f x :=
  ⟨⟨by simp [h.1], by simp [h.2.1], .inl h.2.2⟩, fun y _ => h.1 y⟩

theorem only_run {uses : Nat → DbId → Bool} {f : File} {S : List Turn} {b : Bool} {r : Nat} {i : DbId}
    (hi : ∀ j, uses r j = true ↔ j = i) (hf : LoneOf .fresh (together uses f S) (whose r i)) (ha : AllAllowed uses f S)
    (T : List Turn) : (∀ u ∈ T, u.run = r ∧ u.did.stmt ≠ .rollback) → ∀ P, phases b (part r T) = some P →
      LoneOf (P i) (together uses f (S ++ T)) (whose r i) ∧ AllAllowed uses f (S ++ T) := by
  induction T using snoc_ind with
  | nil =>
    intro _ P hP
    cases hP
    rw [List.append_nil]
    exact ⟨hf, ha⟩
  | snoc T u ih =>
    intro hT Q hQ
    have hu := hT u (List.mem_append_right _ (List.mem_singleton.2 rfl))
    rw [part_snoc, if_pos hu] at hQ
    obtain ⟨P, hP, hs⟩ := phases_last hQ
    obtain ⟨h0, h1⟩ := ih (fun v hv => hT v (List.mem_append_left _ hv)) P hP
    rw [← List.append_assoc]
    have key : u.did.ok = true → uses u.run u.did.db = true → ∃ g, (together uses f (S ++ T)).step
        (whose u.run u.did.db) u.spill u.keep u.did.stmt = some g ∧ LoneOf (Q i) g (whose r i) := by
      intro ho hu'
      rw [hu.1] at hu' ⊢
      have e := (hi _).1 hu'
      have h2 := (phaseStep_ok hs ho).1
      rw [e] at h2 ⊢
      exact only_step h0 h2
    refine ⟨?_, all_snoc h1 fun ho hu' => ?_⟩
    · rw [together_snoc]
      unfold Turn.act
      by_cases hc : (u.did.ok && uses u.run u.did.db) = true
      · rw [if_pos hc]
        simp only [Bool.and_eq_true] at hc
        obtain ⟨g, hg, h⟩ := key hc.1 hc.2
        rw [hg]; exact h
      · rw [if_neg hc]
        have hQ' : Q i = P i := by
          by_cases ho : u.did.ok = true
          · refine (phaseStep_ok hs ho).2.1 i fun e => hc ?_
            rw [ho, hu.1, (hi _).2 e.symm]; rfl
          · rw [phaseStep_bad hs ho]
        rw [hQ']; exact h0
    · obtain ⟨g, hg, -⟩ := key ho hu'
      rw [hg]; rfl

end MapEditr
