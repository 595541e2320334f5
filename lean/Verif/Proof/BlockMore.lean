import Verif.Spec.Inventory
import Verif.Proof.Block
/-! # Lemmas: inventories, over-long strings, prefixes -/

set_option linter.unusedSimpArgs false

namespace MapEditr
open Spec

theorem endInv_split : endInv = endWord ++ [10] := by decide
theorem endWord_length : endWord.length = 12 := by decide
theorem endWord_no_nl : (10 : UInt8) ∉ endWord := by decide

/-- No line (before the last) ends with `EndInventory`: the text is framed by its own end. -/
theorem framed_invText {lines : List Bytes} (h1 : Lines lines)
    (h2 : ∀ l ∈ lines, ¬ endWord <:+ l) : Framed (invText lines) := by
  refine ⟨lines.flatMap (fun l => l ++ [10]), rfl, ?_⟩
  unfold invText
  induction lines with
  | nil => intro i hi; simp at hi
  | cons l t ih =>
    intro i hi hp
    have hl1 := h1 l (by simp)
    have hl2 := h2 l (by simp)
    have ih := ih (fun x hx => h1 x (by simp [hx])) (fun x hx => h2 x (by simp [hx]))
    have e : List.flatMap (fun l => l ++ [10]) (l :: t) ++ endInv
        = l ++ (10 :: (t.flatMap (fun l => l ++ [10]) ++ endInv)) := by simp
    rw [e] at hp
    rw [List.flatMap_cons, List.length_append, List.length_append] at hi
    simp only [List.length_cons, List.length_nil] at hi
    generalize htail : t.flatMap (fun l => l ++ [10]) ++ endInv = tail at hp ih
    by_cases hc : i ≤ l.length
    · rw [List.drop_append_of_le_length hc] at hp
      obtain ⟨u, hu⟩ := hp
      rw [endInv_split, List.append_assoc] at hu
      -- `endWord ++ 10 :: u = l.drop i ++ 10 :: tail`, neither left part has a newline
      have key : endWord = l.drop i := by
        have : ∀ (a b x y : Bytes), (10 : UInt8) ∉ a → (10 : UInt8) ∉ b →
            a ++ 10 :: x = b ++ 10 :: y → a = b := by
          intro a
          induction a with
          | nil =>
            intro b x y _ hb h
            cases b with
            | nil => rfl
            | cons c d => simp at h; simp [h.1] at hb
          | cons p q ih =>
            intro b x y ha hb h
            cases b with
            | nil => simp at h; simp [h.1] at ha
            | cons c d =>
              simp at h ha hb
              rw [h.1, ih d x y ha.2 hb.2 h.2]
        exact this _ _ u tail endWord_no_nl (fun hm => hl1 (List.mem_of_mem_drop hm)) (by simpa using hu)
      exact hl2 (by rw [key]; exact List.drop_suffix _ _)
    · have e2 : (l ++ 10 :: tail).drop i = tail.drop (i - (l.length + 1)) := by
        rw [List.drop_append, List.drop_of_length_le (by omega), List.nil_append]
        have : i - l.length = (i - (l.length + 1)) + 1 := by omega
        rw [this, List.drop_succ_cons]
      rw [e2] at hp
      exact ih _ (by omega) hp

/-! ## Over-long strings -/

/-- The computation has no result. -/
def NotOk {α : Type} (r : Res α) : Prop := ∀ a, r ≠ .ok a

theorem notOk_bind {α β : Type} {x : Res α} {f : α → Res β} (h : NotOk x) : NotOk (x >>= f) := by
  intro b hb
  obtain ⟨a, ha, _⟩ := bind_ok_iff.1 hb
  exact h a ha

theorem notOk_bind' {α β : Type} {x : Res α} {f : α → Res β} (h : ∀ a, NotOk (f a)) :
    NotOk (x >>= f) := by
  intro b hb
  obtain ⟨a, _, hb⟩ := bind_ok_iff.1 hb
  exact h a b hb

theorem notOk_each {α : Type} {f : α → Wr} {l : List α} {x : α} (hx : x ∈ l)
    (h : NotOk (f x)) : NotOk (wrEach f l) := by
  induction l with
  | nil => simp at hx
  | cons y t ih =>
    rcases List.mem_cons.1 hx with hx | hx
    · subst hx
      exact notOk_bind h
    · exact notOk_bind' fun _ => notOk_bind (ih hx)

theorem notOk_str16 {d : Bytes} (h : 65536 ≤ d.length) : NotOk (wrStr16 d) := by
  intro a ha
  unfold wrStr16 at ha
  rw [if_neg (by omega)] at ha
  exact nomatch ha

theorem notOk_str32 {d : Bytes} (h : 4294967296 ≤ d.length) : NotOk (wrStr32 d) := by
  intro a ha
  unfold wrStr32 at ha
  rw [if_neg (by omega)] at ha
  exact nomatch ha

/-- Never a `MapBlockError`. -/
def OnlyPanics {α : Type} (r : Res α) : Prop := ∀ e, r ≠ .error (.err e)

theorem op_ok {α : Type} (a : α) : OnlyPanics (.ok a : Res α) := fun _ h => nomatch h
theorem op_bind {α β : Type} {x : Res α} {f : α → Res β} (hx : OnlyPanics x)
    (hf : ∀ a, OnlyPanics (f a)) : OnlyPanics (x >>= f) := by
  cases x with
  | error e => intro w h; exact hx w (by cases e <;> simp_all [bind, Except.bind])
  | ok a => exact hf a
theorem op_ite {α : Type} {c : Prop} [Decidable c] {x y : Res α} (hx : OnlyPanics x)
    (hy : OnlyPanics y) : OnlyPanics (if c then x else y) := by split <;> assumption
theorem op_panic {α : Type} (w : String) : OnlyPanics (.error (.panic w) : Res α) :=
  fun _ h => nomatch h
theorem op_each {α : Type} {f : α → Wr} (h : ∀ x, OnlyPanics (f x)) (l : List α) :
    OnlyPanics (wrEach f l) := by
  induction l with
  | nil => exact op_ok _
  | cons y t ih => exact op_bind (h y) fun _ => op_bind ih fun _ => op_ok _
theorem op_str16 (d : Bytes) : OnlyPanics (wrStr16 d) := op_ite (op_ok _) (op_panic _)
theorem op_str32 (d : Bytes) : OnlyPanics (wrStr32 d) := op_ite (op_ok _) (op_panic _)
theorem op_rassert (c : Bool) (w : String) : OnlyPanics (rassert c w) := by
  unfold rassert; exact op_ite (op_ok _) (op_panic _)

theorem op_nodes (nd : NodeData) : OnlyPanics nd.serialize :=
  op_bind (op_rassert _ _) fun _ => op_ok _
theorem op_nimap (m : NameIdMap) : OnlyPanics (wrNimap m) :=
  op_bind (op_each (fun _ => op_bind (op_str16 _) fun _ => op_ok _) _) fun _ => op_ok _
theorem op_objects (l : List StaticObject) : OnlyPanics (wrObjects l) :=
  op_bind (op_each (fun _ => op_bind (op_str16 _) fun _ => op_ok _) _) fun _ => op_ok _
theorem op_timers (l : List NodeTimer) : OnlyPanics (wrTimers l) :=
  op_bind (op_each (fun _ => op_ok _) _) fun _ => op_ok _
theorem op_metas (ord : VarOrd) (l : MetaList) (v : Nat) : OnlyPanics (wrMetaList ord l v) := by
  unfold wrMetaList
  refine op_ite (op_ok _) (op_bind (op_each (fun e => ?_) _) fun _ => op_ok _)
  refine op_ite (op_ok _) (op_bind ?_ fun _ => op_ok _)
  exact op_bind (op_each (fun _ => op_bind (op_str16 _) fun _ => op_bind (op_str32 _) fun _ =>
    op_ok _) _) fun _ => op_ok _

theorem op_serialize (c : Codec) (ord : VarOrd) (b : MapBlock) : OnlyPanics (serialize c ord b) := by
  unfold serialize
  refine op_bind (op_rassert _ _) fun _ => op_ite ?_ ?_
  · refine op_bind ?_ fun _ => op_ok _
    exact op_bind (op_nimap _) fun _ => op_bind (op_nodes _) fun _ => op_bind (op_metas _ _ _)
      fun _ => op_bind (op_objects _) fun _ => op_bind (op_timers _) fun _ => op_ok _
  · refine op_bind ?_ fun _ => op_ok _
    exact op_bind (op_nodes _) fun _ => op_bind (op_metas _ _ _) fun _ => op_bind (op_objects _)
      fun _ => op_bind (op_nimap _) fun _ => op_bind (op_timers _) fun _ => op_ok _

theorem panics_of {α : Type} {r : Res α} (h1 : NotOk r) (h2 : OnlyPanics r) :
    ∃ w, r = .error (.panic w) := by
  cases r with
  | ok a => exact absurd rfl (h1 a)
  | error e =>
    cases e with
    | err e => exact absurd rfl (h2 e)
    | panic w => exact ⟨w, rfl⟩

/-- If some section cannot be written, the block cannot be saved. -/
theorem notOk_serialize {c : Codec} {ord : VarOrd} {b : MapBlock}
    (h : NotOk (wrNimap b.nimap) ∨ NotOk (wrObjects b.objects) ∨
      NotOk (wrMetaList ord b.metas b.version)) : NotOk (serialize c ord b) := by
  unfold serialize
  refine notOk_bind' fun _ => ?_
  split
  · refine notOk_bind ?_
    rcases h with h | h | h
    · exact notOk_bind h
    · exact notOk_bind' fun _ => notOk_bind' fun _ => notOk_bind' fun _ => notOk_bind h
    · exact notOk_bind' fun _ => notOk_bind' fun _ => notOk_bind h
  · refine notOk_bind ?_
    rcases h with h | h | h
    · exact notOk_bind' fun _ => notOk_bind' fun _ => notOk_bind' fun _ => notOk_bind h
    · exact notOk_bind' fun _ => notOk_bind' fun _ => notOk_bind h
    · exact notOk_bind' fun _ => notOk_bind h

/-! ## Strict prefixes -/

/-- A reader that accepts exactly a grammar rejects strict prefixes of what it accepts whole. -/
theorem reject_prefix {α γ : Type} {p : P α} {G : γ → Prop} {enc : γ → Bytes} {val : γ → α}
    (h : ∀ s a r, p s = .ok (a, r) ↔ ∃ x, G x ∧ s = enc x ++ r ∧ a = val x)
    {x : γ} (hx : G x) {cut t : Bytes} (hc : cut ++ t = enc x) (ht : t ≠ []) : NotOk (p cut) := by
  rintro ⟨a, r⟩ hok
  obtain ⟨y, hy, hs, _⟩ := (h _ _ _).1 hok
  have h1 : p (enc x) = .ok (val x, []) := (h _ _ _).2 ⟨x, hx, by simp, rfl⟩
  have h2 : p (enc x) = .ok (val y, r ++ t) := by
    refine (h _ _ _).2 ⟨y, hy, ?_, rfl⟩
    rw [← hc, hs, List.append_assoc]
  rw [h1, ok_inj, Prod.mk.injEq] at h2
  have := h2.2
  simp at this
  exact ht this.2

theorem simple_iff {α : Type} {p : P α} {W : α → Prop} {enc : α → Bytes}
    (h : ∀ s a r, p s = .ok (a, r) ↔ W a ∧ s = enc a ++ r) (s : Bytes) (a : α) (r : Bytes) :
    p s = .ok (a, r) ↔ ∃ x, W x ∧ s = enc x ++ r ∧ a = id x := by
  rw [h]
  constructor
  · rintro ⟨h1, h2⟩; exact ⟨a, h1, h2, rfl⟩
  · rintro ⟨x, h1, h2, h3⟩; cases h3; exact ⟨h1, h2⟩

theorem errs_of {α : Type} {r : Res α} (h1 : NotOk r) (h2 : NoPanic r) :
    ∃ e, r = .error (.err e) := by
  cases r with
  | ok a => exact absurd rfl (h1 a)
  | error e =>
    cases e with
    | err e => exact ⟨e, rfl⟩
    | panic w => exact absurd rfl (h2 w)

end MapEditr
