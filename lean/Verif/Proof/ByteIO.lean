import Verif.Spec.Format
import Verif.Proof.Checked
import Verif.Proof.SMap
/-! # Lemmas: readers accept exactly the grammar; writers produce it -/

set_option linter.unusedSimpArgs false

namespace MapEditr
open Spec

theorem bind_ok_iff {α β : Type} {x : Res α} {f : α → Res β} {b : β} :
    (x >>= f) = .ok b ↔ ∃ a, x = .ok a ∧ f a = .ok b := by
  cases x with
  | error e => exact ⟨(nomatch ·), fun ⟨_, h, _⟩ => nomatch h⟩
  | ok a => exact ⟨fun h => ⟨a, rfl, h⟩, fun ⟨_, h, h'⟩ => by cases h; exact h'⟩

theorem ok_inj {α : Type} {a b : α} : (Except.ok a : Res α) = .ok b ↔ a = b :=
  ⟨fun h => by cases h; rfl, fun h => by rw [h]⟩

theorem badData_ne {α : Type} {a : α} : (badData : Res α) ≠ .ok a := fun h => nomatch h

/-! ## No panics -/

/-- The computation does not panic. -/
def NoPanic {α : Type} (r : Res α) : Prop := ∀ w, r ≠ .error (.panic w)

theorem np_ok {α : Type} (a : α) : NoPanic (.ok a : Res α) := fun _ h => nomatch h
theorem np_pure {α : Type} (a : α) : NoPanic (pure a : Res α) := fun _ h => nomatch h
theorem np_err {α : Type} (e : MbErr) : NoPanic (.error (.err e) : Res α) := fun _ h => nomatch h
theorem np_bad {α : Type} : NoPanic (badData : Res α) := fun _ h => nomatch h
theorem np_bind {α β : Type} {x : Res α} {f : α → Res β} (hx : NoPanic x)
    (hf : ∀ a, NoPanic (f a)) : NoPanic (x >>= f) := by
  cases x with
  | error e => intro w h; exact hx w (by cases e <;> simp_all [bind, Except.bind])
  | ok a => exact hf a
theorem np_ite {α : Type} {c : Prop} [Decidable c] {x y : Res α} (hx : NoPanic x)
    (hy : NoPanic y) : NoPanic (if c then x else y) := by split <;> assumption

/-! ## Numbers -/

theorem ofNat_toNat8 (a : UInt8) : UInt8.ofNat a.toNat = a := by
  apply UInt8.toNat.inj; simp

theorem toNat_ofNat8 (n : Nat) : (UInt8.ofNat n).toNat = n % 256 := by simp

theorem rdU8_iff {s : Bytes} {n : Nat} {r : Bytes} :
    rdU8 s = .ok (n, r) ↔ n < 256 ∧ s = UInt8.ofNat n :: r := by
  cases s with
  | nil => constructor
           · intro h; exact nomatch h
           · intro h; simp at h
  | cons a t =>
    simp only [rdU8, ok_inj, Prod.mk.injEq, List.cons.injEq]
    constructor
    · rintro ⟨h1, h2⟩; subst h1; exact ⟨a.toNat_lt, (ofNat_toNat8 a).symm, h2⟩
    · rintro ⟨h1, h2, h3⟩; subst h2; exact ⟨by rw [toNat_ofNat8]; omega, h3⟩

theorem rdU16_iff {s : Bytes} {n : Nat} {r : Bytes} :
    rdU16 s = .ok (n, r) ↔ n < 65536 ∧ s = be16 n ++ r := by
  unfold rdU16
  rw [bind_ok_iff]
  constructor
  · rintro ⟨⟨a, s1⟩, h1, h⟩
    rw [bind_ok_iff] at h
    obtain ⟨⟨b, s2⟩, h2, h⟩ := h
    rw [rdU8_iff] at h1 h2
    simp only [res_pure, ok_inj, Prod.mk.injEq] at h
    obtain ⟨h3, h4⟩ := h
    obtain ⟨ha, h1⟩ := h1
    obtain ⟨hb, h2⟩ := h2
    subst h1 h2 h3 h4
    refine ⟨by omega, ?_⟩
    have e1 : (a * 256 + b) / 256 = a := by omega
    have e2 : UInt8.ofNat (a * 256 + b) = UInt8.ofNat b := by
      apply UInt8.toNat.inj; rw [toNat_ofNat8, toNat_ofNat8]; omega
    simp [be16, e1, e2]
  · rintro ⟨h1, h2⟩
    subst h2
    refine ⟨(n / 256, UInt8.ofNat n :: r), rdU8_iff.2 ⟨by omega, rfl⟩, ?_⟩
    rw [bind_ok_iff]
    refine ⟨(n % 256, r), rdU8_iff.2 ⟨by omega, ?_⟩, ?_⟩
    · congr 1
      apply UInt8.toNat.inj; rw [toNat_ofNat8, toNat_ofNat8]; omega
    · simp only [res_pure, ok_inj, Prod.mk.injEq, and_true]; omega

theorem rdU32_iff {s : Bytes} {n : Nat} {r : Bytes} :
    rdU32 s = .ok (n, r) ↔ n < 4294967296 ∧ s = be32 n ++ r := by
  have key : ∀ a b : Nat, a < 65536 → b < 65536 → be16 a ++ be16 b = be32 (a * 65536 + b) := by
    intro a b ha hb
    simp only [be16, be32, List.cons_append, List.nil_append, List.cons.injEq, and_true]
    refine ⟨?_, ?_, ?_, ?_⟩ <;> (apply UInt8.toNat.inj; simp only [toNat_ofNat8]; omega)
  unfold rdU32
  rw [bind_ok_iff]
  constructor
  · rintro ⟨⟨a, s1⟩, h1, h⟩
    rw [bind_ok_iff] at h
    obtain ⟨⟨b, s2⟩, h2, h⟩ := h
    rw [rdU16_iff] at h1 h2
    simp only [res_pure, ok_inj, Prod.mk.injEq] at h
    obtain ⟨h3, h4⟩ := h
    obtain ⟨ha, h1⟩ := h1
    obtain ⟨hb, h2⟩ := h2
    subst h1 h2 h3 h4
    refine ⟨by omega, ?_⟩
    rw [← key a b ha hb, List.append_assoc]
  · rintro ⟨h1, h2⟩
    subst h2
    have e : n = n / 65536 * 65536 + n % 65536 := by omega
    refine ⟨(n / 65536, be16 (n % 65536) ++ r), rdU16_iff.2 ⟨by omega, ?_⟩, ?_⟩
    · rw [← List.append_assoc, key _ _ (by omega) (by omega), ← e]
    · rw [bind_ok_iff]
      refine ⟨(n % 65536, r), rdU16_iff.2 ⟨by omega, rfl⟩, ?_⟩
      simp only [res_pure, ok_inj, Prod.mk.injEq, and_true]; omega

theorem rdI32_iff {s : Bytes} {n : Int} {r : Bytes} :
    rdI32 s = .ok (n, r) ↔ (-2147483648 ≤ n ∧ n < 2147483648) ∧ s = beI32 n ++ r := by
  unfold rdI32 beI32
  rw [bind_ok_iff]
  constructor
  · rintro ⟨⟨a, s1⟩, h1, h⟩
    rw [rdU32_iff] at h1
    simp only [res_pure, ok_inj, Prod.mk.injEq] at h
    obtain ⟨h3, h4⟩ := h
    obtain ⟨ha, h1⟩ := h1
    subst h1 h4
    have hn : n = if a < 2147483648 then (a : Int) else (a : Int) - 4294967296 := h3.symm
    have : (if n < 0 then (n + 4294967296).toNat else n.toNat) = a := by
      split at hn <;> split <;> omega
    rw [this]
    refine ⟨?_, rfl⟩
    split at hn <;> omega
  · rintro ⟨h1, h2⟩
    subst h2
    refine ⟨_, rdU32_iff.2 ⟨?_, rfl⟩, ?_⟩
    · split <;> omega
    · simp only [res_pure, ok_inj, Prod.mk.injEq, and_true]
      split <;> split <;> omega

theorem rdN_iff {k : Nat} {s d r : Bytes} :
    rdN k s = .ok (d, r) ↔ d.length = k ∧ s = d ++ r := by
  unfold rdN
  split
  · rename_i h
    constructor
    · intro h'; exact nomatch h'
    · rintro ⟨h1, h2⟩; subst h2; simp at h; omega
  · rename_i h
    rw [ok_inj, Prod.mk.injEq]
    constructor
    · rintro ⟨h1, h2⟩
      subst h1 h2
      exact ⟨by simp; omega, by simp⟩
    · rintro ⟨h1, h2⟩
      subst h1 h2
      exact ⟨by simp, by simp⟩

theorem rdStr16_iff {s d r : Bytes} :
    rdStr16 s = .ok (d, r) ↔ d.length < 65536 ∧ s = str16 d ++ r := by
  unfold rdStr16 str16
  rw [bind_ok_iff]
  constructor
  · rintro ⟨⟨a, s1⟩, h1, h⟩
    rw [rdU16_iff] at h1
    have h := rdN_iff.1 h
    obtain ⟨ha, h1⟩ := h1
    obtain ⟨h2, h3⟩ := h
    subst h1 h2 h3
    exact ⟨ha, by simp⟩
  · rintro ⟨h1, h2⟩
    subst h2
    refine ⟨(d.length, d ++ r), rdU16_iff.2 ⟨h1, by simp⟩, rdN_iff.2 ⟨rfl, rfl⟩⟩

theorem rdStr32_iff {s d r : Bytes} :
    rdStr32 s = .ok (d, r) ↔ d.length < 4294967296 ∧ s = str32 d ++ r := by
  unfold rdStr32 str32
  rw [bind_ok_iff]
  constructor
  · rintro ⟨⟨a, s1⟩, h1, h⟩
    rw [rdU32_iff] at h1
    have h := rdN_iff.1 h
    obtain ⟨ha, h1⟩ := h1
    obtain ⟨h2, h3⟩ := h
    subst h1 h2 h3
    exact ⟨ha, by simp⟩
  · rintro ⟨h1, h2⟩
    subst h2
    refine ⟨(d.length, d ++ r), rdU32_iff.2 ⟨h1, by simp⟩, rdN_iff.2 ⟨rfl, rfl⟩⟩

theorem np_rdU8 (s : Bytes) : NoPanic (rdU8 s) := by
  cases s with
  | nil => exact np_bad
  | cons a t => exact np_ok _
theorem np_rdU16 (s : Bytes) : NoPanic (rdU16 s) :=
  np_bind (np_rdU8 _) fun _ => np_bind (np_rdU8 _) fun _ => np_pure _
theorem np_rdU32 (s : Bytes) : NoPanic (rdU32 s) :=
  np_bind (np_rdU16 _) fun _ => np_bind (np_rdU16 _) fun _ => np_pure _
theorem np_rdI32 (s : Bytes) : NoPanic (rdI32 s) :=
  np_bind (np_rdU32 _) fun _ => np_pure _
theorem np_rdN (n : Nat) (s : Bytes) : NoPanic (rdN n s) := np_ite np_bad (np_ok _)
theorem np_rdStr16 (s : Bytes) : NoPanic (rdStr16 s) :=
  np_bind (np_rdU16 _) fun _ => np_rdN _ _
theorem np_rdStr32 (s : Bytes) : NoPanic (rdStr32 s) :=
  np_bind (np_rdU32 _) fun _ => np_rdN _ _

/-! ## Loops -/

theorem loopP_iff {β γ : Type} {f : β → P β} {W : γ → Prop} {enc : γ → Bytes} {g : β → γ → β}
    (h : ∀ b s b' r, f b s = .ok (b', r) ↔ ∃ x, W x ∧ s = enc x ++ r ∧ b' = g b x)
    (n : Nat) (b : β) (s : Bytes) (b' : β) (r : Bytes) :
    loopP f n b s = .ok (b', r) ↔
      ∃ xs : List γ, xs.length = n ∧ (∀ x ∈ xs, W x) ∧ s = xs.flatMap enc ++ r ∧
        b' = xs.foldl g b := by
  induction n generalizing b s with
  | zero =>
    simp only [loopP, ok_inj, Prod.mk.injEq]
    constructor
    · rintro ⟨h1, h2⟩
      exact ⟨[], rfl, by simp, by simp [h2], by simp [h1]⟩
    · rintro ⟨xs, h1, h2, h3, h4⟩
      have : xs = [] := List.length_eq_zero_iff.1 h1
      subst this
      simp at h3 h4
      exact ⟨h4.symm, h3⟩
  | succ n ih =>
    simp only [loopP]
    rw [bind_ok_iff]
    constructor
    · rintro ⟨⟨b1, s1⟩, h1, h2⟩
      obtain ⟨x, hx, hs, hb⟩ := (h _ _ _ _).1 h1
      obtain ⟨xs, hl, hxs, hs2, hb2⟩ := (ih b1 s1).1 h2
      refine ⟨x :: xs, by simp [hl], ?_, ?_, ?_⟩
      · intro y hy
        rcases List.mem_cons.1 hy with hy | hy
        · subst hy; exact hx
        · exact hxs y hy
      · rw [hs, hs2]; simp
      · rw [hb2, hb]; rfl
    · rintro ⟨xs, hl, hxs, hs, hb⟩
      cases xs with
      | nil => simp at hl
      | cons x xs =>
        refine ⟨(g b x, xs.flatMap enc ++ r), (h _ _ _ _).2 ⟨x, hxs x (by simp), ?_, rfl⟩, ?_⟩
        · rw [hs]; simp
        · exact (ih _ _).2 ⟨xs, by simpa using hl, fun y hy => hxs y (by simp [hy]), rfl,
            by rw [hb]; rfl⟩

theorem np_loopP {β : Type} {f : β → P β} (h : ∀ b s, NoPanic (f b s)) (n : Nat) (b : β)
    (s : Bytes) : NoPanic (loopP f n b s) := by
  induction n generalizing b s with
  | zero => exact np_ok _
  | succ n ih => exact np_bind (h _ _) fun _ => ih _ _

theorem foldl_snoc {α : Type} (l m : List α) : m.foldl (fun l x => l ++ [x]) l = l ++ m := by
  induction m generalizing l with
  | nil => simp
  | cons a t ih => simp [ih]

/-! ## Searching -/

theorem searchIn_some {pat : Bytes} (hp : pat ≠ []) {s : Bytes} {e : Nat} :
    searchIn pat s = some e ↔ pat <+: s.drop e ∧ ∀ i, i < e → ¬ pat <+: s.drop i := by
  induction s generalizing e with
  | nil =>
    simp only [searchIn]
    have : pat.isEmpty = false := by simpa using hp
    rw [this]
    constructor
    · intro h; simp at h
    · rintro ⟨h, _⟩
      simp at h; exact absurd h hp
  | cons b t ih =>
    simp only [searchIn]
    split
    · rename_i h
      rw [List.isPrefixOf_iff_prefix] at h
      constructor
      · intro h'; simp at h'; subst h'
        exact ⟨h, by simp⟩
      · rintro ⟨h1, h2⟩
        cases e with
        | zero => rfl
        | succ e => exact absurd h (h2 0 (by omega))
    · rename_i h
      rw [List.isPrefixOf_iff_prefix] at h
      rw [Option.map_eq_some_iff]
      constructor
      · rintro ⟨a, ha, hae⟩
        subst hae
        rw [ih] at ha
        refine ⟨by simpa using ha.1, ?_⟩
        intro i hi
        cases i with
        | zero => exact h
        | succ i => simpa using ha.2 i (by omega)
      · rintro ⟨h1, h2⟩
        cases e with
        | zero => exact absurd h1 h
        | succ e =>
          refine ⟨e, ih.2 ⟨by simpa using h1, ?_⟩, rfl⟩
          intro i hi
          simpa using h2 (i + 1) (by omega)

theorem searchIn_none {pat : Bytes} (hp : pat ≠ []) {s : Bytes} :
    searchIn pat s = none ↔ ∀ i, ¬ pat <+: s.drop i := by
  induction s with
  | nil =>
    simp only [searchIn]
    have : pat.isEmpty = false := by simpa using hp
    simp [this, hp]
  | cons b t ih =>
    simp only [searchIn]
    split
    · rename_i h
      rw [List.isPrefixOf_iff_prefix] at h
      constructor
      · intro h'; simp at h'
      · intro h'; exact absurd h (h' 0)
    · rename_i h
      rw [List.isPrefixOf_iff_prefix] at h
      rw [Option.map_eq_none_iff, ih]
      constructor
      · intro h1 i
        cases i with
        | zero => exact h
        | succ i => simpa using h1 i
      · intro h1 i
        simpa using h1 (i + 1)

theorem isSome_searchIn_iff {pat : Bytes} (hp : pat ≠ []) {s : Bytes} :
    (searchIn pat s).isSome = true ↔ pat <:+: s := by
  rw [Option.isSome_iff_exists]
  constructor
  · rintro ⟨e, h⟩
    obtain ⟨⟨t, ht⟩, _⟩ := (searchIn_some hp).1 h
    exact ⟨s.take e, t, by rw [List.append_assoc, ht, List.take_append_drop]⟩
  · rintro ⟨u, t, h⟩
    cases hs : searchIn pat s with
    | some e => exact ⟨e, rfl⟩
    | none =>
      exfalso
      apply (searchIn_none hp).1 hs u.length
      rw [← h]
      simp

theorem endInv_eq : END_STR = endInv := rfl
theorem endInv_length : endInv.length = 13 := by decide
theorem endInv_ne : endInv ≠ [] := by decide

/-- Reading up to and including the first terminator gives exactly a framed inventory. -/
theorem rdInv_iff {s inv r : Bytes} :
    (∃ e, searchIn END_STR s = some e ∧ rdN (e + END_STR.length) s = .ok (inv, r)) ↔
      Framed inv ∧ s = inv ++ r := by
  rw [endInv_eq]
  constructor
  · rintro ⟨e, h1, h2⟩
    rw [searchIn_some endInv_ne] at h1
    obtain ⟨h3, h4⟩ := rdN_iff.1 h2
    subst h4
    obtain ⟨⟨t, ht⟩, hmin⟩ := h1
    have hlen : inv.length = e + 13 := by rw [h3, endInv_length]
    refine ⟨⟨inv.take e, ?_, ?_⟩, rfl⟩
    · have h5 : (inv.drop e) ++ r = endInv ++ t := by
        rw [ht, List.drop_append_of_le_length (by omega)]
      have h6 : inv.drop e = endInv :=
        (List.append_inj h5 (by rw [endInv_length]; simp; omega)).1
      rw [← h6, List.take_append_drop]
    · intro i hi hp
      rw [List.length_take] at hi
      apply hmin i (by omega)
      rw [List.drop_append_of_le_length (by omega)]
      exact List.IsPrefix.trans hp (List.prefix_append _ _)
  · rintro ⟨⟨pre, h1, h2⟩, h3⟩
    subst h3
    have hlen : inv.length = pre.length + 13 := by rw [h1]; simp [endInv_length]
    refine ⟨pre.length, (searchIn_some endInv_ne).2 ⟨?_, ?_⟩, rdN_iff.2 ⟨?_, rfl⟩⟩
    · rw [List.drop_append_of_le_length (by omega), h1]
      simp
    · intro i hi hp
      apply h2 i hi
      rw [List.drop_append_of_le_length (by omega)] at hp
      apply List.prefix_of_prefix_length_le hp (List.prefix_append _ _)
      rw [List.length_drop, endInv_length]; omega
    · rw [hlen, endInv_length]

/-! ## Writers -/

theorem flat_append (l m : List Chunk) : flat (l ++ m) = flat l ++ flat m := by
  induction l with
  | nil => rfl
  | cons c t ih => cases c <;> simp [flat, ih]

theorem emitFrom_full {accept : Nat → Nat → Nat} (h : ∀ k n, n ≤ accept k n) (k : Nat)
    (l : List Chunk) : emitFrom accept k l = flat l := by
  induction l generalizing k with
  | nil => rfl
  | cons c t ih =>
    cases c with
    | all b => simp [emitFrom, flat, ih]
    | once b => simp only [emitFrom, flat, ih, List.take_of_length_le (h k b.length)]

theorem emit_full {c : Codec} (h : c.FullWrites) (l : List Chunk) : c.emit l = flat l :=
  emitFrom_full h 0 l

/-- A writer call that succeeds and produces these bytes. -/
def Writes (w : Wr) (bs : Bytes) : Prop := ∃ cs, w = .ok cs ∧ flat cs = bs

theorem writes_str16 {d : Bytes} (h : d.length < 65536) : Writes (wrStr16 d) (str16 d) := by
  unfold wrStr16
  rw [if_pos h]
  exact ⟨_, rfl, by simp [flat, str16, encU16, be16, byte]⟩

theorem writes_str32 {d : Bytes} (h : d.length < 4294967296) :
    Writes (wrStr32 d) (str32 d) := by
  unfold wrStr32
  rw [if_pos h]
  exact ⟨_, rfl, by simp [flat, str32, encU32, be32, byte]⟩

theorem writes_each {α : Type} {f : α → Wr} {enc : α → Bytes} {l : List α}
    (h : ∀ x ∈ l, Writes (f x) (enc x)) : Writes (wrEach f l) (l.flatMap enc) := by
  induction l with
  | nil => exact ⟨[], rfl, rfl⟩
  | cons x t ih =>
    obtain ⟨c1, h1, h2⟩ := h x (by simp)
    obtain ⟨c2, h3, h4⟩ := ih fun y hy => h y (by simp [hy])
    refine ⟨c1 ++ c2, ?_, ?_⟩
    · simp only [wrEach, h1, h3, res_bind_ok, res_pure]
    · rw [flat_append, h2, h4]; simp

theorem flat_wrAll (b : Bytes) : flat (wrAll b) = b := by simp [wrAll, flat]

theorem encU16_eq (n : Nat) : encU16 n = be16 n := rfl
theorem encU32_eq (n : Nat) : encU32 n = be32 n := rfl
theorem encI32_eq {n : Int} (h : -2147483648 ≤ n ∧ n < 2147483648) : encI32 n = beI32 n := by
  unfold encI32 beI32
  rw [encU32_eq]
  congr 1
  split <;> omega

end MapEditr
