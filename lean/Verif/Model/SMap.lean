/-!
# Sorted maps

`BTreeMap` as an association list kept sorted by key; also used as the canonical representation
of the *contents* of a `HashMap` (whose iteration order is a separate, arbitrary permutation).
Cites: `std::collections::BTreeMap` / `HashMap` as used in `src/map_block/*.rs`.
-/

namespace MapEditr

/-- A strict linear order on keys, as a boolean test. -/
class KeyOrd (α : Type) extends BEq α, LawfulBEq α where
  lt : α → α → Bool
  irrefl : ∀ a, lt a a = false
  trans : ∀ a b c, lt a b = true → lt b c = true → lt a c = true
  tri : ∀ a b, lt a b = false → lt b a = false → a = b

/-- Lexicographic order on byte strings. -/
def bytesLt : List UInt8 → List UInt8 → Bool
  | [], [] => false
  | [], _ :: _ => true
  | _ :: _, [] => false
  | a :: as, b :: bs => if a.toNat < b.toNat then true
      else if b.toNat < a.toNat then false else bytesLt as bs

instance : KeyOrd Nat where
  lt a b := decide (a < b)
  irrefl := by simp
  trans := by simp; omega
  tri := by simp; omega

theorem bytesLt_irrefl (a : List UInt8) : bytesLt a a = false := by
  induction a with
  | nil => rfl
  | cons x t ih => simp [bytesLt, ih]

theorem bytesLt_trans (a b c : List UInt8) (h1 : bytesLt a b = true) (h2 : bytesLt b c = true) :
    bytesLt a c = true := by
  induction a generalizing b c with
  | nil =>
    cases c with
    | nil => cases b <;> simp [bytesLt] at h1 h2
    | cons => rfl
  | cons x t ih =>
    cases b with
    | nil => simp [bytesLt] at h1
    | cons y u =>
      cases c with
      | nil => simp [bytesLt] at h2
      | cons z v =>
        simp only [bytesLt] at h1 h2 ⊢
        by_cases h3 : x.toNat < z.toNat
        · simp [h3]
        · simp only [h3, if_false]
          by_cases h4 : z.toNat < x.toNat
          · exfalso
            split at h1
            · split at h2
              · omega
              · split at h2
                · simp at h2
                · omega
            · split at h1
              · simp at h1
              · split at h2
                · omega
                · split at h2
                  · simp at h2
                  · omega
          · simp only [h4, if_false]
            split at h1
            · split at h2
              · omega
              · split at h2
                · simp at h2
                · omega
            · split at h1
              · simp at h1
              · split at h2
                · omega
                · split at h2
                  · simp at h2
                  · exact ih _ _ h1 h2

theorem bytesLt_tri (a b : List UInt8) (h1 : bytesLt a b = false) (h2 : bytesLt b a = false) :
    a = b := by
  induction a generalizing b with
  | nil => cases b <;> simp_all [bytesLt]
  | cons x t ih =>
    cases b with
    | nil => simp [bytesLt] at h2
    | cons y u =>
      simp only [bytesLt] at h1 h2
      split at h1
      · simp at h1
      · split at h2
        · simp at h2
        · have hxy : x = y := by
            apply UInt8.toNat.inj; omega
          subst hxy
          simp at h1 h2
          rw [ih u h1 h2]

instance : KeyOrd (List UInt8) where
  lt := bytesLt
  irrefl := bytesLt_irrefl
  trans := bytesLt_trans
  tri := bytesLt_tri

/-- A map as a list of key/value pairs, sorted by key (`SMap.Sorted`). -/
abbrev SMap (α β : Type) := List (α × β)

namespace SMap

variable {α β : Type} [KeyOrd α]

/-- Keys strictly ascending. -/
def Sorted (m : SMap α β) : Prop := List.Pairwise (fun a b => KeyOrd.lt a.1 b.1 = true) m

/-- `map.get(&k)`. -/
def get? (m : SMap α β) (k : α) : Option β :=
  match m with
  | [] => none
  | (k', v) :: t => if k' == k then some v else get? t k

/-- `map.contains_key(&k)`. -/
def has (m : SMap α β) (k : α) : Bool := (get? m k).isSome

/-- `map.insert(k, v)`: adds or overwrites. -/
def insert (m : SMap α β) (k : α) (v : β) : SMap α β :=
  match m with
  | [] => [(k, v)]
  | (k', v') :: t =>
    if KeyOrd.lt k k' then (k, v) :: (k', v') :: t
    else if k' == k then (k, v) :: t
    else (k', v') :: insert t k v

/-- `map.remove(&k)` (the map after removal). -/
def erase (m : SMap α β) (k : α) : SMap α β := m.filter (fun e => !(e.1 == k))

end SMap
end MapEditr
