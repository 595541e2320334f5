import Verif.Proof.BlockUtils
/-! # Lemmas: local positions and node indices -/

namespace MapEditr
open Spec

theorem idxOf_local {p : Vec3} (h : Local p) :
    ((idxOf p : Nat) : Int) = p.x + 16 * p.y + 256 * p.z ∧ idxOf p < 4096 := by
  obtain ⟨x, y, z⟩ := p
  unfold Local InBox at h
  unfold idxOf
  simp only at h ⊢
  omega

theorem fromU16Key_idxOf {p : Vec3} (h : Local p) : Vec3.fromU16Key (idxOf p) = p := by
  have h1 := idxOf_local h
  obtain ⟨x, y, z⟩ := p
  unfold Local InBox at h
  simp only at h h1
  rw [fromU16Key_eq]
  generalize idxOf ⟨x, y, z⟩ = i at *
  congr 1 <;> omega

theorem local_fromU16Key (i : Nat) : Local (Vec3.fromU16Key i) := by
  rw [fromU16Key_eq]
  unfold Local InBox
  simp only
  omega

theorem idxOf_fromU16Key {i : Nat} (h : i < 4096) : idxOf (Vec3.fromU16Key i) = i := by
  rw [fromU16Key_eq]
  unfold idxOf
  simp only
  omega

theorem contains_inBox {a : Area} {p : Vec3} : a.contains p = true ↔ InBox a.min a.max p :=
  contains_iff a p

theorem back_idx {sa da : Area} {p : Vec3} (hs : LocalArea sa) (hd : LocalArea da)
    (hsz : SameSize sa da) (h : InBox da.min da.max p) :
    Local (back sa da p) ∧ ((idxOf p : Nat) : Int) - dif sa da = (idxOf (back sa da p) : Nat) ∧
      InBox sa.min sa.max (back sa da p) := by
  have hdif : dif sa da = (da.min.x - sa.min.x) + (da.min.y - sa.min.y) * 16
      + (da.min.z - sa.min.z) * 256 := rfl
  obtain ⟨a1, a2, a3, a4, a5, a6, a7, a8, a9⟩ := hs
  obtain ⟨b1, b2, b3, b4, b5, b6, b7, b8, b9⟩ := hd
  obtain ⟨c1, c2, c3⟩ := hsz
  have hl : Local p := by
    unfold InBox at h; unfold Local InBox; simp only; omega
  have hlb : Local (back sa da p) := by
    unfold InBox at h; unfold Local InBox back; simp only; omega
  have e1 := (idxOf_local hl).1
  have e2 := (idxOf_local hlb).1
  refine ⟨hlb, ?_, ?_⟩
  · rw [e1, e2, hdif]
    unfold back
    simp only
    omega
  · unfold InBox at h ⊢
    unfold back
    simp only
    omega

end MapEditr
