import Verif.Model.Checked
import Verif.Spec.Geometry
import Verif.Proof.Spatial
/-! # Lemmas: checked arithmetic equals exact arithmetic within bounds -/

set_option linter.unusedSimpArgs false

namespace MapEditr

theorem i32_ok (b : Build) (n : Int) (h1 : -2147483648 ≤ n) (h2 : n ≤ 2147483647) :
    i32 b n = .ok n := if_pos ⟨h1, h2⟩

theorem i64_ok (b : Build) (n : Int) (h1 : -9223372036854775808 ≤ n)
    (h2 : n ≤ 9223372036854775807) : i64 b n = .ok n := if_pos ⟨h1, h2⟩

theorem res_bind_ok {α β : Type} (a : α) (f : α → Res β) : (Except.ok a >>= f : Res β) = f a := rfl

theorem res_pure_bind {α β : Type} (a : α) (f : α → Res β) : (pure a >>= f : Res β) = f a := rfl

theorem res_pure {α : Type} (a : α) : (pure a : Res α) = .ok a := rfl

namespace Checked
open Spec

theorem vadd_eq (b : Build) (p q : Vec3)
    (hx : -2147483648 ≤ p.x + q.x ∧ p.x + q.x ≤ 2147483647)
    (hy : -2147483648 ≤ p.y + q.y ∧ p.y + q.y ≤ 2147483647)
    (hz : -2147483648 ≤ p.z + q.z ∧ p.z + q.z ≤ 2147483647) : vadd b p q = .ok (p.add q) := by
  unfold vadd
  rw [i32_ok b _ hx.1 hx.2, i32_ok b _ hy.1 hy.2, i32_ok b _ hz.1 hz.2]; rfl

theorem vsub_eq (b : Build) (p q : Vec3)
    (hx : -2147483648 ≤ p.x - q.x ∧ p.x - q.x ≤ 2147483647)
    (hy : -2147483648 ≤ p.y - q.y ∧ p.y - q.y ≤ 2147483647)
    (hz : -2147483648 ≤ p.z - q.z ∧ p.z - q.z ≤ 2147483647) : vsub b p q = .ok (p.sub q) := by
  unfold vsub
  rw [i32_ok b _ hx.1 hx.2, i32_ok b _ hy.1 hy.2, i32_ok b _ hz.1 hz.2]; rfl

theorem vaddS_eq (b : Build) (p : Vec3) (s : Int)
    (hx : -2147483648 ≤ p.x + s ∧ p.x + s ≤ 2147483647)
    (hy : -2147483648 ≤ p.y + s ∧ p.y + s ≤ 2147483647)
    (hz : -2147483648 ≤ p.z + s ∧ p.z + s ≤ 2147483647) : vaddS b p s = .ok (p.addS s) := by
  unfold vaddS
  rw [i32_ok b _ hx.1 hx.2, i32_ok b _ hy.1 hy.2, i32_ok b _ hz.1 hz.2]; rfl

theorem vmulS_eq (b : Build) (p : Vec3) (h : ValidBlockPos p) : vmulS b p 16 = .ok (p.mulS 16) := by
  unfold ValidBlockPos at h
  unfold vmulS
  rw [i32_ok b (p.x * 16) (by omega) (by omega), i32_ok b (p.y * 16) (by omega) (by omega),
    i32_ok b (p.z * 16) (by omega) (by omega)]; rfl

theorem areaAdd_eq (b : Build) (a : Area) (v : Vec3)
    (h1 : -2147483648 ≤ a.min.x + v.x ∧ a.min.x + v.x ≤ 2147483647)
    (h2 : -2147483648 ≤ a.min.y + v.y ∧ a.min.y + v.y ≤ 2147483647)
    (h3 : -2147483648 ≤ a.min.z + v.z ∧ a.min.z + v.z ≤ 2147483647)
    (h4 : -2147483648 ≤ a.max.x + v.x ∧ a.max.x + v.x ≤ 2147483647)
    (h5 : -2147483648 ≤ a.max.y + v.y ∧ a.max.y + v.y ≤ 2147483647)
    (h6 : -2147483648 ≤ a.max.z + v.z ∧ a.max.z + v.z ≤ 2147483647) :
    areaAdd b a v = .ok (a.add v) := by
  unfold areaAdd
  rw [vadd_eq b _ _ h1 h2 h3, vadd_eq b _ _ h4 h5 h6]; rfl

theorem areaSub_eq (b : Build) (a : Area) (v : Vec3)
    (h1 : -2147483648 ≤ a.min.x - v.x ∧ a.min.x - v.x ≤ 2147483647)
    (h2 : -2147483648 ≤ a.min.y - v.y ∧ a.min.y - v.y ≤ 2147483647)
    (h3 : -2147483648 ≤ a.min.z - v.z ∧ a.min.z - v.z ≤ 2147483647)
    (h4 : -2147483648 ≤ a.max.x - v.x ∧ a.max.x - v.x ≤ 2147483647)
    (h5 : -2147483648 ≤ a.max.y - v.y ∧ a.max.y - v.y ≤ 2147483647)
    (h6 : -2147483648 ≤ a.max.z - v.z ∧ a.max.z - v.z ≤ 2147483647) :
    areaSub b a v = .ok (a.sub v) := by
  unfold areaSub
  rw [vsub_eq b _ _ h1 h2 h3, vsub_eq b _ _ h4 h5 h6]; rfl

theorem toBlockKey_eq (b : Build) (v : Vec3) : toBlockKey b v = v.toBlockKey := by
  unfold toBlockKey Vec3.toBlockKey rassert
  split
  · rename_i h
    simp only [decide_eq_true_eq] at h
    simp only [res_bind_ok, res_pure]
    rw [i64_ok b (v.y * 4096) (by omega) (by omega)]
    simp only [res_bind_ok, res_pure]
    rw [i64_ok b (v.x + v.y * 4096) (by omega) (by omega)]
    simp only [res_bind_ok, res_pure]
    rw [i64_ok b (v.z * 4096) (by omega) (by omega)]
    simp only [res_bind_ok, res_pure]
    rw [i64_ok b (v.z * 4096 * 4096) (by omega) (by omega)]
    simp only [res_bind_ok, res_pure]
    rw [i64_ok b _ (by omega) (by omega)]
  · rfl

theorem fromBlockKey_eq (b : Build) (k : Int) (h : ValidKey k) :
    fromBlockKey b k = .ok (Vec3.fromBlockKey k) := by
  unfold ValidKey at h
  unfold fromBlockKey Vec3.fromBlockKey
  simp only
  rw [i64_ok b (k + 2048) (by omega) (by omega)]
  simp only [res_bind_ok, res_pure]
  rw [i64_ok b _ (by omega) (by omega)]
  simp only [res_bind_ok, res_pure]
  generalize hx : (k + 2048) % 4096 - 2048 = x
  rw [i64_ok b (k - x) (by omega) (by omega)]
  simp only [res_bind_ok, res_pure]
  have e1 : (k - x).tdiv 4096 = (k - x) / 4096 :=
    Int.tdiv_eq_ediv_of_dvd ⟨(k + 2048) / 4096, by omega⟩
  rw [e1]
  generalize hr : (k - x) / 4096 = r
  rw [i64_ok b r (by omega) (by omega)]
  simp only [res_bind_ok, res_pure]
  rw [i64_ok b (r + 2048) (by omega) (by omega)]
  simp only [res_bind_ok, res_pure]
  rw [i64_ok b _ (by omega) (by omega)]
  simp only [res_bind_ok, res_pure]
  generalize hy : (r + 2048) % 4096 - 2048 = y
  rw [i64_ok b (r - y) (by omega) (by omega)]
  simp only [res_bind_ok, res_pure]
  have e2 : (r - y).tdiv 4096 = (r - y) / 4096 :=
    Int.tdiv_eq_ediv_of_dvd ⟨(r + 2048) / 4096, by omega⟩
  rw [e2, i64_ok b _ (by omega) (by omega)]
  rfl

theorem cloneSortKey_eq (b : Build) (o : Vec3) (k : Int) (h : ValidKey k) :
    cloneSortKey b o k = .ok (keyOf
      ⟨if o.x > 0 then -(Vec3.fromBlockKey k).x - 1 else (Vec3.fromBlockKey k).x,
       if o.y > 0 then -(Vec3.fromBlockKey k).y - 1 else (Vec3.fromBlockKey k).y,
       if o.z > 0 then -(Vec3.fromBlockKey k).z - 1 else (Vec3.fromBlockKey k).z⟩) := by
  obtain ⟨hp, -⟩ := keyOf_fromBlockKey k h
  unfold ValidBlockPos at hp
  unfold cloneSortKey
  simp only [Vec3.map]
  rw [fromBlockKey_eq b k h]
  simp only [res_bind_ok, res_pure]
  generalize Vec3.fromBlockKey k = p at hp
  obtain ⟨x, y, z⟩ := p
  obtain ⟨ox, oy, oz⟩ := o
  simp only at hp ⊢
  have hm : ∀ u v : Int, -2048 ≤ v → v ≤ 2047 →
      i32 b (v * sortDir u) = .ok (if u > 0 then -v else v) := by
    intro u v h1 h2
    unfold sortDir
    split
    · rw [i32_ok b _ (by omega) (by omega)]; congr 1; omega
    · rw [i32_ok b _ (by omega) (by omega)]; congr 1; omega
  have ha : ∀ u v : Int, -2048 ≤ v → v ≤ 2047 →
      i32 b ((if u > 0 then -v else v) + sortOfs (sortDir u))
        = .ok (if u > 0 then -v - 1 else v) := by
    intro u v h1 h2
    unfold sortOfs sortDir
    by_cases hu : u > 0
    · simp only [hu, if_true]; rw [i32_ok b _ (by omega) (by omega)]; congr 1
    · simp only [hu, if_false]
      rw [if_neg (by omega), i32_ok b _ (by omega) (by omega)]; congr 1; omega
  unfold vmul
  simp only [hm ox x (by omega) (by omega), hm oy y (by omega) (by omega),
    hm oz z (by omega) (by omega), res_bind_ok, res_pure]
  unfold vadd
  simp only [ha ox x (by omega) (by omega), ha oy y (by omega) (by omega),
    ha oz z (by omega) (by omega), res_bind_ok, res_pure]
  rw [toBlockKey_eq, toBlockKey_valid]
  unfold ValidBlockPos
  simp only
  refine ⟨?_, ?_, ?_, ?_, ?_, ?_⟩ <;> split <;> omega

theorem areaFns_eq (b : Build) (a : Area) (bp : Vec3) (hp : ValidBlockPos bp)
    (h1 : -1000000 ≤ a.min.x ∧ a.min.x ≤ 1000000) (h2 : -1000000 ≤ a.min.y ∧ a.min.y ≤ 1000000)
    (h3 : -1000000 ≤ a.min.z ∧ a.min.z ≤ 1000000)
    (h4 : -1000000 ≤ a.max.x ∧ a.max.x ≤ 1000000) (h5 : -1000000 ≤ a.max.y ∧ a.max.y ≤ 1000000)
    (h6 : -1000000 ≤ a.max.z ∧ a.max.z ≤ 1000000) :
    containsBlock b a bp = .ok (a.containsBlock bp) ∧
    touchesBlock b a bp = .ok (a.touchesBlock bp) ∧
    toContainedBlockArea b a = .ok a.toContainedBlockArea ∧
    absBlockOverlap b a bp = .ok (a.absBlockOverlap bp) ∧
    relBlockOverlap b a bp = .ok (a.relBlockOverlap bp) := by
  have hp' := hp
  unfold ValidBlockPos at hp'
  refine ⟨?_, ?_, ?_, ?_, ?_⟩
  · unfold containsBlock
    rw [vmulS_eq b bp hp]
    simp only [res_bind_ok, res_pure, axisContains, Vec3.mulS]
    rw [i32_ok b (bp.x * 16 + 15) (by omega) (by omega), i32_ok b (bp.y * 16 + 15) (by omega) (by omega),
      i32_ok b (bp.z * 16 + 15) (by omega) (by omega)]
    simp only [res_bind_ok, res_pure]
    refine congrArg Except.ok ?_
    rw [Bool.eq_iff_iff, containsBlock_iff]
    simp only [Bool.and_eq_true, decide_eq_true_eq]
    omega
  · unfold touchesBlock
    rw [vmulS_eq b bp hp]
    simp only [res_bind_ok, res_pure, axisTouches, Vec3.mulS]
    rw [i32_ok b (bp.x * 16 + 15) (by omega) (by omega), i32_ok b (bp.y * 16 + 15) (by omega) (by omega),
      i32_ok b (bp.z * 16 + 15) (by omega) (by omega)]
    simp only [res_bind_ok, res_pure]
    refine congrArg Except.ok ?_
    rw [Bool.eq_iff_iff, touchesBlock_iff]
    simp only [Bool.and_eq_true, decide_eq_true_eq]
    omega
  · unfold toContainedBlockArea Area.toContainedBlockArea
    rw [vaddS_eq b a.min 15 (by omega) (by omega) (by omega),
      vaddS_eq b a.max (-15) (by omega) (by omega) (by omega)]
    rfl
  · unfold absBlockOverlap Area.absBlockOverlap
    rw [vmulS_eq b bp hp]
    simp only [res_bind_ok, res_pure]
    rw [vaddS_eq b (bp.mulS 16) 15 (by simp only [Vec3.mulS]; omega)
      (by simp only [Vec3.mulS]; omega) (by simp only [Vec3.mulS]; omega)]
    rfl
  · unfold relBlockOverlap Area.relBlockOverlap
    rw [vmulS_eq b bp hp]
    simp only [res_bind_ok, res_pure]
    rw [vsub_eq b a.min (bp.mulS 16) (by simp only [Vec3.mulS]; omega)
      (by simp only [Vec3.mulS]; omega) (by simp only [Vec3.mulS]; omega)]
    simp only [res_bind_ok, res_pure]
    rw [vsub_eq b a.max (bp.mulS 16) (by simp only [Vec3.mulS]; omega)
      (by simp only [Vec3.mulS]; omega) (by simp only [Vec3.mulS]; omega)]
    rfl

theorem volume_eq (b : Build) (a : Area)
    (h1 : -1000000 ≤ a.min.x ∧ a.min.x ≤ a.max.x) (h2 : -1000000 ≤ a.min.y ∧ a.min.y ≤ a.max.y)
    (h3 : -1000000 ≤ a.min.z ∧ a.min.z ≤ a.max.z)
    (h4 : a.max.x ≤ 1000000) (h5 : a.max.y ≤ 1000000) (h6 : a.max.z ≤ 1000000) :
    volume b a = .ok (a.volume : Int) := by
  have hs : ∀ lo hi : Int, -1000000 ≤ lo → lo ≤ hi → hi ≤ 1000000 →
      span b lo hi = .ok (hi - lo + 1) := by
    intro lo hi g1 g2 g3
    unfold span
    rw [i32_ok b (hi - lo) (by omega) (by omega)]
    simp only [res_bind_ok, res_pure]
    rw [i32_ok b (hi - lo + 1) (by omega) (by omega)]
    simp only [res_bind_ok, res_pure]
    congr 1; omega
  unfold volume
  rw [hs _ _ h1.1 h1.2 h4, hs _ _ h2.1 h2.2 h5, hs _ _ h3.1 h3.2 h6]
  simp only [res_bind_ok, res_pure]
  have ex : (((a.max.x - a.min.x + 1).toNat : Nat) : Int) = a.max.x - a.min.x + 1 := by omega
  have ey : (((a.max.y - a.min.y + 1).toNat : Nat) : Int) = a.max.y - a.min.y + 1 := by omega
  have ez : (((a.max.z - a.min.z + 1).toNat : Nat) : Int) = a.max.z - a.min.z + 1 := by omega
  have hxy : (a.max.x - a.min.x + 1) * (a.max.y - a.min.y + 1) ≤ 2000001 * 2000001 :=
    Int.mul_le_mul (by omega) (by omega) (by omega) (by omega)
  have hxy0 : 0 ≤ (a.max.x - a.min.x + 1) * (a.max.y - a.min.y + 1) :=
    Int.mul_nonneg (by omega) (by omega)
  have hxyz : (a.max.x - a.min.x + 1) * (a.max.y - a.min.y + 1) * (a.max.z - a.min.z + 1)
      ≤ 2000001 * 2000001 * 2000001 :=
    Int.mul_le_mul hxy (by omega) (by omega) (by omega)
  unfold u64mul
  rw [if_pos (by omega)]
  simp only [res_bind_ok, res_pure]
  rw [if_pos (by omega)]
  congr 1
  unfold Area.volume
  rw [Int.natCast_mul, Int.natCast_mul, ex, ey, ez]

end Checked
end MapEditr
