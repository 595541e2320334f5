import Verif.Model.BlockUtils
import Verif.Spec.Nodes
import Verif.Proof.SMap
import Verif.Proof.Spatial
import Verif.Proof.ByteIO
/-! # Lemmas: copying between blocks, cleaning name tables -/

set_option linter.unusedSimpArgs false

namespace MapEditr
open Spec

/-! ## Name tables -/

theorem natLt_iff {a b : Nat} : KeyOrd.lt a b = true ↔ a < b := decide_eq_true_iff

theorem maxId_spec {m : NameIdMap} (hs : SMap.Sorted m) {k : Nat} (h : NameIdMap.maxId m = some k) :
    (∀ e ∈ m, e.1 ≤ k) ∧ ∃ v, (k, v) ∈ m := by
  unfold NameIdMap.maxId at h
  rw [Option.map_eq_some_iff] at h
  obtain ⟨e, h1, h2⟩ := h
  subst h2
  have hm := List.mem_of_getLast? h1
  refine ⟨?_, e.2, hm⟩
  rw [List.getLast?_eq_some_iff] at h1
  obtain ⟨t, rfl⟩ := h1
  intro x hx
  rcases List.mem_append.1 hx with hx | hx
  · have := (List.pairwise_append.1 hs).2.2 x hx e (by simp)
    rw [natLt_iff] at this
    omega
  · simp at hx; subst hx; omega

theorem maxId_none {m : NameIdMap} : NameIdMap.maxId m = none ↔ m = [] := by
  unfold NameIdMap.maxId
  rw [Option.map_eq_none_iff, List.getLast?_eq_none_iff]

theorem maxId_exists {m : NameIdMap} (h : m ≠ []) : ∃ k, NameIdMap.maxId m = some k := by
  cases hk : NameIdMap.maxId m with
  | none => exact absurd (maxId_none.1 hk) h
  | some k => exact ⟨k, rfl⟩

theorem u16_ok {b : Build} {n : Nat} (h : n < 65536) : u16 b n = .ok n := if_pos h

theorem idx_ok {l : List α} {i : Nat} {a : α} (h : l[i]? = some a) : idx l i = .ok a := by
  unfold idx; rw [h]

theorem setIdx_ok {l : List α} {i : Nat} {a : α} (h : i < l.length) :
    setIdx l i a = .ok (l.set i a) := if_pos h

theorem length_le_of_sorted {m : SMap Nat β} (hs : SMap.Sorted m) (lo n : Nat)
    (h : ∀ e ∈ m, lo ≤ e.1 ∧ e.1 < n) : m.length ≤ n - lo := by
  induction m generalizing lo with
  | nil => simp
  | cons e t ih =>
    have hs' := SMap.sorted_cons.1 hs
    have h0 := h e (by simp)
    have := ih hs'.2 (e.1 + 1) (by
      intro x hx
      have h1 := natLt_iff.1 (hs'.1 x hx)
      have h2 := h x (by simp [hx])
      omega)
    simp only [List.length_cons]
    omega

/-! ## Folds that write into a list -/

/-- A loop whose every iteration writes, at the indices `A p`, values `v i` that do not depend on
the iteration. -/
theorem foldlM_pointwise {α β : Type} (step : List α → β → Res (List α)) (A : β → Nat → Prop)
    (v : Nat → Option α) (n : Nat) (ps : List β)
    (hstep : ∀ p ∈ ps, ∀ l : List α, l.length = n → ∃ l', step l p = .ok l' ∧ l'.length = n ∧
      ∀ i, (A p i → l'[i]? = v i) ∧ (¬ A p i → l'[i]? = l[i]?)) :
    ∀ l : List α, l.length = n → ∃ l', ps.foldlM step l = .ok l' ∧ l'.length = n ∧
      ∀ i, ((∃ p ∈ ps, A p i) → l'[i]? = v i) ∧ ((¬ ∃ p ∈ ps, A p i) → l'[i]? = l[i]?) := by
  induction ps with
  | nil =>
    intro l hl
    exact ⟨l, rfl, hl, fun i => ⟨fun h => (by obtain ⟨p, hp, _⟩ := h; cases hp), fun _ => rfl⟩⟩
  | cons p t ih =>
    intro l hl
    obtain ⟨l1, h1, hl1, hv1⟩ := hstep p (by simp) l hl
    obtain ⟨l2, h2, hl2, hv2⟩ := ih (fun q hq => hstep q (by simp [hq])) l1 hl1
    refine ⟨l2, ?_, hl2, fun i => ⟨?_, ?_⟩⟩
    · rw [List.foldlM_cons, h1]; exact h2
    · rintro ⟨q, hq, hA⟩
      by_cases ht : ∃ q ∈ t, A q i
      · exact (hv2 i).1 ht
      · rw [(hv2 i).2 ht]
        rcases List.mem_cons.1 hq with rfl | hq
        · exact (hv1 i).1 hA
        · exact absurd ⟨q, hq, hA⟩ ht
    · intro hno
      rw [(hv2 i).2 (fun ⟨q, hq, hA⟩ => hno ⟨q, by simp [hq], hA⟩)]
      exact (hv1 i).2 fun hA => hno ⟨p, by simp, hA⟩

theorem getElem?_copySlice {dst src : List α} {ds de ss se : Nat} (h1 : ds ≤ de + 1)
    (h2 : de + 1 ≤ dst.length) (h3 : ss ≤ se + 1) (h4 : se + 1 ≤ src.length)
    (h5 : de + 1 - ds = se + 1 - ss) :
    ∃ l', copySlice dst src ds de ss se = .ok l' ∧ l'.length = dst.length ∧
      ∀ i, ((ds ≤ i ∧ i ≤ de) → l'[i]? = src[i - ds + ss]?) ∧
        (¬ (ds ≤ i ∧ i ≤ de) → l'[i]? = dst[i]?) := by
  refine ⟨dst.take ds ++ ((src.drop ss).take (se + 1 - ss) ++ dst.drop (de + 1)), ?_, ?_, ?_⟩
  · unfold copySlice rassert
    rw [if_pos (by simp; omega), if_pos (by simp; omega), if_pos (by simp; omega)]
    rfl
  · simp only [List.length_append, List.length_take, List.length_drop]
    omega
  · intro i
    constructor
    · intro hi
      rw [List.getElem?_append_right (by simp; omega), List.getElem?_append_left (by simp; omega),
        List.getElem?_take, if_pos (by simp; omega), List.getElem?_drop]
      congr 1
      simp
      omega
    · intro hi
      by_cases h : i < ds
      · rw [List.getElem?_append_left (by simp; omega), List.getElem?_take, if_pos h]
      · rw [List.getElem?_append_right (by simp; omega),
          List.getElem?_append_right (by simp; omega), List.getElem?_drop]
        congr 1
        simp
        omega

/-! ## merge_blocks -/

theorem parts_valid {sa da : Area} (hs : LocalArea sa) (hd : LocalArea da) (h : SameSize sa da) :
    blockPartsValid sa da = true := by
  obtain ⟨⟨sx, sy, sz⟩, ⟨ex, ey, ez⟩⟩ := sa
  obtain ⟨⟨dx, dy, dz⟩, ⟨fx, fy, fz⟩⟩ := da
  unfold LocalArea at hs hd
  unfold SameSize at h
  unfold blockPartsValid partValid Vec3.sub
  simp only [Bool.and_eq_true, decide_eq_true_eq, Vec3.mk.injEq] at *
  omega

theorem asUsize_nonneg {n : Int} (h : 0 ≤ n) (h2 : n < 65536) : asUsize n = n.toNat := by
  unfold asUsize; omega

theorem mem_rows {a : Area} {y z : Int} : (y, z) ∈ a.rows ↔
    a.min.y ≤ y ∧ y ≤ a.max.y ∧ a.min.z ≤ z ∧ z ≤ a.max.z := by
  unfold Area.rows
  simp only [List.mem_flatMap, List.mem_map, mem_rangeI]
  constructor
  · rintro ⟨z', hz, y', hy, h⟩
    cases h
    omega
  · intro h
    exact ⟨z, by omega, y, by omega, rfl⟩

/-- Index difference between corresponding nodes. -/
def dif (sa da : Area) : Int := linIdx (da.min.sub sa.min)

theorem contains_idx {a : Area} {i : Nat} : a.contains (Vec3.fromU16Key i) = true ↔
    (a.min.x ≤ ((i % 16 : Nat) : Int) ∧ ((i % 16 : Nat) : Int) ≤ a.max.x
      ∧ a.min.y ≤ ((i / 16 % 16 : Nat) : Int) ∧ ((i / 16 % 16 : Nat) : Int) ≤ a.max.y
      ∧ a.min.z ≤ ((i / 256 % 16 : Nat) : Int) ∧ ((i / 256 % 16 : Nat) : Int) ≤ a.max.z) := by
  have := outIdx_iff a i
  unfold outIdx at this
  rw [Bool.not_eq_true'] at this
  constructor
  · intro h
    rcases Decidable.em (a.contains (Vec3.fromU16Key i) = false) with h' | h'
    · rw [h] at h'; cases h'
    · rw [this] at h'; exact Decidable.not_not.1 h'
  · intro h
    rcases Bool.eq_false_or_eq_true (a.contains (Vec3.fromU16Key i)) with h' | h'
    · exact h'
    · exact absurd h (this.1 h')

theorem foldlM_copyName {bd : Build} {d : Nat} {l : List (Nat × Bytes)}
    (h : ∀ e ∈ l, e.1 + d < 65536) (m : NameIdMap) :
    l.foldlM (copyName bd d) m = .ok (SMap.insertAll m (l.map fun e => (e.1 + d, e.2))) := by
  induction l generalizing m with
  | nil => rfl
  | cons e t ih =>
    rw [List.foldlM_cons]
    have : copyName bd d m e = .ok (m.insert (e.1 + d) e.2) := by
      unfold copyName
      rw [u16_ok (h e (by simp))]
      rfl
    rw [this]
    exact ih (fun x hx => h x (by simp [hx])) _

theorem get?_shifted (l : SMap Nat β) (d k : Nat) :
    SMap.get? (l.map fun e => (e.1 + d, e.2)) k = if d ≤ k then SMap.get? l (k - d) else none := by
  induction l with
  | nil => simp [SMap.get?]
  | cons e t ih =>
    rw [List.map_cons, SMap.get?_cons, ih, SMap.get?_cons]
    by_cases h : e.1 + d = k
    · subst h
      simp
    · have h1 : ((e.1 + d) == k) = false := by simpa using h
      simp only [h1, Bool.false_eq_true, if_false]
      split
      · have h2 : (e.1 == k - d) = false := by simp; omega
        simp [h2]
      · rfl

/-- What `merge_blocks` computes; `g` is what adding `M + 1` to a node ID gives. -/
theorem mergeBlocks_gen (bd : Build) (g : Nat → Nat) {src dst : MapBlock} {sa da : Area} (hs : LocalArea sa)
    (hd : LocalArea da) (hsz : SameSize sa da)
    (ls : src.nd.nodes.length = 4096 ∧ src.nd.param1.length = 4096 ∧ src.nd.param2.length = 4096)
    (ld : dst.nd.nodes.length = 4096 ∧ dst.nd.param1.length = 4096 ∧ dst.nd.param2.length = 4096)
    (ss : SMap.Sorted src.nimap) (sd : SMap.Sorted dst.nimap) {M : Nat}
    (hM : NameIdMap.maxId dst.nimap = some M)
    (hid : ∀ id ∈ src.nd.nodes, u16 bd (id + (M + 1)) = .ok (g id))
    (hk : ∀ e ∈ src.nimap, e.1 + (M + 1) < 65536) (hM2 : M + 1 < 65536) :
    ∃ nimap nodes p1 p2,
      mergeBlocks bd src dst sa da = .ok { dst with nimap, nd := ⟨nodes, p1, p2⟩ } ∧
      nimap = SMap.insertAll dst.nimap (src.nimap.map fun e => (e.1 + (M + 1), e.2)) ∧
      SMap.Sorted nimap ∧
      (∀ k, SMap.get? nimap k = if k ≤ M then SMap.get? dst.nimap k
        else SMap.get? src.nimap (k - (M + 1))) ∧
      nodes.length = 4096 ∧ p1.length = 4096 ∧ p2.length = 4096 ∧
      ∀ i, i < 4096 →
        (da.contains (Vec3.fromU16Key i) = true →
          nodes[i]? = (src.nd.nodes[((i : Int) - dif sa da).toNat]?).map g ∧
          p1[i]? = src.nd.param1[((i : Int) - dif sa da).toNat]? ∧
          p2[i]? = src.nd.param2[((i : Int) - dif sa da).toNat]?) ∧
        (¬ da.contains (Vec3.fromU16Key i) = true →
          nodes[i]? = dst.nd.nodes[i]? ∧ p1[i]? = dst.nd.param1[i]? ∧
          p2[i]? = dst.nd.param2[i]?) := by
  have hpv := parts_valid hs hd hsz
  have hdif : dif sa da = (da.min.x - sa.min.x) + (da.min.y - sa.min.y) * 16
      + (da.min.z - sa.min.z) * 256 := rfl
  obtain ⟨a1, a2, a3, a4, a5, a6, a7, a8, a9⟩ := hs
  obtain ⟨b1, b2, b3, b4, b5, b6, b7, b8, b9⟩ := hd
  obtain ⟨c1, c2, c3⟩ := hsz
  -- nodes
  obtain ⟨nodes, hn, hnl, hnv⟩ := foldlM_pointwise
    (copyNode bd src.nd.nodes (dif sa da) (M + 1))
    (fun p i => (i : Int) = linIdx p + dif sa da)
    (fun i => (src.nd.nodes[((i : Int) - dif sa da).toNat]?).map g) 4096 sa.zyx (by
      rintro ⟨x, y, z⟩ hp l hl
      rw [mem_zyx] at hp
      unfold InBox at hp
      simp only at hp
      have hlin : linIdx ⟨x, y, z⟩ = x + y * 16 + z * 256 := rfl
      have hlt : (linIdx ⟨x, y, z⟩).toNat < src.nd.nodes.length := by omega
      refine ⟨l.set (linIdx ⟨x, y, z⟩ + dif sa da).toNat
        (g src.nd.nodes[(linIdx ⟨x, y, z⟩).toNat]), ?_, ?_, ?_⟩
      · unfold copyNode
        simp only
        rw [asUsize_nonneg (by omega) (by omega), asUsize_nonneg (by omega) (by omega),
          idx_ok (List.getElem?_eq_getElem hlt)]
        simp only [res_bind_ok]
        rw [hid _ (List.getElem_mem hlt)]
        simp only [res_bind_ok]
        rw [setIdx_ok (by omega)]
      · simp [hl]
      · intro i
        constructor
        · intro hi
          have e1 : (linIdx ⟨x, y, z⟩ + dif sa da).toNat = i := by omega
          have e2 : ((i : Int) - dif sa da).toNat = (linIdx ⟨x, y, z⟩).toNat := by omega
          rw [e1, e2, List.getElem?_eq_getElem hlt, List.getElem?_set_self (by omega)]
          rfl
        · intro hi
          rw [List.getElem?_set_ne]
          omega) dst.nd.nodes ld.1
  -- rows
  have rows : ∀ (sp dp : Bytes), sp.length = 4096 → dp.length = 4096 →
      ∃ l', sa.rows.foldlM (copyRow sp sa (dif sa da)) dp = .ok l' ∧ l'.length = 4096 ∧
        ∀ i : Nat, ((∃ p ∈ sa.rows, (p.1 * 16 + p.2 * 256 + sa.min.x + dif sa da ≤ (i : Int) ∧
            (i : Int) ≤ p.1 * 16 + p.2 * 256 + sa.max.x + dif sa da)) →
            l'[i]? = sp[((i : Int) - dif sa da).toNat]?) ∧
          ((¬ ∃ p ∈ sa.rows, (p.1 * 16 + p.2 * 256 + sa.min.x + dif sa da ≤ (i : Int) ∧
            (i : Int) ≤ p.1 * 16 + p.2 * 256 + sa.max.x + dif sa da)) → l'[i]? = dp[i]?) := by
    intro sp dp hsp hdp
    apply foldlM_pointwise (copyRow sp sa (dif sa da)) _ (fun i => sp[((i : Int) - dif sa da).toNat]?)
      4096 sa.rows _ dp hdp
    rintro ⟨y, z⟩ hp l hl
    rw [mem_rows] at hp
    unfold copyRow
    simp only
    rw [asUsize_nonneg (by omega) (by omega), asUsize_nonneg (by omega) (by omega),
      asUsize_nonneg (by omega) (by omega), asUsize_nonneg (by omega) (by omega)]
    obtain ⟨l', h1, h2, h3⟩ := getElem?_copySlice (dst := l) (src := sp)
      (ds := (y * 16 + z * 256 + sa.min.x + dif sa da).toNat)
      (de := (y * 16 + z * 256 + sa.max.x + dif sa da).toNat)
      (ss := (y * 16 + z * 256 + sa.min.x).toNat) (se := (y * 16 + z * 256 + sa.max.x).toNat)
      (by omega) (by omega) (by omega) (by omega) (by omega)
    refine ⟨l', h1, by omega, fun i => ⟨?_, ?_⟩⟩
    · intro hi
      rw [(h3 i).1 (by omega)]
      congr 1
      omega
    · intro hi
      exact (h3 i).2 (by omega)
  obtain ⟨p1, hp1, hl1, hv1⟩ := rows _ _ ls.2.1 ld.2.1
  obtain ⟨p2, hp2, hl2, hv2⟩ := rows _ _ ls.2.2 ld.2.2
  refine ⟨_, nodes, p1, p2, ?_, rfl, SMap.sorted_insertAll sd _, ?_, hnl, hl1, hl2, ?_⟩
  · unfold mergeBlocks rassert
    rw [if_pos hpv]
    simp only [res_bind_ok]
    rw [hM]
    simp only [unwrap, res_bind_ok]
    rw [u16_ok hM2]
    simp only [res_bind_ok]
    rw [foldlM_copyName hk]
    simp only [res_bind_ok]
    have hd' : linIdx (da.min.sub sa.min) = dif sa da := rfl
    rw [hd', hn]
    simp only [res_bind_ok]
    rw [hp1]
    simp only [res_bind_ok]
    rw [hp2]
    rfl
  · intro k
    have hnd : SMap.KeysNodup (src.nimap.map fun e => (e.1 + (M + 1), e.2)) := by
      have := SMap.keysNodup_of_sorted ss
      unfold SMap.KeysNodup at this ⊢
      rw [List.nodup_iff_pairwise_ne, List.pairwise_map] at this ⊢
      rw [List.pairwise_map]
      exact this.imp (by intro a b h; simp only; omega)
    rw [SMap.get?_insertAll hnd, get?_shifted]
    have hmax := maxId_spec sd hM
    split
    · rename_i h
      rw [if_neg (by omega)]
      have : SMap.get? dst.nimap k = none := by
        cases hg : SMap.get? dst.nimap k with
        | none => rfl
        | some v => have := hmax.1 _ (SMap.get?_some_mem hg); simp only at this; omega
      rw [this]
      simp
    · rw [if_pos (by omega)]; rfl
  · intro i hi
    have hin : (∃ p ∈ sa.zyx, (i : Int) = linIdx p + dif sa da) ↔
        da.contains (Vec3.fromU16Key i) = true := by
      rw [contains_idx]
      constructor
      · rintro ⟨⟨x, y, z⟩, hp, h⟩
        rw [mem_zyx] at hp
        unfold InBox at hp
        have hlin : linIdx ⟨x, y, z⟩ = x + y * 16 + z * 256 := rfl
        simp only at hp
        have e : (i : Int) = (x + (da.min.x - sa.min.x)) + (y + (da.min.y - sa.min.y)) * 16
          + (z + (da.min.z - sa.min.z)) * 256 := by omega
        omega
      · intro h
        refine ⟨⟨((i % 16 : Nat) : Int) - (da.min.x - sa.min.x),
          ((i / 16 % 16 : Nat) : Int) - (da.min.y - sa.min.y),
          ((i / 256 % 16 : Nat) : Int) - (da.min.z - sa.min.z)⟩, ?_, ?_⟩
        · rw [mem_zyx]; unfold InBox; simp only; omega
        · unfold linIdx; simp only; omega
    have hrow : (∃ p ∈ sa.rows, (p.1 * 16 + p.2 * 256 + sa.min.x + dif sa da ≤ (i : Int) ∧
            (i : Int) ≤ p.1 * 16 + p.2 * 256 + sa.max.x + dif sa da)) ↔
        da.contains (Vec3.fromU16Key i) = true := by
      rw [contains_idx]
      constructor
      · rintro ⟨⟨y, z⟩, hp, h⟩
        rw [mem_rows] at hp
        simp only at h
        omega
      · intro h
        refine ⟨(((i / 16 % 16 : Nat) : Int) - (da.min.y - sa.min.y),
          ((i / 256 % 16 : Nat) : Int) - (da.min.z - sa.min.z)), ?_, ?_⟩
        · rw [mem_rows]; omega
        · simp only; omega
    constructor
    · intro h
      exact ⟨(hnv i).1 (hin.2 h), (hv1 i).1 (hrow.2 h), (hv2 i).1 (hrow.2 h)⟩
    · intro h
      exact ⟨(hnv i).2 (fun h' => h (hin.1 h')), (hv1 i).2 (fun h' => h (hrow.1 h')),
        (hv2 i).2 (fun h' => h (hrow.1 h'))⟩

/-- The same if no ID is too great. -/
theorem mergeBlocks_spec (bd : Build) {src dst : MapBlock} {sa da : Area} (hs : LocalArea sa)
    (hd : LocalArea da) (hsz : SameSize sa da)
    (ls : src.nd.nodes.length = 4096 ∧ src.nd.param1.length = 4096 ∧ src.nd.param2.length = 4096)
    (ld : dst.nd.nodes.length = 4096 ∧ dst.nd.param1.length = 4096 ∧ dst.nd.param2.length = 4096)
    (ss : SMap.Sorted src.nimap) (sd : SMap.Sorted dst.nimap) {M : Nat}
    (hM : NameIdMap.maxId dst.nimap = some M)
    (hid : ∀ id ∈ src.nd.nodes, id + (M + 1) < 65536)
    (hk : ∀ e ∈ src.nimap, e.1 + (M + 1) < 65536) (hM2 : M + 1 < 65536) :
    ∃ nimap nodes p1 p2,
      mergeBlocks bd src dst sa da = .ok { dst with nimap, nd := ⟨nodes, p1, p2⟩ } ∧
      nimap = SMap.insertAll dst.nimap (src.nimap.map fun e => (e.1 + (M + 1), e.2)) ∧
      SMap.Sorted nimap ∧
      (∀ k, SMap.get? nimap k = if k ≤ M then SMap.get? dst.nimap k
        else SMap.get? src.nimap (k - (M + 1))) ∧
      nodes.length = 4096 ∧ p1.length = 4096 ∧ p2.length = 4096 ∧
      ∀ i, i < 4096 →
        (da.contains (Vec3.fromU16Key i) = true →
          nodes[i]? = (src.nd.nodes[((i : Int) - dif sa da).toNat]?).map (· + (M + 1)) ∧
          p1[i]? = src.nd.param1[((i : Int) - dif sa da).toNat]? ∧
          p2[i]? = src.nd.param2[((i : Int) - dif sa da).toNat]?) ∧
        (¬ da.contains (Vec3.fromU16Key i) = true →
          nodes[i]? = dst.nd.nodes[i]? ∧ p1[i]? = dst.nd.param1[i]? ∧
          p2[i]? = dst.nd.param2[i]?) :=
  mergeBlocks_gen bd (· + (M + 1)) hs hd hsz ls ld ss sd hM (fun id h => u16_ok (hid id h)) hk hM2

/-! ## merge_metadata -/

theorem get?_foldl_erase (ks : List Nat) (m : SMap Nat β) (k : Nat) :
    SMap.get? (ks.foldl SMap.erase m) k = if k ∈ ks then none else SMap.get? m k := by
  induction ks generalizing m with
  | nil => simp
  | cons a t ih =>
    rw [List.foldl_cons, ih, SMap.get?_erase]
    by_cases h1 : k ∈ t
    · simp [h1]
    · by_cases h2 : a = k
      · subst h2; simp
      · have : ¬ k = a := fun h => h2 h.symm
        simp [h1, h2, this]

theorem sorted_foldl_erase (ks : List Nat) {m : SMap Nat β} (hs : SMap.Sorted m) :
    SMap.Sorted (ks.foldl SMap.erase m) := by
  induction ks generalizing m with
  | nil => exact hs
  | cons a t ih => exact ih (SMap.sorted_erase hs _)

theorem mem_foldl_erase (ks : List Nat) {m : SMap Nat β} {x : Nat × β}
    (h : x ∈ ks.foldl SMap.erase m) : x ∈ m := by
  induction ks generalizing m with
  | nil => exact h
  | cons a t ih => exact (SMap.mem_erase.1 (ih h)).1

/-- The entries that `merge_metadata` inserts. -/
def moved (src : MetaList) (sa da : Area) : List (Nat × NodeMeta) :=
  (src.filter fun e => sa.contains (Vec3.fromU16Key e.1)).map
    fun e => (asU16 ((e.1 : Int) + dif sa da), e.2)

theorem foldl_moved (src dst : MetaList) (sa da : Area) :
    src.foldl (fun m e => if sa.contains (Vec3.fromU16Key e.1)
      then m.insert (asU16 ((e.1 : Int) + linIdx (da.min.sub sa.min))) e.2 else m) dst
      = SMap.insertAll dst (moved src sa da) := by
  have hd : linIdx (da.min.sub sa.min) = dif sa da := rfl
  rw [hd]
  induction src generalizing dst with
  | nil => rfl
  | cons e t ih =>
    rw [List.foldl_cons, ih]
    unfold moved
    rw [List.filter_cons]
    split <;> simp_all [SMap.insertAll_cons]

section
variable {sa da : Area} (hs : LocalArea sa) (hd : LocalArea da) (hsz : SameSize sa da)
include hs hd hsz

theorem moved_key {i : Nat} (hi : i < 65536) (h : sa.contains (Vec3.fromU16Key i) = true) :
    ((asU16 ((i : Int) + dif sa da) : Nat) : Int) = (i : Int) + dif sa da ∧
      0 ≤ (i : Int) + dif sa da ∧ (i : Int) + dif sa da < 65536 ∧
      da.contains (Vec3.fromU16Key (asU16 ((i : Int) + dif sa da))) = true := by
  have hdif : dif sa da = (da.min.x - sa.min.x) + (da.min.y - sa.min.y) * 16
      + (da.min.z - sa.min.z) * 256 := rfl
  obtain ⟨a1, a2, a3, a4, a5, a6, a7, a8, a9⟩ := hs
  obtain ⟨b1, b2, b3, b4, b5, b6, b7, b8, b9⟩ := hd
  obtain ⟨c1, c2, c3⟩ := hsz
  rw [contains_idx] at h
  have e1 : ((asU16 ((i : Int) + dif sa da) : Nat) : Int) = (i : Int) + dif sa da := by
    have hi' : (i : Int) = ((i % 16 : Nat) : Int) + 16 * ((i / 16 % 16 : Nat) : Int)
        + 256 * ((i / 256 % 16 : Nat) : Int) + 4096 * ((i / 4096 : Nat) : Int) := by omega
    have hi2 : i / 4096 < 16 := by omega
    generalize i % 16 = r at *
    generalize i / 16 % 16 = u at *
    generalize i / 256 % 16 = w at *
    generalize i / 4096 = q at *
    unfold asU16
    rw [Int.emod_eq_of_lt (by omega) (by omega)]
    omega
  refine ⟨e1, by omega, by omega, ?_⟩
  rw [contains_idx]
  generalize asU16 ((i : Int) + dif sa da) = j at *
  omega

theorem moved_back {k : Nat} (hk : k < 65536) (h : da.contains (Vec3.fromU16Key k) = true) :
    0 ≤ (k : Int) - dif sa da ∧ (k : Int) - dif sa da < 65536 ∧
      (k < 4096 → (k : Int) - dif sa da < 4096) ∧
      sa.contains (Vec3.fromU16Key ((k : Int) - dif sa da).toNat) = true := by
  have hdif : dif sa da = (da.min.x - sa.min.x) + (da.min.y - sa.min.y) * 16
      + (da.min.z - sa.min.z) * 256 := rfl
  obtain ⟨a1, a2, a3, a4, a5, a6, a7, a8, a9⟩ := hs
  obtain ⟨b1, b2, b3, b4, b5, b6, b7, b8, b9⟩ := hd
  obtain ⟨c1, c2, c3⟩ := hsz
  rw [contains_idx] at h
  refine ⟨by omega, by omega, by omega, ?_⟩
  rw [contains_idx]
  omega

theorem get?_moved {src : MetaList} (hw : ∀ e ∈ src, e.1 < 65536) {k : Nat} (hk : k < 65536) :
    SMap.get? (moved src sa da) k = if da.contains (Vec3.fromU16Key k) = true
      then SMap.get? src ((k : Int) - dif sa da).toNat else none := by
  induction src with
  | nil => simp [moved, SMap.get?]
  | cons e t ih =>
    have ih := ih fun x hx => hw x (by simp [hx])
    have he := hw e (by simp)
    unfold moved at ih ⊢
    rw [List.filter_cons]
    by_cases hc : sa.contains (Vec3.fromU16Key e.1) = true
    · rw [if_pos hc, List.map_cons, SMap.get?_cons, ih, SMap.get?_cons]
      obtain ⟨m1, m2, m3, m4⟩ := moved_key hs hd hsz he hc
      by_cases hq : asU16 ((e.1 : Int) + dif sa da) = k
      · subst hq
        have : e.1 = (((asU16 ((e.1 : Int) + dif sa da) : Nat) : Int) - dif sa da).toNat := by omega
        rw [if_pos (by simp), if_pos m4, if_pos (by rw [beq_iff_eq]; exact this)]
      · rw [if_neg (by simpa using hq)]
        split
        · rename_i hcd
          have hb := moved_back hs hd hsz hk hcd
          rw [if_neg]
          rw [beq_iff_eq]
          omega
        · rfl
    · rw [if_neg hc, ih, SMap.get?_cons]
      split
      · rename_i hcd
        have hb := moved_back hs hd hsz hk hcd
        rw [if_neg]
        rw [beq_iff_eq]
        intro h
        rw [h] at hc
        exact hc hb.2.2.2
      · rfl

theorem mergeMetadata_spec {src dst : MetaList} (ss : SMap.Sorted src) (sd : SMap.Sorted dst)
    (hw : ∀ e ∈ src, e.1 < 65536) :
    ∃ r, mergeMetadata src dst sa da = .ok r ∧ SMap.Sorted r ∧
      (∀ x ∈ r, x ∈ dst ∨ ∃ y ∈ src, y.2 = x.2 ∧ x.1 < 65536 ∧ x.1 / 4096 = y.1 / 4096) ∧
      r.length ≤ dst.length + src.length ∧
      ∀ k, k < 65536 → SMap.get? r k = if da.contains (Vec3.fromU16Key k) = true
        then SMap.get? src ((k : Int) - dif sa da).toNat else SMap.get? dst k := by
  have hpv := parts_valid hs hd hsz
  refine ⟨SMap.insertAll (((dst.map (·.1)).filter fun i => da.contains (Vec3.fromU16Key i)).foldl
    SMap.erase dst) (moved src sa da), ?_, ?_, ?_, ?_, ?_⟩
  · unfold mergeMetadata rassert
    rw [if_pos hpv]
    simp only [res_bind_ok, foldl_moved]
    rfl
  · exact SMap.sorted_insertAll (sorted_foldl_erase _ sd) _
  · intro x hx
    rcases SMap.mem_insertAll hx with hx | hx
    · exact Or.inl (mem_foldl_erase _ hx)
    · right
      unfold moved at hx
      rw [List.mem_map] at hx
      obtain ⟨y, hy, rfl⟩ := hx
      rw [List.mem_filter] at hy
      have hm := moved_key hs hd hsz (hw y hy.1) hy.2
      refine ⟨y, hy.1, rfl, ?_, ?_⟩
      · show asU16 _ < 65536; omega
      · show asU16 _ / 4096 = _
        have hdif : dif sa da = (da.min.x - sa.min.x) + (da.min.y - sa.min.y) * 16
          + (da.min.z - sa.min.z) * 256 := rfl
        have hc := contains_idx.1 hy.2
        obtain ⟨a1, a2, a3, a4, a5, a6, a7, a8, a9⟩ := hs
        obtain ⟨b1, b2, b3, b4, b5, b6, b7, b8, b9⟩ := hd
        obtain ⟨c1, c2, c3⟩ := hsz
        have hi' : (y.1 : Int) = ((y.1 % 16 : Nat) : Int) + 16 * ((y.1 / 16 % 16 : Nat) : Int)
            + 256 * ((y.1 / 256 % 16 : Nat) : Int) + 4096 * ((y.1 / 4096 : Nat) : Int) := by omega
        generalize y.1 % 16 = r at *
        generalize y.1 / 16 % 16 = u at *
        generalize y.1 / 256 % 16 = w at *
        generalize y.1 / 4096 = v at *
        omega
  · have h1 := SMap.length_insertAll_le (((dst.map (·.1)).filter fun i =>
      da.contains (Vec3.fromU16Key i)).foldl SMap.erase dst) (moved src sa da)
    have h2 : (moved src sa da).length ≤ src.length := by
      unfold moved
      rw [List.length_map]
      exact List.length_filter_le _ _
    have h3 : ∀ (ks : List Nat) (m : MetaList), (ks.foldl SMap.erase m).length ≤ m.length := by
      intro ks
      induction ks with
      | nil => intro m; exact Nat.le_refl _
      | cons a t ih =>
        intro m
        exact Nat.le_trans (ih _) (List.length_filter_le _ _)
    have := h3 ((dst.map (·.1)).filter fun i => da.contains (Vec3.fromU16Key i)) dst
    omega
  · intro k hk
    have hnd : SMap.KeysNodup (moved src sa da) := by
      unfold SMap.KeysNodup moved
      rw [List.nodup_iff_pairwise_ne, List.map_map, List.pairwise_map]
      have h0 : List.Pairwise (fun a b : Nat × NodeMeta => a.1 < b.1 ∧
          (a.1 < 65536 ∧ sa.contains (Vec3.fromU16Key a.1) = true) ∧
          (b.1 < 65536 ∧ sa.contains (Vec3.fromU16Key b.1) = true))
          (src.filter fun e => sa.contains (Vec3.fromU16Key e.1)) := by
        have h1 := List.Pairwise.and_mem.1
          (List.Pairwise.filter (fun e => sa.contains (Vec3.fromU16Key e.1)) ss)
        refine h1.imp ?_
        intro a b ⟨ha, hb, hab⟩
        rw [List.mem_filter] at ha hb
        exact ⟨natLt_iff.1 hab, ⟨hw a ha.1, ha.2⟩, hw b hb.1, hb.2⟩
      refine h0.imp ?_
      intro a b ⟨hab, ha, hb⟩
      have m1 := moved_key hs hd hsz ha.1 ha.2
      have m2 := moved_key hs hd hsz hb.1 hb.2
      simp only [Function.comp_apply]
      omega
    rw [SMap.get?_insertAll hnd, get?_moved hs hd hsz hw hk, get?_foldl_erase]
    split
    · rename_i hc
      have : (if k ∈ (dst.map (·.1)).filter fun i => da.contains (Vec3.fromU16Key i) then none
          else SMap.get? dst k) = none := by
        split
        · rfl
        · rename_i hn
          cases hg : SMap.get? dst k with
          | none => rfl
          | some v =>
            exfalso
            apply hn
            rw [List.mem_filter]
            exact ⟨List.mem_map.2 ⟨_, SMap.get?_some_mem hg, rfl⟩, hc⟩
      rw [this, Option.or_none]
    · rename_i hc
      rw [if_neg]
      · rfl
      · rw [List.mem_filter]
        exact fun h => hc h.2

end

/-! ## clean_name_id_map -/

/-- The name table `0 ↦ names[0], 1 ↦ names[1], ...`, starting with ID `s`. -/
def dense (s : Nat) : List Bytes → NameIdMap
  | [] => []
  | n :: t => (s, n) :: dense (s + 1) t

theorem length_dense (s : Nat) (l : List Bytes) : (dense s l).length = l.length := by
  induction l generalizing s with
  | nil => rfl
  | cons a t ih => simp [dense, ih]

theorem get?_dense (s : Nat) (l : List Bytes) (k : Nat) (h : s ≤ k) :
    SMap.get? (dense s l) k = l[k - s]? := by
  induction l generalizing s with
  | nil => simp [dense, SMap.get?]
  | cons a t ih =>
    rw [dense, SMap.get?_cons]
    by_cases hk : s = k
    · subst hk; simp
    · rw [if_neg (by simpa using hk), ih (s + 1) (by omega)]
      have : k - s = k - (s + 1) + 1 := by omega
      rw [this, List.getElem?_cons_succ]

theorem keys_dense (s : Nat) (l : List Bytes) : (dense s l).map (·.1) = List.range' s l.length := by
  induction l generalizing s with
  | nil => rfl
  | cons a t ih => simp [dense, ih, List.range'_succ]

theorem names_dense (s : Nat) (l : List Bytes) : (dense s l).map (·.2) = l := by
  induction l generalizing s with
  | nil => rfl
  | cons a t ih => simp [dense, ih]

theorem sorted_dense (s : Nat) (l : List Bytes) : SMap.Sorted (dense s l) := by
  have h : List.Pairwise (· < ·) ((dense s l).map (·.1)) := by
    rw [keys_dense]; exact List.pairwise_lt_range'
  rw [List.pairwise_map] at h
  exact h.imp fun h => natLt_iff.2 h

theorem insert_dense (s : Nat) (l : List Bytes) (n : Bytes) :
    SMap.insert (dense s l) (s + l.length) n = dense s (l ++ [n]) := by
  induction l generalizing s with
  | nil => rfl
  | cons a t ih =>
    have h1 : KeyOrd.lt (s + (a :: t).length) s = false := by
      rw [← Bool.not_eq_true, natLt_iff]; omega
    have h2 : (s == s + (a :: t).length) = false := by simp
    simp only [List.cons_append, dense, SMap.insert, h1, h2, Bool.false_eq_true, if_false]
    congr 1
    have : s + (a :: t).length = s + 1 + t.length := by simp; omega
    rw [this]
    exact ih (s + 1)

theorem getId_dense_some {s : Nat} {l : List Bytes} {n : Bytes} {j : Nat}
    (h : NameIdMap.getId (dense s l) n = some j) : s ≤ j ∧ l[j - s]? = some n := by
  induction l generalizing s with
  | nil => simp [dense, NameIdMap.getId] at h
  | cons a t ih =>
    rw [dense, NameIdMap.getId] at h
    split at h
    · rename_i he
      rw [beq_iff_eq] at he
      cases h
      subst he
      simp
    · obtain ⟨h1, h2⟩ := ih h
      refine ⟨by omega, ?_⟩
      have : j - s = j - (s + 1) + 1 := by omega
      rw [this, List.getElem?_cons_succ]
      exact h2

theorem getId_none {m : NameIdMap} {n : Bytes} :
    NameIdMap.getId m n = none ↔ ∀ e ∈ m, e.2 ≠ n := by
  induction m with
  | nil => simp [NameIdMap.getId]
  | cons a t ih =>
    rw [NameIdMap.getId]
    split
    · rename_i h
      rw [beq_iff_eq] at h
      simp [h]
    · rename_i h
      rw [beq_iff_eq] at h
      rw [ih]
      simp [h]

theorem getId_some {m : NameIdMap} {n : Bytes} {k : Nat} (h : NameIdMap.getId m n = some k) :
    (k, n) ∈ m := by
  induction m with
  | nil => simp [NameIdMap.getId] at h
  | cons a t ih =>
    rw [NameIdMap.getId] at h
    split at h
    · rename_i he
      rw [beq_iff_eq] at he
      cases h
      subst he
      simp
    · exact List.mem_cons_of_mem _ (ih h)

theorem used_spec (nodes : List Nat) (n : Nat) (h : ∀ id ∈ nodes, id < n) :
    ∃ used, nodes.foldlM (fun u id => setIdx u id true) (List.replicate n false) = .ok used ∧
      used.length = n ∧ ∀ i, i < n → used[i]? = some (decide (i ∈ nodes)) := by
  obtain ⟨u, h1, h2, h3⟩ := foldlM_pointwise (fun u id => setIdx u id true)
    (fun (p i : Nat) => p = i) (fun _ => some true) n nodes (by
      intro p hp l hl
      have := h p hp
      refine ⟨l.set p true, setIdx_ok (by omega), by simp [hl], fun i => ⟨?_, ?_⟩⟩
      · intro e; subst e; rw [List.getElem?_set_self (by omega)]
      · intro hne; rw [List.getElem?_set_ne hne]) (List.replicate n false) (by simp)
  refine ⟨u, h1, h2, fun i hi => ?_⟩
  by_cases hm : i ∈ nodes
  · rw [(h3 i).1 ⟨i, hm, rfl⟩]; simp [hm]
  · rw [(h3 i).2 (fun ⟨p, hp, e⟩ => hm (e ▸ hp)), List.getElem?_replicate, if_pos hi]
    simp [hm]

/-- Invariant of the loop rebuilding the name table, after the entries `done`. -/
structure CleanInv (nodes : List Nat) (n : Nat) (done : List (Nat × Bytes))
    (names : List Bytes) (map : List Nat) : Prop where
  nodup : names.Nodup
  len : map.length = n
  few : names.length ≤ done.length
  maps : ∀ e ∈ done, e.1 ∈ nodes → ∃ j, map[e.1]? = some j ∧ names[j]? = some e.2
  used : ∀ j, j < names.length → ∃ e ∈ done, e.1 ∈ nodes ∧ map[e.1]? = some j

theorem clean_loop (bd : Build) (nodes : List Nat) (n : Nat) (used : List Bool) (hn : n ≤ 65535)
    (hu : ∀ i, i < n → used[i]? = some (decide (i ∈ nodes))) :
    ∀ (todo done : List (Nat × Bytes)) (names : List Bytes) (map : List Nat),
      (∀ e ∈ done ++ todo, e.1 < n) → (done ++ todo).length ≤ n →
      SMap.Sorted (done ++ todo) → CleanInv nodes n done names map →
      ∃ names' map', todo.foldlM (cleanStep bd used) (dense 0 names, map)
          = .ok (dense 0 names', map') ∧ CleanInv nodes n (done ++ todo) names' map' := by
  intro todo
  induction todo with
  | nil =>
    intro done names map h1 h2 hs inv
    exact ⟨names, map, rfl, by rw [List.append_nil]; exact inv⟩
  | cons e t ih =>
    intro done names map h1 h2 hs inv
    have hen := h1 e (by simp)
    have hfresh : ∀ d ∈ done, d.1 ≠ e.1 := by
      intro d hd
      have := (List.pairwise_append.1 hs).2.2 d hd e (by simp)
      rw [natLt_iff] at this
      omega
    have happ : done ++ e :: t = (done ++ [e]) ++ t := by simp
    rw [happ] at h1 h2 hs
    have hlen : names.length < 65535 := by
      have := inv.few
      simp at h2
      omega
    have step : ∃ names1 map1, cleanStep bd used (dense 0 names, map) e = .ok (dense 0 names1, map1)
        ∧ CleanInv nodes n (done ++ [e]) names1 map1 := by
      unfold cleanStep
      rw [idx_ok (hu _ hen)]
      simp only [res_bind_ok]
      by_cases hm : e.1 ∈ nodes
      · simp only [hm, decide_true, Bool.not_true, Bool.false_eq_true, if_false]
        cases hg : NameIdMap.getId (dense 0 names) e.2 with
        | some j =>
          obtain ⟨_, hj⟩ := getId_dense_some hg
          simp only [Nat.sub_zero] at hj
          refine ⟨names, map.set e.1 j, ?_, ?_⟩
          · simp only
            rw [setIdx_ok (by rw [inv.len]; exact hen)]
            rfl
          · refine ⟨inv.nodup, by simp [inv.len], by have := inv.few; simp; omega, ?_, ?_⟩
            · intro d hd hdn
              rcases List.mem_append.1 hd with hd | hd
              · obtain ⟨j', h3, h4⟩ := inv.maps d hd hdn
                refine ⟨j', ?_, h4⟩
                rw [List.getElem?_set_ne (fun h => hfresh d hd h.symm)]
                exact h3
              · simp at hd; subst hd
                exact ⟨j, by rw [List.getElem?_set_self (by rw [inv.len]; exact hen)], hj⟩
            · intro j' hj'
              obtain ⟨d, hd, hdn, hdm⟩ := inv.used j' hj'
              refine ⟨d, by simp [hd], hdn, ?_⟩
              rw [List.getElem?_set_ne (fun h => hfresh d hd h.symm)]
              exact hdm
        | none =>
          have hnot : e.2 ∉ names := by
            intro hmem
            rw [getId_none] at hg
            have : e.2 ∈ (dense 0 names).map (·.2) := by rw [names_dense]; exact hmem
            obtain ⟨x, hx, hxe⟩ := List.mem_map.1 this
            exact hg x hx hxe
          have hi : (dense 0 names).insert (asU16 (((dense 0 names).length : Nat) : Int)) e.2
              = dense 0 (names ++ [e.2]) := by
            have := insert_dense 0 names e.2
            rw [Nat.zero_add] at this
            rw [← this, length_dense]
            congr 1
            unfold asU16
            omega
          refine ⟨names ++ [e.2], map.set e.1 names.length, ?_, ?_⟩
          · simp only [hi]
            have : u16sub bd (asU16 ((dense 0 (names ++ [e.2])).length : Nat)) 1
                = .ok names.length := by
              rw [length_dense]
              unfold u16sub asU16
              simp only [List.length_append, List.length_singleton]
              rw [if_pos (by omega)]
              congr 1
              omega
            rw [this]
            simp only [res_bind_ok]
            rw [setIdx_ok (by rw [inv.len]; exact hen)]
            rfl
          · refine ⟨?_, by simp [inv.len], by have := inv.few; simp; omega, ?_, ?_⟩
            · rw [List.nodup_append]
              refine ⟨inv.nodup, by simp, ?_⟩
              intro a ha b hb
              simp at hb
              subst hb
              intro h
              subst h
              exact hnot ha
            · intro d hd hdn
              rcases List.mem_append.1 hd with hd | hd
              · obtain ⟨j', h3, h4⟩ := inv.maps d hd hdn
                refine ⟨j', ?_, ?_⟩
                · rw [List.getElem?_set_ne (fun h => hfresh d hd h.symm)]
                  exact h3
                · have hlt : j' < names.length := by
                    rcases Nat.lt_or_ge j' names.length with h | h
                    · exact h
                    · rw [List.getElem?_eq_none h] at h4; cases h4
                  rw [List.getElem?_append_left hlt]
                  exact h4
              · simp at hd; subst hd
                exact ⟨names.length, by rw [List.getElem?_set_self (by rw [inv.len]; exact hen)],
                  by simp⟩
            · intro j' hj'
              simp at hj'
              by_cases hjl : j' < names.length
              · obtain ⟨d, hd, hdn, hdm⟩ := inv.used j' hjl
                refine ⟨d, by simp [hd], hdn, ?_⟩
                rw [List.getElem?_set_ne (fun h => hfresh d hd h.symm)]
                exact hdm
              · have : j' = names.length := by omega
                subst this
                exact ⟨e, by simp, hm, by rw [List.getElem?_set_self (by rw [inv.len]; exact hen)]⟩
      · simp only [hm, decide_false, Bool.not_false, if_true]
        refine ⟨names, map, rfl, inv.nodup, inv.len, by have := inv.few; simp; omega, ?_, ?_⟩
        · intro d hd hdn
          rcases List.mem_append.1 hd with hd | hd
          · exact inv.maps d hd hdn
          · simp at hd; subst hd; exact absurd hdn hm
        · intro j' hj'
          obtain ⟨d, hd, hdn, hdm⟩ := inv.used j' hj'
          exact ⟨d, by simp [hd], hdn, hdm⟩
    obtain ⟨names1, map1, hst, inv1⟩ := step
    obtain ⟨names2, map2, hf, inv2⟩ := ih (done ++ [e]) names1 map1 h1 h2 hs inv1
    refine ⟨names2, map2, ?_, by rw [happ]; exact inv2⟩
    rw [List.foldlM_cons, hst]
    exact hf

theorem mapM_idx {α : Type} {l : List Nat} {map : List α} (h : ∀ i ∈ l, i < map.length) :
    ∃ r, l.mapM (idx map) = .ok r ∧ r.length = l.length ∧
      ∀ i : Nat, r[i]? = (l[i]?).bind fun j => map[j]? := by
  induction l with
  | nil => exact ⟨[], rfl, rfl, by simp⟩
  | cons a t ih =>
    obtain ⟨r, h1, h2, h3⟩ := ih fun i hi => h i (by simp [hi])
    have ha := h a (by simp)
    refine ⟨map[a] :: r, ?_, by simp [h2], ?_⟩
    · rw [List.mapM_cons, idx_ok (List.getElem?_eq_getElem ha)]
      simp only [res_bind_ok]
      rw [h1]
      rfl
    · intro i
      cases i with
      | zero => simp [List.getElem?_eq_getElem ha]
      | succ i => simpa using h3 i

/-- What `clean_name_id_map` computes on a block whose node IDs are all named. -/
theorem cleanNimap_spec (bd : Build) {b : MapBlock} (hs : SMap.Sorted b.nimap)
    (hid : ∀ e ∈ b.nimap, e.1 < 65535) (hn : Named b) (hne : b.nd.nodes ≠ []) :
    ∃ names nodes, cleanNimap bd b
        = .ok { b with nimap := dense 0 names, nd := { b.nd with nodes } } ∧
      names.Nodup ∧ names.length ≤ b.nimap.length ∧ nodes.length = b.nd.nodes.length ∧
      (∀ i : Nat, nodeName { b with nimap := dense 0 names, nd := { b.nd with nodes } } i
        = nodeName b i) ∧
      (∀ x ∈ names, ∃ e ∈ b.nimap, e.2 = x) ∧
      (∀ j, j ∈ nodes ↔ j < names.length) := by
  have hne' : b.nimap ≠ [] := by
    intro h
    obtain ⟨id, hmem⟩ := List.exists_mem_of_ne_nil _ hne
    obtain ⟨nm, hnm⟩ := hn id hmem
    rw [h] at hnm
    cases hnm
  obtain ⟨M, hM⟩ := maxId_exists hne'
  obtain ⟨hle, vM, hvM⟩ := maxId_spec hs hM
  have hM2 := hid _ hvM
  simp only at hM2
  have hnodes : ∀ id ∈ b.nd.nodes, id < M + 1 := by
    intro id h
    obtain ⟨nm, hnm⟩ := hn id h
    have := hle _ (SMap.get?_some_mem hnm)
    simp only at this
    omega
  obtain ⟨used, hu1, hu2, hu3⟩ := used_spec b.nd.nodes (M + 1) hnodes
  have hlen : b.nimap.length ≤ M + 1 := by
    have := length_le_of_sorted hs 0 (M + 1) (by
      intro e he; have := hle e he; omega)
    omega
  obtain ⟨names, map, hf, inv⟩ := clean_loop bd b.nd.nodes (M + 1) used (by omega) hu3 b.nimap []
    [] (List.replicate (M + 1) 0) (by
      intro e he; have := hle e (by simpa using he); omega) (by simpa using hlen) (by simpa using hs)
    ⟨List.nodup_nil, by simp, by simp, by simp, by simp⟩
  rw [List.nil_append] at inv
  obtain ⟨nodes, hm1, hm2, hm3⟩ := mapM_idx (l := b.nd.nodes) (map := map) (by
    intro i hi; rw [inv.len]; exact hnodes i hi)
  have key : ∀ id ∈ b.nd.nodes, ∃ j nm, map[id]? = some j ∧ names[j]? = some nm ∧
      SMap.get? b.nimap id = some nm := by
    intro id hmem
    obtain ⟨nm, hnm⟩ := hn id hmem
    obtain ⟨j, h1, h2⟩ := inv.maps _ (SMap.get?_some_mem hnm) hmem
    exact ⟨j, nm, h1, h2, hnm⟩
  refine ⟨names, nodes, ?_, inv.nodup, inv.few, hm2, ?_, ?_, ?_⟩
  · unfold cleanNimap
    rw [hM]
    simp only [unwrap, res_bind_ok]
    rw [u16_ok (by omega)]
    simp only [res_bind_ok]
    rw [hu1]
    simp only [res_bind_ok]
    have : ((([], List.replicate (M + 1) 0) : NameIdMap × List Nat))
      = (dense 0 [], List.replicate (M + 1) 0) := rfl
    rw [this, hf]
    simp only [res_bind_ok]
    rw [hm1]
    rfl
  · intro i
    unfold nodeName
    simp only
    rw [hm3 i]
    cases hi : b.nd.nodes[i]? with
    | none => rfl
    | some id =>
      obtain ⟨j, nm, h1, h2, h3⟩ := key id (List.mem_of_getElem? hi)
      simp only [Option.bind_some, h1]
      rw [get?_dense 0 names j (by omega), Nat.sub_zero, h2, h3]
  · intro x hx
    obtain ⟨j, hj, hjx⟩ := List.mem_iff_getElem.1 hx
    obtain ⟨e, he, hen, hem⟩ := inv.used j hj
    obtain ⟨j', h1, h2⟩ := inv.maps e he hen
    rw [hem] at h1
    cases h1
    rw [List.getElem?_eq_getElem hj] at h2
    refine ⟨e, he, ?_⟩
    have := Option.some.inj h2
    rw [← this, hjx]
  · intro j
    constructor
    · intro h
      obtain ⟨i, hi⟩ := List.mem_iff_getElem?.1 h
      rw [hm3 i] at hi
      cases hb : b.nd.nodes[i]? with
      | none => rw [hb] at hi; cases hi
      | some id =>
        rw [hb] at hi
        simp only [Option.bind_some] at hi
        obtain ⟨j', nm, h1, h2, h3⟩ := key id (List.mem_of_getElem? hb)
        rw [hi] at h1
        cases h1
        rcases Nat.lt_or_ge j names.length with h | h
        · exact h
        · rw [List.getElem?_eq_none h] at h2; cases h2
    · intro h
      obtain ⟨e, he, hen, hem⟩ := inv.used j h
      obtain ⟨i, hi⟩ := List.mem_iff_getElem?.1 hen
      have := hm3 i
      rw [hi] at this
      simp only [Option.bind_some, hem] at this
      exact List.mem_of_getElem? this

/-! ## remove_shift -/

theorem shift_loop (m0 : NameIdMap) (id : Nat) :
    ∀ (n k : Nat) (m : NameIdMap), id < k → k + n ≤ 65536 → SMap.Sorted m →
      (∀ j, SMap.get? m j = if j < id then SMap.get? m0 j else if j + 1 < k then SMap.get? m0 (j + 1)
        else if j < k then none else SMap.get? m0 j) →
      SMap.Sorted ((List.range' k n).foldl NameIdMap.shiftOne m) ∧
      ∀ j, SMap.get? ((List.range' k n).foldl NameIdMap.shiftOne m) j
        = if j < id then SMap.get? m0 j else if j + 1 < k + n then SMap.get? m0 (j + 1)
          else if j < k + n then none else SMap.get? m0 j := by
  intro n
  induction n with
  | zero => intro k m _ _ hs h; exact ⟨hs, h⟩
  | succ n ih =>
    intro k m hk hkn hs h
    rw [List.range'_succ, List.foldl_cons]
    have hstep : SMap.Sorted (NameIdMap.shiftOne m k) ∧
        ∀ j, SMap.get? (NameIdMap.shiftOne m k) j = if j < id then SMap.get? m0 j
          else if j + 1 < k + 1 then SMap.get? m0 (j + 1)
          else if j < k + 1 then none else SMap.get? m0 j := by
      have hmk : SMap.get? m k = SMap.get? m0 k := by
        rw [h k, if_neg (by omega), if_neg (by omega), if_neg (by omega)]
      have e1 : (k + 65535) % 65536 = k - 1 := by omega
      unfold NameIdMap.shiftOne
      rw [e1, hmk]
      cases hg : SMap.get? m0 k with
      | none =>
        refine ⟨hs, fun j => ?_⟩
        simp only
        rw [h j]
        by_cases h1 : j < id
        · rw [if_pos h1, if_pos h1]
        · rw [if_neg h1, if_neg h1]
          by_cases h2 : j + 1 < k
          · rw [if_pos h2, if_pos (by omega)]
          · rw [if_neg h2]
            by_cases h3 : j < k
            · rw [if_pos h3, if_pos (by omega), show j + 1 = k by omega, hg]
            · rw [if_neg h3, if_neg (by omega)]
              by_cases h4 : j = k
              · subst h4; rw [if_pos (by omega), hg]
              · rw [if_neg (by omega)]
      | some name =>
        refine ⟨SMap.sorted_insert (SMap.sorted_erase hs _) _ _, fun j => ?_⟩
        simp only
        rw [SMap.get?_insert, SMap.get?_erase]
        by_cases h0 : k - 1 = j
        · subst h0
          rw [if_pos (by simp), if_neg (by omega), if_pos (by omega),
            show k - 1 + 1 = k by omega, hg]
        · rw [if_neg (by simpa using h0)]
          by_cases h5 : k = j
          · subst h5
            rw [if_pos (by simp), if_neg (by omega), if_neg (by omega), if_pos (by omega)]
          · rw [if_neg (by simpa using h5), h j]
            by_cases h1 : j < id
            · rw [if_pos h1, if_pos h1]
            · rw [if_neg h1, if_neg h1]
              by_cases h2 : j + 1 < k
              · rw [if_pos h2, if_pos (by omega)]
              · rw [if_neg h2, if_neg (by omega), if_neg (by omega), if_neg (by omega)]
    have := ih (k + 1) _ (by omega) (by omega) hstep.1 hstep.2
    rw [show k + 1 + n = k + (n + 1) by omega] at this
    exact this

theorem removeShift_spec (b : Build) {m : NameIdMap} (hs : SMap.Sorted m)
    (hm : ∀ e ∈ m, e.1 < 65536) {id : Nat} (hid : id < 65535) :
    ∃ r, NameIdMap.removeShift b m id = .ok r ∧ SMap.Sorted r ∧
      ∀ k, SMap.get? r k = if k < id then SMap.get? m k else SMap.get? m (k + 1) := by
  have hse := SMap.sorted_erase hs id
  have hhi : ∀ j v, SMap.get? (SMap.erase m id) j = some v →
      j ≤ (NameIdMap.maxId (SMap.erase m id)).getD 0 := by
    intro j v h
    have hmem := SMap.get?_some_mem h
    obtain ⟨k, hk⟩ := maxId_exists (List.ne_nil_of_mem hmem)
    rw [hk]
    exact (maxId_spec hse hk).1 _ hmem
  have hlt : (NameIdMap.maxId (SMap.erase m id)).getD 0 < 65536 := by
    cases h : NameIdMap.maxId (SMap.erase m id) with
    | none => simp
    | some k =>
      obtain ⟨_, v, hv⟩ := maxId_spec hse h
      exact hm _ (SMap.mem_erase.1 hv).1
  have hge : ∀ j, j ≠ id → SMap.get? m j = SMap.get? (SMap.erase m id) j := by
    intro j hj
    rw [SMap.get?_erase, if_neg (by simpa using fun h : id = j => hj h.symm)]
  generalize hH : (NameIdMap.maxId (SMap.erase m id)).getD 0 = hi at *
  obtain ⟨h1, h2⟩ := shift_loop m id (hi + 1 - (id + 1)) (id + 1) (SMap.erase m id) (by omega)
    (by omega) hse (by
      intro j
      rw [SMap.get?_erase]
      by_cases hj : id = j
      · subst hj
        rw [if_pos (by simp), if_neg (by omega), if_neg (by omega), if_pos (by omega)]
      · rw [if_neg (by simpa using hj)]
        by_cases h1 : j < id
        · rw [if_pos h1]
        · rw [if_neg h1, if_neg (by omega), if_neg (by omega)])
  refine ⟨_, ?_, h1, fun k => ?_⟩
  · unfold NameIdMap.removeShift
    simp only
    rw [u16_ok (by omega)]
    simp only [res_bind_ok, hH]
    rfl
  · rw [h2 k]
    by_cases hk : k < id
    · rw [if_pos hk, if_pos hk]
    · rw [if_neg hk, if_neg hk]
      have hnone : ∀ j, hi < j → id < j → SMap.get? m j = none := by
        intro j hj hj2
        rw [hge j (by omega)]
        cases hg : SMap.get? (SMap.erase m id) j with
        | none => rfl
        | some v => have := hhi j v hg; omega
      by_cases h3 : k + 1 < id + 1 + (hi + 1 - (id + 1))
      · rw [if_pos h3]
      · rw [if_neg h3, hnone (k + 1) (by omega) (by omega)]
        split
        · rfl
        · exact hnone k (by omega) (by omega)

/-! ## Several merges, then cleaning -/

/-- Blocks that can be merged: IDs at most `K`, all named. -/
structure Mergeable (K : Nat) (b : MapBlock) : Prop where
  fit : NodesFit b.nd
  sorted : SMap.Sorted b.nimap
  named : Named b
  ids : ∀ e ∈ b.nimap, e.1 ≤ K
  names : ∀ e ∈ b.nimap, e.2.length < 65536

theorem Mergeable.mono {K L : Nat} {b : MapBlock} (h : Mergeable K b) (hl : K ≤ L) :
    Mergeable L b := ⟨h.fit, h.sorted, h.named, fun e he => Nat.le_trans (h.ids e he) hl, h.names⟩

theorem Mergeable.nodes {K : Nat} {b : MapBlock} (h : Mergeable K b) : ∀ id ∈ b.nd.nodes, id ≤ K := by
  intro id hid
  obtain ⟨nm, hn⟩ := h.named id hid
  exact h.ids _ (SMap.get?_some_mem hn)

theorem Mergeable.ne {K : Nat} {b : MapBlock} (h : Mergeable K b) : b.nd.nodes ≠ [] := by
  intro he
  have := h.fit.1
  rw [he] at this
  cases this

theorem Mergeable.nimap_ne {K : Nat} {b : MapBlock} (h : Mergeable K b) : b.nimap ≠ [] := by
  intro he
  obtain ⟨id, hmem⟩ := List.exists_mem_of_ne_nil _ h.ne
  obtain ⟨nm, hnm⟩ := h.named id hmem
  rw [he] at hnm
  cases hnm

/-- Names and parameters of `r` are those of `src` inside `da` and those of `dst` elsewhere. -/
def Merged (src dst r : MapBlock) (sa da : Area) : Prop :=
  ∀ i, i < 4096 →
    (da.contains (Vec3.fromU16Key i) = true →
      nodeName r i = nodeName src ((i : Int) - dif sa da).toNat ∧
      r.nd.param1[i]? = src.nd.param1[((i : Int) - dif sa da).toNat]? ∧
      r.nd.param2[i]? = src.nd.param2[((i : Int) - dif sa da).toNat]?) ∧
    (¬ da.contains (Vec3.fromU16Key i) = true →
      nodeName r i = nodeName dst i ∧ r.nd.param1[i]? = dst.nd.param1[i]? ∧
      r.nd.param2[i]? = dst.nd.param2[i]?)

theorem merge_mergeable {src dst : MapBlock} {sa da : Area} {S K : Nat} (hs : LocalArea sa)
    (hd : LocalArea da) (hsz : SameSize sa da) (ms : Mergeable S src) (md : Mergeable K dst)
    (hb : K + 1 + S < 65536) :
    ∃ nimap nd, (∀ bd, mergeBlocks bd src dst sa da = .ok { dst with nimap, nd }) ∧
      Mergeable (K + 1 + S) { dst with nimap, nd } ∧
      Merged src dst { dst with nimap, nd } sa da := by
  obtain ⟨M, hM⟩ := maxId_exists md.nimap_ne
  obtain ⟨hle, vM, hvM⟩ := maxId_spec md.sorted hM
  have hMK : M ≤ K := md.ids _ hvM
  have hspec : ∀ bd, _ := fun bd => mergeBlocks_spec bd (src := src) (dst := dst) hs hd hsz
    ⟨ms.fit.1, ms.fit.2.2.1, ms.fit.2.2.2⟩
    ⟨md.fit.1, md.fit.2.2.1, md.fit.2.2.2⟩ ms.sorted md.sorted hM
    (by intro id h; have := ms.nodes id h; omega)
    (by intro e h; have := ms.ids e h; omega) (by omega)
  obtain ⟨nimap, nodes, p1, p2, h1, h2, h3, h4, h5, h6, h7, h8⟩ := hspec .debug
  have hsame : ∀ bd, mergeBlocks bd src dst sa da
      = .ok { dst with nimap, nd := ⟨nodes, p1, p2⟩ } := by
    intro bd
    obtain ⟨nimap', nodes', p1', p2', g1, g2, g3, g4, g5, g6, g7, g8⟩ := hspec bd
    have e1 : nimap' = nimap := by rw [g2, h2]
    have ext : ∀ {α : Type} (a b : List α), a.length = 4096 → b.length = 4096 →
        (∀ i, i < 4096 → a[i]? = b[i]?) → a = b := by
      intro α a b la lb h
      apply List.ext_getElem?
      intro i
      rcases Nat.lt_or_ge i 4096 with hi | hi
      · exact h i hi
      · rw [List.getElem?_eq_none (by omega), List.getElem?_eq_none (by omega)]
    have hh : ∀ i, i < 4096 → nodes'[i]? = nodes[i]? ∧ p1'[i]? = p1[i]? ∧ p2'[i]? = p2[i]? := by
      intro i hi
      by_cases hc : da.contains (Vec3.fromU16Key i) = true
      · have a := (g8 i hi).1 hc
        have b := (h8 i hi).1 hc
        exact ⟨a.1.trans b.1.symm, a.2.1.trans b.2.1.symm, a.2.2.trans b.2.2.symm⟩
      · have a := (g8 i hi).2 hc
        have b := (h8 i hi).2 hc
        exact ⟨a.1.trans b.1.symm, a.2.1.trans b.2.1.symm, a.2.2.trans b.2.2.symm⟩
    have e2 := ext nodes' nodes g5 h5 fun i hi => (hh i hi).1
    have e3 := ext p1' p1 g6 h6 fun i hi => (hh i hi).2.1
    have e4 := ext p2' p2 g7 h7 fun i hi => (hh i hi).2.2
    rw [g1, e1, e2, e3, e4]
  have hmem : ∀ id ∈ nodes, (∃ j ∈ src.nd.nodes, id = j + (M + 1)) ∨ id ∈ dst.nd.nodes := by
    intro id hid
    obtain ⟨i, hi⟩ := List.mem_iff_getElem?.1 hid
    have hlt : i < 4096 := by
      rcases Nat.lt_or_ge i 4096 with h | h
      · exact h
      · rw [List.getElem?_eq_none (by omega)] at hi; cases hi
    by_cases hc : da.contains (Vec3.fromU16Key i) = true
    · rw [((h8 i hlt).1 hc).1, Option.map_eq_some_iff] at hi
      obtain ⟨j, hj, rfl⟩ := hi
      exact Or.inl ⟨j, List.mem_of_getElem? hj, rfl⟩
    · rw [((h8 i hlt).2 hc).1] at hi
      exact Or.inr (List.mem_of_getElem? hi)
  have hdle : ∀ id ∈ dst.nd.nodes, id ≤ M := by
    intro id hid
    obtain ⟨nm, hn⟩ := md.named id hid
    exact hle _ (SMap.get?_some_mem hn)
  have hget1 : ∀ j, SMap.get? nimap (j + (M + 1)) = SMap.get? src.nimap j := by
    intro j
    rw [h4, if_neg (by omega)]
    congr 1
    omega
  have hget2 : ∀ j, j ≤ M → SMap.get? nimap j = SMap.get? dst.nimap j := by
    intro j hj
    rw [h4, if_pos hj]
  have hentry : ∀ e ∈ nimap, e ∈ dst.nimap ∨ ∃ x ∈ src.nimap, e = (x.1 + (M + 1), x.2) := by
    intro e he
    rw [h2] at he
    rcases SMap.mem_insertAll he with h | h
    · exact Or.inl h
    · obtain ⟨x, hx, rfl⟩ := List.mem_map.1 h
      exact Or.inr ⟨x, hx, rfl⟩
  refine ⟨nimap, ⟨nodes, p1, p2⟩, hsame, ⟨⟨h5, ?_, h6, h7⟩, h3, ?_, ?_, ?_⟩, ?_⟩
  · intro id hid
    rcases hmem id hid with ⟨j, hj, rfl⟩ | h
    · have := ms.nodes j hj; omega
    · exact md.fit.2.1 id h
  · intro id hid
    show ∃ name, SMap.get? nimap id = some name
    rcases hmem id hid with ⟨j, hj, rfl⟩ | h
    · rw [hget1]; exact ms.named j hj
    · rw [hget2 id (hdle id h)]; exact md.named id h
  · intro e he
    rcases hentry e he with h | ⟨x, hx, rfl⟩
    · have := md.ids e h; omega
    · have := ms.ids x hx; simp only; omega
  · intro e he
    rcases hentry e he with h | ⟨x, hx, rfl⟩
    · exact md.names e h
    · exact ms.names x hx
  · intro i hi
    constructor
    · intro hc
      obtain ⟨a1, a2, a3⟩ := (h8 i hi).1 hc
      refine ⟨?_, a2, a3⟩
      unfold nodeName
      simp only
      rw [a1]
      cases src.nd.nodes[((i : Int) - dif sa da).toNat]? with
      | none => rfl
      | some id => simp only [Option.map_some]; exact hget1 id
    · intro hc
      obtain ⟨a1, a2, a3⟩ := (h8 i hi).2 hc
      refine ⟨?_, a2, a3⟩
      unfold nodeName
      simp only
      rw [a1]
      cases hg : dst.nd.nodes[i]? with
      | none => rfl
      | some id => simp only; exact hget2 id (hdle id (List.mem_of_getElem? hg))

/-- Cleaning a mergeable block: the result is the same in both builds and has at most 4096 IDs. -/
theorem clean_mergeable {b : MapBlock} {K : Nat} (m : Mergeable K b) (hK : K < 65535) :
    ∃ names nodes,
      (∀ bd, cleanNimap bd b = .ok { b with nimap := dense 0 names, nd := { b.nd with nodes } }) ∧
      Mergeable 4095 { b with nimap := dense 0 names, nd := { b.nd with nodes } } ∧
      (∀ i : Nat, nodeName { b with nimap := dense 0 names, nd := { b.nd with nodes } } i
        = nodeName b i) ∧
      names.Nodup ∧ (∀ j, j ∈ nodes ↔ j < names.length) ∧ names.length ≤ 4096 := by
  have hspec : ∀ bd, _ := fun bd => cleanNimap_spec bd (b := b) m.sorted
    (fun e he => by have := m.ids e he; omega) m.named m.ne
  obtain ⟨names, nodes, h1, h2, h3, h4, h5, h6, h7⟩ := hspec .debug
  have hsame : ∀ bd, cleanNimap bd b
      = .ok { b with nimap := dense 0 names, nd := { b.nd with nodes } } := by
    intro bd
    rw [← h1]
    -- no operation of the loop can overflow, so the build does not matter
    obtain ⟨names', nodes', g1, g2, g3, g4, g5, g6, g7⟩ := hspec bd
    have hlt : ∀ (bd : Build) (used : List Bool) (st : NameIdMap × List Nat) (e : Nat × Bytes),
        cleanStep bd used st e = cleanStep .debug used st e ∨
          ∃ w, cleanStep .debug used st e = .error (.panic w) := by
      intro bd used st e
      unfold cleanStep
      cases idx used e.1 with
      | error x =>
        left; rfl
      | ok u =>
        simp only [res_bind_ok]
        cases u with
        | false => left; rfl
        | true =>
          simp only [Bool.not_true, Bool.false_eq_true, if_false]
          cases NameIdMap.getId st.1 e.2 with
          | some j => left; rfl
          | none =>
            simp only
            generalize asU16 ((SMap.insert st.1 (asU16 (st.1.length : Nat)) e.2).length : Nat) = q
            by_cases hq : 1 ≤ q
            · left
              have : ∀ bd, u16sub bd q 1 = .ok (q - 1) := fun bd => if_pos hq
              rw [this, this]
            · right
              have : u16sub .debug q 1 = .error (.panic "u16 overflow") := if_neg hq
              rw [this]
              exact ⟨_, rfl⟩
    have hfold : ∀ (l : List (Nat × Bytes)) (used : List Bool) (st r : NameIdMap × List Nat),
        l.foldlM (cleanStep .debug used) st = .ok r → l.foldlM (cleanStep bd used) st = .ok r := by
      intro l used
      induction l with
      | nil => intro st r h; exact h
      | cons e t ih =>
        intro st r h
        rw [List.foldlM_cons] at h ⊢
        rcases hlt bd used st e with h' | ⟨w, h'⟩
        · rw [h']
          cases hs : cleanStep .debug used st e with
          | error x => rw [hs] at h; cases h
          | ok s => rw [hs] at h; exact ih s r h
        · rw [h'] at h; cases h
    have hu : ∀ n r, u16 .debug n = .ok r → u16 bd n = .ok r := by
      intro n r h
      unfold u16 at h ⊢
      split at h
      · rename_i hlt
        rw [if_pos hlt]; exact h
      · cases h
    have hd := h1
    unfold cleanNimap at hd
    rw [bind_ok_iff] at hd
    obtain ⟨mx, hmx, hd⟩ := hd
    rw [bind_ok_iff] at hd
    obtain ⟨n, hn, hd⟩ := hd
    rw [bind_ok_iff] at hd
    obtain ⟨used, hus, hd⟩ := hd
    rw [bind_ok_iff] at hd
    obtain ⟨st, hst, hd⟩ := hd
    rw [h1]
    unfold cleanNimap
    rw [hmx]
    simp only [res_bind_ok]
    rw [hu _ _ hn]
    simp only [res_bind_ok]
    rw [hus]
    simp only [res_bind_ok]
    rw [hfold _ _ _ _ hst]
    exact hd
  have hlen : names.length ≤ 4096 := by
    have hsub : List.range names.length ⊆ nodes := by
      intro j hj
      rw [List.mem_range] at hj
      exact (h7 j).2 hj
    have := List.Nodup.length_le_of_subset List.nodup_range hsub
    rw [List.length_range, h4, m.fit.1] at this
    exact this
  refine ⟨names, nodes, hsame, ⟨⟨?_, ?_, m.fit.2.2.1, m.fit.2.2.2⟩, sorted_dense _ _, ?_, ?_, ?_⟩,
    h5, h2, h7, hlen⟩
  · show nodes.length = 4096
    rw [h4]; exact m.fit.1
  · intro j hj
    have := (h7 j).1 hj
    omega
  · intro j hj
    have := (h7 j).1 hj
    show ∃ name, SMap.get? (dense 0 names) j = some name
    rw [get?_dense 0 names j (by omega), Nat.sub_zero]
    exact ⟨names[j], List.getElem?_eq_getElem this⟩
  · intro e he
    have : e.1 ∈ (dense 0 names).map (·.1) := List.mem_map.2 ⟨e, he, rfl⟩
    rw [keys_dense, List.mem_range'_1] at this
    omega
  · intro e he
    have : e.2 ∈ (dense 0 names).map (·.2) := List.mem_map.2 ⟨e, he, rfl⟩
    rw [names_dense] at this
    obtain ⟨x, hx, hxe⟩ := h6 _ this
    rw [← hxe]
    exact m.names x hx

end MapEditr
