import Verif.Model.Machine
import Verif.Proof.Checked
import Verif.Proof.World
import Verif.Proof.BlockUtils
import Verif.Proof.Query
/-! # Lemmas: the program with machine integers is the program with unbounded ones -/

set_option linter.unusedSimpArgs false

namespace MapEditr

theorem foldlM_same {m : Type → Type} [Monad m] {α β : Type} {f g : β → α → m β} (l : List α)
    (h : ∀ b a, a ∈ l → f b a = g b a) (b : β) : l.foldlM f b = l.foldlM g b := by
  induction l generalizing b with
  | nil => rfl
  | cons a t ih =>
    rw [List.foldlM_cons, List.foldlM_cons, h b a (by simp)]
    congr 1
    funext b'
    exact ih (fun b a ha => h b a (by simp [ha])) b'

theorem res_mapM_ok {α β : Type} (l : List α) (f : α → Res β) (g : α → β) (h : ∀ a ∈ l, f a = .ok (g a)) :
    l.mapM f = .ok (l.map g) := by
  induction l with
  | nil => rfl
  | cons a t ih =>
    rw [List.mapM_cons, h a (by simp), ih fun a ha => h a (by simp [ha])]; rfl

theorem res_mapM_same {α β : Type} (l : List α) (f g : α → Res β) (h : ∀ a ∈ l, f a = g a) :
    l.mapM f = l.mapM g := by
  induction l with
  | nil => rfl
  | cons a t ih =>
    rw [List.mapM_cons, List.mapM_cons, h a (by simp), ih fun a ha => h a (by simp [ha])]

namespace Checked
open Spec

/-- Coordinates far from the limits of `i32`. -/
def NearPos (p : Vec3) : Prop := -200000 ≤ p.x ∧ p.x ≤ 200000 ∧ -200000 ≤ p.y ∧ p.y ≤ 200000 ∧
  -200000 ≤ p.z ∧ p.z ≤ 200000

/-- An area with such corners, sorted. -/
def NearArea (a : Area) : Prop := a.isValid = true ∧ NearPos a.min ∧ NearPos a.max

/-- A part of a block. -/
def BlockPart (a : Area) : Prop := a.isValid = true ∧ 0 ≤ a.min.x ∧ a.max.x < 16 ∧ 0 ≤ a.min.y ∧
  a.max.y < 16 ∧ 0 ≤ a.min.z ∧ a.max.z < 16

theorem asUsize_nat {n : Int} (h : 0 ≤ n) (h' : n < 18446744073709551616) : asUsize n = n.toNat := by
  unfold asUsize; rw [Int.emod_eq_of_lt h h']

theorem linIdx_eq (b : Build) (p : Vec3) (h : NearPos p) : linIdx b p = .ok (MapEditr.linIdx p) := by
  unfold NearPos at h
  unfold linIdx MapEditr.linIdx
  rw [i32_ok b (p.y * 16) (by omega) (by omega), res_bind_ok,
    i32_ok b (p.x + p.y * 16) (by omega) (by omega), res_bind_ok,
    i32_ok b (p.z * 256) (by omega) (by omega), res_bind_ok, i32_ok b _ (by omega) (by omega)]

theorem rowIdx_eq (b : Build) (p : Vec3) (h : NearPos p) :
    rowIdx b p = .ok (asUsize (p.z * 256 + p.y * 16 + p.x)) := by
  unfold NearPos at h
  unfold rowIdx
  rw [i32_ok b (p.z * 256) (by omega) (by omega), res_bind_ok,
    i32_ok b (p.y * 16) (by omega) (by omega), res_bind_ok,
    i32_ok b (p.z * 256 + p.y * 16) (by omega) (by omega), res_bind_ok,
    i32_ok b _ (by omega) (by omega), res_bind_ok, res_pure]

theorem nestedIdx_eq (b : Build) (p : Vec3) (h : NearPos p) :
    nestedIdx b p = .ok (asUsize (p.x + 16 * (p.y + 16 * p.z))) := by
  unfold NearPos at h
  unfold nestedIdx
  rw [i32_ok b (16 * p.z) (by omega) (by omega), res_bind_ok,
    i32_ok b (p.y + 16 * p.z) (by omega) (by omega), res_bind_ok,
    i32_ok b (16 * (p.y + 16 * p.z)) (by omega) (by omega), res_bind_ok,
    i32_ok b _ (by omega) (by omega), res_bind_ok, res_pure]

/-! ## Iterators -/

theorem areaDrain_eq (b : Build) (fuel : Nat) (it : AreaIter) (h1 : NearPos it.min) (h2 : NearPos it.max)
    (hx : it.min.x ≤ it.max.x) (hy : it.min.y ≤ it.max.y) (h3 : it.min.x ≤ it.pos.x)
    (h4 : it.min.y ≤ it.pos.y) (h5 : it.min.z ≤ it.pos.z) (hpz : it.pos.z ≤ it.max.z + 1) (hpx : it.pos.x ≤ it.max.x) (hpy : it.pos.y ≤ it.max.y) :
    areaDrain b fuel it = .ok (AreaIter.drain fuel it).1 := by
  induction fuel generalizing it with
  | zero => rfl
  | succ n ih =>
    obtain ⟨mn, mx, pos⟩ := it
    obtain ⟨px, py, pz⟩ := pos
    unfold NearPos at h1 h2
    simp only at h1 h2 h3 h4 h5 hx hy hpx hpy hpz
    unfold areaDrain AreaIter.drain
    by_cases hz : pz > mx.z
    · simp only [areaNext, AreaIter.next, hz, if_true, res_bind_ok, res_pure]
    · simp only [areaNext, AreaIter.next, hz, if_false]
      rw [i32_ok b (px + 1) (by omega) (by omega), res_bind_ok]
      by_cases hx1 : px + 1 > mx.x
      · simp only [hx1, if_true]
        rw [i32_ok b (py + 1) (by omega) (by omega), res_bind_ok]
        by_cases hy1 : py + 1 > mx.y
        · simp only [hy1, if_true]
          rw [i32_ok b (pz + 1) (by omega) (by omega)]
          simp only [res_bind_ok, res_pure]
          rw [ih]
          · rfl
          all_goals first | assumption | (simp only; omega)
        · simp only [hy1, if_false, res_bind_ok, res_pure]
          rw [ih]
          · rfl
          all_goals first | assumption | (simp only; omega)
      · simp only [hx1, if_false, res_bind_ok, res_pure]
        rw [ih]
        · rfl
        all_goals first | assumption | (simp only; omega)

theorem positions_eq (b : Build) (a : Area) (h : NearArea a) : positions b a = .ok a.positions := by
  obtain ⟨hv, h1, h2⟩ := h
  simp only [isValid_iff] at hv
  exact areaDrain_eq b _ _ h1 h2 hv.1 hv.2.1 (Int.le_refl _) (Int.le_refl _) (Int.le_refl _)
    (by simp only [AreaIter.new]; omega) hv.1 hv.2.1

theorem u64_ok (b : Build) (n : Nat) (h : n < 18446744073709551616) : u64 b n = .ok n := if_pos h

/-- Where the iterator over the rest of a block can be. -/
def InvOk (n : Nat) (it : InvIter) : Prop := BlockPart it.area ∧ it.idx ≤ n ∧ it.skipLen ≤ 16 ∧
  it.skipPos.x = it.area.min.x ∧ it.area.min.y ≤ it.skipPos.y ∧ it.skipPos.y ≤ it.area.max.y ∧
  it.area.min.z ≤ it.skipPos.z ∧ it.skipPos.z ≤ it.area.max.z

theorem InvOk.mono {m n : Nat} {it : InvIter} (h : InvOk m it) (hn : m ≤ n) : InvOk n it := by
  unfold InvOk at *
  exact ⟨h.1, by omega, h.2.2⟩

theorem skipOnce_eq (b : Build) {n : Nat} {it : InvIter} (h : InvOk n it) (hn : n < 4294967296) :
    skipOnce b it = .ok it.skipOnce ∧ InvOk (n + 16) it.skipOnce := by
  obtain ⟨area, idx, canSkip, ⟨sx, sy, sz⟩, skipIdx, skipLen⟩ := it
  unfold InvOk at h
  simp only at h
  obtain ⟨hp, h1, h2, h3, h4, h5, h6, h7⟩ := h
  have hp0 := hp
  unfold BlockPart at hp
  simp only [isValid_iff] at hp
  unfold skipOnce InvIter.skipOnce
  simp only
  rw [u64_ok b _ (by omega), res_bind_ok, i32_ok b (sy + 1) (by omega) (by omega), res_bind_ok]
  have hl : ∀ p : Vec3, 0 ≤ p.x → p.x < 16 → 0 ≤ p.y → p.y < 16 → 0 ≤ p.z → p.z < 16 →
      linIdx b p = .ok (p.x + p.y * 16 + p.z * 256) ∧
      asUsize (p.x + p.y * 16 + p.z * 256) = (p.x + p.y * 16 + p.z * 256).toNat := by
    intro p h1 h2 h3 h4 h5 h6
    exact ⟨linIdx_eq b p (by unfold NearPos; omega), asUsize_nat (by omega) (by omega)⟩
  by_cases hy : sy + 1 > area.max.y
  · simp only [hy, if_true]
    rw [i32_ok b (sz + 1) (by omega) (by omega), res_bind_ok]
    by_cases hz : sz + 1 > area.max.z
    · simp only [hz, if_true, res_pure]
      exact ⟨trivial, by unfold InvOk; simp only; refine ⟨hp0, ?_⟩; omega⟩
    · simp only [hz, if_false]
      obtain ⟨e1, e2⟩ := hl ⟨sx, area.min.y, sz + 1⟩ (by simp only; omega) (by simp only; omega)
        (by simp only; omega) (by simp only; omega) (by simp only; omega) (by simp only; omega)
      simp only at e1 e2
      rw [e1, res_bind_ok, e2]
      exact ⟨rfl, by unfold InvOk; simp only; refine ⟨hp0, ?_⟩; omega⟩
  · simp only [hy, if_false]
    obtain ⟨e1, e2⟩ := hl ⟨sx, sy + 1, sz⟩ (by simp only; omega) (by simp only; omega)
        (by simp only; omega) (by simp only; omega) (by simp only; omega) (by simp only; omega)
    simp only at e1 e2
    rw [e1, res_bind_ok, e2]
    exact ⟨rfl, by unfold InvOk; simp only; refine ⟨hp0, ?_⟩; omega⟩

theorem skipLoop_eq (b : Build) (fuel : Nat) {n : Nat} {it : InvIter} (h : InvOk n it)
    (hn : n + 16 * fuel < 4294967296) :
    skipLoop b fuel it = .ok (InvIter.skipLoop fuel it) ∧ InvOk (n + 16 * fuel) (InvIter.skipLoop fuel it) := by
  induction fuel generalizing n it with
  | zero => exact ⟨rfl, h⟩
  | succ f ih =>
    unfold skipLoop InvIter.skipLoop
    split
    · obtain ⟨e, h'⟩ := skipOnce_eq b h (by omega)
      rw [e, res_bind_ok]
      obtain ⟨e', h''⟩ := ih h' (by omega)
      exact ⟨e', h''.mono (by omega)⟩
    · exact ⟨rfl, h.mono (by omega)⟩

theorem invDrain_eq (b : Build) (fuel : Nat) {n : Nat} {it : InvIter} (h : InvOk n it)
    (hn : n + fuel * 5000 < 4294967296) : invDrain b fuel it = .ok (InvIter.drain fuel it).1 := by
  induction fuel generalizing n it with
  | zero => rfl
  | succ f ih =>
    have hlt : n + 16 * 257 < 4294967296 := by
      have : n + 4112 < 4294967296 := by omega
      exact this
    obtain ⟨e, h'⟩ := skipLoop_eq b 257 h hlt
    unfold invDrain InvIter.drain invNext InvIter.next
    rw [e, res_bind_ok]
    generalize InvIter.skipLoop 257 it = it' at h'
    by_cases hi : it'.idx < 4096
    · simp only [hi, if_true]
      rw [u64_ok b _ (by omega)]
      simp only [res_bind_ok, res_pure]
      rw [ih (n := n + 16 * 257 + 1) (by unfold InvOk at h' ⊢; simp only; refine ⟨h'.1, ?_, h'.2.2⟩; omega) (by omega)]
      rfl
    · simp only [hi, if_false, res_bind_ok, res_pure]

theorem inverseIndices_eq (b : Build) (a : Area) (h : BlockPart a) :
    inverseIndices b a = MapEditr.inverseIndices a := by
  have h' := h
  unfold BlockPart at h'
  simp only [isValid_iff] at h'
  unfold inverseIndices MapEditr.inverseIndices invNew InvIter.new
  have hc : (decide (a.min.x ≥ 0 ∧ a.max.x < 16 ∧ a.min.y ≥ 0 ∧ a.max.y < 16 ∧ a.min.z ≥ 0 ∧ a.max.z < 16))
      = true := by rw [decide_eq_true_eq]; omega
  rw [hc]
  simp only [rassert, if_true, res_bind_ok]
  rw [linIdx_eq b a.min (by unfold NearPos; omega), res_bind_ok,
    i32_ok b _ (by omega) (by omega), res_bind_ok, i32_ok b _ (by omega) (by omega)]
  simp only [res_bind_ok, res_pure]
  rw [asUsize_nat (by unfold MapEditr.linIdx; omega) (by unfold MapEditr.linIdx; omega),
    asUsize_nat (by omega) (by omega)]
  refine invDrain_eq b 4097 (n := 0) ?_ (by omega)
  unfold InvOk
  simp only
  exact ⟨h, by omega, by omega, trivial, by omega, by omega, by omega, by omega⟩

/-! ## Parts of blocks -/

theorem relBlockOverlap_part {a : Area} {bp : Vec3} {o : Area} (h : a.relBlockOverlap bp = some o) :
    BlockPart o := by
  simp only [Area.relBlockOverlap, filterValid_some] at h
  obtain ⟨hv, rfl⟩ := h
  refine ⟨hv, ?_⟩
  simp only
  omega

theorem BlockPart.near {a : Area} (h : BlockPart a) : NearArea a := by
  unfold BlockPart at h
  have h' := h.1
  simp only [isValid_iff] at h'
  unfold NearArea NearPos
  refine ⟨h.1, ?_, ?_⟩ <;> omega

theorem BlockPart.near_of_mem {a : Area} (h : BlockPart a) {p : Vec3} (hp : p ∈ a.zyx) : NearPos p := by
  rw [mem_zyx] at hp
  unfold InBox at hp
  unfold BlockPart at h
  unfold NearPos
  omega

section
variable (b : Build) {a : Area} {bp : Vec3} (h : NearArea a) (hp : ValidBlockPos bp)
include h hp

theorem fns_eq : containsBlock b a bp = .ok (a.containsBlock bp) ∧
    touchesBlock b a bp = .ok (a.touchesBlock bp) ∧
    toContainedBlockArea b a = .ok a.toContainedBlockArea ∧
    absBlockOverlap b a bp = .ok (a.absBlockOverlap bp) ∧
    relBlockOverlap b a bp = .ok (a.relBlockOverlap bp) := by
  unfold NearArea NearPos at h
  exact areaFns_eq b a bp hp (by omega) (by omega) (by omega) (by omega) (by omega) (by omega)

theorem partly_eq : partly b a bp = .ok (MapEditr.partly a bp) := by
  obtain ⟨h1, h2, -⟩ := fns_eq b h hp
  unfold partly MapEditr.partly
  rw [h1, h2]; rfl
end

theorem partArea_eq (b : Build) {area : Option Area} {bp : Vec3} (h : ∀ a, area = some a → NearArea a)
    (hp : ValidBlockPos bp) : partArea b area bp = .ok (area.filter fun a => MapEditr.partly a bp) := by
  unfold partArea
  cases area with
  | none => rfl
  | some a =>
    simp only [partly_eq b (h a rfl) hp, res_bind_ok, res_pure, Option.filter]

theorem volume_part (b : Build) {a : Area} (h : NearArea a) : volume b a = .ok (a.volume : Int) := by
  unfold NearArea NearPos at h
  simp only [isValid_iff] at h
  exact volume_eq b a (by omega) (by omega) (by omega) (by omega) (by omega) (by omega)

theorem volume_le {a : Area} (h : BlockPart a) : a.volume ≤ 4096 := by
  unfold BlockPart at h
  unfold Area.volume
  have hx : (a.max.x - a.min.x + 1).toNat ≤ 16 := by omega
  have hy : (a.max.y - a.min.y + 1).toNat ≤ 16 := by omega
  have hz : (a.max.z - a.min.z + 1).toNat ≤ 16 := by omega
  exact Nat.mul_le_mul (Nat.mul_le_mul hx hy) hz

/-! ## `block_utils.rs` -/

theorem blockPartsValid_eq (bd : Build) (sa da : Area) (h1 : BlockPart sa) (h2 : BlockPart da) :
    blockPartsValid bd sa da = .ok (MapEditr.blockPartsValid sa da) := by
  have h1' := h1
  have h2' := h2
  unfold BlockPart at h1' h2'
  simp only [isValid_iff] at h1' h2'
  unfold blockPartsValid MapEditr.blockPartsValid
  cases h : partValid sa && partValid da with
  | false => rfl
  | true =>
    simp only [if_true, Bool.true_and]
    rw [vsub_eq bd sa.max sa.min (by omega) (by omega) (by omega), res_bind_ok,
      vsub_eq bd da.max da.min (by omega) (by omega) (by omega)]
    rfl

theorem copyNode_eq (bd : Build) (src : List Nat) (diff : Int) (n : Nat) (dst : List Nat) (p : Vec3)
    (hd : -100000 ≤ diff ∧ diff ≤ 100000) (hp : NearPos p) :
    copyNode bd src diff n dst p = MapEditr.copyNode bd src diff n dst p := by
  unfold copyNode MapEditr.copyNode
  rw [linIdx_eq bd p hp, res_bind_ok]
  have : -2147483648 ≤ MapEditr.linIdx p + diff ∧ MapEditr.linIdx p + diff ≤ 2147483647 := by
    unfold NearPos at hp
    unfold MapEditr.linIdx
    omega
  rw [i32_ok bd _ this.1 this.2]
  rfl

theorem copyRow_eq (bd : Build) (src : Bytes) (sa : Area) (diff : Int) (dst : Bytes) (yz : Int × Int)
    (hd : -100000 ≤ diff ∧ diff ≤ 100000) (h : BlockPart sa) (hyz : yz ∈ sa.rows) :
    copyRow bd src sa diff dst yz = MapEditr.copyRow src sa diff dst yz := by
  obtain ⟨y, z⟩ := yz
  rw [mem_rows] at hyz
  unfold BlockPart at h
  simp only [isValid_iff] at h
  unfold copyRow MapEditr.copyRow
  simp only
  rw [i32_ok bd (y * 16) (by omega) (by omega), res_bind_ok, i32_ok bd (z * 256) (by omega) (by omega),
    res_bind_ok, i32_ok bd (y * 16 + z * 256) (by omega) (by omega), res_bind_ok,
    i32_ok bd (y * 16 + z * 256 + sa.min.x) (by omega) (by omega), res_bind_ok,
    i32_ok bd (y * 16 + z * 256 + sa.max.x) (by omega) (by omega), res_bind_ok,
    i32_ok bd (y * 16 + z * 256 + sa.min.x + diff) (by omega) (by omega), res_bind_ok,
    i32_ok bd (y * 16 + z * 256 + sa.max.x + diff) (by omega) (by omega), res_bind_ok]

/-- The distance between two parts of blocks. -/
theorem diff_eq (bd : Build) {sa da : Area} (h1 : BlockPart sa) (h2 : BlockPart da) :
    vsub bd da.min sa.min = .ok (da.min.sub sa.min) ∧
    linIdx bd (da.min.sub sa.min) = .ok (MapEditr.linIdx (da.min.sub sa.min)) ∧
    -100000 ≤ MapEditr.linIdx (da.min.sub sa.min) ∧ MapEditr.linIdx (da.min.sub sa.min) ≤ 100000 := by
  unfold BlockPart at h1 h2
  simp only [isValid_iff] at h1 h2
  refine ⟨vsub_eq bd _ _ (by omega) (by omega) (by omega), linIdx_eq bd _ ?_, ?_⟩
  · unfold NearPos; simp only [Vec3.sub]; omega
  · simp only [MapEditr.linIdx, Vec3.sub]; omega

theorem mergeBlocks_eq (bd : Build) (src dst : MapBlock) {sa da : Area} (h1 : BlockPart sa)
    (h2 : BlockPart da) : mergeBlocks bd src dst sa da = MapEditr.mergeBlocks bd src dst sa da := by
  obtain ⟨e1, e2, hd⟩ := diff_eq bd h1 h2
  unfold mergeBlocks MapEditr.mergeBlocks
  rw [blockPartsValid_eq bd sa da h1 h2, res_bind_ok, e1, res_bind_ok, e2, res_bind_ok]
  simp only [
    foldlM_same sa.zyx (fun l p hp => copyNode_eq bd src.nd.nodes _ _ l p hd (h1.near_of_mem hp)),
    foldlM_same sa.rows (fun l yz hyz => copyRow_eq bd src.nd.param1 sa _ l yz hd h1 hyz),
    foldlM_same sa.rows (fun l yz hyz => copyRow_eq bd src.nd.param2 sa _ l yz hd h1 hyz)]

theorem foldlM_ok {α β : Type} {f : β → α → Res β} {g : β → α → β} (l : List α)
    (h : ∀ b a, a ∈ l → f b a = .ok (g b a)) (b : β) : l.foldlM f b = .ok (l.foldl g b) := by
  induction l generalizing b with
  | nil => rfl
  | cons a t ih =>
    rw [List.foldlM_cons, h b a (by simp), res_bind_ok, ih fun b a ha => h b a (by simp [ha])]
    rfl

theorem mergeMetadata_eq (bd : Build) (src dst : MetaList) {sa da : Area} (h1 : BlockPart sa)
    (h2 : BlockPart da) : mergeMetadata bd src dst sa da = MapEditr.mergeMetadata src dst sa da := by
  obtain ⟨e1, e2, hd⟩ := diff_eq bd h1 h2
  unfold mergeMetadata MapEditr.mergeMetadata
  rw [blockPartsValid_eq bd sa da h1 h2, res_bind_ok, e1, res_bind_ok, e2, res_bind_ok]
  congr 1
  funext _
  refine foldlM_ok src (fun m e _ => ?_) _
  unfold copyMeta
  split
  · have : -2147483648 ≤ (asU16 e.1 : Int) + MapEditr.linIdx (da.min.sub sa.min) ∧
        (asU16 e.1 : Int) + MapEditr.linIdx (da.min.sub sa.min) ≤ 2147483647 := by
      unfold asU16; omega
    rw [i32_ok bd _ this.1 this.2, res_bind_ok]
    have e : asU16 ((asU16 e.1 : Int) + MapEditr.linIdx (da.min.sub sa.min)) =
        asU16 ((e.1 : Int) + MapEditr.linIdx (da.min.sub sa.min)) := by
      unfold asU16; omega
    rw [e]; rfl
  · rfl

theorem mergeFrag_eq (bd : Build) {srcPart : Area} {offset dstPos srcPos : Vec3} (src dst : MapBlock)
    (h1 : NearArea srcPart) (ho : -62000 ≤ offset.x ∧ offset.x ≤ 62000 ∧ -62000 ≤ offset.y ∧
      offset.y ≤ 62000 ∧ -62000 ≤ offset.z ∧ offset.z ≤ 62000) (h2 : ValidBlockPos dstPos)
    (h3 : ValidBlockPos srcPos) : mergeFrag bd srcPart offset dstPos srcPos src dst =
      MapEditr.mergeFrag bd srcPart offset dstPos srcPos src dst := by
  unfold mergeFrag MapEditr.mergeFrag
  rw [(fns_eq bd h1 h3).2.2.2.1, res_bind_ok]
  cases hf : srcPart.absBlockOverlap srcPos with
  | none => rfl
  | some frag =>
    simp only [unwrap, res_bind_ok]
    simp only [Area.absBlockOverlap, filterValid_some] at hf
    obtain ⟨hv, rfl⟩ := hf
    have hv0 := hv
    simp only [isValid_iff, Vec3.mulS, Vec3.addS] at hv
    have h3' := h3
    unfold ValidBlockPos at h3'
    rw [vmulS_eq bd srcPos h3, res_bind_ok]
    generalize hfr : (⟨⟨Max.max srcPart.min.x (srcPos.mulS 16).x, Max.max srcPart.min.y (srcPos.mulS 16).y,
      Max.max srcPart.min.z (srcPos.mulS 16).z⟩, ⟨Min.min srcPart.max.x ((srcPos.mulS 16).addS 15).x,
      Min.min srcPart.max.y ((srcPos.mulS 16).addS 15).y, Min.min srcPart.max.z ((srcPos.mulS 16).addS 15).z⟩⟩ : Area) = frag
      at hv0
    have hb : srcPos.x * 16 ≤ frag.min.x ∧ frag.max.x ≤ srcPos.x * 16 + 15 ∧
        srcPos.y * 16 ≤ frag.min.y ∧ frag.max.y ≤ srcPos.y * 16 + 15 ∧
        srcPos.z * 16 ≤ frag.min.z ∧ frag.max.z ≤ srcPos.z * 16 + 15 := by
      subst hfr
      simp only [Vec3.mulS, Vec3.addS]
      omega
    have hval := hv0
    simp only [isValid_iff] at hval
    have hpart : BlockPart (frag.sub (srcPos.mulS 16)) := by
      unfold BlockPart
      simp only [isValid_iff, Area.sub, Vec3.sub, Vec3.mulS]
      omega
    have hshift : NearArea (frag.add offset) := by
      unfold NearArea NearPos
      simp only [isValid_iff, Area.add, Vec3.add]
      omega
    rw [areaSub_eq bd frag (srcPos.mulS 16) (by simp only [Vec3.mulS]; omega) (by simp only [Vec3.mulS]; omega)
      (by simp only [Vec3.mulS]; omega) (by simp only [Vec3.mulS]; omega) (by simp only [Vec3.mulS]; omega)
      (by simp only [Vec3.mulS]; omega), res_bind_ok,
      areaAdd_eq bd frag offset (by omega) (by omega) (by omega) (by omega) (by omega) (by omega), res_bind_ok,
      (fns_eq bd hshift h2).2.2.2.2, res_bind_ok]
    cases hr : (frag.add offset).relBlockOverlap dstPos with
    | none => rfl
    | some o =>
      simp only [unwrap, res_bind_ok]
      have ho := relBlockOverlap_part hr
      rw [mergeBlocks_eq bd src dst hpart ho]
      congr 1
      funext b
      rw [mergeMetadata_eq bd _ _ hpart ho]

/-! ## The editing commands -/

theorem valid_pos {k : Int} (h : ValidKey k) : ValidBlockPos (Vec3.fromBlockKey k) := (keyOf_fromBlockKey k h).1

theorem run_lift_ok {α β : Type} (a : α) (f : α → Run β) : (Run.lift (.ok a) >>= f) = f a := rfl

theorem fillArea_eq (b : Build) (nodes : List Nat) (id : Nat) {a : Area} (invert : Bool) (h : BlockPart a) :
    fillArea b nodes id a invert = MapEditr.fillArea nodes id a invert := by
  unfold fillArea MapEditr.fillArea
  rw [inverseIndices_eq b a h]
  split
  · rfl
  · refine foldlM_same _ (fun l p hp => ?_) _
    rw [rowIdx_eq b p (h.near_of_mem hp), res_bind_ok]

theorem fillBlock_eq (bd : Build) {area : Area} (invert : Bool) (node : Bytes) {pos : Vec3} (b : MapBlock)
    (h : NearArea area) (hp : ValidBlockPos pos) :
    fillBlock bd area invert node pos b = MapEditr.fillBlock bd area invert node pos b := by
  unfold fillBlock MapEditr.fillBlock
  rw [partly_eq bd h hp, res_bind_ok]
  split
  · rw [(fns_eq bd h hp).2.2.2.2, res_bind_ok]
    cases hr : area.relBlockOverlap pos with
    | none => rfl
    | some part =>
      have ho := relBlockOverlap_part hr
      simp only [unwrap, res_bind_ok, fillArea_eq bd _ _ invert ho, volume_part bd ho.near]
      rfl
  · rfl

theorem replacePart_eq (bd : Build) (b : MapBlock) {part : Area} (invert : Bool) (old : Nat)
    (newNode : Bytes) (h : BlockPart part) :
    replacePart bd b part invert old newNode = MapEditr.replacePart bd b part invert old newNode := by
  unfold replacePart MapEditr.replacePart
  have e : part.positions.mapM (nestedIdx bd) =
      .ok (part.positions.map fun p => asUsize (p.x + 16 * (p.y + 16 * p.z))) := by
    refine res_mapM_ok _ _ _ fun p hp => nestedIdx_eq bd p (h.near_of_mem ?_)
    rw [← MapEditr.positions_eq part h.1]
    exact hp
  simp only [inverseIndices_eq bd part h, positions_eq bd part h.near, e, res_bind_ok]
  rfl

theorem doReplace_eq (bd : Build) (b : MapBlock) {key : Int} (old : Nat) (newNode : Bytes)
    {area : Option Area} (invert : Bool) (h : ∀ a, area = some a → NearArea a) (hk : ValidKey key) :
    doReplace bd b key old newNode area invert = MapEditr.doReplace bd b key old newNode area invert := by
  unfold doReplace MapEditr.doReplace
  rw [fromBlockKey_eq bd key hk, res_bind_ok, partArea_eq bd h (valid_pos hk), res_bind_ok]
  simp only
  cases hf : area.filter fun a => MapEditr.partly a (Vec3.fromBlockKey key) with
  | none => rfl
  | some a =>
    have ha : area = some a := by
      rw [Option.filter_eq_some_iff] at hf
      exact hf.1
    simp only
    rw [(fns_eq bd (h a ha) (valid_pos hk)).2.2.2.2, res_bind_ok]
    cases hr : a.relBlockOverlap (Vec3.fromBlockKey key) with
    | none => rfl
    | some part =>
      simp only [unwrap, res_bind_ok]
      exact replacePart_eq bd b invert old newNode (relBlockOverlap_part hr)

theorem setParam2Partial_eq (b : Build) (nd : NodeData) {area : Area} (invert : Bool) (nodeId : Option Nat)
    (val : UInt8) (h : BlockPart area) :
    setParam2Partial b nd area invert nodeId val = MapEditr.setParam2Partial nd area invert nodeId val := by
  unfold setParam2Partial MapEditr.setParam2Partial
  rw [inverseIndices_eq b area h]
  split
  · split
    · rfl
    · simp only [volume_part b h.near, res_bind_ok, Int.toNat_natCast]
      have : u64sub b 4096 area.volume = .ok (4096 - area.volume) := if_pos (volume_le h)
      simp only [this, res_bind_ok]
  · refine foldlM_same _ (fun l p hp => ?_) _
    rw [rowIdx_eq b p (h.near_of_mem hp), res_bind_ok]

theorem param2Block_eq (bd : Build) {area : Option Area} (invert : Bool) (nodeId : Option Nat) (val : UInt8)
    {pos : Vec3} (b : MapBlock) (h : ∀ a, area = some a → NearArea a) (hp : ValidBlockPos pos) :
    param2Block bd area invert nodeId val pos b = MapEditr.param2Block area invert nodeId val pos b := by
  unfold param2Block MapEditr.param2Block
  rw [partArea_eq bd h hp, res_bind_ok]
  cases hf : area.filter fun a => MapEditr.partly a pos with
  | none => rfl
  | some a =>
    have ha : area = some a := by
      rw [Option.filter_eq_some_iff] at hf
      exact hf.1
    simp only
    rw [(fns_eq bd (h a ha) hp).2.2.2.2, res_bind_ok]
    cases hr : a.relBlockOverlap pos with
    | none => rfl
    | some part =>
      simp only [unwrap, res_bind_ok, setParam2Partial_eq bd _ invert nodeId val (relBlockOverlap_part hr)]

/-! Metadata and timers -/

theorem blockCorner_eq (b : Build) {key : Int} (hk : ValidKey key) :
    blockCorner b key = .ok ((Vec3.fromBlockKey key).mulS 16) := by
  unfold blockCorner
  rw [fromBlockKey_eq b key hk, res_bind_ok, vmulS_eq b _ (valid_pos hk)]

theorem absPos_eq (b : Build) {key : Int} (i : Nat) (hk : ValidKey key) :
    vadd b (Vec3.fromU16Key i) ((Vec3.fromBlockKey key).mulS 16) = .ok (absPos key i) := by
  have hp := valid_pos hk
  unfold ValidBlockPos at hp
  unfold absPos
  rw [fromU16Key_eq]
  apply vadd_eq <;> simp only [Vec3.mulS] <;> omega

theorem metaToDelete_eq (b : Build) (args : InstArgs) (nodeId : Option Nat) {key : Int} (nodes : List Nat)
    (l : MetaList) (hk : ValidKey key) :
    metaToDelete b args nodeId ((Vec3.fromBlockKey key).mulS 16) nodes l =
      MapEditr.metaToDelete args nodeId key nodes l := by
  induction l with
  | nil => rfl
  | cons e t ih =>
    obtain ⟨i, m⟩ := e
    unfold metaToDelete MapEditr.metaToDelete
    rw [absPos_eq b i hk, res_bind_ok, ih]

theorem editMetas_eq (b : Build) (args : InstArgs) (ids : List Nat) {key : Int} (nodes : List Nat)
    (edit : NodeMeta → NodeMeta × Nat) (l : MetaList) (hk : ValidKey key) :
    editMetas b args ids ((Vec3.fromBlockKey key).mulS 16) nodes edit l =
      MapEditr.editMetas args ids key nodes edit l := by
  induction l with
  | nil => rfl
  | cons e t ih =>
    obtain ⟨i, m⟩ := e
    unfold editMetas MapEditr.editMetas
    rw [absPos_eq b i hk, res_bind_ok, ih]

theorem timerHit_eq (b : Build) (args : InstArgs) (nodeId : Option Nat) {key : Int} (nodes : List Nat)
    (hk : ValidKey key) : timerHit b args nodeId ((Vec3.fromBlockKey key).mulS 16) nodes =
      MapEditr.timerHit args nodeId key nodes := by
  funext t
  unfold timerHit MapEditr.timerHit
  rw [absPos_eq b t.pos hk, res_bind_ok]

/-! ## Querying -/

theorem run_bind_same {α β : Type} {m m' : Run α} {f g : α → Run β} {w : World} (h : m w = m' w)
    (hf : ∀ a w', m' w = (.ok a, w') → f a w' = g a w') : (m >>= f) w = (m' >>= g) w := by
  rw [run_bind, run_bind, h]
  rcases h1 : m' w with ⟨r, w1⟩
  cases r with
  | error e => rfl
  | ok a => exact hf a w1 h1

/-- Every key of a map database is the key of a block position, and no key occurs twice. -/
structure Fits (t : Table) : Prop where
  valid : ∀ r ∈ t, ValidKey r.1
  nodup : (t.map (·.1)).Nodup

/-- `Q` holds of the rows a database shows, and of those it shows again if the transaction is undone. -/
def KeysFit (Q : Table → Prop) (i : DbId) (w : World) : Prop :=
  ∀ m, w.dbs i = some m → Q m.conn.cur ∧ Q m.conn.durable

section
variable {Q : Table → Prop}

theorem KeysFit.same {i : DbId} {w w' : World} (h : KeysFit Q i w) (e : w'.dbs = w.dbs) : KeysFit Q i w' := by
  intro m hm
  rw [e] at hm
  exact h m hm

theorem KeysFit.set {i j : DbId} {w : World} {m : MapDb} (h : KeysFit Q i w)
    (hm : i = j → Q m.conn.cur ∧ Q m.conn.durable) : KeysFit Q i (w.setDb j m) := by
  intro m' h'
  simp only [World.setDb] at h'
  by_cases e : i = j
  · rw [if_pos e] at h'
    cases h'
    exact hm e
  · rw [if_neg e] at h'
    exact h m' h'

/-- Statements that do not change rows. -/
def Harmless : Sql → Bool
  | .put _ _ => false
  | .del _ => false
  | _ => true

theorem fits_step {c : Conn} {s : Sql} (hs : Harmless s = true) (h : Q c.cur ∧ Q c.durable) :
    Q (c.step s).cur ∧ Q (c.step s).durable := by
  cases s <;> first | exact h | exact ⟨h.1, h.1⟩ | exact ⟨h.2, h.2⟩ | exact absurd hs (by simp [Harmless])

theorem exec_fit {env : Env} {i j : DbId} {s : Sql} {w : World} (hs : Harmless s = true) (h : KeysFit Q i w) :
    KeysFit Q i (exec env j s w).2 := by
  unfold exec
  cases hm : w.dbs j with
  | none => exact h
  | some m =>
    simp only
    split
    · exact h.same rfl
    · split
      · unfold World.failed
        rw [hm]
        simp only
        split
        · refine KeysFit.same (KeysFit.set (j := j) (m := { m with conn := m.conn.step .rollback })
            (KeysFit.same h (w' := w.did j s false) rfl) ?_) rfl
          rintro rfl
          exact fits_step rfl (h m hm)
        · exact h.same rfl
      · refine KeysFit.same (KeysFit.set (j := j) (m := { m with conn := m.conn.step s }) h ?_) rfl
        rintro rfl
        exact fits_step hs (h m hm)

theorem theDb_iff {i : DbId} {w w' : World} {m : MapDb} :
    theDb i w = (.ok m, w') ↔ w.dbs i = some m ∧ w' = w := by
  unfold theDb
  cases h : w.dbs i with
  | none => simp
  | some m' => simp [eq_comm]

theorem begin_fit {env : Env} {i j : DbId} {w : World} (h : KeysFit Q i w) :
    KeysFit Q i (beginIfNeeded env j w).2 := by
  unfold beginIfNeeded
  rw [run_bind]
  rcases h1 : theDb j w with ⟨r, w1⟩
  cases r with
  | error e =>
    unfold theDb at h1
    cases h2 : w.dbs j with
    | none => rw [h2] at h1; cases h1; exact h
    | some m => rw [h2] at h1; cases h1
  | ok m =>
    obtain ⟨-, rfl⟩ := theDb_iff.1 h1
    simp only
    split
    · exact exec_fit rfl h
    · exact h

theorem iterRows_fit {env : Env} {i : DbId} {w w' : World} {rows : Table} (h : KeysFit Q i w)
    (e : iterRows env i w = (.ok rows, w')) : Q rows := by
  unfold iterRows at e
  obtain ⟨ok, w1, e1, e⟩ := run_bind_iff.1 e
  have h1 : KeysFit Q i w1 := by
    have := begin_fit (env := env) (j := i) h
    rw [e1] at this
    exact this
  cases ok with
  | false => exact absurd e (by simp [Run.unwrap, MapEditr.unwrap, Run.lift])
  | true =>
    simp only [if_true] at e
    obtain ⟨ok, w2, e2, e⟩ := run_bind_iff.1 e
    have h2 : KeysFit Q i w2 := by
      have := exec_fit (env := env) (j := i) (s := .selectAll) rfl h1
      rw [e2] at this
      exact this
    cases ok with
    | false => exact absurd e (by simp [Run.unwrap, MapEditr.unwrap, Run.lift])
    | true =>
      simp only [if_true] at e
      obtain ⟨m, w3, e3, e⟩ := run_bind_iff.1 e
      obtain ⟨hm, -⟩ := theDb_iff.1 e3
      cases e
      exact (h2 m hm).1

theorem exec_status {env : Env} {j : DbId} {s : Sql} {w : World} : (exec env j s w).2.status = w.status := by
  unfold exec
  split
  · rfl
  · split
    · rfl
    · split
      · unfold World.failed
        split
        · rfl
        · simp only
          split <;> rfl
      · rfl

theorem iterRows_keeps {env : Env} {i : DbId} {w w' : World} {rows : Table} (h : KeysFit Q i w)
    (e : iterRows env i w = (.ok rows, w')) : KeysFit Q i w' ∧ w'.status = w.status := by
  unfold iterRows at e
  obtain ⟨ok, w1, e1, e⟩ := run_bind_iff.1 e
  have h1 : KeysFit Q i w1 ∧ w1.status = w.status := by
    have h0 := begin_fit (env := env) (j := i) h
    rw [e1] at h0
    refine ⟨h0, ?_⟩
    unfold beginIfNeeded at e1
    obtain ⟨m, w0, e0, e2⟩ := run_bind_iff.1 e1
    obtain ⟨-, rfl⟩ := theDb_iff.1 e0
    split at e2
    · have := exec_status (env := env) (j := i) (s := .begin) (w := w0)
      rw [e2] at this
      exact this
    · cases e2; rfl
  cases ok with
  | false => exact absurd e (by simp [Run.unwrap, MapEditr.unwrap, Run.lift])
  | true =>
    simp only [if_true] at e
    obtain ⟨ok, w2, e2, e⟩ := run_bind_iff.1 e
    have h2 : KeysFit Q i w2 ∧ w2.status = w.status := by
      have h0 := exec_fit (env := env) (j := i) (s := .selectAll) rfl h1.1
      rw [e2] at h0
      refine ⟨h0, ?_⟩
      have := exec_status (env := env) (j := i) (s := .selectAll) (w := w1)
      rw [e2] at this
      exact this.trans h1.2
    cases ok with
    | false => exact absurd e (by simp [Run.unwrap, MapEditr.unwrap, Run.lift])
    | true =>
      simp only [if_true] at e
      obtain ⟨m, w3, e3, e4⟩ := run_bind_iff.1 e
      obtain ⟨hm, rfl⟩ := theDb_iff.1 e3
      cases e4
      exact h2

end

theorem queryArea_eq (b : Build) {area : Option Area} (invert p : Bool) (h : ∀ a, area = some a → NearArea a) :
    queryArea b area invert p = .ok (MapEditr.queryArea area invert p) := by
  unfold queryArea MapEditr.queryArea
  cases area with
  | none => rfl
  | some a =>
    simp only [Option.bind_some]
    split
    · exact (fns_eq b (h a rfl) (bp := ⟨0, 0, 0⟩) (by unfold ValidBlockPos; decide)).2.2.1
    · rfl

theorem queryKeeps_eq (b : Build) (pats : List Bytes) (ba : Option Area) (empty invert : Bool) {key : Int}
    (data : Bytes) (hk : ValidKey key) :
    queryKeeps b pats ba empty invert key data = .ok (MapEditr.queryKeeps pats ba empty invert key data) := by
  unfold queryKeeps MapEditr.queryKeeps
  rw [fromBlockKey_eq b key hk]
  cases empty <;> cases ba <;> rfl

theorem queryKeys_eq {env : Env} {i : DbId} (strs : List Bytes) {area : Option Area} (invert p : Bool)
    {w : World} (h : ∀ a, area = some a → NearArea a) (hw : KeysFit Fits i w) :
    queryKeys env i strs area invert p w = MapEditr.queryKeys env i strs area invert p w := by
  unfold queryKeys MapEditr.queryKeys
  rw [queryArea_eq env.build invert p h]
  refine run_bind_same rfl fun _ w1 h1 => ?_
  have hw1 : KeysFit Fits i w1 := by
    have e : w1 = (setState .querying w).2 := by rw [h1]
    rw [e]
    exact hw.same rfl
  rw [run_lift_ok]
  simp only
  split
  · refine run_bind_same rfl fun rows w2 h2 => ?_
    have hf := iterRows_fit hw1 h2
    refine run_bind_same ?_ fun _ _ _ => rfl
    refine congrFun (foldlM_same _ (fun keys row hr => ?_) _) _
    have hv : ValidKey row.1.1 := hf.valid _ (List.fst_mem_of_mem_zipIdx hr)
    unfold queryStep MapEditr.queryStep
    rw [queryKeeps_eq env.build _ _ _ _ _ hv]
    rfl
  · rfl

/-- The keys found are keys of rows, in their order. -/
theorem queryKeys_sub {Q : Table → Prop} {env : Env} {i : DbId} {strs : List Bytes} {area : Option Area} {invert p : Bool}
    {w w' : World} {keys : List Int} (hw : KeysFit Q i w)
    (e : MapEditr.queryKeys env i strs area invert p w = (.ok keys, w')) :
    KeysFit Q i w' ∧ w'.status.done = w.status.done ∧ w'.status.failed = w.status.failed ∧
      (keys = [] ∨ ∃ rows, Q rows ∧ keys.Sublist (rows.map (·.1))) := by
  unfold MapEditr.queryKeys at e
  obtain ⟨_, w1, h1, e⟩ := run_bind_iff.1 e
  have e1 : w1 = (setState .querying w).2 := by rw [h1]
  have hw1 : KeysFit Q i w1 := by
    rw [e1]
    exact hw.same rfl
  have hend : ∀ (ks : List Int) (v v' : World), (do
      setTotal ks.length
      setState .ignore
      return ks : Run (List Int)) v = (.ok keys, v') → ks = keys ∧ v'.dbs = v.dbs ∧
        v'.status.done = v.status.done ∧ v'.status.failed = v.status.failed := by
    intro ks v v' e
    cases e
    exact ⟨rfl, rfl, rfl, rfl⟩
  simp only at e
  split at e
  · obtain ⟨rows, w2, h2, e⟩ := run_bind_iff.1 e
    have hq := iterRows_fit hw1 h2
    have hw2 := iterRows_keeps hw1 h2
    obtain ⟨n, l, as, hf⟩ := queryStep_fold (MapEditr.queryKeeps (strs.map string16) (MapEditr.queryArea area invert p)
      (area.isSome && (MapEditr.queryArea area invert p).isNone) invert) rows.zipIdx [] w2
    rw [run_bind_ok hf] at e
    obtain ⟨hk, hd, hs1, hs2⟩ := hend _ _ _ e
    refine ⟨hw2.1.same hd, ?_, ?_, .inr ⟨rows, hq, ?_⟩⟩
    · rw [hs1]; show w2.status.done = _; rw [hw2.2, e1]; rfl
    · rw [hs2]; show w2.status.failed = _; rw [hw2.2, e1]; rfl
    · rw [← hk, List.nil_append]
      have h1 : (rows.zipIdx.map fun r => r.1.1) = rows.map (·.1) := by
        have := congrArg (List.map Prod.fst) (List.zipIdx_map_fst 0 rows)
        rw [List.map_map] at this
        exact this
      rw [← h1]
      exact List.filter_sublist.map _
  · obtain ⟨ks, w2, h2, e⟩ := run_bind_iff.1 e
    cases h2
    obtain ⟨hk, hd, hs1, hs2⟩ := hend _ _ _ e
    refine ⟨hw1.same hd, ?_, ?_, .inl hk.symm⟩
    · rw [hs1, e1]; rfl
    · rw [hs2, e1]; rfl

end Checked
end MapEditr
