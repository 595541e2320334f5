import Verif.Proof.CleanAny
import Verif.Proof.Local
/-! # Lemmas: merging blocks, whatever their name tables -/

namespace MapEditr
open Spec

theorem u16_rel (n : Nat) : u16 .release n = .ok (n % 65536) := by
  unfold u16
  split
  · next h => rw [Nat.mod_eq_of_lt h]
  · rfl

theorem u16_release {bd : Build} {n x : Nat} (h : u16 bd n = .ok x) : u16 .release n = .ok x := by
  unfold u16 at h ⊢
  split
  · next hn => rw [if_pos hn] at h; exact h
  · next hn =>
    rw [if_neg hn] at h
    cases bd with
    | debug => cases h
    | release => exact h

theorem u16_debug {n x : Nat} (h : u16 .debug n = .ok x) : n < 65536 ∧ x = n := by
  unfold u16 at h
  split at h
  · next hn => cases h; exact ⟨hn, rfl⟩
  · cases h

theorem foldlM_mono {α β : Type} {f g : β → α → Res β} (h : ∀ b a r, f b a = .ok r → g b a = .ok r)
    {l : List α} {b r : β} (hf : l.foldlM f b = .ok r) : l.foldlM g b = .ok r := by
  induction l generalizing b with
  | nil => exact hf
  | cons a l ih =>
    rw [List.foldlM_cons] at hf ⊢
    obtain ⟨x, h1, h2⟩ := bind_ok_iff.1 hf
    rw [h _ _ _ h1]
    exact ih h2

/-- What a debug build computes without panic, a release build computes too. -/
theorem mergeBlocks_release {bd : Build} {src dst r : MapBlock} {sa da : Area}
    (h : mergeBlocks bd src dst sa da = .ok r) : mergeBlocks .release src dst sa da = .ok r := by
  unfold mergeBlocks at h ⊢
  obtain ⟨_, h1, h⟩ := bind_ok_iff.1 h
  obtain ⟨mx, h2, h⟩ := bind_ok_iff.1 h
  obtain ⟨d, h3, h⟩ := bind_ok_iff.1 h
  obtain ⟨nimap, h4, h⟩ := bind_ok_iff.1 h
  obtain ⟨nodes, h5, h⟩ := bind_ok_iff.1 h
  refine bind_ok_iff.2 ⟨_, h1, bind_ok_iff.2 ⟨mx, h2, bind_ok_iff.2 ⟨d, u16_release h3,
    bind_ok_iff.2 ⟨nimap, foldlM_mono ?_ h4, bind_ok_iff.2 ⟨nodes, foldlM_mono ?_ h5, h⟩⟩⟩⟩⟩
  · intro m e r h
    unfold copyName at h ⊢
    obtain ⟨x, g1, g2⟩ := bind_ok_iff.1 h
    exact bind_ok_iff.2 ⟨x, u16_release g1, g2⟩
  · intro l p r h
    unfold copyNode at h ⊢
    obtain ⟨v, g1, h⟩ := bind_ok_iff.1 h
    obtain ⟨x, g2, g3⟩ := bind_ok_iff.1 h
    exact bind_ok_iff.2 ⟨v, g1, bind_ok_iff.2 ⟨x, u16_release g2, g3⟩⟩

theorem copyNames_debug {d : Nat} {l : List (Nat × Bytes)} {m m' : NameIdMap}
    (h : l.foldlM (copyName .debug d) m = .ok m') : ∀ e ∈ l, e.1 + d < 65536 := by
  induction l generalizing m with
  | nil => intro e he; cases he
  | cons a l ih =>
    rw [List.foldlM_cons] at h
    obtain ⟨x, h1, h2⟩ := bind_ok_iff.1 h
    unfold copyName at h1
    obtain ⟨y, g1, -⟩ := bind_ok_iff.1 h1
    intro e he
    rcases List.mem_cons.1 he with rfl | he
    · exact (u16_debug g1).1
    · exact ih h2 e he

/-- IDs of the name tables cannot overflow: the build would panic, or they are small. -/
def NoWrap (bd : Build) (src dst : NameIdMap) : Prop :=
  bd = .debug ∨ ∃ K S, (∀ e ∈ dst, e.1 ≤ K) ∧ (∀ e ∈ src, e.1 ≤ S) ∧ K + 1 + S < 65536

theorem mergeBlocks_ids {bd : Build} {src dst r : MapBlock} {sa da : Area} (sd : SMap.Sorted dst.nimap)
    (hw : NoWrap bd src.nimap dst.nimap) (h : mergeBlocks bd src dst sa da = .ok r) :
    ∃ M, NameIdMap.maxId dst.nimap = some M ∧ M + 1 < 65536 ∧ ∀ e ∈ src.nimap, e.1 + (M + 1) < 65536 := by
  unfold mergeBlocks at h
  obtain ⟨_, h1, h⟩ := bind_ok_iff.1 h
  obtain ⟨M, h2, h⟩ := bind_ok_iff.1 h
  obtain ⟨d, h3, h⟩ := bind_ok_iff.1 h
  obtain ⟨nimap, h4, h⟩ := bind_ok_iff.1 h
  have hM := unwrap_iff.1 h2
  obtain ⟨hle, v, hv⟩ := maxId_spec sd hM
  rcases hw with rfl | ⟨K, S, k1, k2, k3⟩
  · obtain ⟨g1, rfl⟩ := u16_debug h3
    exact ⟨M, hM, g1, copyNames_debug h4⟩
  · have := k1 _ hv
    simp only at this
    refine ⟨M, hM, by omega, fun e he => ?_⟩
    have := k2 e he
    omega

/-- What `merge_blocks` has done when it returns: nodes with a name keep it. -/
theorem mergeBlocks_any {bd : Build} {src dst r : MapBlock} {sa da : Area} (hs : LocalArea sa)
    (hd : LocalArea da) (hsz : SameSize sa da) (fs : NodesFit src.nd) (fd : NodesFit dst.nd)
    (ss : SMap.Sorted src.nimap) (sd : SMap.Sorted dst.nimap) (hw : NoWrap bd src.nimap dst.nimap)
    (h : mergeBlocks bd src dst sa da = .ok r) :
    ∃ nimap nd, r = { dst with nimap, nd } ∧ NodesFit nd ∧ SMap.Sorted nimap ∧
      (∃ M v, (M, v) ∈ dst.nimap ∧ ∀ e ∈ nimap, e ∈ dst.nimap ∨
        ∃ x ∈ src.nimap, e = (x.1 + (M + 1), x.2) ∧ x.1 + (M + 1) < 65536) ∧
      ∀ i, i < 4096 →
        (da.contains (Vec3.fromU16Key i) = true →
          (∀ n, nodeName src ((i : Int) - dif sa da).toNat = some n → nodeName r i = some n) ∧
          nd.param1[i]? = src.nd.param1[((i : Int) - dif sa da).toNat]? ∧
          nd.param2[i]? = src.nd.param2[((i : Int) - dif sa da).toNat]?) ∧
        (¬ da.contains (Vec3.fromU16Key i) = true →
          (∀ n, nodeName dst i = some n → nodeName r i = some n) ∧
          nd.param1[i]? = dst.nd.param1[i]? ∧ nd.param2[i]? = dst.nd.param2[i]?) := by
  obtain ⟨M, hM, hM2, hk⟩ := mergeBlocks_ids sd hw h
  obtain ⟨hle, vM, hvM⟩ := maxId_spec sd hM
  obtain ⟨nimap, nodes, p1, p2, h1, h2, h3, h4, h5, h6, h7, h8⟩ := mergeBlocks_gen .release
    (fun id => (id + (M + 1)) % 65536) hs hd hsz ⟨fs.1, fs.2.2.1, fs.2.2.2⟩ ⟨fd.1, fd.2.2.1, fd.2.2.2⟩ ss sd hM
    (fun id _ => u16_rel _) hk hM2
  have hr := mergeBlocks_release h
  rw [h1] at hr
  cases hr
  refine ⟨nimap, ⟨nodes, p1, p2⟩, rfl, ⟨h5, ?_, h6, h7⟩, h3, ⟨M, vM, hvM, ?_⟩, ?_⟩
  · intro id hid
    change id ∈ nodes at hid
    obtain ⟨i, hi⟩ := List.mem_iff_getElem?.1 hid
    have hlt : i < 4096 := by
      rcases Nat.lt_or_ge i 4096 with h | h
      · exact h
      · rw [List.getElem?_eq_none (by omega)] at hi; cases hi
    by_cases hc : da.contains (Vec3.fromU16Key i) = true
    · rw [((h8 i hlt).1 hc).1, Option.map_eq_some_iff] at hi
      obtain ⟨j, hj, rfl⟩ := hi
      omega
    · rw [((h8 i hlt).2 hc).1] at hi
      exact fd.2.1 id (List.mem_of_getElem? hi)
  · intro e he
    rw [h2] at he
    rcases SMap.mem_insertAll he with h | h
    · exact Or.inl h
    · obtain ⟨x, hx, rfl⟩ := List.mem_map.1 h
      exact Or.inr ⟨x, hx, rfl, hk x hx⟩
  · intro i hi
    constructor
    · intro hc
      obtain ⟨a1, a2, a3⟩ := (h8 i hi).1 hc
      refine ⟨?_, a2, a3⟩
      intro n hn
      unfold nodeName at hn ⊢
      simp only
      rw [a1]
      cases hj : src.nd.nodes[((i : Int) - dif sa da).toNat]? with
      | none => rw [hj] at hn; cases hn
      | some id =>
        rw [hj] at hn
        have hlt := hk _ (SMap.get?_some_mem hn)
        simp only [Option.map_some] at hlt ⊢
        rw [Nat.mod_eq_of_lt hlt, h4, if_neg (by omega), ← hn]
        simp only [show id + (M + 1) - (M + 1) = id by omega]
    · intro hc
      obtain ⟨a1, a2, a3⟩ := (h8 i hi).2 hc
      refine ⟨?_, a2, a3⟩
      intro n hn
      unfold nodeName at hn ⊢
      simp only
      rw [a1]
      cases hj : dst.nd.nodes[i]? with
      | none => rw [hj] at hn; cases hn
      | some id =>
        rw [hj] at hn
        have hlt := hle _ (SMap.get?_some_mem hn)
        simp only at hlt ⊢
        rw [h4, if_pos hlt]
        exact hn

/-! ## When merging works -/

/-- Blocks that can be merged: no node ID exceeds all IDs of the table, which are at most `K`. -/
structure Joinable (K : Nat) (b : MapBlock) : Prop where
  fit : NodesFit b.nd
  sorted : SMap.Sorted b.nimap
  covered : Covered b
  ids : ∀ e ∈ b.nimap, e.1 ≤ K

theorem Joinable.ne {K : Nat} {b : MapBlock} (h : Joinable K b) : b.nd.nodes ≠ [] := by
  intro he
  have := h.fit.1
  rw [he] at this
  cases this

theorem Joinable.nimap_ne {K : Nat} {b : MapBlock} (h : Joinable K b) : b.nimap ≠ [] := by
  intro he
  obtain ⟨id, hmem⟩ := List.exists_mem_of_ne_nil _ h.ne
  obtain ⟨e, h1, -⟩ := h.covered id hmem
  rw [he] at h1
  cases h1

theorem Joinable.nodes {K : Nat} {b : MapBlock} (h : Joinable K b) : ∀ id ∈ b.nd.nodes, id ≤ K := by
  intro id hid
  obtain ⟨e, h1, h2⟩ := h.covered id hid
  exact Nat.le_trans h2 (h.ids e h1)

theorem Joinable.mono {K L : Nat} {b : MapBlock} (h : Joinable K b) (hl : K ≤ L) : Joinable L b :=
  ⟨h.fit, h.sorted, h.covered, fun e he => Nat.le_trans (h.ids e he) hl⟩

theorem Joinable.metas {K : Nat} {b : MapBlock} (h : Joinable K b) (metas : MetaList) :
    Joinable K { b with metas } := ⟨h.fit, h.sorted, h.covered, h.ids⟩

theorem join (bd : Build) {src dst : MapBlock} {sa da : Area} {S K : Nat} (hs : LocalArea sa)
    (hd : LocalArea da) (hsz : SameSize sa da) (ms : Joinable S src) (md : Joinable K dst)
    (hb : K + 1 + S < 65536) : ∃ r, mergeBlocks bd src dst sa da = .ok r ∧ Joinable (K + 1 + S) r := by
  obtain ⟨M, hM⟩ := maxId_exists md.nimap_ne
  obtain ⟨hle, vM, hvM⟩ := maxId_spec md.sorted hM
  have hMK : M ≤ K := md.ids _ hvM
  obtain ⟨nimap, nodes, p1, p2, h1, h2, h3, h4, h5, h6, h7, h8⟩ := mergeBlocks_spec bd (src := src) (dst := dst)
    hs hd hsz ⟨ms.fit.1, ms.fit.2.2.1, ms.fit.2.2.2⟩ ⟨md.fit.1, md.fit.2.2.1, md.fit.2.2.2⟩ ms.sorted md.sorted hM
    (by intro id h; have := ms.nodes id h; omega) (by intro e h; have := ms.ids e h; omega) (by omega)
  have hmem : ∀ id ∈ nodes, (∃ j ∈ src.nd.nodes, id = j + (M + 1)) ∨ id ∈ dst.nd.nodes := by
    intro id hid
    obtain ⟨i, hi⟩ := List.mem_iff_getElem?.1 hid
    have hlt : i < 4096 := by
      rcases Nat.lt_or_ge i 4096 with h | h
      · exact h
      · rw [List.getElem?_eq_none (by omega)] at hi; cases hi
    by_cases hc : da.contains (Vec3.fromU16Key i) = true
    · rw [((h8 i hlt).1 hc).1, Option.map_eq_some_iff] at hi
      obtain ⟨j, hj, rfl⟩ := hi
      exact Or.inl ⟨j, List.mem_of_getElem? hj, rfl⟩
    · rw [((h8 i hlt).2 hc).1] at hi
      exact Or.inr (List.mem_of_getElem? hi)
  have hget1 : ∀ x ∈ src.nimap, ∃ v, (x.1 + (M + 1), v) ∈ nimap := by
    intro x hx
    refine ⟨x.2, SMap.get?_some_mem ?_⟩
    rw [h4, if_neg (by omega), show x.1 + (M + 1) - (M + 1) = x.1 by omega]
    exact SMap.get?_of_mem ms.sorted hx
  have hget2 : (M, vM) ∈ nimap := by
    refine SMap.get?_some_mem ?_
    rw [h4, if_pos (Nat.le_refl _)]
    exact SMap.get?_of_mem md.sorted hvM
  refine ⟨_, h1, ⟨h5, ?_, h6, h7⟩, h3, ?_, ?_⟩
  · intro id hid
    rcases hmem id hid with ⟨j, hj, rfl⟩ | h
    · have := ms.nodes j hj; omega
    · exact md.fit.2.1 id h
  · intro id hid
    rcases hmem id hid with ⟨j, hj, rfl⟩ | h
    · obtain ⟨x, g1, g2⟩ := ms.covered j hj
      obtain ⟨v, g3⟩ := hget1 x g1
      exact ⟨_, g3, by simp only; omega⟩
    · obtain ⟨x, g1, g2⟩ := md.covered id h
      exact ⟨_, hget2, Nat.le_trans g2 (hle x g1)⟩
  · intro e he
    change e ∈ nimap at he
    rw [h2] at he
    rcases SMap.mem_insertAll he with h | h
    · have := md.ids e h; omega
    · obtain ⟨x, hx, rfl⟩ := List.mem_map.1 h
      have := ms.ids x hx
      simp only
      omega

end MapEditr
