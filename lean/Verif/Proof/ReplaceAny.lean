import Verif.Proof.Replace
import Verif.Proof.CleanAny
/-! # Lemmas: what `replacenodes` has done to a block when it returns

Without assuming that all node IDs have names. -/

namespace MapEditr
open Spec
set_option linter.unusedSimpArgs false
set_option linter.unusedVariables false

/-- A name table in order; names may still be too long. -/
structure TableOk (m : NameIdMap) : Prop where
  sorted : SMap.Sorted m
  ids : ∀ e ∈ m, e.1 < 65536
  uniq : ∀ i j n, SMap.get? m i = some n → SMap.get? m j = some n → i = j

/-- The table has room for `new`, or has it: in a release build the last ID may only be that of `new`. -/
structure Room (bd : Build) (new : Bytes) (m : NameIdMap) : Prop where
  count : (∀ e ∈ m, e.2 ≠ new) → m.length < 65535
  last : bd = .release → ∀ e ∈ m, e.1 = 65535 → e.2 = new

theorem removeShift_any {bd : Build} {m r : NameIdMap} (h : TableOk m) {old : Nat}
    (hrel : bd = .release → old < 65535) (hok : NameIdMap.removeShift bd m old = .ok r) :
    TableOk r ∧ (∀ e ∈ r, e.1 < 65535) ∧ (∀ j, j ≠ old → SMap.get? r (shiftId old j) = SMap.get? m j) ∧
      r.length ≤ m.length := by
  have ho : old < 65535 := by
    unfold NameIdMap.removeShift at hok
    simp only [bind_ok_iff] at hok
    obtain ⟨lo, h1, -⟩ := hok
    cases bd with
    | release => exact hrel rfl
    | debug =>
      unfold u16 at h1
      split at h1
      · omega
      · cases h1
  obtain ⟨r', h1, h2, h3⟩ := removeShift_spec bd h.sorted h.ids ho
  rw [hok] at h1
  cases h1
  have hsm : ∀ e ∈ r, e.1 < 65535 := by
    intro e he
    have h4 := SMap.get?_of_mem h2 he
    rw [h3] at h4
    split at h4
    · omega
    · have := h.ids _ (SMap.get?_some_mem h4)
      simp only at this
      omega
  refine ⟨⟨h2, fun e he => by have := hsm e he; omega, ?_⟩, hsm, fun j hj => shift_lookup h3 hj, ?_⟩
  · intro i j n hi hj
    rw [h3] at hi hj
    split at hi <;> split at hj
    · exact h.uniq _ _ _ hi hj
    · have := h.uniq _ _ _ hi hj; omega
    · have := h.uniq _ _ _ hi hj; omega
    · have := h.uniq _ _ _ hi hj; omega
  · have hk : ∀ e ∈ r, (if e.1 < old then e.1 else e.1 + 1) ∈ m.map (·.1) := by
      intro e he
      have h4 := SMap.get?_of_mem h2 he
      rw [h3] at h4
      split at h4
      · next hc => rw [if_pos hc]; exact List.mem_map.2 ⟨_, SMap.get?_some_mem h4, rfl⟩
      · next hc => rw [if_neg hc]; exact List.mem_map.2 ⟨_, SMap.get?_some_mem h4, rfl⟩
    have hn : (r.map fun e => if e.1 < old then e.1 else e.1 + 1).Nodup := by
      rw [List.Nodup, List.pairwise_map]
      refine List.Pairwise.imp ?_ h2
      intro x y hxy
      have hxy : x.1 < y.1 := by simpa [KeyOrd.lt] using hxy
      split <;> split <;> omega
    have := hn.length_le_of_subset (l₂ := m.map (·.1)) (by
      intro x hx
      obtain ⟨e, he, rfl⟩ := List.mem_map.1 hx
      exact hk e he)
    simpa using this

theorem insert_any {m : NameIdMap} (h : TableOk m) {id : Nat} {name : Bytes} (hid : id < 65536)
    (hn : ∀ e ∈ m, e.2 ≠ name) : TableOk (SMap.insert m id name) := by
  refine ⟨SMap.sorted_insert h.sorted _ _, ?_, ?_⟩
  · intro e he
    rcases SMap.mem_insert he with rfl | he
    · exact hid
    · exact h.ids e he
  · intro i j n hi hj
    rw [SMap.get?_insert] at hi hj
    have hx : ∀ k, SMap.get? m k ≠ some name := fun k hk => hn _ (SMap.get?_some_mem hk) rfl
    by_cases h1 : id = i
    · by_cases h2 : id = j
      · omega
      · rw [if_pos (by simpa using h1)] at hi
        rw [if_neg (by simpa using h2)] at hj
        cases hi
        exact absurd hj (hx j)
    · rw [if_neg (by simpa using h1)] at hi
      by_cases h2 : id = j
      · rw [if_pos (by simpa using h2)] at hj
        cases hj
        exact absurd hi (hx i)
      · rw [if_neg (by simpa using h2)] at hj
        exact h.uniq _ _ _ hi hj

/-- Nodes `nodes` with the names `m` are the nodes of `b`, replaced where `P`. -/
structure ReplAny (bd : Build) (b : MapBlock) (new : Bytes) (P : Nat → Prop) (m : NameIdMap) (nodes : List Nat) : Prop where
  table : TableOk m
  count : m.length < 65536
  len : nodes.length = 4096
  small : ∀ v ∈ nodes, v < 65536
  hit : ∀ i v, nodes[i]? = some v → P i → SMap.get? m v = some new
  keep : ∀ i v, nodes[i]? = some v → ¬ P i → ∀ nm, nodeName b i = some nm → SMap.get? m v = some nm
  none : ∀ i v, nodes[i]? = some v → nodeName b i = none →
    SMap.get? m v = none ∨ (SMap.get? m v = some new ∧ ∃ j, j < 4096 ∧ P j)
  room : Room bd new m

theorem length_le_65535 {m : NameIdMap} (hs : SMap.Sorted m) (h : ∀ e ∈ m, e.1 < 65535) : m.length < 65536 := by
  have := nimap_length_le (K := 65534) hs (fun e he => by have := h e he; omega)
  omega

theorem length_insert_le {m : NameIdMap} (id : Nat) (name : Bytes) : (SMap.insert m id name).length ≤ m.length + 1 := by
  induction m with
  | nil => simp [SMap.insert]
  | cons e t ih =>
    unfold SMap.insert
    split
    · simp
    · split
      · simp
      · simp only [List.length_cons]; omega

/-- All nodes of the block. -/
theorem replaceWhole_any {bd br : Build} {b b' : MapBlock} (h : Wf b) (hu : UniqueNames b) {n : Nat}
    {oldNode newNode : Bytes} (hne : oldNode ≠ newNode) (hbr : bd = .release → br = .release) (hr : Room br newNode b.nimap) {old : Nat}
    (hold : NameIdMap.getId b.nimap oldNode = some old) (hok : replaceWhole bd b old newNode = .ok (b', n)) :
    n = (countNodes fun i => nodeName b i = some oldNode) ∧
    ∃ m nodes, b' = withNodes b m nodes ∧ ReplAny br b newNode (fun i => nodeName b i = some oldNode) m nodes := by
  have hT : TableOk b.nimap := ⟨h.nimap.sorted, fun e he => (h.nimap.fits.2 e he).1, hu⟩
  have hmem := getId_some hold
  have hget := SMap.get?_of_mem h.nimap.sorted hmem
  have hnode := getId_node h hu hold
  have hcnt : (b.nd.nodes.filter fun id => id == old).length = countNodes fun i => nodeName b i = some oldNode := by
    rw [filter_range h.nodes.1]
    exact countNodes_congr fun i _ => hnode i
  have holt : old < 65536 := hT.ids _ hmem
  unfold replaceWhole at hok
  simp only [hcnt] at hok
  cases hg : NameIdMap.getId b.nimap newNode with
  | some newId =>
    rw [hg] at hok
    simp only [bind_ok_iff] at hok
    obtain ⟨r, r1, hok⟩ := hok
    cases hok
    have hgn := SMap.get?_of_mem h.nimap.sorted (getId_some hg)
    have hne' : newId ≠ old := by
      rintro rfl
      rw [hget] at hgn
      exact hne (Option.some.inj hgn)
    obtain ⟨r2, r3, r4, r5⟩ := removeShift_any hT (fun hb => by
      rcases Nat.lt_or_ge old 65535 with hx | hx
      · exact hx
      · exact absurd (hr.last (hbr hb) _ hmem (by show old = 65535; omega)) hne) r1
    have hid : ∀ i v, (b.nd.nodes.map fun id => if id == old then (if newId > old then newId - 1 else newId)
        else if id > old then id - 1 else id)[i]? = some v →
        (nodeName b i = some oldNode ∧ v = shiftId old newId) ∨
        (¬ nodeName b i = some oldNode ∧ ∃ id, b.nd.nodes[i]? = some id ∧ id ≠ old ∧ v = shiftId old id) := by
      intro i v hv
      rw [List.getElem?_map] at hv
      cases hi : b.nd.nodes[i]? with
      | none => rw [hi] at hv; cases hv
      | some id =>
        rw [hi] at hv
        simp only [Option.map_some, Option.some.injEq] at hv
        subst hv
        by_cases hid : id = old
        · subst hid
          exact .inl ⟨(hnode i).1 hi, by simp [shiftId]⟩
        · refine .inr ⟨fun hc => hid (by
            have := (hnode i).2 hc; rw [hi] at this; exact Option.some.inj this), id, rfl, hid, ?_⟩
          rw [if_neg (show ¬ (id == old) = true by simpa using hid)]
          rfl
    have hsl : ∀ x, shiftId old x ≤ x := by
      intro x
      unfold shiftId
      split <;> omega
    refine ⟨rfl, r, _, rfl, r2, length_le_65535 r2.sorted r3, by rw [List.length_map]; exact h.nodes.1, ?_, ?_, ?_, ?_, ?_⟩
    · intro v hv
      obtain ⟨i, hi⟩ := List.mem_iff_getElem?.1 hv
      rcases hid i v hi with ⟨-, rfl⟩ | ⟨-, id, k1, -, rfl⟩
      · exact Nat.lt_of_le_of_lt (hsl _) (hT.ids _ (getId_some hg))
      · exact Nat.lt_of_le_of_lt (hsl _) (h.nodes.2.1 _ (List.mem_iff_getElem?.2 ⟨i, k1⟩))
    · intro i v hv hP
      rcases hid i v hv with ⟨-, rfl⟩ | ⟨hn, -⟩
      · rw [r4 newId hne']; exact hgn
      · exact absurd hP hn
    · intro i v hv hP nm hnm
      rcases hid i v hv with ⟨hn, -⟩ | ⟨-, id, k1, k2, rfl⟩
      · exact absurd hn hP
      · rw [r4 id k2]
        unfold nodeName at hnm
        rw [k1] at hnm
        exact hnm
    · intro i v hv hnone
      rcases hid i v hv with ⟨hn, -⟩ | ⟨-, id, k1, k2, rfl⟩
      · rw [hn] at hnone; cases hnone
      · rw [r4 id k2]
        unfold nodeName at hnone
        rw [k1] at hnone
        exact .inl hnone
    · refine ⟨fun _ => ?_, fun hb e he h5 => ?_⟩
      · rcases Nat.lt_or_ge r.length 65535 with hx | hx
        · exact hx
        · next habs =>
          have := r4 newId hne'
          rw [hgn] at this
          exact absurd rfl (habs _ (SMap.get?_some_mem this))
      · have := r3 e he; omega
  | none =>
    rw [hg] at hok
    cases hok
    have hab := getId_none.1 hg
    have hl : (SMap.insert b.nimap old newNode).length < 65536 := by
      have h1 := length_insert_le (m := b.nimap) old newNode
      have h2 := hr.count hab
      omega
    refine ⟨rfl, SMap.insert b.nimap old newNode, b.nd.nodes, rfl, insert_any hT holt hab, hl, h.nodes.1,
      h.nodes.2.1, ?_, ?_, ?_, ?_⟩
    · intro i v hv hP
      have := (hnode i).2 hP
      rw [hv] at this
      cases this
      rw [SMap.get?_insert]
      simp
    · intro i v hv hP nm hnm
      have hid : old ≠ v := fun hid => hP ((hnode i).1 (hid ▸ hv))
      rw [SMap.get?_insert, if_neg (by simpa using hid)]
      unfold nodeName at hnm
      rw [hv] at hnm
      exact hnm
    · intro i v hv hnone
      unfold nodeName at hnone
      rw [hv] at hnone
      simp only at hnone
      rw [SMap.get?_insert, if_neg]
      · exact .inl hnone
      · intro hc
        rw [← (show old = v by simpa using hc), hget] at hnone
        cases hnone
    · refine ⟨fun habs => ?_, fun hb e he h5 => ?_⟩
      · exact absurd rfl (habs (old, newNode) (SMap.get?_some_mem (by rw [SMap.get?_insert]; simp)))
      · rcases SMap.mem_insert he with rfl | he
        · rfl
        · exact hr.last hb e he h5

/-- The end of `replacePart`: names and nodes after the loop, before an unused name is removed. -/
theorem replaceRest_any {bd br : Build} {b b' : MapBlock} {newNode : Bytes} {P : Nat → Prop} {m : NameIdMap} {nodes : List Nat}
    {old n n' : Nat} (hrel : bd = .release → old < 65535) (hnew : SMap.get? m old ≠ some newNode) (h : ReplAny br b newNode P m nodes)
    (hok : (if !(nodes.contains old) then do
        let nodes := nodes.map fun id => if id > old then id - 1 else id
        let nimap ← NameIdMap.removeShift bd m old
        return (withNodes b nimap nodes, n)
      else return (withNodes b m nodes, n) : Res (MapBlock × Nat)) = .ok (b', n')) :
    n' = n ∧ ∃ m' nodes', b' = withNodes b m' nodes' ∧ ReplAny br b newNode P m' nodes' := by
  by_cases hc : nodes.contains old = true
  · rw [hc, if_neg (by simp)] at hok
    cases hok
    exact ⟨rfl, m, nodes, rfl, h⟩
  · rw [if_pos (by simpa using hc)] at hok
    simp only [bind_ok_iff] at hok
    obtain ⟨r, r1, hok⟩ := hok
    cases hok
    obtain ⟨r2, r3, r4, r5⟩ := removeShift_any h.table hrel r1
    have hid : ∀ (i v : Nat), (nodes.map fun (id : Nat) => if id > old then id - 1 else id)[i]? = some v →
        ∃ id : Nat, nodes[i]? = some id ∧ id ≠ old ∧ v = shiftId old id := by
      intro i v hv
      rw [List.getElem?_map] at hv
      cases hi : nodes[i]? with
      | none => rw [hi] at hv; cases hv
      | some id =>
        rw [hi] at hv
        simp only [Option.map_some, Option.some.injEq] at hv
        subst hv
        refine ⟨id, rfl, ?_, rfl⟩
        rintro rfl
        exact hc (List.contains_iff_mem.2 (List.mem_iff_getElem?.2 ⟨i, hi⟩))
    have hsl : ∀ x, shiftId old x ≤ x := by
      intro x
      unfold shiftId
      split <;> omega
    refine ⟨rfl, r, _, rfl, r2, length_le_65535 r2.sorted r3, by rw [List.length_map]; exact h.len, ?_, ?_, ?_, ?_, ?_⟩
    · intro v hv
      obtain ⟨i, hi⟩ := List.mem_iff_getElem?.1 hv
      obtain ⟨id, k1, -, rfl⟩ := hid i v hi
      exact Nat.lt_of_le_of_lt (hsl _) (h.small _ (List.mem_iff_getElem?.2 ⟨i, k1⟩))
    · intro i v hv hP
      obtain ⟨id, k1, k2, rfl⟩ := hid i v hv
      rw [r4 id k2]
      exact h.hit i id k1 hP
    · intro i v hv hP nm hnm
      obtain ⟨id, k1, k2, rfl⟩ := hid i v hv
      rw [r4 id k2]
      exact h.keep i id k1 hP nm hnm
    · intro i v hv hnone
      obtain ⟨id, k1, k2, rfl⟩ := hid i v hv
      rw [r4 id k2]
      exact h.none i id k1 hnone
    · refine ⟨fun habs => ?_, fun hb e he h5 => ?_⟩
      · have := h.room.count fun e he hn => by
          have hne : e.1 ≠ old := by
            intro hc
            exact hnew (hc ▸ hn ▸ SMap.get?_of_mem h.table.sorted he)
          have h6 := r4 e.1 hne
          rw [SMap.get?_of_mem h.table.sorted he] at h6
          exact habs _ (SMap.get?_some_mem h6) hn
        omega
      · have := r3 e he; omega

/-- The selected nodes of the block. -/
theorem replacePart_any {bd br : Build} {b b' : MapBlock} (h : Wf b) (hu : UniqueNames b) {n : Nat}
    {oldNode newNode : Bytes} (hne : oldNode ≠ newNode) (hbr : bd = .release → br = .release) (hr : Room br newNode b.nimap) {old : Nat}
    (hold : NameIdMap.getId b.nimap oldNode = some old) {part : Area} (hp : LocalArea part) (invert : Bool)
    {S : Nat → Prop} [DecidablePred S] (hnd : (selIdx part invert).Nodup)
    (hsel : ∀ i, i ∈ selIdx part invert ↔ i < 4096 ∧ S i)
    (hok : replacePart bd b part invert old newNode = .ok (b', n)) :
    n = (countNodes fun i => S i ∧ nodeName b i = some oldNode) ∧
    ∃ m nodes, b' = withNodes b m nodes ∧
      ReplAny br b newNode (fun i => S i ∧ nodeName b i = some oldNode) m nodes := by
  have hT : TableOk b.nimap := ⟨h.nimap.sorted, fun e he => (h.nimap.fits.2 e he).1, hu⟩
  have hmem := getId_some hold
  have hget := SMap.get?_of_mem h.nimap.sorted hmem
  have hnode := getId_node h hu hold
  have holt : old < 65536 := hT.ids _ hmem
  have hlen := h.nodes.1
  have hrel : bd = .release → old < 65535 := fun hb => by
    rcases Nat.lt_or_ge old 65535 with hx | hx
    · exact hx
    · exact absurd (hr.last (hbr hb) _ hmem (by show old = 65535; omega)) hne
  have hhit : ∀ i, idHit b.nd.nodes (some old) i = true ↔ nodeName b i = some oldNode := by
    intro i
    rw [← hnode i]
    unfold idHit
    simp
  have hcnt : ((selIdx part invert).filter (idHit b.nd.nodes (some old))).length =
      countNodes fun i => S i ∧ nodeName b i = some oldNode := by
    refine length_eq_count (hnd.filter _) ?_
    intro i
    rw [List.mem_filter, hsel i, hhit i, and_assoc]
  have hloop : ∀ newId, ∃ l', (selIdx part invert).foldlM (replaceAt old newId) (b.nd.nodes, 0) =
        .ok (l', countNodes fun i => S i ∧ nodeName b i = some oldNode) ∧ l'.length = 4096 ∧
      ∀ i : Nat, i < 4096 → l'[i]? = if S i ∧ nodeName b i = some oldNode then some newId else b.nd.nodes[i]? := by
    intro newId
    obtain ⟨l', e1, e2, e3⟩ := foldlM_count (replaceAt old newId) (idHit b.nd.nodes (some old)) newId
      b.nd.nodes (selIdx part invert) hnd (fun i hi => by rw [hlen]; exact ((hsel i).1 hi).1)
      (fun i hi l n hl' he => replaceAt_step hl' (by rw [hlen]; exact ((hsel i).1 hi).1) he) 0
    refine ⟨l', by rw [e1, hcnt, Nat.zero_add], by rw [e2, hlen], fun i hi => ?_⟩
    split
    · next hc => exact (e3 i).1 ⟨(hsel i).2 ⟨hi, hc.1⟩, (hhit i).2 hc.2⟩
    · next hc => exact (e3 i).2 fun hx => hc ⟨((hsel i).1 hx.1).2, (hhit i).1 hx.2⟩
  have hpos : ∀ i, i < 4096 → (S i ∧ nodeName b i = some oldNode) →
      (countNodes fun i => S i ∧ nodeName b i = some oldNode) > 0 := by
    intro i hi hc
    refine Nat.pos_of_ne_zero fun h0 => ?_
    exact countNodes_eq_zero.1 h0 i hi hc
  -- names and nodes after the loop
  have hmid : ∀ (newId : Nat) (m1 : NameIdMap) (l' : List Nat), newId < 65536 → l'.length = 4096 →
      (∀ i : Nat, i < 4096 → l'[i]? = if S i ∧ nodeName b i = some oldNode then some newId else b.nd.nodes[i]?) →
      TableOk m1 → m1.length < 65536 → Room br newNode m1 →
      (∀ j v, SMap.get? b.nimap j = some v → SMap.get? m1 j = some v) →
      (∀ j, SMap.get? b.nimap j = none → SMap.get? m1 j = none ∨
        (SMap.get? m1 j = some newNode ∧ (countNodes fun i => S i ∧ nodeName b i = some oldNode) > 0)) →
      ((countNodes fun i => S i ∧ nodeName b i = some oldNode) > 0 → SMap.get? m1 newId = some newNode) →
      ReplAny br b newNode (fun i => S i ∧ nodeName b i = some oldNode) m1 l' := by
    intro newId m1 l' k0 k1 k2 k3 k4 k5 k6 k7 k8
    have hi : ∀ i v, l'[i]? = some v → i < 4096 := by
      intro i v hv
      rw [← k1]; exact (List.getElem?_eq_some_iff.1 hv).1
    refine ⟨k3, k4, k1, ?_, ?_, ?_, ?_, k5⟩
    · intro v hv
      obtain ⟨i, hi'⟩ := List.mem_iff_getElem?.1 hv
      have hx := hi'
      rw [k2 i (hi _ _ hi')] at hx
      split at hx
      · cases hx; exact k0
      · exact h.nodes.2.1 _ (List.mem_iff_getElem?.2 ⟨i, hx⟩)
    · intro i v hv hc
      have hx := hv
      rw [k2 i (hi _ _ hv), if_pos hc] at hx
      cases hx
      exact k8 (hpos i (hi _ _ hv) hc)
    · intro i v hv hc nm hnm
      rw [k2 i (hi _ _ hv), if_neg hc] at hv
      unfold nodeName at hnm
      rw [hv] at hnm
      exact k6 v nm hnm
    · intro i v hv hnone
      rw [k2 i (hi _ _ hv), if_neg (fun hc => by rw [hc.2] at hnone; cases hnone)] at hv
      unfold nodeName at hnone
      rw [hv] at hnone
      refine (k7 v hnone).imp_right fun hc => ⟨hc.1, ?_⟩
      refine Classical.byContradiction fun hno => ?_
      have := countNodes_zero (P := fun i => S i ∧ nodeName b i = some oldNode) fun j hj hx => hno ⟨j, hj, hx⟩
      omega
  have hidxT : inverseIndices part = .ok (selIdx part true) := inverseIndices_sel hp
  have hv : part.isValid := by
    unfold LocalArea at hp
    unfold Area.isValid
    simp
    omega
  have hidxF : (part.positions.map fun p => asUsize (p.x + 16 * (p.y + 16 * p.z))) = selIdx part false := by
    rw [positions_eq part hv]
    rfl
  unfold replacePart at hok
  cases hg : NameIdMap.getId b.nimap newNode with
  | some newId =>
    obtain ⟨l', f1, f2, f3⟩ := hloop newId
    have hgn := SMap.get?_of_mem h.nimap.sorted (getId_some hg)
    have hR := hmid newId b.nimap l' (hT.ids _ (getId_some hg)) f2 f3 hT h.nimap.fits.1 hr (fun _ _ h => h)
      (fun _ h => .inl h) fun _ => hgn
    refine replaceRest_any (n := countNodes fun i => S i ∧ nodeName b i = some oldNode) hrel
      (by rw [hget]; simpa using hne) hR ?_
    rw [← hok]
    cases invert <;>
      simp only [hg, hidxT, hidxF, res_bind_ok, res_pure, f1, Bool.false_and, Bool.false_eq_true, if_false, if_true] <;> rfl
  | none =>
    have hab := getId_none.1 hg
    rw [hg] at hok
    cases hmx : NameIdMap.maxId b.nimap with
    | none => rw [hmx] at hok; cases hok
    | some mx =>
      obtain ⟨h5, v, hv5⟩ := maxId_spec h.nimap.sorted hmx
      have hmx65 : mx < 65536 := hT.ids _ hv5
      have hmx' : mx + 1 < 65536 := by
        rcases Nat.lt_or_ge (mx + 1) 65536 with hx | hx
        · exact hx
        · cases bd with
          | release =>
            exact absurd (hr.last (hbr rfl) _ hv5 (by show mx = 65535; omega)) (hab _ hv5)
          | debug =>
            exfalso
            simp only [hmx, unwrap, res_bind_ok, u16] at hok
            rw [if_neg (by omega)] at hok
            cases hok
      obtain ⟨l', f1, f2, f3⟩ := hloop (mx + 1)
      have hne' : old ≠ mx + 1 := by have := h5 _ hmem; simp only at this; omega
      have hR := hmid (mx + 1) (if (countNodes fun i => S i ∧ nodeName b i = some oldNode) > 0 then
          SMap.insert b.nimap (mx + 1) newNode else b.nimap) l' hmx' f2 f3
        (by
          split
          · exact insert_any hT hmx' hab
          · exact hT)
        (by
          split
          · have h1 := length_insert_le (m := b.nimap) (mx + 1) newNode
            have h2 := hr.count hab
            omega
          · exact h.nimap.fits.1)
        (by
          split
          · refine ⟨fun habs => ?_, fun hb e he h5 => ?_⟩
            · exact absurd rfl (habs (mx + 1, newNode) (SMap.get?_some_mem (by rw [SMap.get?_insert]; simp)))
            · rcases SMap.mem_insert he with rfl | he
              · rfl
              · exact hr.last hb e he h5
          · exact hr)
        (by
          intro j v hv
          split
          · exact get?_lt_insert h5 hv
          · exact hv)
        (by
          intro j hj
          split
          · next hpos =>
            rw [SMap.get?_insert]
            split
            · exact .inr ⟨rfl, hpos⟩
            · exact .inl hj
          · exact .inl hj)
        (by
          intro hc
          rw [if_pos hc, SMap.get?_insert]
          simp)
      refine replaceRest_any (n := countNodes fun i => S i ∧ nodeName b i = some oldNode) hrel ?_ hR ?_
      · split
        · rw [SMap.get?_insert, if_neg (by simpa using fun hc => hne' hc.symm), hget]; simpa using hne
        · rw [hget]; simpa using hne
      · rw [← hok]
        clear hR hmid hpos hok
        revert f1
        generalize (countNodes fun i => S i ∧ nodeName b i = some oldNode) = n
        intro f1
        simp only [hmx, unwrap, res_bind_ok, u16_ok hmx', res_pure]
        cases invert <;>
          simp only [hidxT, hidxF, res_bind_ok, res_pure, f1, Bool.true_and, decide_eq_true_iff, Bool.false_eq_true,
            if_false, if_true] <;> rfl

theorem ReplAny.congr {bd : Build} {b : MapBlock} {new : Bytes} {P Q : Nat → Prop} {m : NameIdMap} {nodes : List Nat}
    (h : ReplAny bd b new P m nodes) (hPQ : ∀ i, i < 4096 → (P i ↔ Q i)) : ReplAny bd b new Q m nodes := by
  have hi : ∀ i v, nodes[i]? = some v → i < 4096 := by
    intro i v hv
    rw [← h.len]; exact (List.getElem?_eq_some_iff.1 hv).1
  exact ⟨h.table, h.count, h.len, h.small, fun i v hv hq => h.hit i v hv ((hPQ i (hi i v hv)).2 hq),
    fun i v hv hq => h.keep i v hv fun hp => hq ((hPQ i (hi i v hv)).1 hp),
    fun i v hv hn => (h.none i v hv hn).imp_right fun hc => ⟨hc.1, hc.2.elim fun j hj => ⟨j, hj.1, (hPQ j hj.1).1 hj.2⟩⟩,
    h.room⟩

theorem doReplace_any {bd br : Build} {b b' : MapBlock} (h : Wf b) (hu : UniqueNames b) {n : Nat}
    {oldNode newNode : Bytes} (hne : oldNode ≠ newNode) (hbr : bd = .release → br = .release) (hr : Room br newNode b.nimap) {old : Nat}
    (hold : NameIdMap.getId b.nimap oldNode = some old) {area : Option Area} (ha : AreaOk area) {invert : Bool}
    {bp : Vec3} (hbp : ValidBlockPos bp) (hsel : ∃ p, InBlock bp p ∧ Selected area invert p)
    (hok : doReplace bd b (keyOf bp) old newNode area invert = .ok (b', n)) :
    n = (countNodes fun i => Selected area invert (posAt bp i) ∧ nodeName b i = some oldNode) ∧
    ∃ m nodes, b' = withNodes b m nodes ∧
      ReplAny br b newNode (fun i => Selected area invert (posAt bp i) ∧ nodeName b i = some oldNode) m nodes := by
  unfold doReplace at hok
  simp only at hok
  rw [fromBlockKey_keyOf bp hbp] at hok
  rcases sel_cases ha hsel with ⟨a, part, e1, e2, e3, e4, e5, e6⟩ | ⟨e1, e2⟩
  · rw [e1] at hok
    simp only at hok
    rw [e3] at hok
    simp only [unwrap, res_bind_ok] at hok
    exact replacePart_any h hu hne hbr hr hold e4 invert e5 e6 hok
  · rw [e1] at hok
    simp only at hok
    obtain ⟨f1, m, nodes, f2, f3⟩ := replaceWhole_any h hu hne hbr hr hold hok
    have hPQ : ∀ i, i < 4096 → (nodeName b i = some oldNode ↔
        Selected area invert (posAt bp i) ∧ nodeName b i = some oldNode) :=
      fun i hi => ⟨fun hc => ⟨e2 i hi, hc⟩, fun hc => hc.2⟩
    exact ⟨f1.trans (countNodes_congr hPQ), m, nodes, f2, f3.congr hPQ⟩

/-- What is counted: the selected nodes with the ID found, whatever else happens. -/
theorem doReplace_count {bd : Build} {b b' : MapBlock} (h : Wf b) {n : Nat} {newNode : Bytes} {old : Nat}
    {area : Option Area} (ha : AreaOk area) {invert : Bool} {bp : Vec3} (hbp : ValidBlockPos bp)
    (hsel : ∃ p, InBlock bp p ∧ Selected area invert p)
    (hok : doReplace bd b (keyOf bp) old newNode area invert = .ok (b', n)) :
    n = countNodes fun i => Selected area invert (posAt bp i) ∧ b.nd.nodes[i]? = some old := by
  unfold doReplace at hok
  simp only at hok
  rw [fromBlockKey_keyOf bp hbp] at hok
  have hlen := h.nodes.1
  rcases sel_cases ha hsel with ⟨a, part, e1, e2, e3, hp, hnd, hmem⟩ | ⟨e1, e2⟩
  · rw [e1] at hok
    simp only at hok
    rw [e3] at hok
    simp only [unwrap, res_bind_ok] at hok
    have hcnt : ((selIdx part invert).filter (idHit b.nd.nodes (some old))).length =
        countNodes fun i => Selected area invert (posAt bp i) ∧ b.nd.nodes[i]? = some old := by
      refine length_eq_count (hnd.filter _) ?_
      intro i
      rw [List.mem_filter, hmem i, and_assoc]
      unfold idHit
      simp
    have hloop : ∀ newId, ∃ l', (selIdx part invert).foldlM (replaceAt old newId) (b.nd.nodes, 0) =
          .ok (l', countNodes fun i => Selected area invert (posAt bp i) ∧ b.nd.nodes[i]? = some old) := by
      intro newId
      obtain ⟨l', e1, -, -⟩ := foldlM_count (replaceAt old newId) (idHit b.nd.nodes (some old)) newId
        b.nd.nodes (selIdx part invert) hnd (fun i hi => by rw [hlen]; exact ((hmem i).1 hi).1)
        (fun i hi l n hl' he => replaceAt_step hl' (by rw [hlen]; exact ((hmem i).1 hi).1) he) 0
      exact ⟨l', by rw [e1, hcnt, Nat.zero_add]⟩
    have hv : part.isValid := by
      unfold LocalArea at hp
      unfold Area.isValid
      simp
      omega
    have hidxT : inverseIndices part = .ok (selIdx part true) := inverseIndices_sel hp
    have hidxF : (part.positions.map fun p => asUsize (p.x + 16 * (p.y + 16 * p.z))) = selIdx part false := by
      rw [positions_eq part hv]
      rfl
    have hrest : ∀ (m : NameIdMap) (nodes : List Nat) (n0 : Nat), (if !(nodes.contains old) then do
        let nodes := nodes.map fun id => if id > old then id - 1 else id
        let nimap ← NameIdMap.removeShift bd m old
        return (withNodes b nimap nodes, n0)
      else return (withNodes b m nodes, n0) : Res (MapBlock × Nat)) = .ok (b', n) → n = n0 := by
      intro m nodes n0 hx
      split at hx
      · rw [bind_ok_iff] at hx
        obtain ⟨z, -, hx⟩ := hx
        cases hx
        rfl
      · cases hx
        rfl
    revert hloop hcnt
    generalize (countNodes fun i => Selected area invert (posAt bp i) ∧ b.nd.nodes[i]? = some old) = n0
    intro hcnt hloop
    unfold replacePart at hok
    cases hg : NameIdMap.getId b.nimap newNode with
    | some newId =>
      obtain ⟨l', f1⟩ := hloop newId
      refine hrest b.nimap l' n0 ?_
      rw [← hok]
      cases invert <;>
        simp only [hg, hidxT, hidxF, res_bind_ok, res_pure, f1, Bool.false_and, Bool.false_eq_true, if_false, if_true] <;> rfl
    | none =>
      rw [hg] at hok
      cases hmx : NameIdMap.maxId b.nimap with
      | none => rw [hmx] at hok; cases hok
      | some mx =>
        cases hu : u16 bd (mx + 1) with
        | error x =>
          simp only [hmx, unwrap, res_bind_ok, hu] at hok
          cases hok
        | ok newId =>
          obtain ⟨l', f1⟩ := hloop newId
          refine hrest (if n0 > 0 then SMap.insert b.nimap newId newNode else b.nimap) l' n0 ?_
          rw [← hok]
          simp only [hmx, unwrap, res_bind_ok, hu, res_pure]
          cases invert <;>
            simp only [hidxT, hidxF, res_bind_ok, res_pure, f1, Bool.true_and, decide_eq_true_iff, Bool.false_eq_true,
              if_false, if_true] <;> rfl
  · rw [e1] at hok
    simp only at hok
    have hcnt : (b.nd.nodes.filter fun id => id == old).length =
        countNodes fun i => Selected area invert (posAt bp i) ∧ b.nd.nodes[i]? = some old := by
      rw [filter_range h.nodes.1]
      exact countNodes_congr fun i hi => ⟨fun hc => ⟨e2 i hi, hc⟩, fun hc => hc.2⟩
    unfold replaceWhole at hok
    simp only at hok
    split at hok
    · rw [bind_ok_iff] at hok
      obtain ⟨z, -, h3⟩ := hok
      cases h3
      exact hcnt
    · cases hok
      exact hcnt

theorem ReplAny.wf {bd : Build} {b : MapBlock} {new : Bytes} {P : Nat → Prop} {m : NameIdMap} {nodes : List Nat}
    (h : ReplAny bd b new P m nodes) (hw : Wf b) (hl : ∀ e ∈ m, e.2.length < 65536) : Wf (withNodes b m nodes) :=
  wf_withNodes hw ⟨h.table.sorted, h.count, fun e he => ⟨h.table.ids e he, hl e he⟩⟩ h.len h.small

/-! ## It works -/

/-- Names in order, all IDs at most `K`. -/
structure NamesTo (m : NameIdMap) (K : Nat) : Prop where
  wf : NimapWf m
  small : ∀ e ∈ m, e.1 ≤ K

theorem namesTo_of {m : NameIdMap} {K : Nat} (hK : K ≤ 65534) (hs : SMap.Sorted m) (hi : ∀ e ∈ m, e.1 ≤ K)
    (hl : ∀ e ∈ m, e.2.length < 65536) : NamesTo m K := by
  have := nimap_length_le hs hi
  exact ⟨⟨hs, by show m.length < 65536; omega, fun e he => ⟨by have := hi e he; omega, hl e he⟩⟩, hi⟩

theorem removeShift_works (bd : Build) {m : NameIdMap} {K : Nat} (h : NamesTo m K) (hK : K ≤ 65534) {old : Nat}
    (ho : old ≤ 65534) : ∃ r, NameIdMap.removeShift bd m old = .ok r ∧ NamesTo r K := by
  obtain ⟨r, h1, h2, h3⟩ := removeShift_spec bd h.wf.sorted (fun e he => (h.wf.fits.2 e he).1)
    (show old < 65535 by omega)
  refine ⟨r, h1, namesTo_of hK h2 (fun e he => ?_) fun e he => ?_⟩
  · obtain ⟨k, k1, -, k3⟩ := shift_mem h2 h.wf.sorted h3 he
    have := h.small _ k3
    simp only at this
    omega
  · obtain ⟨k, -, -, k3⟩ := shift_mem h2 h.wf.sorted h3 he
    exact (h.wf.fits.2 _ k3).2

theorem insert_namesTo {m : NameIdMap} {K : Nat} (h : NamesTo m K) {id K' : Nat} {name : Bytes}
    (hl : name.length < 65536) (hK : K ≤ K') (hK' : K' ≤ 65534) (hid : id ≤ K') :
    NamesTo (SMap.insert m id name) K' := by
  refine namesTo_of hK' (SMap.sorted_insert h.wf.sorted id name) (fun e he => ?_) fun e he => ?_
  · rcases SMap.mem_insert he with rfl | he
    · exact hid
    · have := h.small e he; omega
  · rcases SMap.mem_insert he with rfl | he
    · exact hl
    · exact (h.wf.fits.2 e he).2

theorem map_lt {l : List Nat} {f : Nat → Nat} (hf : ∀ x ∈ l, f x < 65536) : ∀ v ∈ l.map f, v < 65536 := by
  intro v hv
  obtain ⟨x, hx, rfl⟩ := List.mem_map.1 hv
  exact hf x hx

theorem doReplace_works (bd : Build) {b : MapBlock} (h : Wf b) (hs : ∀ e ∈ b.nimap, e.1 ≤ 65533)
    {oldNode newNode : Bytes} (hl : newNode.length < 65536) {old : Nat}
    (hold : NameIdMap.getId b.nimap oldNode = some old) {area : Option Area} (ha : AreaOk area) {invert : Bool}
    {bp : Vec3} (hbp : ValidBlockPos bp) (hsel : ∃ p, InBlock bp p ∧ Selected area invert p) :
    ∃ b' n, doReplace bd b (keyOf bp) old newNode area invert = .ok (b', n) ∧ Wf b' := by
  have hlen := h.nodes.1
  have hN : NamesTo b.nimap 65533 := ⟨h.nimap, hs⟩
  have hN' : NamesTo b.nimap 65534 := ⟨h.nimap, fun e he => by have := hs e he; omega⟩
  have ho : old ≤ 65533 := hs _ (getId_some hold)
  unfold doReplace
  simp only
  rw [fromBlockKey_keyOf bp hbp]
  rcases sel_cases ha hsel with ⟨a, part, e1, e2, e3, e4, e5, e6⟩ | ⟨e1, e2⟩
  · rw [e1]
    simp only
    rw [e3]
    simp only [unwrap, res_bind_ok]
    have hidxT : inverseIndices part = .ok (selIdx part true) := inverseIndices_sel e4
    have hv : part.isValid := by
      unfold LocalArea at e4
      unfold Area.isValid
      simp
      omega
    have hidxF : (part.positions.map fun p => asUsize (p.x + 16 * (p.y + 16 * p.z))) = selIdx part false := by
      rw [positions_eq part hv]
      rfl
    have hloop : ∀ newId, newId < 65536 → ∃ l' n, (selIdx part invert).foldlM (replaceAt old newId) (b.nd.nodes, 0) =
          .ok (l', n) ∧ l'.length = 4096 ∧ ∀ v ∈ l', v < 65536 := by
      intro newId hid
      obtain ⟨l', f1, f2, f3⟩ := foldlM_count (replaceAt old newId) (idHit b.nd.nodes (some old)) newId
        b.nd.nodes (selIdx part invert) e5 (fun i hi => by rw [hlen]; exact ((e6 i).1 hi).1)
        (fun i hi l n hl' he => replaceAt_step hl' (by rw [hlen]; exact ((e6 i).1 hi).1) he) 0
      refine ⟨l', _, f1, by rw [f2, hlen], fun v hv => ?_⟩
      obtain ⟨i, hi⟩ := List.mem_iff_getElem?.1 hv
      by_cases hc : i ∈ selIdx part invert ∧ idHit b.nd.nodes (some old) i = true
      · rw [(f3 i).1 hc] at hi; cases hi; exact hid
      · rw [(f3 i).2 hc] at hi; exact h.nodes.2.1 _ (List.mem_iff_getElem?.2 ⟨i, hi⟩)
    have hrest : ∀ (m : NameIdMap) (l' : List Nat) (n : Nat), NamesTo m 65534 → l'.length = 4096 → (∀ v ∈ l', v < 65536) →
        ∃ b' n', (if !(l'.contains old) then do
            let nodes := l'.map fun id => if id > old then id - 1 else id
            let nimap ← NameIdMap.removeShift bd m old
            return (withNodes b nimap nodes, n)
          else return (withNodes b m l', n) : Res (MapBlock × Nat)) = .ok (b', n') ∧ Wf b' := by
      intro m l' n k1 k2 k3
      split
      · obtain ⟨r, r1, r2⟩ := removeShift_works bd k1 (Nat.le_refl _) (show old ≤ 65534 by omega)
        simp only [r1, res_bind_ok]
        refine ⟨_, _, rfl, wf_withNodes h r2.wf (by rw [List.length_map]; exact k2) (map_lt fun x hx => ?_)⟩
        have := k3 x hx
        split <;> omega
      · exact ⟨_, _, rfl, wf_withNodes h k1.wf k2 k3⟩
    unfold replacePart
    cases hg : NameIdMap.getId b.nimap newNode with
    | some newId =>
      obtain ⟨l', n, f1, f2, f3⟩ := hloop newId (h.nimap.fits.2 _ (getId_some hg)).1
      obtain ⟨b', n', g1, g2⟩ := hrest b.nimap l' n hN' f2 f3
      refine ⟨b', n', ?_, g2⟩
      rw [← g1]
      cases invert <;>
        simp only [hidxT, hidxF, res_bind_ok, res_pure, f1, Bool.false_and, Bool.false_eq_true, if_false, if_true] <;> rfl
    | none =>
      obtain ⟨mx, hmx⟩ := maxId_exists (m := b.nimap) (by
        intro hnil
        have := getId_some hold
        rw [hnil] at this
        cases this)
      obtain ⟨h5, v, hv5⟩ := maxId_spec h.nimap.sorted hmx
      have hmx65 : mx ≤ 65533 := hs _ hv5
      obtain ⟨l', n, f1, f2, f3⟩ := hloop (mx + 1) (by omega)
      obtain ⟨b', n', g1, g2⟩ := hrest (if n > 0 then SMap.insert b.nimap (mx + 1) newNode else b.nimap) l' n
        (by
          split
          · exact insert_namesTo hN hl (by omega) (by omega) (by omega)
          · exact hN') f2 f3
      refine ⟨b', n', ?_, g2⟩
      rw [← g1]
      simp only [hmx, unwrap, res_bind_ok, u16_ok (show mx + 1 < 65536 by omega), res_pure]
      cases invert <;>
        simp only [hidxT, hidxF, res_bind_ok, res_pure, f1, Bool.true_and, decide_eq_true_iff, Bool.false_eq_true,
          if_false, if_true] <;> rfl
  · rw [e1]
    simp only
    unfold replaceWhole
    cases hg : NameIdMap.getId b.nimap newNode with
    | some newId =>
      obtain ⟨r, r1, r2⟩ := removeShift_works bd hN (by omega) (show old ≤ 65534 by omega)
      simp only [r1, res_bind_ok]
      refine ⟨_, _, rfl, wf_withNodes h r2.wf (by rw [List.length_map]; exact hlen) (map_lt fun x hx => ?_)⟩
      have h1 := h.nodes.2.1 x hx
      have h2 := (h.nimap.fits.2 _ (getId_some hg)).1
      simp only at h2
      split
      · split <;> omega
      · split <;> omega
    | none =>
      exact ⟨_, _, rfl, wf_withNodes h (insert_namesTo hN hl (Nat.le_refl _) (by omega) ho).wf hlen h.nodes.2.1⟩

end MapEditr
