import Verif.Proof.Param2
/-! # Lemmas: the block part of `replacenodes` -/

namespace MapEditr
open Spec
set_option linter.unusedSimpArgs false
set_option linter.unusedVariables false

/-! ## Counting and shifting -/

theorem filter_range {l : List Nat} (hl : l.length = 4096) (v : Nat) :
    (l.filter fun id => id == v).length = countNodes fun i => l[i]? = some v := by
  have h : l = (List.range l.length).map fun i => l.getD i 0 := by
    refine List.ext_getElem (by simp) fun i h1 h2 => ?_
    simp [h1]
  have h2 : (l.filter fun id => id == v).length =
      ((List.range l.length).filter ((fun id => id == v) ∘ fun i => l.getD i 0)).length := by
    conv => lhs; rw [h]
    rw [List.filter_map, List.length_map]
  rw [h2]
  refine length_eq_count (List.nodup_range.filter _) fun i => ?_
  rw [List.mem_filter, List.mem_range, hl]
  refine and_congr_right fun hi => ?_
  have hi' : i < l.length := by omega
  simp [hi']

/-- IDs above a removed one move down. -/
def shiftId (old id : Nat) : Nat := if id > old then id - 1 else id

theorem shift_lookup {m r : NameIdMap} {old : Nat}
    (hr : ∀ k, SMap.get? r k = if k < old then SMap.get? m k else SMap.get? m (k + 1)) {j : Nat}
    (hj : j ≠ old) : SMap.get? r (shiftId old j) = SMap.get? m j := by
  unfold shiftId
  rw [hr]
  by_cases h : j > old
  · rw [if_pos h, if_neg (by omega), show j - 1 + 1 = j by omega]
  · rw [if_neg h, if_pos (by omega)]

theorem shift_mem {m r : NameIdMap} {old : Nat} (hs : SMap.Sorted r) (hm : SMap.Sorted m)
    (hr : ∀ k, SMap.get? r k = if k < old then SMap.get? m k else SMap.get? m (k + 1)) {e : Nat × Bytes}
    (he : e ∈ r) : ∃ k, e.1 ≤ k ∧ k ≤ e.1 + 1 ∧ (k, e.2) ∈ m := by
  have h1 := SMap.get?_of_mem hs he
  rw [hr] at h1
  split at h1
  · exact ⟨e.1, by omega, by omega, SMap.get?_some_mem h1⟩
  · exact ⟨e.1 + 1, by omega, by omega, SMap.get?_some_mem h1⟩

/-- Names in order. -/
structure GoodNames (m : NameIdMap) (K : Nat) : Prop where
  wf : NimapWf m
  small : ∀ e ∈ m, e.1 ≤ K
  uniq : ∀ i j n, SMap.get? m i = some n → SMap.get? m j = some n → i = j

theorem removeShift_good (bd : Build) {m : NameIdMap} {K : Nat} (h : GoodNames m K) (hK : K ≤ 65534) {old : Nat}
    (ho : old ≤ 65534) :
    ∃ r, NameIdMap.removeShift bd m old = .ok r ∧ GoodNames r K ∧
      ∀ j, j ≠ old → SMap.get? r (shiftId old j) = SMap.get? m j := by
  obtain ⟨r, h1, h2, h3⟩ := removeShift_spec bd h.wf.sorted (fun e he => (h.wf.fits.2 e he).1)
    (show old < 65535 by omega)
  have hsm : ∀ e ∈ r, e.1 ≤ K := by
    intro e he
    obtain ⟨k, k1, -, k3⟩ := shift_mem h2 h.wf.sorted h3 he
    exact Nat.le_trans k1 (h.small _ k3)
  refine ⟨r, h1, ⟨⟨h2, ?_, ?_⟩, hsm, ?_⟩, fun j hj => shift_lookup h3 hj⟩
  · have := nimap_length_le h2 hsm
    omega
  · intro e he
    obtain ⟨k, k1, -, k3⟩ := shift_mem h2 h.wf.sorted h3 he
    have := h.wf.fits.2 _ k3
    exact ⟨by have := hsm e he; omega, this.2⟩
  · intro i j n hi hj
    rw [h3] at hi hj
    split at hi <;> split at hj
    · exact h.uniq _ _ _ hi hj
    · have := h.uniq _ _ _ hi hj; omega
    · have := h.uniq _ _ _ hi hj; omega
    · have := h.uniq _ _ _ hi hj; omega

theorem insert_good {m : NameIdMap} {K : Nat} (h : GoodNames m K) {id K' : Nat} {name : Bytes}
    (hl : name.length < 65536) (hK : K ≤ K') (hK' : K' ≤ 65534) (hid : id ≤ K')
    (hn : ∀ j, j ≠ id → SMap.get? m j ≠ some name) : GoodNames (SMap.insert m id name) K' := by
  have hs := SMap.sorted_insert h.wf.sorted id name
  have hsm : ∀ e ∈ SMap.insert m id name, e.1 ≤ K' := by
    intro e he
    rcases SMap.mem_insert he with rfl | he
    · exact hid
    · have := h.small e he; omega
  refine ⟨⟨hs, ?_, ?_⟩, hsm, ?_⟩
  · have := nimap_length_le hs hsm
    omega
  · intro e he
    refine ⟨by have := hsm e he; omega, ?_⟩
    rcases SMap.mem_insert he with rfl | he
    · exact hl
    · exact (h.wf.fits.2 e he).2
  · intro i j n hi hj
    rw [SMap.get?_insert] at hi hj
    by_cases h1 : id = i
    · by_cases h2 : id = j
      · omega
      · rw [if_pos (by simpa using h1)] at hi
        rw [if_neg (by simpa using h2)] at hj
        cases hi
        exact absurd hj (hn j fun h => h2 h.symm)
    · rw [if_neg (by simpa using h1)] at hi
      by_cases h2 : id = j
      · rw [if_pos (by simpa using h2)] at hj
        cases hj
        exact absurd hi (hn i fun h => h1 h.symm)
      · rw [if_neg (by simpa using h2)] at hj
        exact h.uniq _ _ _ hi hj

theorem goodNames_of {b : MapBlock} (h : Wf b) (hu : UniqueNames b) {K : Nat} (hs : ∀ e ∈ b.nimap, e.1 ≤ K) :
    GoodNames b.nimap K := ⟨h.nimap, hs, hu⟩

/-! ## The change of a block -/

/-- What is to be shown: `nodes` with the names `m` are the nodes of `b`, replaced where `P`. -/
structure Replaced (b : MapBlock) (newNode : Bytes) (P : Nat → Prop) [DecidablePred P] (m : NameIdMap) (nodes : List Nat)
    (K : Nat) : Prop where
  names : GoodNames m K
  len : nodes.length = 4096
  name : ∀ i v, nodes[i]? = some v → SMap.get? m v = if P i then some newNode else nodeName b i

theorem Replaced.named {b : MapBlock} {newNode : Bytes} {P : Nat → Prop} [DecidablePred P] {m : NameIdMap}
    {nodes : List Nat} {K : Nat} (h : Replaced b newNode P m nodes K) (hb : Wf b) (hn : Named b) :
    Named (withNodes b m nodes) := by
  intro v hv
  obtain ⟨i, hi⟩ := List.mem_iff_getElem?.1 hv
  have h1 := h.name i v hi
  show ∃ n, SMap.get? m v = some n
  rw [h1]
  split
  · exact ⟨_, rfl⟩
  · have hlt : i < 4096 := by
      rw [← h.len]
      exact (List.getElem?_eq_some_iff.1 hi).1
    have hlt' : i < b.nd.nodes.length := by rw [hb.nodes.1]; exact hlt
    obtain ⟨n, hn⟩ := hn _ (List.getElem_mem hlt')
    unfold nodeName
    rw [List.getElem?_eq_getElem hlt']
    exact ⟨n, hn⟩

theorem Replaced.wf {b : MapBlock} {newNode : Bytes} {P : Nat → Prop} [DecidablePred P] {m : NameIdMap}
    {nodes : List Nat} {K : Nat} (h : Replaced b newNode P m nodes K) (hb : Wf b) (hn : Named b) :
    Wf (withNodes b m nodes) := by
  refine wf_withNodes hb h.names.wf h.len ?_
  intro v hv
  obtain ⟨n, hn⟩ := h.named hb hn v hv
  exact (h.names.wf.fits.2 _ (SMap.get?_some_mem hn)).1

theorem Replaced.nodeName {b : MapBlock} {newNode : Bytes} {P : Nat → Prop} [DecidablePred P] {m : NameIdMap}
    {nodes : List Nat} {K : Nat} (h : Replaced b newNode P m nodes K) {i : Nat} (hi : i < 4096) :
    nodeName (withNodes b m nodes) i = if P i then some newNode else Spec.nodeName b i := by
  rw [nodeName_withNodes, List.getElem?_eq_getElem (by rw [h.len]; exact hi)]
  simp only
  exact h.name i _ (List.getElem?_eq_getElem (by rw [h.len]; exact hi))

/-- All nodes of the block. -/
theorem replaceWhole_spec (bd : Build) {b : MapBlock} (h : Wf b) (hu : UniqueNames b) {K : Nat}
    (hs : ∀ e ∈ b.nimap, e.1 ≤ K) (hK : K ≤ 65534)
    {oldNode newNode : Bytes} (hne : oldNode ≠ newNode) (hl : newNode.length < 65536) {old : Nat}
    (hold : NameIdMap.getId b.nimap oldNode = some old) :
    ∃ m nodes, replaceWhole bd b old newNode =
        .ok (withNodes b m nodes, countNodes fun i => nodeName b i = some oldNode) ∧
      Replaced b newNode (fun i => nodeName b i = some oldNode) m nodes K := by
  have hn := goodNames_of h hu hs
  have hget := SMap.get?_of_mem h.nimap.sorted (getId_some hold)
  have hnode := getId_node h hu hold
  have hcnt : (b.nd.nodes.filter fun id => id == old).length = countNodes fun i => nodeName b i = some oldNode := by
    rw [filter_range h.nodes.1]
    exact countNodes_congr fun i _ => hnode i
  have ho : old ≤ K := hs _ (getId_some hold)
  unfold replaceWhole
  simp only [hcnt]
  cases hg : NameIdMap.getId b.nimap newNode with
  | some newId =>
    have hgn := SMap.get?_of_mem h.nimap.sorted (getId_some hg)
    have hne' : newId ≠ old := by
      rintro rfl
      rw [hget] at hgn
      exact hne (Option.some.inj hgn)
    obtain ⟨r, r1, r2, r3⟩ := removeShift_good bd hn hK (show old ≤ 65534 by omega)
    simp only
    rw [r1]
    refine ⟨r, _, rfl, r2, by rw [List.length_map]; exact h.nodes.1, ?_⟩
    intro i v hv
    rw [List.getElem?_map] at hv
    cases hi : b.nd.nodes[i]? with
    | none => rw [hi] at hv; cases hv
    | some id =>
      rw [hi] at hv
      simp only [Option.map_some, Option.some.injEq] at hv
      subst hv
      by_cases hid : id = old
      · subst hid
        rw [if_pos ((hnode i).1 hi), if_pos (by simp), ← hgn]
        exact r3 newId hne'
      · have hnn : ¬ nodeName b i = some oldNode := fun hc => hid (by
          have := (hnode i).2 hc; rw [hi] at this; exact Option.some.inj this)
        rw [if_neg hnn, if_neg (show ¬ (id == old) = true by simpa using hid)]
        have := r3 id hid
        unfold shiftId at this
        rw [this]
        unfold nodeName
        rw [hi]
  | none =>
    refine ⟨SMap.insert b.nimap old newNode, b.nd.nodes, rfl,
      insert_good hn hl (Nat.le_refl _) hK ho fun j _ => getId_none_get? hg j, h.nodes.1, ?_⟩
    intro i v hv
    rw [SMap.get?_insert]
    by_cases hid : old = v
    · subst hid
      rw [if_pos (by simp), if_pos ((hnode i).1 hv)]
    · rw [if_neg (by simpa using hid),
        if_neg (fun hc => hid (by have := (hnode i).2 hc; rw [hv] at this; exact (Option.some.inj this).symm))]
      unfold nodeName
      rw [hv]

theorem replaceAt_step {old new : Nat} {l0 l : List Nat} {n i : Nat} (hl : l.length = l0.length)
    (hi : i < l0.length) (he : l[i]? = l0[i]?) : replaceAt old new (l, n) i =
      .ok (if idHit l0 (some old) i then (l.set i new, n + 1) else (l, n)) := by
  have hi' : i < l.length := by omega
  unfold replaceAt idHit
  simp only
  rw [← he, idx_ok (List.getElem?_eq_getElem hi'), List.getElem?_eq_getElem hi']
  simp only [res_bind_ok, Option.some_beq_some]
  by_cases h : l[i] = old
  · simp only [h, beq_self_eq_true, if_true]
    rw [setIdx_ok hi']
    rfl
  · simp only [beq_eq_false_iff_ne.2 h, Bool.false_eq_true, if_false]
    rfl

/-- The end of `replacePart`: names and nodes after the loop, before an unused name is removed. -/
theorem replaceRest {b : MapBlock} (bd : Build) {newNode : Bytes} {P : Nat → Prop} [DecidablePred P]
    {m : NameIdMap} {nodes : List Nat} {K old n : Nat} (hK : K ≤ 65534) (ho : old ≤ K)
    (h : Replaced b newNode P m nodes K) :
    ∃ m' nodes', (if !(nodes.contains old) then do
        let nodes := nodes.map fun id => if id > old then id - 1 else id
        let nimap ← NameIdMap.removeShift bd m old
        return (withNodes b nimap nodes, n)
      else return (withNodes b m nodes, n) : Res (MapBlock × Nat)) = .ok (withNodes b m' nodes', n) ∧
      Replaced b newNode P m' nodes' K := by
  by_cases hc : nodes.contains old = true
  · rw [hc, if_neg (by simp)]
    exact ⟨m, nodes, rfl, h⟩
  · rw [if_pos (by simpa using hc)]
    obtain ⟨r, r1, r2, r3⟩ := removeShift_good bd h.names hK (show old ≤ 65534 by omega)
    simp only
    rw [r1]
    refine ⟨r, _, rfl, r2, by rw [List.length_map]; exact h.len, ?_⟩
    intro i v hv
    rw [List.getElem?_map] at hv
    cases hi : nodes[i]? with
    | none => rw [hi] at hv; cases hv
    | some id =>
      rw [hi] at hv
      simp only [Option.map_some, Option.some.injEq] at hv
      subst hv
      have hid : id ≠ old := by
        rintro rfl
        exact hc (List.contains_iff_mem.2 (List.mem_iff_getElem?.2 ⟨i, hi⟩))
      have := r3 id hid
      unfold shiftId at this
      rw [this]
      exact h.name i id hi

theorem replacePart_spec (bd : Build) {b : MapBlock} (h : Wf b) (hu : UniqueNames b) (hnamed : Named b) {K : Nat}
    (hs : ∀ e ∈ b.nimap, e.1 ≤ K) (hK : K ≤ 65533)
    {oldNode newNode : Bytes} (hne : oldNode ≠ newNode) (hl : newNode.length < 65536) {old : Nat}
    (hold : NameIdMap.getId b.nimap oldNode = some old) {part : Area} (hp : LocalArea part) (invert : Bool)
    (hnd : (selIdx part invert).Nodup) {S : Nat → Prop} [DecidablePred S]
    (hsel : ∀ i, i ∈ selIdx part invert ↔ i < 4096 ∧ S i) :
    ∃ m nodes, replacePart bd b part invert old newNode =
        .ok (withNodes b m nodes, countNodes fun i => S i ∧ nodeName b i = some oldNode) ∧
      Replaced b newNode (fun i => S i ∧ nodeName b i = some oldNode) m nodes (K + 1) := by
  have hn := goodNames_of h hu hs
  have hget := SMap.get?_of_mem h.nimap.sorted (getId_some hold)
  have hnode := getId_node h hu hold
  have ho : old ≤ K := hs _ (getId_some hold)
  have hlen := h.nodes.1
  have hhit : ∀ i, idHit b.nd.nodes (some old) i = true ↔ nodeName b i = some oldNode := by
    intro i
    rw [← hnode i]
    unfold idHit
    simp
  have hn1 : GoodNames b.nimap (K + 1) := ⟨hn.wf, fun e he => by have := hs e he; omega, hn.uniq⟩
  have hcnt : ((selIdx part invert).filter (idHit b.nd.nodes (some old))).length =
      countNodes fun i => S i ∧ nodeName b i = some oldNode := by
    refine length_eq_count (hnd.filter _) ?_
    intro i
    rw [List.mem_filter, hsel i, hhit i, and_assoc]
  have hloop : ∀ newId, ∃ l', (selIdx part invert).foldlM (replaceAt old newId) (b.nd.nodes, 0) =
        .ok (l', countNodes fun i => S i ∧ nodeName b i = some oldNode) ∧ l'.length = 4096 ∧
      ∀ i : Nat, i < 4096 → l'[i]? = if S i ∧ nodeName b i = some oldNode then some newId else b.nd.nodes[i]? := by
    intro newId
    obtain ⟨l', e1, e2, e3⟩ := foldlM_count (replaceAt old newId) (idHit b.nd.nodes (some old)) newId
      b.nd.nodes (selIdx part invert) hnd (fun i hi => by rw [hlen]; exact ((hsel i).1 hi).1)
      (fun i hi l n hl' he => replaceAt_step hl' (by rw [hlen]; exact ((hsel i).1 hi).1) he) 0
    refine ⟨l', by rw [e1, hcnt, Nat.zero_add], by rw [e2, hlen], fun i hi => ?_⟩
    split
    · next hc => exact (e3 i).1 ⟨(hsel i).2 ⟨hi, hc.1⟩, (hhit i).2 hc.2⟩
    · next hc => exact (e3 i).2 fun hx => hc ⟨((hsel i).1 hx.1).2, (hhit i).1 hx.2⟩
  have hpos : ∀ i, i < 4096 → (S i ∧ nodeName b i = some oldNode) →
      (countNodes fun i => S i ∧ nodeName b i = some oldNode) > 0 := by
    intro i hi hc
    refine Nat.pos_of_ne_zero fun h0 => ?_
    exact countNodes_eq_zero.1 h0 i hi hc
  -- names and nodes after the loop
  have hmid : ∀ (newId : Nat) (m1 : NameIdMap) (l' : List Nat), l'.length = 4096 →
      (∀ i : Nat, i < 4096 → l'[i]? = if S i ∧ nodeName b i = some oldNode then some newId else b.nd.nodes[i]?) →
      GoodNames m1 (K + 1) → (∀ j v, SMap.get? b.nimap j = some v → SMap.get? m1 j = some v) →
      ((countNodes fun i => S i ∧ nodeName b i = some oldNode) > 0 → SMap.get? m1 newId = some newNode) →
      Replaced b newNode (fun i => S i ∧ nodeName b i = some oldNode) m1 l' (K + 1) := by
    intro newId m1 l' k1 k2 k3 k4 k5
    refine ⟨k3, k1, fun i v hv => ?_⟩
    have hi : i < 4096 := by rw [← k1]; exact (List.getElem?_eq_some_iff.1 hv).1
    rw [k2 i hi] at hv
    split
    · next hc =>
      rw [if_pos hc] at hv
      cases hv
      exact k5 (hpos i hi hc)
    · next hc =>
      rw [if_neg hc] at hv
      obtain ⟨n, hn⟩ := hnamed v (List.mem_iff_getElem?.2 ⟨i, hv⟩)
      rw [k4 v n hn]
      unfold nodeName
      rw [hv]
      exact hn.symm
  have hidxT : inverseIndices part = .ok (selIdx part true) := inverseIndices_sel hp
  have hv : part.isValid := by
    unfold LocalArea at hp
    unfold Area.isValid
    simp
    omega
  have hidxF : (part.positions.map fun p => asUsize (p.x + 16 * (p.y + 16 * p.z))) = selIdx part false := by
    rw [positions_eq part hv]
    rfl
  unfold replacePart
  cases hg : NameIdMap.getId b.nimap newNode with
  | some newId =>
    obtain ⟨l', f1, f2, f3⟩ := hloop newId
    have hgn := SMap.get?_of_mem h.nimap.sorted (getId_some hg)
    have hR := hmid newId b.nimap l' f2 f3 hn1 (fun _ _ h => h) fun _ => hgn
    obtain ⟨m', nodes', g1, g2⟩ := replaceRest (n := countNodes fun i => S i ∧ nodeName b i = some oldNode)
      bd (show K + 1 ≤ 65534 by omega) (show old ≤ K + 1 by omega) hR
    refine ⟨m', nodes', ?_, g2⟩
    rw [← g1]
    cases invert <;>
      simp only [hidxT, hidxF, res_bind_ok, res_pure, f1, Bool.false_and, Bool.false_eq_true, if_false, if_true] <;> rfl
  | none =>
    obtain ⟨mx, h1, h2, h3, h4, h5⟩ := nextId h ⟨hnamed, fun e he => by have := hs e he; omega⟩ newNode hl
    have hmx : mx ≤ K := by
      obtain ⟨_, v, hv⟩ := maxId_spec h.nimap.sorted h1
      exact hs _ hv
    obtain ⟨l', f1, f2, f3⟩ := hloop (mx + 1)
    have hR := hmid (mx + 1) (if (countNodes fun i => S i ∧ nodeName b i = some oldNode) > 0 then
        SMap.insert b.nimap (mx + 1) newNode else b.nimap) l' f2 f3
      (by
        split
        · exact insert_good hn hl (by omega) (by omega) (by omega) fun j _ => getId_none_get? hg j
        · exact hn1)
      (by
        intro j v hv
        split
        · exact get?_lt_insert h5 hv
        · exact hv)
      (by
        intro hc
        rw [if_pos hc, SMap.get?_insert]
        simp)
    obtain ⟨m', nodes', g1, g2⟩ := replaceRest (n := countNodes fun i => S i ∧ nodeName b i = some oldNode)
      bd (show K + 1 ≤ 65534 by omega) (show old ≤ K + 1 by omega) hR
    refine ⟨m', nodes', ?_, g2⟩
    rw [← g1]
    clear hR g1 hmid hpos
    revert f1
    generalize (countNodes fun i => S i ∧ nodeName b i = some oldNode) = n
    intro f1
    simp only [h1, unwrap, res_bind_ok, u16_ok (show mx + 1 < 65536 by omega), res_pure]
    cases invert <;>
      simp only [hidxT, hidxF, res_bind_ok, res_pure, f1, Bool.true_and, decide_eq_true_iff, Bool.false_eq_true, if_false,
        if_true] <;> rfl

theorem doReplace_spec (bd : Build) {b : MapBlock} (h : Wf b) (hu : UniqueNames b) (hnamed : Named b) {K : Nat}
    (hs : ∀ e ∈ b.nimap, e.1 ≤ K) (hK : K ≤ 65533)
    {oldNode newNode : Bytes} (hne : oldNode ≠ newNode) (hl : newNode.length < 65536) {old : Nat}
    (hold : NameIdMap.getId b.nimap oldNode = some old) {area : Option Area} (ha : AreaOk area) {invert : Bool}
    {bp : Vec3} (hbp : ValidBlockPos bp) (hsel : ∃ p, InBlock bp p ∧ Selected area invert p) :
    ∃ m nodes, doReplace bd b (keyOf bp) old newNode area invert = .ok (withNodes b m nodes,
        countNodes fun i => Selected area invert (posAt bp i) ∧ nodeName b i = some oldNode) ∧
      Replaced b newNode (fun i => Selected area invert (posAt bp i) ∧ nodeName b i = some oldNode) m nodes (K + 1) := by
  unfold doReplace
  simp only
  rw [fromBlockKey_keyOf bp hbp]
  rcases sel_cases ha hsel with ⟨a, part, e1, e2, e3, e4, e5, e6⟩ | ⟨e1, e2⟩
  · rw [e1]
    simp only
    rw [e3]
    simp only [unwrap, res_bind_ok]
    exact replacePart_spec bd h hu hnamed hs hK hne hl hold e4 invert e5 e6
  · rw [e1]
    simp only
    obtain ⟨m, nodes, f1, f2⟩ := replaceWhole_spec bd h hu hs (by omega) hne hl hold
    refine ⟨m, nodes, ?_, ⟨f2.names.wf, fun e he => by have := f2.names.small e he; omega, f2.names.uniq⟩, f2.len, ?_⟩
    · have hcc : (countNodes fun i => nodeName b i = some oldNode) =
          countNodes fun i => Selected area invert (posAt bp i) ∧ nodeName b i = some oldNode :=
        countNodes_congr fun i hi => ⟨fun hc => ⟨e2 i hi, hc⟩, fun hc => hc.2⟩
      rw [f1, hcc]
    · intro i v hv
      have hi : i < 4096 := by rw [← f2.len]; exact (List.getElem?_eq_some_iff.1 hv).1
      rw [f2.name i v hv]
      by_cases hc : nodeName b i = some oldNode
      · rw [if_pos hc, if_pos ⟨e2 i hi, hc⟩]
      · rw [if_neg hc, if_neg (fun hx => hc hx.2)]

end MapEditr
