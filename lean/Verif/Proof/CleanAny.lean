import Verif.Proof.Fill
/-! # Lemmas: `clean_name_id_map` and `fill` on blocks with unnamed node IDs

What the functions do when they succeed, without assuming that all node IDs have names or that the
name table leaves room. -/

namespace MapEditr
open Spec
set_option linter.unusedSimpArgs false
set_option linter.unusedVariables false

theorem setIdx_iff {l l' : List α} {i : Nat} {a : α} : setIdx l i a = .ok l' ↔ i < l.length ∧ l' = l.set i a := by
  unfold setIdx
  split
  · next h => simp [h, eq_comm]
  · next h => simp [h]

theorem foldlM_setTrue {nodes : List Nat} {u used : List Bool}
    (h : nodes.foldlM (fun u id => setIdx u id true) u = .ok used) : ∀ id ∈ nodes, id < u.length := by
  induction nodes generalizing u with
  | nil => intro id hid; cases hid
  | cons a l ih =>
    rw [List.foldlM_cons, bind_ok_iff] at h
    obtain ⟨v, h1, h2⟩ := h
    obtain ⟨h3, rfl⟩ := setIdx_iff.1 h1
    intro id hid
    rcases List.mem_cons.1 hid with rfl | hid
    · exact h3
    · simpa using ih h2 id hid

/-- Rebuilding the table leaves the new IDs of unnamed IDs alone. -/
theorem cleanLoop_other {bd : Build} {used : List Bool} {k : Nat} {v : Nat} :
    ∀ (l : NameIdMap) (st r : NameIdMap × List Nat), l.foldlM (cleanStep bd used) st = .ok r →
      (∀ e ∈ l, e.1 ≠ k) → st.2[k]? = some v → r.2[k]? = some v := by
  intro l
  induction l with
  | nil => intro st r h _ hv; cases h; exact hv
  | cons e l ih =>
    intro st r h hk hv
    rw [List.foldlM_cons, bind_ok_iff] at h
    obtain ⟨s, h1, h2⟩ := h
    refine ih s r h2 (fun e' he' => hk e' (List.mem_cons_of_mem _ he')) ?_
    have hne : e.1 ≠ k := hk e List.mem_cons_self
    unfold cleanStep at h1
    rw [bind_ok_iff] at h1
    obtain ⟨u, -, h1⟩ := h1
    cases u with
    | false => cases h1; exact hv
    | true =>
      simp only [Bool.not_true, Bool.false_eq_true, if_false] at h1
      split at h1
      · rw [bind_ok_iff] at h1
        obtain ⟨m, h3, h4⟩ := h1
        obtain ⟨-, rfl⟩ := setIdx_iff.1 h3
        cases h4
        simp only
        rw [List.getElem?_set_ne hne]
        exact hv
      · rw [bind_ok_iff] at h1
        obtain ⟨x, -, h1⟩ := h1
        rw [bind_ok_iff] at h1
        obtain ⟨m, h3, h4⟩ := h1
        obtain ⟨-, rfl⟩ := setIdx_iff.1 h3
        cases h4
        simp only
        rw [List.getElem?_set_ne hne]
        exact hv

/-- What `clean_name_id_map` has done when it returns: named nodes keep their names, unnamed ones get
the new ID 0. -/
theorem clean_full {bd : Build} {b b' : MapBlock} (hs : SMap.Sorted b.nimap) (hfit : NodesFit b.nd)
    (h : cleanNimap bd b = .ok b') :
    ∃ names nodes, b' = withNodes b (dense 0 names) nodes ∧ nodes.length = 4096 ∧ names.length ≤ 4096 ∧
      (∀ j ∈ nodes, j < 65536) ∧ names.Nodup ∧ (∀ x ∈ names, ∃ e ∈ b.nimap, e.2 = x) ∧
      (∀ i nm, nodeName b i = some nm → nodeName b' i = some nm) ∧
      (∀ i, i < 4096 → nodeName b i = none → nodes[i]? = some 0) ∧ (∀ e ∈ b.nimap, e.1 < 65535) ∧
      (∀ j, j < names.length → j ∈ nodes) ∧ ∀ j ∈ nodes, j = 0 ∨ j < names.length := by
  unfold cleanNimap at h
  rw [bind_ok_iff] at h
  obtain ⟨M, hM, h⟩ := h
  have hM : NameIdMap.maxId b.nimap = some M := by
    unfold unwrap at hM
    split at hM
    · next hm => rw [hm]; cases hM; rfl
    · cases hM
  obtain ⟨hle, vM, hvM⟩ := maxId_spec hs hM
  rw [bind_ok_iff] at h
  obtain ⟨n, hn, h⟩ := h
  rw [bind_ok_iff] at h
  obtain ⟨used, hu, h⟩ := h
  have hlt : ∀ id ∈ b.nd.nodes, id < n := by
    intro id hid
    have := foldlM_setTrue hu id hid
    simpa using this
  have hpos : 0 < n := by
    have := hfit.1
    cases hnd : b.nd.nodes with
    | nil => rw [hnd] at this; cases this
    | cons a l =>
      have := hlt a (by rw [hnd]; exact List.mem_cons_self)
      omega
  have hn2 : n = M + 1 ∧ M + 1 < 65536 ∨ 65536 ≤ M + 1 ∧ n = (M + 1) % 65536 := by
    unfold u16 at hn
    split at hn
    · next hx => cases hn; exact .inl ⟨rfl, hx⟩
    · next hx =>
      split at hn
      · cases hn
      · cases hn; exact .inr ⟨by omega, rfl⟩
  rw [bind_ok_iff] at h
  obtain ⟨st, hst, h⟩ := h
  rw [bind_ok_iff] at h
  obtain ⟨nodes, hnd, h⟩ := h
  cases h
  obtain ⟨used', hu1, hu2, hu3⟩ := used_spec b.nd.nodes n hlt
  rw [hu] at hu1
  cases hu1
  -- an entry beyond the array stops the program
  have hin : ∀ e ∈ b.nimap, e.1 < n := by
    have gen : ∀ (l : NameIdMap) (st r : NameIdMap × List Nat), l.foldlM (cleanStep bd used) st = .ok r →
        ∀ e ∈ l, e.1 < used.length := by
      intro l
      induction l with
      | nil => intro st r _ e he; cases he
      | cons a l ih =>
        intro st r h e he
        rw [List.foldlM_cons, bind_ok_iff] at h
        obtain ⟨s, h1, h2⟩ := h
        rcases List.mem_cons.1 he with rfl | he
        · unfold cleanStep at h1
          rw [bind_ok_iff] at h1
          obtain ⟨u, h3, -⟩ := h1
          unfold idx at h3
          split at h3
          · next hx =>
            rcases Nat.lt_or_ge e.1 used.length with hl | hl
            · exact hl
            · rw [List.getElem?_eq_none hl] at hx; cases hx
          · cases h3
        · exact ih s r h2 e he
    intro e he
    have := gen _ _ _ hst e he
    omega
  have hM2 := hin _ hvM
  simp only at hM2
  have hnM : n = M + 1 ∧ M + 1 < 65536 := by
    rcases hn2 with h | ⟨h1, h2⟩
    · exact h
    · have := Nat.mod_lt (M + 1) (show 0 < 65536 by decide)
      have h3 := hle
      omega
  obtain ⟨rfl, hM3⟩ := hnM
  have hlen : b.nimap.length ≤ M + 1 := by
    have := length_le_of_sorted hs 0 (M + 1) (by
      intro e he; have := hle e he; omega)
    omega
  obtain ⟨names, map, hf, inv⟩ := clean_loop bd b.nd.nodes (M + 1) used (by omega) hu3 b.nimap []
    [] (List.replicate (M + 1) 0) (by
      intro e he; have := hle e (by simpa using he); omega) (by simpa using hlen) (by simpa using hs)
    ⟨List.nodup_nil, by simp, by simp, by simp, by simp⟩
  rw [List.nil_append] at inv
  have hst' : st = (dense 0 names, map) := by
    have : ((([], List.replicate (M + 1) 0) : NameIdMap × List Nat))
      = (dense 0 [], List.replicate (M + 1) 0) := rfl
    rw [this, hf] at hst
    cases hst
    rfl
  subst hst'
  obtain ⟨nodes', hm1, hm2, hm3⟩ := mapM_idx (l := b.nd.nodes) (map := map) (by
    intro i hi; rw [inv.len]; exact hlt i hi)
  simp only at hnd
  rw [hnd] at hm1
  cases hm1
  have hother : ∀ k, k < M + 1 → SMap.get? b.nimap k = none → map[k]? = some 0 := by
    intro k hk hnone
    refine cleanLoop_other b.nimap _ _ hst ?_ (by simp [List.getElem?_replicate, hk])
    intro e he heq
    have := SMap.get?_of_mem hs (k := e.1) (v := e.2) he
    rw [heq, hnone] at this
    cases this
  have hname : ∀ i nm, nodeName b i = some nm → ∃ j, nodes[i]? = some j ∧ names[j]? = some nm := by
    intro i nm hi
    unfold nodeName at hi
    cases hid : b.nd.nodes[i]? with
    | none => rw [hid] at hi; cases hi
    | some id =>
      rw [hid] at hi
      simp only at hi
      obtain ⟨j, h1, h2⟩ := inv.maps _ (SMap.get?_some_mem hi) (List.mem_of_getElem? hid)
      refine ⟨j, ?_, h2⟩
      rw [hm3 i, hid]
      exact h1
  have hsub : List.range names.length ⊆ nodes := by
    intro j hj
    rw [List.mem_range] at hj
    obtain ⟨e, he, hen, hem⟩ := inv.used j hj
    obtain ⟨i, hi⟩ := List.mem_iff_getElem?.1 hen
    refine List.mem_iff_getElem?.2 ⟨i, ?_⟩
    rw [hm3 i, hi]
    exact hem
  have hall : ∀ j ∈ nodes, j = 0 ∨ j < names.length := by
    intro j hj
    obtain ⟨i, hi⟩ := List.mem_iff_getElem?.1 hj
    rw [hm3 i] at hi
    cases hid : b.nd.nodes[i]? with
    | none => rw [hid] at hi; cases hi
    | some id =>
      rw [hid] at hi
      simp only [Option.bind_some] at hi
      cases hg : SMap.get? b.nimap id with
      | none =>
        rw [hother id (hlt id (List.mem_of_getElem? hid)) hg] at hi
        cases hi
        exact .inl rfl
      | some nm =>
        obtain ⟨j', h1, h2⟩ := inv.maps _ (SMap.get?_some_mem hg) (List.mem_of_getElem? hid)
        simp only at h1
        rw [h1] at hi
        cases hi
        rcases Nat.lt_or_ge j names.length with hx | hx
        · exact .inr hx
        · rw [List.getElem?_eq_none hx] at h2; cases h2
  refine ⟨names, nodes, rfl, by rw [hm2]; exact hfit.1, ?_, ?_, inv.nodup, ?_, ?_, ?_, ?_,
    fun j hj => hsub (List.mem_range.2 hj), hall⟩
  · have := List.Nodup.length_le_of_subset List.nodup_range hsub
    rw [List.length_range, hm2, hfit.1] at this
    exact this
  · intro j hj
    have := inv.few
    rcases hall j hj with h | h <;> omega
  · intro x hx
    obtain ⟨j, hj, hjx⟩ := List.mem_iff_getElem.1 hx
    obtain ⟨e, he, hen, hem⟩ := inv.used j hj
    obtain ⟨j', h1, h2⟩ := inv.maps e he hen
    rw [hem] at h1
    cases h1
    rw [List.getElem?_eq_getElem hj] at h2
    refine ⟨e, he, ?_⟩
    have := Option.some.inj h2
    rw [← this, hjx]
  · intro i nm hi
    obtain ⟨j, h1, h2⟩ := hname i nm hi
    show nodeName (withNodes b (dense 0 names) nodes) i = some nm
    rw [nodeName_withNodes, h1]
    simp only
    rw [get?_dense 0 names j (by omega), Nat.sub_zero]
    exact h2
  · intro i hi hnone
    have hil : i < b.nd.nodes.length := by rw [hfit.1]; exact hi
    rw [hm3 i, List.getElem?_eq_getElem hil]
    simp only [Option.bind_some]
    refine hother _ (hlt _ (List.getElem_mem hil)) ?_
    unfold nodeName at hnone
    rw [List.getElem?_eq_getElem hil] at hnone
    exact hnone
  · intro e he
    have := hle e he
    omega

theorem clean_any {bd : Build} {b b' : MapBlock} (hs : SMap.Sorted b.nimap) (hfit : NodesFit b.nd)
    (h : cleanNimap bd b = .ok b') :
    ∃ names nodes, b' = withNodes b (dense 0 names) nodes ∧ nodes.length = 4096 ∧ names.length ≤ 4096 ∧
      (∀ j ∈ nodes, j < 65536) ∧ names.Nodup ∧ (∀ x ∈ names, ∃ e ∈ b.nimap, e.2 = x) ∧
      (∀ i nm, nodeName b i = some nm → nodeName b' i = some nm) ∧
      (∀ i, i < 4096 → nodeName b i = none → nodes[i]? = some 0) ∧ (∀ e ∈ b.nimap, e.1 < 65535) := by
  obtain ⟨names, nodes, h1, h2, h3, h4, h5, h6, h7, h8, h9, -⟩ := clean_full hs hfit h
  exact ⟨names, nodes, h1, h2, h3, h4, h5, h6, h7, h8, h9⟩

theorem tidy_dense {b : MapBlock} {names : List Bytes} {nodes : List Nat} (h1 : b.nimap = dense 0 names)
    (h2 : b.nd.nodes = nodes) (hn : names.Nodup) (hu : ∀ j, j < names.length → j ∈ nodes)
    (ha : ∀ j ∈ nodes, j = 0 ∨ j < names.length) : Tidy b := by
  refine ⟨?_, ?_, ?_, ?_⟩
  · rw [h1, keys_dense, length_dense, List.range_eq_range']
  · rw [h1, names_dense]
    exact hn
  · intro e he
    rw [h1] at he
    have : e.1 ∈ (dense 0 names).map (·.1) := List.mem_map.2 ⟨e, he, rfl⟩
    rw [keys_dense, List.mem_range'_1] at this
    rw [h2]
    exact hu _ (by omega)
  · intro hne id hid
    rw [h1, length_dense]
    rw [h2] at hid
    rcases ha id hid with rfl | h
    · cases names with
      | nil => rw [h1] at hne; exact absurd rfl hne
      | cons x l => simp
    · exact h

theorem named_covered {b : MapBlock} (h : Named b) : Covered b := by
  intro id hid
  obtain ⟨nm, hnm⟩ := h id hid
  exact ⟨_, SMap.get?_some_mem hnm, Nat.le_refl _⟩

/-- `clean_name_id_map` returns if no ID is too great. -/
theorem clean_works (bd : Build) {b : MapBlock} (hs : SMap.Sorted b.nimap)
    (hid : ∀ e ∈ b.nimap, e.1 < 65535) (hc : Covered b) (hne : b.nd.nodes ≠ []) :
    ∃ b', cleanNimap bd b = .ok b' := by
  have hne' : b.nimap ≠ [] := by
    intro h
    obtain ⟨id, hmem⟩ := List.exists_mem_of_ne_nil _ hne
    obtain ⟨e, he, -⟩ := hc id hmem
    rw [h] at he
    cases he
  obtain ⟨M, hM⟩ := maxId_exists hne'
  obtain ⟨hle, vM, hvM⟩ := maxId_spec hs hM
  have hM2 := hid _ hvM
  simp only at hM2
  have hnodes : ∀ id ∈ b.nd.nodes, id < M + 1 := by
    intro id h
    obtain ⟨e, he, h1⟩ := hc id h
    have := hle _ he
    omega
  obtain ⟨used, hu1, hu2, hu3⟩ := used_spec b.nd.nodes (M + 1) hnodes
  have hlen : b.nimap.length ≤ M + 1 := by
    have := length_le_of_sorted hs 0 (M + 1) (by
      intro e he; have := hle e he; omega)
    omega
  obtain ⟨names, map, hf, inv⟩ := clean_loop bd b.nd.nodes (M + 1) used (by omega) hu3 b.nimap []
    [] (List.replicate (M + 1) 0) (by
      intro e he; have := hle e (by simpa using he); omega) (by simpa using hlen) (by simpa using hs)
    ⟨List.nodup_nil, by simp, by simp, by simp, by simp⟩
  rw [List.nil_append] at inv
  obtain ⟨nodes, hm1, hm2, hm3⟩ := mapM_idx (l := b.nd.nodes) (map := map) (by
    intro i hi; rw [inv.len]; exact hnodes i hi)
  refine ⟨{ b with nimap := dense 0 names, nd := { b.nd with nodes } }, ?_⟩
  unfold cleanNimap
  rw [hM]
  simp only [unwrap, res_bind_ok]
  rw [u16_ok (by omega)]
  simp only [res_bind_ok]
  rw [hu1]
  simp only [res_bind_ok]
  have : ((([], List.replicate (M + 1) 0) : NameIdMap × List Nat))
    = (dense 0 [], List.replicate (M + 1) 0) := rfl
  rw [this, hf]
  simp only [res_bind_ok]
  rw [hm1]
  rfl

/-- Cleaned blocks are well-formed. -/
theorem clean_any_wf {b : MapBlock} (h : Wf b) {names : List Bytes} {nodes : List Nat}
    (hl : nodes.length = 4096) (hn : names.length ≤ 4096) (hj : ∀ j ∈ nodes, j < 65536)
    (hs : ∀ x ∈ names, x.length < 65536) : Wf (withNodes b (dense 0 names) nodes) := by
  refine wf_withNodes h ⟨sorted_dense _ _, ?_, ?_⟩ hl hj
  · rw [length_dense]; omega
  · intro e he
    constructor
    · have : e.1 ∈ (dense 0 names).map (·.1) := List.mem_map.2 ⟨e, he, rfl⟩
      rw [keys_dense, List.mem_range'_1] at this
      omega
    · have : e.2 ∈ (dense 0 names).map (·.2) := List.mem_map.2 ⟨e, he, rfl⟩
      rw [names_dense] at this
      exact hs _ this

theorem unwrap_iff {why : String} {o : Option α} {a : α} : unwrap why o = .ok a ↔ o = some a := by
  unfold unwrap
  cases o with
  | none => simp
  | some x => simp

/-- The name table after choosing the ID of the new node. -/
theorem fillId_any {bd : Build} {m nimap : NameIdMap} {node : Bytes} {id : Nat} (hs : SMap.Sorted m)
    (h : fillId bd m node = .ok (id, nimap)) :
    SMap.Sorted nimap ∧ SMap.get? nimap id = some node ∧ (∀ e ∈ nimap, e = (id, node) ∨ e ∈ m) ∧
      ((∀ e ∈ nimap, e.1 < 65535) → ∀ j v, SMap.get? m j = some v → SMap.get? nimap j = some v) := by
  unfold fillId at h
  cases hg : NameIdMap.getId m node with
  | some k =>
    rw [hg] at h
    cases h
    exact ⟨hs, SMap.get?_of_mem hs (getId_some hg), fun e he => .inr he, fun _ j v hv => hv⟩
  | none =>
    rw [hg] at h
    simp only [bind_ok_iff, unwrap_iff] at h
    obtain ⟨mx, h1, k, h2, h3⟩ := h
    cases h3
    obtain ⟨hle, v, hv⟩ := maxId_spec hs h1
    refine ⟨SMap.sorted_insert hs _ _, by rw [SMap.get?_insert]; simp, ?_, ?_⟩
    · intro e he
      exact SMap.mem_insert he
    · intro hsm j w hw
      have hmx : mx < 65535 := by
        rcases Nat.lt_or_ge mx 65535 with hx | hx
        · exact hx
        · have hne : id ≠ mx := by
            unfold u16 at h2
            split at h2
            · cases h2; omega
            · split at h2
              · cases h2
              · cases h2; have := Nat.mod_lt (mx + 1) (show 0 < 65536 by decide); omega
          have : SMap.get? (SMap.insert m id node) mx = some v := by
            rw [SMap.get?_insert, if_neg (by simpa using hne)]
            exact SMap.get?_of_mem hs hv
          exact hsm _ (SMap.get?_some_mem this)
      rw [u16_ok (by omega)] at h2
      cases h2
      exact get?_lt_insert hle hw

/-- `fill` succeeds on a block if no ID is too great. -/
theorem fillBlock_works (bd : Build) {b : MapBlock} (h : Wf b) (hc : Covered b)
    (hsm : ∀ e ∈ b.nimap, e.1 ≤ 65533) (node : Bytes) {a : Area}
    (ha : a.isValid = true) (bp : Vec3) (invert : Bool) :
    ∃ r, fillBlock bd a invert node bp b = .ok r := by
  unfold fillBlock
  have hlen := h.nodes.1
  cases hp : partly a bp with
  | false => exact ⟨_, rfl⟩
  | true =>
    obtain ⟨part, h1, h2, h3⟩ := part_spec ha hp
    obtain ⟨h4, h5⟩ := selIdx_spec h2 h3 invert
    have hfill : ∃ id nimap, fillId bd b.nimap node = .ok (id, nimap) ∧ ∀ e ∈ nimap, e.1 < 65535 := by
      unfold fillId
      cases hg : NameIdMap.getId b.nimap node with
      | some id => exact ⟨id, b.nimap, rfl, fun e he => by have := hsm e he; omega⟩
      | none =>
        have hne : b.nimap ≠ [] := by
          intro he
          cases hnd : b.nd.nodes with
          | nil => rw [hnd] at hlen; cases hlen
          | cons x l =>
            obtain ⟨e, he', -⟩ := hc x (by rw [hnd]; exact List.mem_cons_self)
            rw [he] at he'
            cases he'
        obtain ⟨mx, hmx⟩ := maxId_exists hne
        obtain ⟨hle, v, hv⟩ := maxId_spec h.nimap.sorted hmx
        have hmx2 := hsm _ hv
        simp only at hmx2
        simp only
        rw [hmx]
        simp only [unwrap, res_bind_ok]
        rw [u16_ok (by omega)]
        simp only [res_bind_ok]
        refine ⟨_, _, rfl, fun e he => ?_⟩
        rcases SMap.mem_insert he with rfl | he
        · simp only; omega
        · have := hsm e he; omega
    obtain ⟨id, nimap, f0, f5⟩ := hfill
    obtain ⟨f1, f2, f3, f4⟩ := fillId_any h.nimap.sorted f0
    obtain ⟨nodes, g1, g2, g3⟩ := fillArea_spec h2 b.nd.nodes hlen id invert fun i hi => ((h5 i).1 hi).1
    have hcov : Covered (withNodes b nimap nodes) := by
      intro v hv
      have hv : v ∈ nodes := hv
      obtain ⟨i, hi⟩ := List.mem_iff_getElem?.1 hv
      by_cases hs : i ∈ selIdx part invert
      · rw [(g3 i).1 hs] at hi
        cases hi
        exact ⟨_, SMap.get?_some_mem f2, Nat.le_refl _⟩
      · rw [(g3 i).2 hs] at hi
        obtain ⟨e, he, hle⟩ := hc v (List.mem_iff_getElem?.2 ⟨i, hi⟩)
        exact ⟨e, SMap.get?_some_mem (f4 f5 _ _ (SMap.get?_of_mem h.nimap.sorted he)), hle⟩
    obtain ⟨b', hb'⟩ := clean_works bd (b := withNodes b nimap nodes) f1 f5 hcov (by
      intro he
      have he : nodes = [] := he
      rw [he] at g2
      cases g2)
    refine ⟨(b', part.volume), ?_⟩
    simp only [if_true, h1, unwrap, res_bind_ok]
    rw [f0]
    simp only [res_bind_ok]
    rw [g1]
    simp only [res_bind_ok]
    unfold withNodes at hb'
    rw [hb']
    rfl

theorem fillId_lt {bd : Build} {m nimap : NameIdMap} {node : Bytes} {id : Nat} (h : NimapWf m)
    (f0 : fillId bd m node = .ok (id, nimap)) : id < 65536 := by
  unfold fillId at f0
  cases hg : NameIdMap.getId m node with
  | some k =>
    rw [hg] at f0
    cases f0
    exact (h.fits.2 _ (getId_some hg)).1
  | none =>
    rw [hg] at f0
    simp only [bind_ok_iff, unwrap_iff] at f0
    obtain ⟨mx, -, k, k2, k3⟩ := f0
    cases k3
    unfold u16 at k2
    split at k2
    · cases k2; assumption
    · split at k2
      · cases k2
      · cases k2; exact Nat.mod_lt _ (by decide)

theorem fillNodes_fit {b : MapBlock} (h : Wf b) {nimap : NameIdMap} {nodes : List Nat} {id : Nat}
    {S : List Nat} (hid : id < 65536) (g2 : nodes.length = 4096)
    (g3 : ∀ i : Nat, (i ∈ S → nodes[i]? = some id) ∧ (i ∉ S → nodes[i]? = b.nd.nodes[i]?)) :
    NodesFit (withNodes b nimap nodes).nd := by
  refine ⟨g2, ?_, h.nodes.2.2⟩
  intro v hv
  obtain ⟨i, hi⟩ := List.mem_iff_getElem?.1 hv
  have hi : nodes[i]? = some v := hi
  by_cases hs : i ∈ S
  · rw [(g3 i).1 hs] at hi; cases hi; exact hid
  · rw [(g3 i).2 hs] at hi; exact h.nodes.2.1 v (List.mem_iff_getElem?.2 ⟨i, hi⟩)

/-- The names in a filled block. -/
theorem fillBlock_names {bd : Build} {b b' : MapBlock} (h : Wf b) {node : Bytes} {a : Area}
    (ha : a.isValid = true) {bp : Vec3} {invert : Bool} {n : Nat}
    (hok : fillBlock bd a invert node bp b = .ok (b', n)) :
    ∀ e ∈ b'.nimap, e.2 = node ∨ ∃ e' ∈ b.nimap, e'.2 = e.2 := by
  unfold fillBlock at hok
  have hlen := h.nodes.1
  cases hp : partly a bp with
  | true =>
    obtain ⟨part, h1, h2, h3⟩ := part_spec ha hp
    obtain ⟨h4, h5⟩ := selIdx_spec h2 h3 invert
    rw [hp] at hok
    simp only [if_true, h1, bind_ok_iff, unwrap_iff] at hok
    obtain ⟨part', hpart, ⟨id, nimap⟩, f0, nodes, g0, b2, c0, hok⟩ := hok
    cases hpart
    cases hok
    obtain ⟨f1, f2, f3, f4⟩ := fillId_any h.nimap.sorted f0
    obtain ⟨nodes1, g1, g2, g3⟩ := fillArea_spec h2 b.nd.nodes hlen id invert fun i hi => ((h5 i).1 hi).1
    simp only at g0
    rw [g0] at g1
    cases g1
    obtain ⟨names, nodes', c1, -, -, -, -, c6, -⟩ :=
      clean_any (b := withNodes b nimap nodes) f1 (fillNodes_fit h (fillId_lt h.nimap f0) g2 g3) c0
    intro e he
    rw [c1] at he
    have he : e ∈ dense 0 names := he
    have hx : e.2 ∈ (dense 0 names).map (·.2) := List.mem_map.2 ⟨e, he, rfl⟩
    rw [names_dense] at hx
    obtain ⟨e', h6, h7⟩ := c6 _ hx
    rcases f3 e' h6 with rfl | h8
    · exact .inl h7.symm
    · exact .inr ⟨e', h8, h7⟩
  | false =>
    rw [hp] at hok
    simp only [Bool.false_eq_true, if_false] at hok
    cases hok
    intro e he
    have he : e ∈ [(0, node)] := he
    rw [List.mem_singleton] at he
    subst he
    exact .inl rfl

/-- What `fill` has done to a block when it returns and the block can be written. -/
theorem fillBlock_any {bd : Build} {b b' : MapBlock} (h : Wf b) {node : Bytes} {a : Area}
    (ha : a.isValid = true) {bp : Vec3} {invert : Bool}
    (hw : ∃ p, InBlock bp p ∧ Selected (some a) invert p) {n : Nat}
    (hok : fillBlock bd a invert node bp b = .ok (b', n))
    (hsave : ∀ e ∈ b'.nimap, e.2.length < 65536) :
    ∃ nimap nodes, b' = withNodes b nimap nodes ∧ Wf b' ∧ Named b' ∧ ((∀ e ∈ b'.nimap, e.1 ≤ 4095) ∧ Tidy b') ∧
      (∀ i, i < 4096 → Selected (some a) invert (posAt bp i) → nodeName b' i = some node) ∧
      (∀ i, i < 4096 → ¬ Selected (some a) invert (posAt bp i) → ∀ nm, nodeName b i = some nm →
        nodeName b' i = some nm) ∧
      n = (if partly a bp then countNodes fun i => InBox a.min a.max (posAt bp i) else 4096) := by
  unfold fillBlock at hok
  have hlen := h.nodes.1
  cases hp : partly a bp with
  | true =>
    obtain ⟨part, h1, h2, h3⟩ := part_spec ha hp
    obtain ⟨h4, h5⟩ := selIdx_spec h2 h3 invert
    rw [hp] at hok
    simp only [if_true, h1, bind_ok_iff, unwrap_iff] at hok
    obtain ⟨part', hpart, ⟨id, nimap⟩, f0, nodes, g0, b2, c0, hok⟩ := hok
    cases hpart
    cases hok
    obtain ⟨f1, f2, f3, f4⟩ := fillId_any h.nimap.sorted f0
    obtain ⟨nodes1, g1, g2, g3⟩ := fillArea_spec h2 b.nd.nodes hlen id invert fun i hi => ((h5 i).1 hi).1
    simp only at g0
    rw [g0] at g1
    cases g1
    have hid := fillId_lt h.nimap f0
    have hfit := fillNodes_fit h (nimap := nimap) hid g2 g3
    obtain ⟨names, nodes', c1, c2, c3, c4, c5, c6, c7, c8, c9, t1, t2⟩ :=
      clean_full (b := withNodes b nimap nodes) f1 hfit c0
    have hb2 : b' = withNodes b (dense 0 names) nodes' := c1
    have hsave' : ∀ x ∈ names, x.length < 65536 := by
      intro x hx
      rw [← names_dense 0 names] at hx
      obtain ⟨e, he, rfl⟩ := List.mem_map.1 hx
      refine hsave e ?_
      rw [hb2]
      exact he
    have hsel : ∀ i, i < 4096 → Selected (some a) invert (posAt bp i) → nodeName b' i = some node := by
      intro i hi hs
      refine c7 i node ?_
      rw [nodeName_withNodes, (g3 i).1 ((h5 i).2 ⟨hi, hs⟩)]
      exact f2
    have hne : 0 < names.length := by
      obtain ⟨p, hp1, hp2⟩ := hw
      obtain ⟨i, hi, rfl⟩ := exists_posAt hp1
      have := hsel i hi hp2
      rw [hb2, nodeName_withNodes] at this
      cases names with
      | nil =>
        split at this
        · cases this
        · cases this
      | cons x l => simp
    refine ⟨dense 0 names, nodes', hb2, ?_, ?_, ⟨?_, ?_⟩, hsel, ?_, ?_⟩
    · rw [hb2]; exact clean_any_wf h c2 c3 c4 hsave'
    · intro j hj
      rw [hb2] at hj ⊢
      obtain ⟨i, hi⟩ := List.mem_iff_getElem?.1 hj
      have hi4 : i < 4096 := by
        rcases Nat.lt_or_ge i nodes'.length with hx | hx
        · omega
        · have hi : nodes'[i]? = some j := hi
          rw [List.getElem?_eq_none hx] at hi; cases hi
      cases hn : nodeName (withNodes b nimap nodes) i with
      | some nm =>
        have := c7 i nm hn
        rw [hb2, nodeName_withNodes] at this
        have hi : nodes'[i]? = some j := hi
        rw [hi] at this
        exact ⟨nm, this⟩
      | none =>
        have h8 := c8 i hi4 hn
        have hi : nodes'[i]? = some j := hi
        rw [hi] at h8
        cases h8
        show ∃ nm, SMap.get? (dense 0 names) 0 = some nm
        rw [get?_dense 0 names 0 (by omega), Nat.sub_zero]
        exact ⟨names[0], List.getElem?_eq_getElem hne⟩
    · intro e he
      rw [hb2] at he
      have : e.1 ∈ (dense 0 names).map (·.1) := List.mem_map.2 ⟨e, he, rfl⟩
      rw [keys_dense, List.mem_range'_1] at this
      omega
    · rw [hb2]
      exact tidy_dense rfl rfl c5 t1 t2
    · intro i hi hs nm hnm
      refine c7 i nm ?_
      rw [nodeName_withNodes, (g3 i).2 (fun hc => hs ((h5 i).1 hc).2)]
      unfold nodeName at hnm
      cases hv : b.nd.nodes[i]? with
      | none => rw [hv] at hnm; cases hnm
      | some v =>
        rw [hv] at hnm
        exact f4 c9 v nm hnm
    · obtain ⟨k4, k5⟩ := selIdx_spec h2 h3 false
      rw [if_pos rfl, ← selIdx_volume h2]
      refine length_eq_count k4 ?_
      intro i
      rw [k5 i, selected_iff]
      simp
  | false =>
    rw [hp] at hok
    simp only [Bool.false_eq_true, if_false] at hok
    cases hok
    have hl : node.length < 65536 := hsave (0, node) (List.mem_singleton.2 rfl)
    have hall : ∀ i, i < 4096 → Selected (some a) invert (posAt bp i) := fun i hi =>
      whole_spec ha hp hw _ (posAt_inBlock bp hi)
    have hz : ∀ v ∈ b.nd.nodes.map (fun _ => 0), v = 0 := by
      intro v hv
      obtain ⟨_, _, rfl⟩ := List.mem_map.1 hv
      rfl
    have hni : SMap.insert ([] : NameIdMap) 0 node = [(0, node)] := rfl
    refine ⟨SMap.insert [] 0 node, b.nd.nodes.map fun _ => 0, rfl, ?_, ?_, ⟨?_, ?_⟩, ?_, ?_, hlen⟩
    · refine wf_withNodes h ⟨?_, ?_, ?_⟩ (by simp [hlen]) ?_
      · rw [hni]; exact List.pairwise_singleton _ _
      · rw [hni]; show 1 < 65536; decide
      · intro e he
        rw [hni, List.mem_singleton] at he
        subst he
        exact ⟨(by show 0 < 65536; decide), hl⟩
      · intro v hv; rw [hz v hv]; decide
    · intro v hv
      refine ⟨node, ?_⟩
      rw [hz v hv]
      rfl
    · intro e he
      have he : e ∈ SMap.insert ([] : NameIdMap) 0 node := he
      rw [hni, List.mem_singleton] at he
      subst he
      exact Nat.zero_le _
    · refine tidy_dense (names := [node]) rfl rfl (by simp) ?_ fun j hj => .inl (hz j hj)
      intro j hj
      have : j = 0 := by simpa using hj
      subst this
      obtain ⟨x, hx⟩ := List.exists_mem_of_ne_nil b.nd.nodes (by intro h0; rw [h0] at hlen; cases hlen)
      exact List.mem_map.2 ⟨x, hx, rfl⟩
    · intro i hi _
      show nodeName (withNodes b _ _) i = _
      rw [nodeName_withNodes, List.getElem?_map]
      have : i < b.nd.nodes.length := by omega
      rw [List.getElem?_eq_getElem this]
      rfl
    · intro i hi hn
      exact absurd (hall i hi) hn

end MapEditr
