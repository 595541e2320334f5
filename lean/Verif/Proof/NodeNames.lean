import Verif.Proof.Change
/-! # Lemmas: nodes chosen by name -/

namespace MapEditr
open Spec
set_option linter.unusedSimpArgs false
set_option linter.unusedVariables false

theorem getId_none_get? {m : NameIdMap} {n : Bytes} (h : NameIdMap.getId m n = none) (id : Nat) :
    SMap.get? m id ≠ some n := by
  intro he
  exact getId_none.1 h _ (SMap.get?_some_mem he) rfl

theorem getId_none_node {b : MapBlock} {n : Bytes} (h : NameIdMap.getId b.nimap n = none) (i : Nat) :
    nodeName b i ≠ some n := by
  unfold nodeName
  cases b.nd.nodes[i]? with
  | none => simp
  | some id => exact getId_none_get? h id

/-- The nodes with the ID found are the nodes with the name. -/
theorem getId_node {b : MapBlock} (hw : Wf b) (hu : UniqueNames b) {n : Bytes} {id : Nat}
    (h : NameIdMap.getId b.nimap n = some id) (i : Nat) :
    b.nd.nodes[i]? = some id ↔ nodeName b i = some n := by
  have hid := SMap.get?_of_mem hw.nimap.sorted (getId_some h)
  unfold nodeName
  cases hi : b.nd.nodes[i]? with
  | none => simp
  | some j =>
    simp only [Option.some.injEq]
    constructor
    · rintro rfl; exact hid
    · intro hj; exact hu _ _ _ hj hid

/-- Blocks left out by the query do not have the node. -/
theorem skipped_node {c : Codec} {d : Bytes} {b : MapBlock} (hrep : Represents c d b)
    {names : List Bytes} (h : nameKeeps (names.map string16) d = false) {n : Bytes} (hn : n ∈ names)
    (id : Nat) : SMap.get? b.nimap id ≠ some n := by
  intro he
  by_cases hv : b.version ≤ 28
  · have h1 := name_infix hrep hv he
    rw [nameKeeps_of_infix hn (by rw [string16_eq]; exact h1)] at h
    cases h
  · rw [nameKeeps_29 hrep hv] at h
    cases h

theorem skipped_nodeName {c : Codec} {d : Bytes} {b : MapBlock} (hrep : Represents c d b)
    {names : List Bytes} (h : nameKeeps (names.map string16) d = false) {n : Bytes} (hn : n ∈ names)
    (i : Nat) : nodeName b i ≠ some n := by
  unfold nodeName
  cases b.nd.nodes[i]? with
  | none => simp
  | some id => exact skipped_node hrep h hn id

/-- Blocks left out for one name. -/
theorem skipped_isNode {c : Codec} {d : Bytes} {b : MapBlock} (hrep : Represents c d b)
    {node : Option Bytes} (h : nameKeeps ((toSlice node).map string16) d = false) (i : Nat) :
    ¬ IsNode b node i := by
  cases node with
  | none => rw [show (toSlice none).map string16 = [] from rfl, nameKeeps_nil] at h; cases h
  | some n =>
    intro hi
    exact skipped_nodeName hrep h (List.mem_singleton.2 rfl) i (hi n rfl)

/-- Blocks left out for several names. -/
theorem skipped_among {c : Codec} {d : Bytes} {b : MapBlock} (hrep : Represents c d b)
    {nodes : List Bytes} (h : nameKeeps (nodes.map string16) d = false) (i : Nat) :
    ¬ AmongNodes b nodes i := by
  rintro (rfl | ⟨n, hn, hi⟩)
  · rw [List.map_nil, nameKeeps_nil] at h; cases h
  · exact skipped_nodeName hrep h hn i hi

/-! ## The least ID of a name -/

theorem getId_least {m : NameIdMap} (hs : SMap.Sorted m) {n : Bytes} {id : Nat}
    (h : NameIdMap.getId m n = some id) (j : Nat) (hj : j < id) : (j, n) ∉ m := by
  induction m with
  | nil => simp
  | cons e t ih =>
    obtain ⟨k, v⟩ := e
    rw [SMap.Sorted, List.pairwise_cons] at hs
    unfold NameIdMap.getId at h
    intro hm
    have hk := hs.1
    simp only at hk
    by_cases hv : v = n
    · rw [if_pos (by simpa using hv)] at h
      have h := Option.some.inj h
      rcases List.mem_cons.1 hm with hm | hm
      · cases hm; omega
      · have := hk _ hm
        have : k < j := by simpa [KeyOrd.lt] using this
        omega
    · rw [if_neg (by simpa using hv)] at h
      rcases List.mem_cons.1 hm with hm | hm
      · cases hm; exact hv rfl
      · exact ih hs.2 h hm

theorem firstId_eq {b : MapBlock} {n : Bytes} {i j : Nat} (hi : FirstId b n i) (hj : FirstId b n j) : i = j := by
  rcases Nat.lt_trichotomy i j with h | h | h
  · exact absurd hi.1 (hj.2 i h)
  · exact h
  · exact absurd hj.1 (hi.2 j h)

/-- `get_id` finds the least ID. -/
theorem getId_first {b : MapBlock} (hs : SMap.Sorted b.nimap) {n : Bytes} {id : Nat} :
    NameIdMap.getId b.nimap n = some id ↔ FirstId b n id := by
  have key : ∀ id, NameIdMap.getId b.nimap n = some id → FirstId b n id := fun id h =>
    ⟨SMap.get?_of_mem hs (getId_some h), fun j hj he => getId_least hs h j hj (SMap.get?_some_mem he)⟩
  refine ⟨key id, fun h => ?_⟩
  cases hg : NameIdMap.getId b.nimap n with
  | none => exact absurd h.1 (getId_none_get? hg id)
  | some id' => rw [firstId_eq (key id' hg) h]

theorem nodeName_of_first {b : MapBlock} {n : Bytes} {i : Nat}
    (h : ∃ id, b.nd.nodes[i]? = some id ∧ FirstId b n id) : nodeName b i = some n := by
  obtain ⟨id, h1, h2⟩ := h
  unfold nodeName
  rw [h1]
  exact h2.1

/-- Where no name is twice in the table, all nodes with a name have its least ID. -/
theorem first_iff {b : MapBlock} (hu : UniqueNames b) {n : Bytes} {i : Nat} :
    nodeName b i = some n ↔ ∃ id, b.nd.nodes[i]? = some id ∧ FirstId b n id := by
  refine ⟨fun h => ?_, nodeName_of_first⟩
  unfold nodeName at h
  cases hi : b.nd.nodes[i]? with
  | none => rw [hi] at h; cases h
  | some id =>
    rw [hi] at h
    exact ⟨id, rfl, h, fun j hj he => absurd (hu _ _ _ he h) (by omega)⟩

theorem isFirst_iff {b : MapBlock} {node : Option Bytes} (hu : node ≠ none → UniqueNames b) (i : Nat) :
    IsNode b node i ↔ IsFirst b node i := by
  cases node with
  | none => exact ⟨fun _ n h => (by cases h), fun _ n h => (by cases h)⟩
  | some m =>
    exact ⟨fun h n hn => (first_iff (hu (by simp))).1 (h n hn), fun h n hn => nodeName_of_first (h n hn)⟩

theorem amongFirst_iff {b : MapBlock} {nodes : List Bytes} (hu : nodes ≠ [] → UniqueNames b) (i : Nat) :
    AmongNodes b nodes i ↔ AmongFirst b nodes i := by
  unfold AmongNodes AmongFirst
  by_cases hn : nodes = []
  · simp [hn]
  · simp only [first_iff (hu hn)]

theorem isNode_of_first {b : MapBlock} {node : Option Bytes} {i : Nat} (h : IsFirst b node i) : IsNode b node i :=
  fun n hn => nodeName_of_first (h n hn)

theorem among_of_first {b : MapBlock} {nodes : List Bytes} {i : Nat} (h : AmongFirst b nodes i) :
    AmongNodes b nodes i := by
  rcases h with h | ⟨n, hn, h⟩
  · exact .inl h
  · exact .inr ⟨n, hn, nodeName_of_first h⟩

theorem names_first {c : Codec} {t : Table} {node : Option String}
    (hu : node ≠ none → AllBlocks c t UniqueNames) :
    AllBlocks c t fun b => ∀ i, IsNode b (node.map toBytes) i ↔ IsFirst b (node.map toBytes) i := by
  intro k d b hd hrep
  refine isFirst_iff fun hne => hu ?_ k d b hd hrep
  intro h
  rw [h] at hne
  exact hne rfl

theorem lists_first {c : Codec} {t : Table} {nodes : List String}
    (hu : nodes ≠ [] → AllBlocks c t UniqueNames) :
    AllBlocks c t fun b => ∀ i, AmongNodes b (nodes.map toBytes) i ↔ AmongFirst b (nodes.map toBytes) i := by
  intro k d b hd hrep
  refine amongFirst_iff fun hne => hu ?_ k d b hd hrep
  intro h
  rw [h] at hne
  exact hne rfl

/-- The ID for an optional name: absent names are absent nodes. -/
theorem nodeId_cases {b : MapBlock} (hw : Wf b) {node : Option Bytes} {Q : Nat → Prop}
    (hQ : ∀ i, Q i ↔ IsFirst b node i) :
    (node.isSome = true ∧ (node.bind fun n => NameIdMap.getId b.nimap n) = none ∧ ∀ i, ¬ Q i) ∨
    (node = none ∧ (node.bind fun n => NameIdMap.getId b.nimap n) = none ∧ ∀ i, Q i) ∨
    (∃ id, (node.bind fun n => NameIdMap.getId b.nimap n) = some id ∧
      ∀ i, Q i ↔ b.nd.nodes[i]? = some id) := by
  simp only [hQ]
  cases node with
  | none => exact .inr (.inl ⟨rfl, rfl, fun i n h => by cases h⟩)
  | some n =>
    cases h : NameIdMap.getId b.nimap n with
    | none =>
      refine .inl ⟨rfl, h, fun i hi => getId_none_node h i (nodeName_of_first (hi n rfl))⟩
    | some id =>
      refine .inr (.inr ⟨id, h, fun i => ?_⟩)
      have hid := (getId_first hw.nimap.sorted).1 h
      constructor
      · intro hi
        obtain ⟨id', h1, h2⟩ := hi n rfl
        rw [h1, firstId_eq h2 hid]
      · rintro hi m hm
        cases hm
        exact ⟨id, hi, hid⟩

/-- The IDs for a list of names. -/
theorem ids_mem {b : MapBlock} (hw : Wf b) {nodes : List Bytes} {i : Nat} {v : Nat}
    (hi : b.nd.nodes[i]? = some v) :
    v ∈ (nodes.filterMap fun n => NameIdMap.getId b.nimap n) ↔
      ∃ n ∈ nodes, ∃ id, b.nd.nodes[i]? = some id ∧ FirstId b n id := by
  rw [List.mem_filterMap]
  constructor
  · rintro ⟨n, hn, he⟩
    exact ⟨n, hn, v, hi, (getId_first hw.nimap.sorted).1 he⟩
  · rintro ⟨n, hn, id, h1, h2⟩
    rw [hi] at h1
    cases h1
    exact ⟨n, hn, (getId_first hw.nimap.sorted).2 h2⟩

end MapEditr
