import Verif.Proof.Param2
/-! # Lemmas: metadata and timers of selected nodes -/

namespace MapEditr
open Spec
set_option linter.unusedSimpArgs false
set_option linter.unusedVariables false

/-- An index is taken modulo 4096 when its position is computed. -/
theorem absPos_eq {bp : Vec3} (h : ValidBlockPos bp) (i : Nat) :
    absPos (keyOf bp) i = posAt bp (i % 4096) := by
  unfold absPos
  rw [fromBlockKey_keyOf bp h, fromU16Key_eq]
  unfold Vec3.add Vec3.mulS posAt
  simp only [Vec3.mk.injEq]
  refine ⟨?_, ?_, ?_⟩ <;> omega

theorem inSel_iff {area : Option Area} {invert : Bool} {p : Vec3} :
    inSel area invert p = true ↔ Selected area invert p := by
  unfold inSel Selected
  cases area with
  | none => simp
  | some a =>
    simp only
    rw [← contains_inBox]
    cases a.contains p <;> cases invert <;> simp

theorem inSel_eq {area : Option Area} {invert : Bool} {bp : Vec3} (h : ValidBlockPos bp) (i : Nat) :
    inSel area invert (absPos (keyOf bp) i) = decide (Selected area invert (posAt bp (i % 4096))) := by
  rw [absPos_eq h i, Bool.eq_iff_iff, inSel_iff, decide_eq_true_iff]

/-- What the test for one node name does: skip the block, or look at the node. -/
theorem nodeId_hit {b : MapBlock} (hw : Wf b) {node : Option Bytes} {Q : Nat → Prop} [DecidablePred Q]
    (hQ : ∀ i, Q i ↔ IsFirst b node i) :
    ((node.isSome && (node.bind fun n => NameIdMap.getId b.nimap n).isNone) = true ∧ ∀ i, ¬ Q i) ∨
    ((node.isSome && (node.bind fun n => NameIdMap.getId b.nimap n).isNone) = false ∧
      ∀ i, nodeIs b.nd.nodes (node.bind fun n => NameIdMap.getId b.nimap n) i = .ok (decide (Q i)) ∨
        (node ≠ none ∧ 4096 ≤ i ∧
          ∀ hit, nodeIs b.nd.nodes (node.bind fun n => NameIdMap.getId b.nimap n) i ≠ .ok hit)) := by
  rcases nodeId_cases hw hQ with ⟨h1, h2, h3⟩ | ⟨h1, h2, h3⟩ | ⟨id, h2, h3⟩
  · left
    rw [h1, h2]
    exact ⟨rfl, h3⟩
  · right
    rw [h2, h1]
    refine ⟨rfl, fun i => .inl ?_⟩
    unfold nodeIs
    rw [decide_eq_true (h3 i)]
  · right
    rw [h2]
    refine ⟨by simp, fun i => ?_⟩
    unfold nodeIs
    simp only
    by_cases hi : i < 4096
    · left
      have hl : i < b.nd.nodes.length := by rw [hw.nodes.1]; exact hi
      rw [idx_ok (List.getElem?_eq_getElem hl)]
      simp only [res_bind_ok, res_pure]
      congr 1
      rw [Bool.eq_iff_iff, decide_eq_true_iff, h3 i, List.getElem?_eq_getElem hl]
      simp
    · right
      refine ⟨fun h => ?_, by omega, fun hit he => ?_⟩
      · rw [h] at h2; cases h2
      have : b.nd.nodes[i]? = none := List.getElem?_eq_none (by rw [hw.nodes.1]; omega)
      unfold idx at he
      rw [this] at he
      cases he

/-- What the test for several node names does. -/
theorem ids_hit {b : MapBlock} (hw : Wf b) {nodes : List Bytes} {Q : Nat → Prop} [DecidablePred Q]
    (hQ : ∀ i, Q i ↔ AmongFirst b nodes i) :
    ((!nodes.isEmpty && (nodes.filterMap fun n => NameIdMap.getId b.nimap n).isEmpty) = true ∧ ∀ i, ¬ Q i) ∨
    ((!nodes.isEmpty && (nodes.filterMap fun n => NameIdMap.getId b.nimap n).isEmpty) = false ∧
      ∀ i, nodeAmong b.nd.nodes (nodes.filterMap fun n => NameIdMap.getId b.nimap n) i = .ok (decide (Q i)) ∨
        (nodes ≠ [] ∧ 4096 ≤ i ∧
          ∀ hit, nodeAmong b.nd.nodes (nodes.filterMap fun n => NameIdMap.getId b.nimap n) i ≠ .ok hit)) := by
  by_cases hn : nodes = []
  · right
    subst hn
    refine ⟨rfl, fun i => .inl ?_⟩
    rw [decide_eq_true ((hQ i).2 (.inl rfl))]
    rfl
  · have hne : nodes.isEmpty = false := by rw [List.isEmpty_eq_false_iff]; exact hn
    have hmem : ∀ i v, b.nd.nodes[i]? = some v →
        (v ∈ (nodes.filterMap fun n => NameIdMap.getId b.nimap n) ↔ Q i) := by
      intro i v hi
      rw [ids_mem hw hi, hQ i]
      unfold AmongFirst
      simp [hn]
    cases he : (nodes.filterMap fun n => NameIdMap.getId b.nimap n).isEmpty with
    | true =>
      left
      rw [hne]
      refine ⟨rfl, fun i ha => ?_⟩
      rcases (hQ i).1 ha with h | ⟨n, h1, id, h2, h3⟩
      · exact hn h
      · have := (hmem i id h2).2 ha
        rw [List.isEmpty_iff.1 he] at this
        cases this
    | false =>
      right
      rw [hne]
      refine ⟨rfl, fun i => ?_⟩
      unfold nodeAmong
      rw [he, if_neg (by simp)]
      by_cases hi : i < 4096
      · left
        have hl : i < b.nd.nodes.length := by rw [hw.nodes.1]; exact hi
        rw [idx_ok (List.getElem?_eq_getElem hl)]
        simp only [res_bind_ok, res_pure]
        congr 1
        rw [Bool.eq_iff_iff, decide_eq_true_iff, List.contains_iff_mem]
        exact hmem i _ (List.getElem?_eq_getElem hl)
      · right
        refine ⟨hn, by omega, fun hit he => ?_⟩
        have : b.nd.nodes[i]? = none := List.getElem?_eq_none (by rw [hw.nodes.1]; omega)
        unfold idx at he
        rw [this] at he
        cases he

/-! ## Metadata lists -/

theorem metasWf_sublist {l l' : MetaList} (h : MetasWf l) (hs : l'.Sublist l) : MetasWf l' :=
  ⟨h.sorted.sublist hs, Nat.lt_of_le_of_lt hs.length_le h.count, fun e he => h.keys e (hs.subset he),
    fun e he => h.metas e (hs.subset he)⟩

theorem foldl_erase_sublist (ks : List Nat) (m : MetaList) : (ks.foldl SMap.erase m).Sublist m := by
  induction ks generalizing m with
  | nil => exact List.Sublist.refl _
  | cons k t ih =>
    rw [List.foldl_cons]
    exact (ih _).trans List.filter_sublist

/-- The block with other metadata. -/
def withMetas (b : MapBlock) (m : MetaList) : MapBlock := { b with metas := m }

theorem wf_withMetas {b : MapBlock} (h : Wf b) {m : MetaList} (hm : MetasWf m) : Wf (withMetas b m) :=
  ⟨h.ver, h.flags, h.light, h.light_old, h.widths, h.nodes, hm, h.objs, h.time, h.nimap, h.timers⟩

/-- The entries the loop of `deletemeta` collects. -/
theorem metaToDelete_eq {args : InstArgs} {nodeId : Option Nat} {key : Int} {nodes : List Nat}
    {P : Nat → Prop} [DecidablePred P] {l : MetaList}
    (h : ∀ e ∈ l, (if inSel args.area args.invert (absPos key e.1) then nodeIs nodes nodeId e.1
      else (.ok false : Res Bool)) = .ok (decide (P e.1))) :
    metaToDelete args nodeId key nodes l = .ok ((l.filter fun e => P e.1).map (·.1)) := by
  induction l with
  | nil => rfl
  | cons e t ih =>
    obtain ⟨i, m⟩ := e
    have h1 := h (i, m) List.mem_cons_self
    simp only at h1
    unfold metaToDelete
    have hih := ih fun e he => h e (List.mem_cons_of_mem _ he)
    cases hs : inSel args.area args.invert (absPos key i) with
    | true =>
      rw [hs, if_pos rfl] at h1
      simp only [if_true, h1, hih, res_bind_ok, res_pure, List.filter_cons]
      by_cases hp : P i <;> simp [hp]
    | false =>
      rw [hs, if_neg (by simp)] at h1
      have hp : ¬ P i := by
        have h2 : (false = decide (P i)) := Except.ok.inj h1
        exact of_decide_eq_false h2.symm
      simp only [Bool.false_eq_true, if_false, hih, res_bind_ok, res_pure, List.filter_cons]
      simp [hp]

theorem metaToDelete_cons (args : InstArgs) (nodeId : Option Nat) (key : Int) (nodes : List Nat) (i : Nat)
    (m : NodeMeta) (t : MetaList) : metaToDelete args nodeId key nodes ((i, m) :: t) =
      (if inSel args.area args.invert (absPos key i) then nodeIs nodes nodeId i else (.ok false : Res Bool)) >>=
        fun hit => metaToDelete args nodeId key nodes t >>= fun rest => pure (if hit then i :: rest else rest) := by
  rw [metaToDelete]
  split <;> rfl

/-- Where the loop succeeds, all its tests do. -/
theorem metaToDelete_ok {args : InstArgs} {nodeId : Option Nat} {key : Int} {nodes : List Nat} {l : MetaList}
    {r : List Nat} (h : metaToDelete args nodeId key nodes l = .ok r) :
    ∀ e ∈ l, ∃ hit, (if inSel args.area args.invert (absPos key e.1) then nodeIs nodes nodeId e.1
      else (.ok false : Res Bool)) = .ok hit := by
  induction l generalizing r with
  | nil => intro e he; cases he
  | cons e t ih =>
    obtain ⟨i, m⟩ := e
    rw [metaToDelete_cons] at h
    cases h1 : (if inSel args.area args.invert (absPos key i) then nodeIs nodes nodeId i
      else (.ok false : Res Bool)) with
    | error x => rw [h1] at h; cases h
    | ok hit =>
      rw [h1, res_bind_ok] at h
      cases h2 : metaToDelete args nodeId key nodes t with
      | error x => rw [h2] at h; cases h
      | ok r' =>
        intro e he
        rcases List.mem_cons.1 he with rfl | he
        · exact ⟨hit, h1⟩
        · exact ih h2 e he

/-- Where the loop succeeds, all its tests do. -/
theorem removeRev_ok {del : α → Res Bool} {l : List α} {r : List α × Nat} (h : removeRev del l = .ok r) :
    ∀ a ∈ l, ∃ hit, del a = .ok hit := by
  induction l generalizing r with
  | nil => intro e he; cases he
  | cons a t ih =>
    unfold removeRev at h
    cases h1 : removeRev del t with
    | error x => rw [h1] at h; cases h
    | ok r' =>
      rw [h1] at h
      cases h2 : del a with
      | error x =>
        obtain ⟨x1, x2⟩ := r'
        rw [h2] at h; cases h
      | ok hit =>
        intro e he
        rcases List.mem_cons.1 he with rfl | he
        · exact ⟨hit, h2⟩
        · exact ih h1 e he

/-- A test that succeeds tells whether the entry is meant. -/
theorem hit_eq {area : Option Area} {invert : Bool} {bp : Vec3} (hbp : ValidBlockPos bp) {i : Nat} {Q : Nat → Prop}
    [DecidablePred Q] {test : Res Bool} {A : Prop}
    (h : test = .ok (decide (Q i)) ∨ (A ∧ 4096 ≤ i ∧ ∀ hit, test ≠ .ok hit))
    (hok : (A → i < 4096) ∨
      ∃ hit, (if inSel area invert (absPos (keyOf bp) i) then test else (.ok false : Res Bool)) = .ok hit) :
    (if inSel area invert (absPos (keyOf bp) i) then test else (.ok false : Res Bool)) =
      .ok (decide (Selected area invert (posAt bp (i % 4096)) ∧ Q i)) := by
  rw [inSel_eq hbp i] at hok ⊢
  by_cases hs : Selected area invert (posAt bp (i % 4096))
  · simp only [hs, decide_true, if_true, true_and] at hok ⊢
    rcases h with h | ⟨h1, h2, h3⟩
    · exact h
    · rcases hok with hok | ⟨hit, hok⟩
      · exact absurd (hok h1) (by omega)
      · exact absurd hok (h3 hit)
  · simp [hs]

/-- `removeRev` keeps the elements not to be deleted. -/
theorem removeRev_eq {del : α → Res Bool} {P : α → Prop} [DecidablePred P] {l : List α}
    (h : ∀ a ∈ l, del a = .ok (decide (P a))) :
    removeRev del l = .ok (l.filter fun a => ¬ P a, (l.filter fun a => P a).length) := by
  induction l with
  | nil => rfl
  | cons a t ih =>
    unfold removeRev
    rw [h a List.mem_cons_self, ih fun e he => h e (List.mem_cons_of_mem _ he)]
    simp only [res_bind_ok, res_pure, List.filter_cons]
    by_cases hp : P a <;> simp [hp]

theorem without_filter (P : α → Prop) [DecidablePred P] (l : List α) :
    Without P l (l.filter fun a => ¬ P a) := by
  induction l with
  | nil => exact .nil
  | cons a t ih =>
    by_cases hp : P a
    · simp only [List.filter_cons, hp, not_true_eq_false, decide_false, Bool.false_eq_true, if_false]
      exact .drop hp ih
    · simp only [List.filter_cons, hp, not_false_eq_true, decide_true, if_true]
      exact .keep hp ih

theorem without_self {P : α → Prop} {l : List α} (h : ∀ a ∈ l, ¬ P a) : Without P l l := by
  induction l with
  | nil => exact .nil
  | cons a t ih =>
    exact .keep (h a List.mem_cons_self) (ih fun e he => h e (List.mem_cons_of_mem _ he))

theorem filter_none {P : α → Prop} [DecidablePred P] {l : List α} (h : ∀ a ∈ l, ¬ P a) :
    l.filter (fun a => P a) = [] := by
  rw [List.filter_eq_nil_iff]
  intro a ha
  simpa using h a ha

end MapEditr
