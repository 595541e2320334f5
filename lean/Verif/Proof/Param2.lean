import Verif.Proof.NodeNames
/-! # Lemmas: the block part of `setparam2` -/

namespace MapEditr
open Spec
set_option linter.unusedSimpArgs false
set_option linter.unusedVariables false

/-- The block with other param2 values. -/
def withParam2 (b : MapBlock) (p2 : Bytes) : MapBlock := { b with nd := { b.nd with param2 := p2 } }

theorem wf_withParam2 {b : MapBlock} (h : Wf b) {p2 : Bytes} (hl : p2.length = 4096) :
    Wf (withParam2 b p2) :=
  ⟨h.ver, h.flags, h.light, h.light_old, h.widths, ⟨h.nodes.1, h.nodes.2.1, h.nodes.2.2.1, hl⟩, h.metas,
    h.objs, h.time, h.nimap, h.timers⟩

/-- Whether the node is hit, in terms of IDs. -/
def idHit (nodes : List Nat) (nodeId : Option Nat) (i : Nat) : Bool :=
  match nodeId with
  | none => true
  | some id => nodes[i]? == some id

theorem param2At_step {nodes : List Nat} {nodeId : Option Nat} {val : UInt8} {l : Bytes} {n i : Nat}
    (hi : i < nodes.length) (hl : i < l.length) : param2At nodes nodeId val (l, n) i =
      .ok (if idHit nodes nodeId i then (l.set i val, n + 1) else (l, n)) := by
  unfold param2At idHit
  cases nodeId with
  | none => simp only [res_bind_ok, if_true]; rw [setIdx_ok hl]; rfl
  | some id =>
    simp only
    rw [idx_ok (List.getElem?_eq_getElem hi), List.getElem?_eq_getElem hi]
    simp only [res_bind_ok]
    by_cases h : nodes[i] = id
    · simp only [res_pure, res_bind_ok, h, beq_self_eq_true, if_true]
      rw [setIdx_ok hl]
      rfl
    · simp only [res_pure, res_bind_ok, Option.some_beq_some, beq_eq_false_iff_ne.2 h, Bool.false_eq_true, if_false]

/-- The loops of `setparam2`. -/
theorem param2_loop {b : MapBlock} (hw : Wf b) (nodeId : Option Nat) (val : UInt8) (is : List Nat)
    (hn : is.Nodup) (h : ∀ i ∈ is, i < 4096) :
    ∃ l', is.foldlM (param2At b.nd.nodes nodeId val) (b.nd.param2, 0) =
        .ok (l', (is.filter (idHit b.nd.nodes nodeId)).length) ∧ l'.length = 4096 ∧
      ∀ i : Nat, (i ∈ is ∧ idHit b.nd.nodes nodeId i = true → l'[i]? = some val) ∧
        (¬ (i ∈ is ∧ idHit b.nd.nodes nodeId i = true) → l'[i]? = b.nd.param2[i]?) := by
  have h1 := hw.nodes.1
  have h2 := hw.nodes.2.2.2
  obtain ⟨l', e1, e2, e3⟩ := foldlM_count (param2At b.nd.nodes nodeId val) (idHit b.nd.nodes nodeId) val
    b.nd.param2 is hn (fun i hi => by rw [h2]; exact h i hi)
    (fun i hi l n hl _ => param2At_step (by rw [h1]; exact h i hi) (by rw [hl, h2]; exact h i hi)) 0
  exact ⟨l', by rw [e1, Nat.zero_add], by rw [e2, h2], e3⟩

theorem param2_area_loop (part : Area) (nodes : List Nat) (nodeId : Option Nat) (val : UInt8)
    (st : Bytes × Nat) :
    part.zyx.foldlM (fun st p => param2At nodes nodeId val st (asUsize (p.z * 256 + p.y * 16 + p.x))) st =
      (selIdx part false).foldlM (param2At nodes nodeId val) st := by
  unfold selIdx boxIdx
  simp only [Bool.false_eq_true, if_false]
  rw [List.foldlM_map]
  congr 1
  funext l p
  congr 2
  omega

/-- The partial case. -/
theorem setParam2Partial_spec {b : MapBlock} (hw : Wf b) {part : Area} (hl : LocalArea part)
    (invert : Bool) (nodeId : Option Nat) (val : UInt8) (hn : (selIdx part invert).Nodup)
    (hs : ∀ i ∈ selIdx part invert, i < 4096) :
    ∃ l', setParam2Partial b.nd part invert nodeId val =
        .ok (l', ((selIdx part invert).filter (idHit b.nd.nodes nodeId)).length) ∧ l'.length = 4096 ∧
      ∀ i : Nat, (i ∈ selIdx part invert ∧ idHit b.nd.nodes nodeId i = true → l'[i]? = some val) ∧
        (¬ (i ∈ selIdx part invert ∧ idHit b.nd.nodes nodeId i = true) → l'[i]? = b.nd.param2[i]?) := by
  obtain ⟨l', e1, e2, e3⟩ := param2_loop hw nodeId val (selIdx part invert) hn hs
  unfold setParam2Partial
  cases invert with
  | false =>
    simp only [Bool.false_eq_true, if_false]
    rw [param2_area_loop]
    exact ⟨l', e1, e2, e3⟩
  | true =>
    simp only [if_true]
    cases nodeId with
    | some id =>
      simp only
      rw [inverseIndices_sel hl, res_bind_ok]
      exact ⟨l', e1, e2, e3⟩
    | none =>
      simp only
      rw [inverseIndices_sel hl, res_bind_ok]
      have h2 := hw.nodes.2.2.2
      obtain ⟨l2, f1, f2, f3⟩ := foldlM_set (selIdx part true) val b.nd.param2
        (fun i hi => by rw [h2]; exact hs i hi)
      rw [f1, res_bind_ok]
      refine ⟨l2, ?_, by rw [f2, h2], ?_⟩
      · have hcnt : 4096 - part.volume = ((selIdx part true).filter (idHit b.nd.nodes none)).length := by
          have hall : (selIdx part true).filter (idHit b.nd.nodes none) = selIdx part true := by
            rw [List.filter_eq_self]; intro i _; rfl
          rw [hall, ← selIdx_volume hl]
          have c1 := length_eq_count (boxIdx_spec hl).1 (P := fun i => outIdx part i = false)
            (boxIdx_spec hl).2
          have c2 := length_eq_count hn (P := fun i => ¬ outIdx part i = false) (by
            intro i
            unfold selIdx
            simp)
          have c3 := countNodes_not fun i => outIdx part i = false
          have c4 : selIdx part false = boxIdx part := by unfold selIdx; simp
          rw [c4]
          omega
        rw [hcnt]; rfl
      · intro i
        refine ⟨fun hi => (f3 i).1 hi.1, fun hi => (f3 i).2 fun hm => hi ⟨hm, rfl⟩⟩

/-- The whole change. -/
theorem param2Block_spec {b : MapBlock} (hw : Wf b) {area : Option Area} (ha : AreaOk area)
    {invert : Bool} {bp : Vec3} (hsel : ∃ p, InBlock bp p ∧ Selected area invert p)
    (nodeId : Option Nat) (val : UInt8) :
    ∃ p2 n, param2Block area invert nodeId val bp b = .ok (withParam2 b p2, n) ∧ p2.length = 4096 ∧
      (∀ i, i < 4096 → p2[i]? =
        if Selected area invert (posAt bp i) ∧ idHit b.nd.nodes nodeId i = true then some val
        else b.nd.param2[i]?) ∧
      n = countNodes fun i => Selected area invert (posAt bp i) ∧ idHit b.nd.nodes nodeId i = true := by
  have h2 := hw.nodes.2.2.2
  unfold param2Block
  rcases sel_cases ha hsel with ⟨a, part, e1, e2, e3, e4, e5, e6⟩ | ⟨e1, e2⟩
  · rw [e1]
    simp only
    rw [e3]
    simp only [unwrap, res_bind_ok]
    obtain ⟨l', f1, f2, f3⟩ := setParam2Partial_spec hw e4 invert nodeId val e5 fun i hi => ((e6 i).1 hi).1
    rw [f1]
    refine ⟨l', _, rfl, f2, ?_, ?_⟩
    · intro i hi
      split
      · next h => exact (f3 i).1 ⟨(e6 i).2 ⟨hi, h.1⟩, h.2⟩
      · next h => exact (f3 i).2 fun hc => h ⟨((e6 i).1 hc.1).2, hc.2⟩
    · refine length_eq_count (e5.filter _) ?_
      intro i
      rw [List.mem_filter, e6 i, and_assoc]
  · rw [e1]
    simp only
    cases nodeId with
    | none =>
      simp only [res_bind_ok]
      refine ⟨b.nd.param2.map fun _ => val, _, rfl, by rw [List.length_map, h2], ?_, ?_⟩
      · intro i hi
        rw [if_pos ⟨e2 i hi, rfl⟩, List.getElem?_map, List.getElem?_eq_getElem (by rw [h2]; exact hi)]
        rfl
      · rw [h2, countNodes_all]
        exact fun i hi => ⟨e2 i hi, rfl⟩
    | some id =>
      simp only
      obtain ⟨l', f1, f2, f3⟩ := param2_loop hw (some id) val (List.range 4096) List.nodup_range
        fun i hi => List.mem_range.1 hi
      rw [h2, f1]
      simp only [res_bind_ok]
      refine ⟨l', ((List.range 4096).filter (idHit b.nd.nodes (some id))).length, rfl, f2, ?_, ?_⟩
      · intro i hi
        split
        · next h => exact (f3 i).1 ⟨List.mem_range.2 hi, h.2⟩
        · next h => exact (f3 i).2 fun hc => h ⟨e2 i hi, hc.2⟩
      · refine length_eq_count (List.nodup_range.filter _) ?_
        intro i
        rw [List.mem_filter, List.mem_range]
        constructor
        · rintro ⟨h1, h3⟩; exact ⟨h1, e2 i h1, h3⟩
        · rintro ⟨h1, -, h3⟩; exact ⟨h1, h3⟩

end MapEditr
