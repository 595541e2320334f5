import Verif.Proof.EditRun
import Verif.Proof.NodeSel
/-! # Lemmas: saved metadata; the block part of `fill` -/

namespace MapEditr
open Spec
set_option linter.unusedSimpArgs false
set_option linter.unusedVariables false

/-! ## Metadata after saving -/

theorem void_publish (m : NodeMeta) : MetaVoid (publish m) ↔ MetaVoid m := by
  unfold MetaVoid publish
  simp

theorem metaOf_stored {b : MapBlock} (hs : SMap.Sorted b.metas) (i : Nat) :
    metaOf (stored b) i = if 28 ≤ b.version then metaOf b i else (metaOf b i).map publish := by
  unfold metaOf stored
  simp only
  have h1 : SMap.get? (dropVoid b.metas) i = (SMap.get? b.metas i).filter fun m => decide (¬ MetaVoid m) := by
    unfold dropVoid
    rw [SMap.get?_filter hs]
  split
  · rw [h1]
    cases SMap.get? b.metas i with
    | none => rfl
    | some m => by_cases hv : MetaVoid m <;> simp [Option.filter, hv]
  · rw [SMap.get?_mapVal (dropVoid b.metas) (fun _ m => publish m), h1]
    cases SMap.get? b.metas i with
    | none => rfl
    | some m => by_cases hv : MetaVoid m <;> simp [Option.filter, hv, void_publish]

theorem savedMeta_stored {b : MapBlock} (hs : SMap.Sorted b.metas) (i : Nat) :
    SavedMeta b (metaOf b i) (metaOf (stored b) i) := by
  rw [metaOf_stored hs]
  split
  · exact .inl rfl
  · next h => exact .inr ⟨by omega, rfl⟩

theorem sameMeta_stored {b b' : MapBlock} (hs : SMap.Sorted b.metas) (hm : b'.metas = b.metas)
    (hv : b'.version = b.version) : SameMeta b (stored b') := by
  intro i
  have h1 := savedMeta_stored (b := b') (by rw [hm]; exact hs) i
  have h2 : metaOf b' i = metaOf b i := by unfold metaOf; rw [hm]
  rw [h2] at h1
  unfold SavedMeta at h1 ⊢
  rw [hv] at h1
  exact h1

theorem sameMeta_refl (b : MapBlock) : SameMeta b b := fun _ => .inl rfl

theorem sameHead_stored {b b' : MapBlock} (h : SameHead b b') : SameHead b (stored b') := h

theorem nodeName_stored (b : MapBlock) (i : Nat) : nodeName (stored b) i = nodeName b i := rfl

/-! ## fill -/

/-- The block with other nodes and names. -/
def withNodes (b : MapBlock) (nimap : NameIdMap) (nodes : List Nat) : MapBlock :=
  { b with nimap := nimap, nd := { b.nd with nodes := nodes } }

theorem wf_withNodes {b : MapBlock} (h : Wf b) {nimap : NameIdMap} {nodes : List Nat}
    (hn : NimapWf nimap) (hl : nodes.length = 4096) (hi : ∀ n ∈ nodes, n < 65536) :
    Wf (withNodes b nimap nodes) :=
  ⟨h.ver, h.flags, h.light, h.light_old, h.widths, ⟨hl, hi, h.nodes.2.2⟩, h.metas, h.objs, h.time,
    hn, h.timers⟩

theorem nodeName_withNodes (b : MapBlock) (nimap : NameIdMap) (nodes : List Nat) (i : Nat) :
    nodeName (withNodes b nimap nodes) i = match nodes[i]? with
      | some id => SMap.get? nimap id
      | none => none := rfl

/-- Name tables with IDs below 65534 have room for one more. -/
structure Roomy (b : MapBlock) : Prop where
  named : Named b
  small : ∀ e ∈ b.nimap, e.1 ≤ 65533

theorem named_ne {b : MapBlock} (h : Wf b) (hn : Named b) : b.nimap ≠ [] := by
  intro he
  have h1 := h.nodes.1
  cases hnd : b.nd.nodes with
  | nil => rw [hnd] at h1; cases h1
  | cons a t =>
    obtain ⟨name, hname⟩ := hn a (by rw [hnd]; exact List.mem_cons_self)
    rw [he] at hname
    cases hname

theorem nimap_length_le {m : NameIdMap} (hs : SMap.Sorted m) {K : Nat} (h : ∀ e ∈ m, e.1 ≤ K) :
    m.length ≤ K + 1 := by
  have := length_le_of_sorted hs 0 (K + 1) (fun e he => ⟨Nat.zero_le _, by have := h e he; omega⟩)
  omega

/-- A free ID: one more than the greatest. -/
theorem nextId {b : MapBlock} (h : Wf b) (hr : Roomy b) (name : Bytes) (hl : name.length < 65536) :
    ∃ mx, NameIdMap.maxId b.nimap = some mx ∧ mx + 1 ≤ 65534 ∧
      NimapWf (SMap.insert b.nimap (mx + 1) name) ∧
      (∀ e ∈ SMap.insert b.nimap (mx + 1) name, e.1 ≤ 65534) ∧
      (∀ e ∈ b.nimap, e.1 ≤ mx) := by
  obtain ⟨mx, hmx⟩ := maxId_exists (named_ne h hr.named)
  obtain ⟨hle, v, hv⟩ := maxId_spec h.nimap.sorted hmx
  have hmx2 := hr.small _ hv
  simp only at hmx2
  have hsm : ∀ e ∈ SMap.insert b.nimap (mx + 1) name, e.1 ≤ 65534 := by
    intro e he
    rcases SMap.mem_insert he with rfl | he
    · simp only; omega
    · have := hr.small e he; omega
  refine ⟨mx, hmx, by omega, ⟨SMap.sorted_insert h.nimap.sorted _ _, ?_, ?_⟩, hsm, hle⟩
  · have := nimap_length_le (SMap.sorted_insert h.nimap.sorted (mx + 1) name) hsm
    omega
  · intro e he
    refine ⟨by have := hsm e he; omega, ?_⟩
    rcases SMap.mem_insert he with rfl | he
    · exact hl
    · exact (h.nimap.fits.2 e he).2

theorem get?_lt_insert {m : NameIdMap} {mx : Nat} (hle : ∀ e ∈ m, e.1 ≤ mx) {name : Bytes} {id : Nat}
    {v : Bytes} (h : SMap.get? m id = some v) : SMap.get? (SMap.insert m (mx + 1) name) id = some v := by
  rw [SMap.get?_insert]
  have := hle _ (SMap.get?_some_mem h)
  simp only at this
  rw [if_neg (by simp; omega), h]

theorem fillArea_spec {part : Area} (hl : LocalArea part) (nodes : List Nat) (hn : nodes.length = 4096)
    (id : Nat) (invert : Bool) (hsel : ∀ i, i ∈ selIdx part invert → i < 4096) :
    ∃ l', fillArea nodes id part invert = .ok l' ∧ l'.length = 4096 ∧
      ∀ i : Nat, (i ∈ selIdx part invert → l'[i]? = some id) ∧
        (i ∉ selIdx part invert → l'[i]? = nodes[i]?) := by
  obtain ⟨l', h1, h2, h3⟩ := foldlM_set (selIdx part invert) id nodes (by rw [hn]; exact hsel)
  refine ⟨l', ?_, by rw [h2, hn], h3⟩
  unfold fillArea
  cases invert with
  | true =>
    simp only [if_true]
    rw [inverseIndices_sel hl, res_bind_ok]
    exact h1
  | false =>
    simp only [Bool.false_eq_true, if_false]
    rw [← h1]
    unfold selIdx boxIdx
    simp only [Bool.false_eq_true, if_false]
    rw [List.foldlM_map]
    congr 1
    funext l p
    congr 2
    omega

theorem named_node {b : MapBlock} (h : b.nd.nodes.length = 4096) (hn : Named b) {i : Nat} (hi : i < 4096) :
    ∃ name, nodeName b i = some name := by
  have hl : i < b.nd.nodes.length := by rw [h]; exact hi
  unfold nodeName
  rw [List.getElem?_eq_getElem hl]
  exact hn _ (List.getElem_mem hl)

end MapEditr
