import Verif.Proof.Local
import Verif.Spec.Toy
/-!
# Properties C26–C31: copying between blocks, cleaning name tables
-/

namespace MapEditr
open Spec

/-! ## C26, C27: cleaning -/

/-- Cleaning never fails on a block whose node IDs are all named (no ID being the last one, 65535),
and keeps the name of every node; parameters, metadata, objects, timers and the header are not
touched. -/
theorem C26_names_kept (bd : Build) (b : MapBlock) (hw : Wf b) (hn : Named b)
    (hid : ∀ e ∈ b.nimap, e.1 < 65535) :
    ∃ b', cleanNimap bd b = .ok b' ∧ Wf b' ∧ Named b' ∧ (∀ i, nodeName b' i = nodeName b i) ∧
      (∃ nodes nimap, b' = { b with nimap, nd := { b.nd with nodes } }) := by
  have m : Mergeable 65534 b := ⟨hw.nodes, hw.nimap.sorted, hn,
    fun e he => by have := hid e he; omega, fun e he => (hw.nimap.fits.2 e he).2⟩
  obtain ⟨names, nodes, h1, h2, h3, h4, h5, h6⟩ := clean_mergeable m (by omega)
  refine ⟨_, h1 bd, ?_, h2.named, h3, _, _, rfl⟩
  refine ⟨hw.ver, hw.flags, hw.light, hw.light_old, hw.widths, h2.fit, hw.metas, hw.objs, hw.time,
    ⟨h2.sorted, ?_, ?_⟩, hw.timers⟩
  · show (dense 0 names).length < 65536
    rw [length_dense]; omega
  · intro e he
    exact ⟨by have := h2.ids e he; omega, h2.names e he⟩

/-- With ID 65535 in the name table cleaning always stops the program, in both builds. -/
theorem C26_last_id_panics (bd : Build) (b : MapBlock) (hw : Wf b) (name : Bytes)
    (h : (65535, name) ∈ b.nimap) : ∃ w, cleanNimap bd b = .error (.panic w) := by
  obtain ⟨M, hM⟩ := maxId_exists (List.ne_nil_of_mem h)
  obtain ⟨hle, v, hv⟩ := maxId_spec hw.nimap.sorted hM
  have h1 := hle _ h
  have h2 := (hw.nimap.fits.2 _ hv).1
  simp only at h1 h2
  have : M = 65535 := by omega
  subst this
  unfold cleanNimap
  rw [hM]
  simp only [unwrap, res_bind_ok]
  cases bd with
  | debug => exact ⟨_, rfl⟩
  | release =>
    have : u16 .release (65535 + 1) = .ok 0 := rfl
    rw [this]
    simp only [res_bind_ok]
    cases hn : b.nd.nodes with
    | nil => have := hw.nodes.1; rw [hn] at this; cases this
    | cons a t => exact ⟨_, rfl⟩

/-- After cleaning, IDs are 0, 1, 2, ... without gaps, names are distinct, and every ID is the ID
of some node. -/
theorem C27_minimal (bd : Build) (b b' : MapBlock) (hw : Wf b) (hn : Named b)
    (hid : ∀ e ∈ b.nimap, e.1 < 65535) (h : cleanNimap bd b = .ok b') :
    b'.nimap.map (·.1) = List.range b'.nimap.length ∧ (b'.nimap.map (·.2)).Nodup ∧
      (∀ e ∈ b'.nimap, e.1 ∈ b'.nd.nodes) ∧ b'.nimap.length ≤ 4096 := by
  have m : Mergeable 65534 b := ⟨hw.nodes, hw.nimap.sorted, hn,
    fun e he => by have := hid e he; omega, fun e he => (hw.nimap.fits.2 e he).2⟩
  obtain ⟨names, nodes, h1, h2, h3, h4, h5, h6⟩ := clean_mergeable m (by omega)
  rw [h1 bd, ok_inj] at h
  subst h
  refine ⟨?_, ?_, ?_, ?_⟩
  · show (dense 0 names).map (·.1) = List.range (dense 0 names).length
    rw [keys_dense, length_dense, List.range_eq_range']
  · show ((dense 0 names).map (·.2)).Nodup
    rw [names_dense]; exact h4
  · intro e he
    have : e.1 ∈ (dense 0 names).map (·.1) := List.mem_map.2 ⟨e, he, rfl⟩
    rw [keys_dense, List.mem_range'_1] at this
    exact (h5 e.1).2 (by omega)
  · show (dense 0 names).length ≤ 4096
    rw [length_dense]; exact h6

/-- Two IDs with the same name, and an unused one. -/
def dupBlock : MapBlock :=
  { Toy.block 28 with
    nd := ⟨0 :: 7 :: 3 :: List.replicate 4093 7, List.replicate 4096 1, List.replicate 4096 2⟩
    nimap := [(0, [97]), (3, [98]), (5, [99]), (7, [97])] }

theorem dupBlock_named : Named dupBlock := by
  intro id h
  have : id ∈ 0 :: 7 :: 3 :: List.replicate 4093 7 := h
  simp only [List.mem_cons, List.mem_replicate] at this
  rcases this with rfl | rfl | rfl | ⟨_, rfl⟩ <;> exact ⟨_, rfl⟩

theorem dupBlock_wf : Wf dupBlock :=
  { Toy.block_wf 28 (by omega) with
    nodes := by
      refine ⟨?_, ?_, List.length_replicate, List.length_replicate⟩
      · show (0 :: 7 :: 3 :: List.replicate 4093 7).length = 4096
        simp only [List.length_cons, List.length_replicate]
      intro n h
      have : n ∈ 0 :: 7 :: 3 :: List.replicate 4093 7 := h
      simp only [List.mem_cons, List.mem_replicate] at this
      omega
    nimap := ⟨by unfold SMap.Sorted; decide, by unfold NamesFit NameFits; decide⟩ }

example : ∀ e ∈ dupBlock.nimap, e.1 < 65535 := by decide

/-! ## C28: merging blocks -/

/-- Copying `sa` of `src` onto `da` of `dst`: nodes in `da` get name, param1 and param2 of the
corresponding nodes of `src`, all others keep theirs; nothing else changes.  `hb` says that the
shifted IDs fit 16 bits (C31). -/
theorem C28_merge (bd : Build) (src dst : MapBlock) (sa da : Area) (hs : LocalArea sa)
    (hd : LocalArea da) (hz : SameSize sa da) (ws : Wf src) (wd : Wf dst) (ns : Named src)
    (nd : Named dst) (hb : ∀ e ∈ dst.nimap, ∀ f ∈ src.nimap, e.1 + 1 + f.1 < 65536) :
    ∃ r, mergeBlocks bd src dst sa da = .ok r ∧ Named r ∧
      (∀ p, Local p →
        (InBox da.min da.max p →
          nodeName r (idxOf p) = nodeName src (idxOf (back sa da p)) ∧
          r.nd.param1[idxOf p]? = src.nd.param1[idxOf (back sa da p)]? ∧
          r.nd.param2[idxOf p]? = src.nd.param2[idxOf (back sa da p)]?) ∧
        (¬ InBox da.min da.max p →
          nodeName r (idxOf p) = nodeName dst (idxOf p) ∧
          r.nd.param1[idxOf p]? = dst.nd.param1[idxOf p]? ∧
          r.nd.param2[idxOf p]? = dst.nd.param2[idxOf p]?)) ∧
      (∃ nimap nd, r = { dst with nimap, nd }) := by
  have bound : ∀ (b : MapBlock), Wf b → Named b → ∃ K v, (K, v) ∈ b.nimap ∧ Mergeable K b := by
    intro b w n
    have hne : b.nimap ≠ [] := by
      intro he
      cases hn : b.nd.nodes with
      | nil => have := w.nodes.1; rw [hn] at this; cases this
      | cons a t =>
        obtain ⟨nm, h⟩ := n a (by rw [hn]; simp)
        rw [he] at h
        cases h
    obtain ⟨K, hK⟩ := maxId_exists hne
    obtain ⟨hle, v, hv⟩ := maxId_spec w.nimap.sorted hK
    exact ⟨K, v, hv, w.nodes, w.nimap.sorted, n, hle, fun e he => (w.nimap.fits.2 e he).2⟩
  obtain ⟨S, v, hS, ms⟩ := bound src ws ns
  obtain ⟨K, v', hK, md⟩ := bound dst wd nd
  obtain ⟨nimap, nd', h1, h2, h3⟩ := merge_mergeable hs hd hz ms md (hb _ hK _ hS)
  refine ⟨_, h1 bd, h2.named, ?_, _, _, rfl⟩
  intro p hp
  have hi := idxOf_local hp
  have h4 := h3 (idxOf p) hi.2
  rw [fromU16Key_idxOf hp, contains_inBox] at h4
  refine ⟨fun hin => ?_, h4.2⟩
  have hb := back_idx hs hd hz hin
  have h5 := h4.1 hin
  rw [hb.2.1, Int.toNat_natCast] at h5
  exact h5

example : LocalArea ⟨⟨0, 3, 4⟩, ⟨2, 3, 15⟩⟩ ∧ LocalArea ⟨⟨13, 0, 0⟩, ⟨15, 0, 11⟩⟩ ∧
    SameSize ⟨⟨0, 3, 4⟩, ⟨2, 3, 15⟩⟩ ⟨⟨13, 0, 0⟩, ⟨15, 0, 11⟩⟩ ∧
    ∀ e ∈ dupBlock.nimap, ∀ f ∈ dupBlock.nimap, e.1 + 1 + f.1 < 65536 := by decide

/-- Boxes of different size, or not inside a block, are refused. -/
theorem C28_bad_boxes (bd : Build) (src dst : MapBlock) (sa da : Area)
    (h : ¬ SameSize sa da ∨ sa.min.x < 0 ∨ 16 ≤ sa.max.x ∨ sa.min.y < 0 ∨ 16 ≤ sa.max.y ∨
      sa.min.z < 0 ∨ 16 ≤ sa.max.z ∨ da.min.x < 0 ∨ 16 ≤ da.max.x ∨ da.min.y < 0 ∨
      16 ≤ da.max.y ∨ da.min.z < 0 ∨ 16 ≤ da.max.z) :
    ∃ w, mergeBlocks bd src dst sa da = .error (.panic w) := by
  have : ¬ blockPartsValid sa da = true := by
    unfold blockPartsValid partValid Vec3.sub
    simp only [Bool.and_eq_true, decide_eq_true_eq, Vec3.mk.injEq]
    unfold SameSize at h
    omega
  unfold mergeBlocks rassert
  rw [if_neg this]
  exact ⟨_, rfl⟩

example : ¬ SameSize ⟨⟨0, 0, 0⟩, ⟨2, 3, 15⟩⟩ ⟨⟨13, 0, 0⟩, ⟨15, 0, 11⟩⟩ := by decide

/-! ## C29: merging metadata -/

/-- After copying, each node in `da` has exactly the metadata of its source node (variables with
values and private marks, inventory), or none if that has none; metadata elsewhere is unchanged. -/
theorem C29_merge_metadata (src dst : MetaList) (sa da : Area) (hs : LocalArea sa)
    (hd : LocalArea da) (hz : SameSize sa da) (ws : MetasWf src) (wd : MetasWf dst) :
    ∃ r, mergeMetadata src dst sa da = .ok r ∧ SMap.Sorted r ∧
      ∀ p, Local p → SMap.get? r (idxOf p) =
        if InBox da.min da.max p then SMap.get? src (idxOf (back sa da p))
        else SMap.get? dst (idxOf p) := by
  obtain ⟨r, h1, h2, _, _, h3⟩ := mergeMetadata_spec hs hd hz ws.sorted wd.sorted ws.keys
  refine ⟨r, h1, h2, ?_⟩
  intro p hp
  have hi := idxOf_local hp
  rw [h3 (idxOf p) (by omega), fromU16Key_idxOf hp]
  by_cases hin : InBox da.min da.max p
  · have hb := back_idx hs hd hz hin
    rw [if_pos (contains_inBox.2 hin), if_pos hin, hb.2.1, Int.toNat_natCast]
  · rw [if_neg (fun h => hin (contains_inBox.1 h)), if_neg hin]

example : MetasWf (Toy.block 28).metas := (Toy.block_wf 28 (by omega)).metas

/-! ## C30: removing an ID -/

/-- Removing ID `id` drops exactly its entry; every higher ID moves down by one with its name, also
across gaps; lower ones stay. -/
theorem C30_remove_shift (b : Build) (m : NameIdMap) (hm : NimapWf m) (id : Nat) (hid : id < 65535) :
    ∃ r, NameIdMap.removeShift b m id = .ok r ∧ SMap.Sorted r ∧
      (∀ k < id, SMap.get? r k = SMap.get? m k) ∧
      (∀ k > id, SMap.get? r (k - 1) = SMap.get? m k) := by
  obtain ⟨r, h1, h2, h3⟩ := removeShift_spec b hm.sorted (fun e he => (hm.fits.2 e he).1) hid
  refine ⟨r, h1, h2, ?_, ?_⟩
  · intro k hk
    rw [h3, if_pos hk]
  · intro k hk
    rw [h3, if_neg (by omega), show k - 1 + 1 = k by omega]

/-- Removing the last possible ID overflows: a debug build stops. -/
theorem C30_last_id_debug (m : NameIdMap) :
    ∃ w, NameIdMap.removeShift .debug m 65535 = .error (.panic w) := ⟨_, rfl⟩

example : NimapWf [(2, [97]), (5, [98]), (9, [99])] :=
  ⟨by unfold SMap.Sorted; decide, by unfold NamesFit NameFits; decide⟩
example : NameIdMap.removeShift .debug [(2, [97]), (5, [98]), (9, [99])] 2
    = .ok [(4, [98]), (8, [99])] := by decide

/-! ## C31: no overflow of node IDs -/

/-- Merging up to eight blocks with IDs at most 7280 into one such block, then cleaning, succeeds
and gives the same result in debug and release builds. -/
theorem C31_no_wrap (jobs : List (MapBlock × Area × Area)) (dst : MapBlock)
    (hlen : jobs.length ≤ 8)
    (hj : ∀ j ∈ jobs, Wf j.1 ∧ Sane j.1 ∧ LocalArea j.2.1 ∧ LocalArea j.2.2 ∧ SameSize j.2.1 j.2.2)
    (wd : Wf dst) (sd : Sane dst) :
    ∃ r r', ∀ bd, jobs.foldlM (fun d j => mergeBlocks bd j.1 d j.2.1 j.2.2) dst = .ok r ∧
      (∀ e ∈ r.nimap, e.1 < 65536) ∧ cleanNimap bd r = .ok r' := by
  have mg : ∀ b, Wf b → Sane b → Mergeable 7280 b := fun b w s =>
    ⟨w.nodes, w.nimap.sorted, s.named, s.small, fun e he => (w.nimap.fits.2 e he).2⟩
  have loop : ∀ (jobs : List (MapBlock × Area × Area)) (d : MapBlock) (n : Nat),
      n + jobs.length ≤ 8 →
      (∀ j ∈ jobs, Wf j.1 ∧ Sane j.1 ∧ LocalArea j.2.1 ∧ LocalArea j.2.2 ∧ SameSize j.2.1 j.2.2) →
      Mergeable (7281 * n + 7280) d →
      ∃ r, (∀ bd, jobs.foldlM (fun d j => mergeBlocks bd j.1 d j.2.1 j.2.2) d = .ok r) ∧
        Mergeable 65528 r := by
    intro jobs
    induction jobs with
    | nil =>
      intro d n hn _ md
      exact ⟨d, fun _ => rfl, md.mono (by simp at hn; omega)⟩
    | cons j t ih =>
      intro d n hn hj md
      obtain ⟨h1, h2, h3, h4, h5⟩ := hj j (by simp)
      simp at hn
      obtain ⟨nimap, nd, g1, g2, _⟩ := merge_mergeable h3 h4 h5 (mg _ h1 h2) md (by omega)
      obtain ⟨r, g3, g4⟩ := ih _ (n + 1) (by omega) (fun x hx => hj x (by simp [hx]))
        (g2.mono (by omega))
      refine ⟨r, fun bd => ?_, g4⟩
      rw [List.foldlM_cons, g1]
      exact g3 bd
  obtain ⟨r, h1, h2⟩ := loop jobs dst 0 (by omega) hj (mg _ wd sd)
  obtain ⟨names, nodes, h3, _⟩ := clean_mergeable h2 (by omega)
  exact ⟨r, _, fun bd => ⟨h1 bd, fun e he => by have := h2.ids e he; omega, h3 bd⟩⟩

theorem dupBlock_sane : Sane dupBlock := ⟨dupBlock_named, by decide⟩

example : ∃ jobs : List (MapBlock × Area × Area), jobs.length = 8 ∧
    ∀ j ∈ jobs, Wf j.1 ∧ Sane j.1 ∧ LocalArea j.2.1 ∧ LocalArea j.2.2 ∧ SameSize j.2.1 j.2.2 := by
  refine ⟨List.replicate 8 (dupBlock, ⟨⟨0, 0, 0⟩, ⟨7, 7, 7⟩⟩, ⟨⟨8, 8, 8⟩, ⟨15, 15, 15⟩⟩), rfl, ?_⟩
  intro j hj
  rw [List.eq_of_mem_replicate hj]
  exact ⟨dupBlock_wf, dupBlock_sane, by decide, by decide, by decide⟩

end MapEditr
