import Verif.Proof.Place
/-!
# Lemmas: tidy name tables stay tidy
-/

namespace MapEditr
open Spec

/-- The table names the IDs below `n` and no others. -/
structure Fits (m : NameIdMap) (n : Nat) : Prop where
  sorted : SMap.Sorted m
  dom : ∀ k, SMap.get? m k ≠ none ↔ k < n

theorem mem_fst {m : NameIdMap} (hs : SMap.Sorted m) (k : Nat) : k ∈ m.map (·.1) ↔ SMap.get? m k ≠ none := by
  constructor
  · intro h
    obtain ⟨e, h1, rfl⟩ := List.mem_map.1 h
    rw [SMap.get?_of_mem hs h1]
    nofun
  · intro h
    cases hg : SMap.get? m k with
    | none => exact absurd hg h
    | some v => exact List.mem_map.2 ⟨_, SMap.get?_some_mem hg, rfl⟩

theorem fst_sorted {m : NameIdMap} (hs : SMap.Sorted m) : (m.map (·.1)).Pairwise (· < ·) := by
  rw [List.pairwise_map]
  exact List.Pairwise.imp (fun {x y} hxy => by simpa [KeyOrd.lt] using hxy) hs

theorem Fits.fst {m : NameIdMap} {n : Nat} (h : Fits m n) : m.map (·.1) = List.range n := by
  have h1 := fst_sorted h.sorted
  have hn : (m.map (·.1)).Nodup := List.Pairwise.imp (fun hxy => Nat.ne_of_lt hxy) h1
  have hp : (m.map (·.1)).Perm (List.range n) := by
    refine (List.perm_ext_iff_of_nodup hn List.nodup_range).2 fun k => ?_
    rw [mem_fst h.sorted, List.mem_range, h.dom]
  exact hp.eq_of_pairwise (fun a b _ _ h1 h2 => by omega) h1 List.pairwise_lt_range

theorem Fits.length {m : NameIdMap} {n : Nat} (h : Fits m n) : m.length = n := by
  have := congrArg List.length h.fst
  rwa [List.length_map, List.length_range] at this

theorem tidy_fits {b : MapBlock} (hs : SMap.Sorted b.nimap) (h : Tidy b) : Fits b.nimap b.nimap.length :=
  ⟨hs, fun k => by rw [← mem_fst hs, h.ids, List.mem_range]⟩

/-- Names and nodes as a tidy block has them, but for `P`, which need not occur. -/
structure TidyIds (m : NameIdMap) (n : Nat) (nodes : List Nat) (P : Nat → Prop) : Prop where
  fits : Fits m n
  used : ∀ k, k < n → ¬ P k → k ∈ nodes
  named : ∀ id ∈ nodes, id < n

theorem tidyIds_tidy {b : MapBlock} {n : Nat} (h : TidyIds b.nimap n b.nd.nodes fun _ => False) (hu : UniqueNames b) : Tidy b := by
  have hl := h.fits.length
  refine ⟨by rw [hl]; exact h.fits.fst, ?_, fun e he => h.used _ ?_ nofun, fun _ id hid => by rw [hl]; exact h.named id hid⟩
  · rw [List.Nodup, List.pairwise_map]
    refine List.Pairwise.imp_of_mem ?_ h.fits.sorted
    intro x y hx hy hxy he
    have hxy : x.1 < y.1 := by simpa [KeyOrd.lt] using hxy
    have := hu x.1 y.1 x.2 (SMap.get?_of_mem h.fits.sorted hx) (by rw [he]; exact SMap.get?_of_mem h.fits.sorted hy)
    omega
  · have h1 : e.1 ∈ b.nimap.map (·.1) := List.mem_map.2 ⟨e, he, rfl⟩
    rwa [h.fits.fst, List.mem_range] at h1

theorem tidy_length {b : MapBlock} (h : Tidy b) (w : Wf b) : b.nimap.length ≤ 4096 := by
  have h1 : (b.nimap.map (·.1)).Nodup := by rw [h.ids]; exact List.nodup_range
  have h2 : b.nimap.map (·.1) ⊆ b.nd.nodes := by
    intro i hi
    obtain ⟨e, he, rfl⟩ := List.mem_map.1 hi
    exact h.used e he
  have := List.Nodup.length_le_of_subset h1 h2
  rwa [List.length_map, w.nodes.1] at this

theorem tidy_tidyIds {b : MapBlock} (w : Wf b) (h : Tidy b) (hne : b.nimap ≠ []) :
    TidyIds b.nimap b.nimap.length b.nd.nodes fun _ => False := by
  refine ⟨tidy_fits w.nimap.sorted h, fun k hk _ => ?_, h.named hne⟩
  have h1 : k ∈ b.nimap.map (·.1) := by rw [h.ids]; exact List.mem_range.2 hk
  obtain ⟨e, he, rfl⟩ := List.mem_map.1 h1
  exact h.used e he

theorem shift_lt {old n id : Nat} (ho : old < n) (hid : id < n) (hne : id ≠ old) : shiftId old id < n - 1 := by
  unfold shiftId
  split <;> omega

/-- The ID `old` goes, those above it move. -/
theorem good_remove {bd : Build} {m r : NameIdMap} {n old : Nat} {nodes nodes' : List Nat} {P : Nat → Prop}
    (h : TidyIds m n nodes P) (hn : n ≤ 65535) (ho : old < n) (hok : NameIdMap.removeShift bd m old = .ok r)
    (h1 : ∀ k ∈ nodes, k ≠ old → shiftId old k ∈ nodes') (h2 : ∀ v ∈ nodes', ∃ k ∈ nodes, k ≠ old ∧ v = shiftId old k)
    (hP : ∀ k, P k → k = old) : TidyIds r (n - 1) nodes' fun _ => False := by
  have hids : ∀ e ∈ m, e.1 < 65536 := by
    intro e he
    have h1 : e.1 ∈ m.map (·.1) := List.mem_map.2 ⟨e, he, rfl⟩
    rw [h.fits.fst, List.mem_range] at h1
    omega
  obtain ⟨r', g1, g2, g3⟩ := removeShift_spec bd h.fits.sorted hids (show old < 65535 by omega)
  rw [hok] at g1
  cases g1
  refine ⟨⟨g2, fun k => ?_⟩, fun k hk _ => ?_, fun v hv => ?_⟩
  · rw [g3]
    split
    · rw [h.fits.dom]; omega
    · rw [h.fits.dom]; omega
  · by_cases hlt : k < old
    · have := h1 k (h.used k (by omega) fun hp => by have := hP k hp; omega) (by omega)
      rwa [shiftId, if_neg (by omega)] at this
    · have := h1 (k + 1) (h.used (k + 1) (by omega) fun hp => by have := hP _ hp; omega) (by omega)
      rwa [shiftId, if_pos (by omega)] at this
  · obtain ⟨k, hk, hne, rfl⟩ := h2 v hv
    exact shift_lt ho (h.named k hk) hne

theorem good_insert_old {m : NameIdMap} {n old : Nat} {nodes : List Nat} {P : Nat → Prop} {nm : Bytes}
    (h : TidyIds m n nodes P) (ho : old < n) : TidyIds (SMap.insert m old nm) n nodes P := by
  refine ⟨⟨SMap.sorted_insert h.fits.sorted _ _, fun k => ?_⟩, h.used, h.named⟩
  rw [SMap.get?_insert]
  split
  · next hc =>
    have : old = k := by simpa using hc
    subst this
    exact ⟨fun _ => ho, fun _ => nofun⟩
  · exact h.fits.dom k

/-- All nodes of a block. -/
theorem replaceWhole_good {bd : Build} {b b' : MapBlock} (h : Wf b) (ht : Tidy b) {n : Nat}
    {oldNode newNode : Bytes} (hne : oldNode ≠ newNode) {old : Nat}
    (hold : NameIdMap.getId b.nimap oldNode = some old) (hok : replaceWhole bd b old newNode = .ok (b', n)) :
    ∃ n', TidyIds b'.nimap n' b'.nd.nodes fun _ => False := by
  have hmem := getId_some hold
  have hG := tidy_tidyIds h ht (List.ne_nil_of_mem hmem)
  have hlen := tidy_length ht h
  have hget := SMap.get?_of_mem h.nimap.sorted hmem
  have hol : old < b.nimap.length := (hG.fits.dom old).1 (by rw [hget]; nofun)
  unfold replaceWhole at hok
  cases hg : NameIdMap.getId b.nimap newNode with
  | some newId =>
    rw [hg] at hok
    simp only [bind_ok_iff] at hok
    obtain ⟨r, r1, hok⟩ := hok
    cases hok
    have hgn := SMap.get?_of_mem h.nimap.sorted (getId_some hg)
    have hne' : newId ≠ old := by
      rintro rfl
      rw [hget] at hgn
      exact hne (Option.some.inj hgn)
    have hnl : newId < b.nimap.length := (hG.fits.dom newId).1 (by rw [hgn]; nofun)
    refine ⟨_, good_remove hG (by omega) hol r1 (fun k hk hko => ?_) (fun v hv => ?_) fun _ hx => absurd hx id⟩
    · refine List.mem_map.2 ⟨k, hk, ?_⟩
      rw [if_neg (show ¬ (k == old) = true by simpa using hko)]
      rfl
    · obtain ⟨k, hk, rfl⟩ := List.mem_map.1 hv
      by_cases hko : k = old
      · refine ⟨newId, hG.used _ hnl id, hne', ?_⟩
        rw [if_pos (by simpa using hko)]
        rfl
      · refine ⟨k, hk, hko, ?_⟩
        rw [if_neg (show ¬ (k == old) = true by simpa using hko)]
        rfl
  | none =>
    rw [hg] at hok
    cases hok
    exact ⟨_, good_insert_old hG hol⟩

/-- The end of `replacePart`. -/
theorem replaceRest_good {bd : Build} {b b' : MapBlock} {m : NameIdMap} {nodes : List Nat} {old n n' N : Nat}
    (h : TidyIds m N nodes fun k => k = old) (hN : N ≤ 65535) (ho : old < N)
    (hok : (if !(nodes.contains old) then do
        let nodes := nodes.map fun id => if id > old then id - 1 else id
        let nimap ← NameIdMap.removeShift bd m old
        return (withNodes b nimap nodes, n)
      else return (withNodes b m nodes, n) : Res (MapBlock × Nat)) = .ok (b', n')) :
    ∃ N', TidyIds b'.nimap N' b'.nd.nodes fun _ => False := by
  by_cases hc : nodes.contains old = true
  · rw [hc, if_neg (by simp)] at hok
    cases hok
    refine ⟨N, h.fits, fun k hk _ => ?_, h.named⟩
    by_cases hk' : k = old
    · subst hk'; exact List.contains_iff_mem.1 hc
    · exact h.used k hk hk'
  · rw [if_pos (by simpa using hc)] at hok
    simp only [bind_ok_iff] at hok
    obtain ⟨r, r1, hok⟩ := hok
    cases hok
    refine ⟨_, good_remove h hN ho r1 (fun k hk _ => List.mem_map.2 ⟨k, hk, rfl⟩) (fun v hv => ?_) fun _ hx => hx⟩
    obtain ⟨k, hk, rfl⟩ := List.mem_map.1 hv
    refine ⟨k, hk, ?_, rfl⟩
    rintro rfl
    exact hc (List.contains_iff_mem.2 hk)

/-- The selected nodes of a block. -/
theorem replacePart_good {bd : Build} {b b' : MapBlock} (h : Wf b) (ht : Tidy b) {n : Nat}
    {oldNode newNode : Bytes} {old : Nat}
    (hold : NameIdMap.getId b.nimap oldNode = some old) {part : Area} (hp : LocalArea part) (invert : Bool)
    (hnd : (selIdx part invert).Nodup) (hsel : ∀ i ∈ selIdx part invert, i < 4096)
    (hok : replacePart bd b part invert old newNode = .ok (b', n)) :
    ∃ n', TidyIds b'.nimap n' b'.nd.nodes fun _ => False := by
  have hmem := getId_some hold
  have hG := tidy_tidyIds h ht (List.ne_nil_of_mem hmem)
  have hlen := tidy_length ht h
  have hget := SMap.get?_of_mem h.nimap.sorted hmem
  have hol : old < b.nimap.length := (hG.fits.dom old).1 (by rw [hget]; nofun)
  have hnl := h.nodes.1
  have hloop : ∀ newId, ∃ l' c, (selIdx part invert).foldlM (replaceAt old newId) (b.nd.nodes, 0) = .ok (l', c) ∧
      l'.length = 4096 ∧ (∀ v ∈ l', v ∈ b.nd.nodes ∨ v = newId ∧ 0 < c) ∧ (0 < c → newId ∈ l') ∧
      ∀ k ∈ b.nd.nodes, k ≠ old → k ∈ l' := by
    intro newId
    obtain ⟨l', e1, e2, e3⟩ := foldlM_count (replaceAt old newId) (idHit b.nd.nodes (some old)) newId
      b.nd.nodes (selIdx part invert) hnd (fun i hi => by rw [hnl]; exact hsel i hi)
      (fun i hi l n hl' he => replaceAt_step hl' (by rw [hnl]; exact hsel i hi) he) 0
    refine ⟨l', _, e1, by rw [e2, hnl], fun v hv => ?_, fun hc => ?_, fun k hk hko => ?_⟩
    · obtain ⟨i, hi⟩ := List.mem_iff_getElem?.1 hv
      by_cases hx : i ∈ selIdx part invert ∧ idHit b.nd.nodes (some old) i = true
      · rw [(e3 i).1 hx] at hi
        refine .inr ⟨(Option.some.inj hi).symm, ?_⟩
        rw [Nat.zero_add]
        exact List.length_pos_of_mem (List.mem_filter.2 hx)
      · rw [(e3 i).2 hx] at hi
        exact .inl (List.mem_iff_getElem?.2 ⟨i, hi⟩)
    · rw [Nat.zero_add] at hc
      obtain ⟨i, hi⟩ := List.exists_mem_of_length_pos hc
      exact List.mem_iff_getElem?.2 ⟨i, (e3 i).1 (List.mem_filter.1 hi)⟩
    · obtain ⟨i, hi⟩ := List.mem_iff_getElem?.1 hk
      refine List.mem_iff_getElem?.2 ⟨i, ?_⟩
      rw [(e3 i).2 ?_, hi]
      intro hx
      have := hx.2
      unfold idHit at this
      rw [hi] at this
      simp at this
      exact hko this
  have hidxT : inverseIndices part = .ok (selIdx part true) := inverseIndices_sel hp
  have hv : part.isValid := by
    unfold LocalArea at hp
    unfold Area.isValid
    simp
    omega
  have hidxF : (part.positions.map fun p => asUsize (p.x + 16 * (p.y + 16 * p.z))) = selIdx part false := by
    rw [positions_eq part hv]
    rfl
  unfold replacePart at hok
  cases hg : NameIdMap.getId b.nimap newNode with
  | some newId =>
    obtain ⟨l', c, f1, f2, f3, f4, f5⟩ := hloop newId
    have hgn := SMap.get?_of_mem h.nimap.sorted (getId_some hg)
    have hnl : newId < b.nimap.length := (hG.fits.dom newId).1 (by rw [hgn]; nofun)
    have hR : TidyIds b.nimap b.nimap.length l' fun k => k = old :=
      ⟨hG.fits, fun k hk hko => f5 k (hG.used k hk id) hko, fun v hv => by
        rcases f3 v hv with h | ⟨rfl, -⟩
        · exact hG.named v h
        · exact hnl⟩
    refine replaceRest_good (bd := bd) (b := b) (n := c) (n' := n) hR (by omega) hol ?_
    rw [← hok]
    cases invert <;>
      simp only [hg, hidxT, hidxF, res_bind_ok, res_pure, f1, Bool.false_and, Bool.false_eq_true, if_false, if_true] <;> rfl
  | none =>
    rw [hg] at hok
    cases hmx : NameIdMap.maxId b.nimap with
    | none => rw [hmx] at hok; cases hok
    | some mx =>
      obtain ⟨h5, v, hv5⟩ := maxId_spec h.nimap.sorted hmx
      have hmx1 : mx + 1 = b.nimap.length := by
        have k1 : mx < b.nimap.length := (hG.fits.dom mx).1 (by rw [SMap.get?_of_mem h.nimap.sorted hv5]; nofun)
        have k2 : SMap.get? b.nimap (b.nimap.length - 1) ≠ none := (hG.fits.dom _).2 (by omega)
        cases hx : SMap.get? b.nimap (b.nimap.length - 1) with
        | none => exact absurd hx k2
        | some w =>
          have := h5 _ (SMap.get?_some_mem hx)
          simp only at this
          omega
      obtain ⟨l', c, f1, f2, f3, f4, f5⟩ := hloop (mx + 1)
      have hR : ∃ N, TidyIds (if c > 0 then SMap.insert b.nimap (mx + 1) newNode else b.nimap) N l' (fun k => k = old) ∧
          N ≤ 65535 ∧ old < N := by
        by_cases hc : c > 0
        · rw [if_pos hc]
          refine ⟨b.nimap.length + 1, ⟨⟨SMap.sorted_insert h.nimap.sorted _ _, fun k => ?_⟩, fun k hk hko => ?_,
            fun v hv => ?_⟩, by omega, by omega⟩
          · rw [SMap.get?_insert]
            split
            · next hx =>
              have : mx + 1 = k := by simpa using hx
              exact ⟨fun _ => by omega, fun _ => nofun⟩
            · next hx =>
              have : mx + 1 ≠ k := by simpa using hx
              rw [hG.fits.dom]
              omega
          · by_cases hx : k = mx + 1
            · rw [hx]; exact f4 hc
            · exact f5 k (hG.used k (by omega) id) hko
          · rcases f3 v hv with h | ⟨rfl, -⟩
            · have := hG.named v h; omega
            · omega
        · rw [if_neg hc]
          refine ⟨b.nimap.length, ⟨hG.fits, fun k hk hko => f5 k (hG.used k hk id) hko, fun v hv => ?_⟩, by omega, hol⟩
          rcases f3 v hv with h | ⟨-, h⟩
          · exact hG.named v h
          · exact absurd h hc
      obtain ⟨N, hR, hN, hoN⟩ := hR
      refine replaceRest_good (bd := bd) (b := b) (n := c) (n' := n) hR hN hoN ?_
      rw [← hok]
      clear hR hok
      simp only [hmx, unwrap, res_bind_ok, u16_ok (show mx + 1 < 65536 by omega), res_pure]
      cases invert <;>
        simp only [hidxT, hidxF, res_bind_ok, f1, Bool.true_and, decide_eq_true_iff, Bool.false_eq_true,
          if_false, if_true] <;> rfl

theorem doReplace_good {bd : Build} {b b' : MapBlock} (h : Wf b) (ht : Tidy b) {n : Nat}
    {oldNode newNode : Bytes} (hne : oldNode ≠ newNode) {old : Nat}
    (hold : NameIdMap.getId b.nimap oldNode = some old) {area : Option Area} (ha : AreaOk area) {invert : Bool}
    {bp : Vec3} (hbp : ValidBlockPos bp) (hsel : ∃ p, InBlock bp p ∧ Selected area invert p)
    (hok : doReplace bd b (keyOf bp) old newNode area invert = .ok (b', n)) :
    ∃ n', TidyIds b'.nimap n' b'.nd.nodes fun _ => False := by
  unfold doReplace at hok
  simp only at hok
  rw [fromBlockKey_keyOf bp hbp] at hok
  rcases sel_cases ha hsel with ⟨a, part, e1, e2, e3, e4, e5, e6⟩ | ⟨e1, e2⟩
  · rw [e1] at hok
    simp only at hok
    rw [e3] at hok
    simp only [unwrap, res_bind_ok] at hok
    exact replacePart_good h ht hold e4 invert e5 (fun i hi => ((e6 i).1 hi).1) hok
  · rw [e1] at hok
    simp only at hok
    exact replaceWhole_good h ht hne hold hok

theorem tidy_goodIds {b : MapBlock} (h : Tidy b) (w : Wf b) (bd : Build) : GoodIds bd b := by
  have hl := tidy_length h w
  refine ⟨tidy_unique h, by omega, fun _ e he => ?_⟩
  have hid : e.1 ∈ b.nimap.map (·.1) := List.mem_map.2 ⟨e, he, rfl⟩
  rw [h.ids, List.mem_range] at hid
  omega

theorem tidy_effect (env : Env) (args : InstArgs) (t : Table) {old new : Bytes} (hne : old ≠ new)
    (ha : AreaOk args.area) (hb : AllBlocks env.codec t Tidy) :
    Effect env [old] args.area args.invert (replaceEdit env.build args old new) t (fun _ _ b' => Tidy b')
      (fun bp b => countNodes fun i => Selected args.area args.invert (posAt bp i) ∧ nodeName b i = some old) 0 := by
  have E := replaceNodes_effect env args t hne ha id
    fun k d b h1 h2 => (tidy_goodIds (hb k d b h1 h2) (wf_of_represents h2) env.build).sound new
  constructor
  · intro bp d b hbp hd hrep hwf hsel ob n hok hsave
    obtain ⟨k1, k2, k3⟩ := E.good bp d b hbp hd hrep hwf hsel ob n hok hsave
    have ht := hb _ _ _ hd hrep
    refine ⟨k1, fun _ => ht, fun b' hb' => ⟨(k3 b' hb').1, ?_⟩⟩
    have hu := (k3 b' hb').2.2.1
    unfold replaceEdit at hok
    cases hg : NameIdMap.getId b.nimap old with
    | none =>
      rw [hg] at hok
      cases hok
      cases hb'
    | some id =>
      rw [hg] at hok
      simp only at hok
      cases hr : doReplace env.build b (keyOf bp) id new args.area args.invert with
      | error e => rw [hr] at hok; cases hok
      | ok r =>
        obtain ⟨b1, n1⟩ := r
        rw [hr] at hok
        cases hok
        cases hb'
        obtain ⟨n', hG⟩ := doReplace_good hwf ht hne hg ha hbp hsel hr
        exact tidyIds_tidy (b := stored b1) hG hu
  · intro bp d b hbp hd hrep hwf hno
    exact ⟨hb _ _ _ hd hrep, (E.skip bp d b hbp hd hrep hwf hno).2⟩

theorem edited_tidy {c : Codec} {area : Option Area} {invert : Bool} {t t' : Table}
    {R : Vec3 → MapBlock → MapBlock → Prop} (hg : GoodTable t) (h : Edited c area invert t t' R)
    (hb : AllBlocks c t Tidy) (hR : ∀ bp b b', R bp b b' → Tidy b → Tidy b') : AllBlocks c t' Tidy := by
  intro k d' b' hd hr
  obtain ⟨bp, h1, h2, -⟩ := row_pos (goodTable_of_edited hg h) hd
  simp only at h2
  subst h2
  obtain ⟨d, b, f1, f2, f3⟩ := edited_back h h1 hd hr
  exact hR _ _ _ f3 (hb _ _ _ f1 f2)

theorem tidy_same {b b' : MapBlock} (h1 : b'.nimap = b.nimap) (h2 : b'.nd.nodes = b.nd.nodes) (h : Tidy b) : Tidy b' :=
  ⟨by rw [h1]; exact h.ids, by rw [h1]; exact h.names, by rw [h1, h2]; exact h.used, by rw [h1, h2]; exact h.named⟩

theorem rows_tidy {c : Codec} {t t' : Table} (hb : AllBlocks c t Tidy)
    (h : ∀ r ∈ t', r ∈ t ∨ TidyData c r.2) : AllBlocks c t' Tidy := by
  intro k d b hk hd
  rcases h _ hk with h | ⟨b', h1, h2⟩
  · exact hb _ _ _ h hd
  · rw [← represents_unique h1 hd]
    exact h2

/-- What the commands other than `clone`, `overlay` and `replaceininv` do. -/
theorem run_tidy {env : Env} {args : InstArgs} {t t' : Table} {evs : List Event}
    (hE : EnvOk env) (hg : GoodTable t) (hb : AllBlocks env.codec t Tidy)
    (hn : NodeArgs args) (h : Completes env args t t' evs) : AllBlocks env.codec t' Tidy := by
  have hneeds := hn.needs
  unfold Needs at hneeds
  have hc := hn.command
  unfold nodeCommands at hc
  simp only [List.mem_cons, List.not_mem_nil, or_false] at hc
  rcases hc with hc | hc | hc | hc | hc | hc | hc | hc | hc <;> rw [hc] at hneeds <;> (try simp only at hneeds)
  · obtain ⟨a, ha⟩ := Option.isSome_iff_exists.1 hneeds.1
    obtain ⟨n, hnode⟩ := Option.isSome_iff_exists.1 hneeds.2
    exact rows_tidy hb (C91_fill env args t t' evs a n hE hg hc ha (hn.area a ha) hnode h)
  · obtain ⟨old, ho⟩ := Option.isSome_iff_exists.1 hneeds.1
    obtain ⟨new, hnode⟩ := Option.isSome_iff_exists.1 hneeds.2
    exact edited_tidy hg (effect_edited hE hg hn.area h hc replaceNodes_command (by decide) (replaceNodes_eq env args ho hnode)
      (tidy_effect env args t (replace_differ hc ho hnode h) hn.area hb)) hb fun bp b b' hR _ => hR
  · obtain ⟨val, hv⟩ := Option.isSome_iff_exists.1 hneeds
    exact edited_tidy hg (effect_edited hE hg hn.area h hc setParam2_command (by decide) (setParam2_eq env args val hv)
      (setParam2_change env args val t hn.area (fun b => IsFirst b (args.node.map toBytes)) fun _ _ _ _ _ _ => Iff.rfl).effect)
      hb fun bp b b' hR => tidy_same hR.2.2.2.2.1 hR.2.2.2.2.2.1
  · exact edited_tidy hg (effect_edited hE hg hn.area h hc deleteMeta_command (by decide) (deleteMetadata_eq env args)
      (deleteMeta_effect env args t (fun b => IsFirst b (args.node.map toBytes)) fun _ _ _ _ _ _ => Iff.rfl))
      hb fun bp b b' hR => tidy_same hR.2.1.2 (congrArg _ hR.2.1.1)
  · exact edited_tidy hg (effect_edited hE hg hn.area h hc deleteTimers_command (by decide) (deleteTimers_eq env args)
      (deleteTimers_effect env args t (fun b => IsFirst b (args.node.map toBytes)) fun _ _ _ _ _ _ => Iff.rfl))
      hb fun bp b b' hR => tidy_same hR.2.1.2 (congrArg _ hR.2.1.1)
  · obtain ⟨key, hk⟩ := Option.isSome_iff_exists.1 hneeds
    exact edited_tidy hg (effect_edited hE hg hn.area h hc setMetaVar_command (by decide) (setMetaVar_eq env args hk)
      (setMetaVar_effect (Q := fun b => AmongFirst b (args.nodes.map toBytes)) hE fun _ _ _ _ _ _ => Iff.rfl))
      hb fun bp b b' hR => tidy_same hR.2.1.2 (congrArg _ hR.2.1.1)
  · exact edited_tidy hg (C43_deleteobjects env args t t' evs hE hg hc hn.area h) hb
      fun bp b b' hR => tidy_same hR.2.1.2 (congrArg _ hR.2.1.1)
  · obtain ⟨k1, k2, k3⟩ := C39_deleteblocks env args t t' evs hg hc hn.area h
    exact fun k d b hk hd => hb k d b (k2 _ hk) hd
  · rw [C53_vacuum env args t t' evs hc h]
    exact hb

theorem copy_tidy {c : Codec} {args : InstArgs} {K : Nat} {s t t' : Table} (hg : GoodTable t)
    (hb : AllBlocks c t (Usual K)) (hp : AllBlocks c t Tidy)
    (hs : args.command = "overlay" → Source c K s ∧ AllBlocks c s Tidy) (hK' : K ≤ 7280)
    (ha : ExecArgs args) (hc : args.command = "clone" ∨ args.command = "overlay") (h : Ran c args s t t') :
    AllBlocks c t' Tidy := by
  obtain ⟨env, evs, hE, rfl, hrun, hwork, hin⟩ := h
  have hneeds := ha.needs
  unfold Needs at hneeds
  have hmild : AllBlocks env.codec t (Mild env.build) := Spec.AllBlocks.mono hb fun b u => usual_mild hK' u _
  rcases hc with hc | hc
  · rw [hc] at hneeds
    simp only at hneeds
    obtain ⟨a, harea⟩ := Option.isSome_iff_exists.1 hneeds.1
    obtain ⟨o, hoff⟩ := Option.isSome_iff_exists.1 hneeds.2
    refine rows_tidy hp fun r hr => ?_
    rcases clone_rows env args t t' evs a o hE hg hc harea (ha.area a harea) hoff hmild hrun r hr with h | ⟨b, h1, h2, -⟩
    · exact .inl h
    · exact .inr ⟨b, h1, h2⟩
  · obtain ⟨p, g, hp', hgf, rfl⟩ := hin hc
    obtain ⟨S, hps⟩ := hs hc
    have hmilds : AllBlocks env.codec g.table (Mild env.build) := Spec.AllBlocks.mono S.usual fun b u => usual_mild hK' u _
    have hcase : (args.offset = none ∨ args.offset = some ⟨0, 0, 0⟩) ∨ ∃ o, args.offset = some o ∧ o ≠ ⟨0, 0, 0⟩ := by
      cases ho : args.offset with
      | none => exact .inl (.inl rfl)
      | some o =>
        by_cases hz : o = ⟨0, 0, 0⟩
        · exact .inl (.inr (by rw [hz]))
        · exact .inr ⟨o, rfl, hz⟩
    rcases hcase with hoff | ⟨o, hoff, hz⟩
    · intro k d b hk hd
      rcases overlay_rows env args t t' evs p g hE hg S.good hc hp' hgf ha.area hoff hmild hmilds hrun _ hk with
        h | h | ⟨b', h1, h2, -⟩
      · exact hp _ _ _ h hd
      · exact hps _ _ _ h hd
      · rw [← represents_unique h1 hd]
        exact h2
    · refine rows_tidy hp fun r hr => ?_
      rcases shifted_rows env args t t' evs p g o hE hg hc hp' hgf ha.area hoff hz hmild hmilds hrun r hr with
        h | ⟨b, h1, h2, -⟩
      · exact .inl h
      · exact .inr ⟨b, h1, h2⟩

/-- Every command leaves tidy blocks tidy. -/
theorem tidy_every {c : Codec} {args : InstArgs} {K : Nat} {s t t' : Table} (hg : GoodTable t)
    (hb : AllBlocks c t (Usual K)) (hplain : AllBlocks c t PlainInvs) (hp : AllBlocks c t Tidy)
    (hs : args.command = "overlay" → Source c K s ∧ AllBlocks c s Tidy) (hK' : K ≤ 7280)
    (ha : AnyArgs args) (h : Ran c args s t t') : AllBlocks c t' Tidy := by
  have hcmd : args.command = "replaceininv" ∨ args.command ∈ execCommands := by
    by_cases hv : args.command = "vacuum"
    · exact .inr (by rw [hv]; decide)
    · obtain ⟨env, evs, -, -, hrun, -⟩ := h
      obtain ⟨D⟩ := completes_done hrun hv
      exact commands_all D.cmd_ok
  rcases hcmd with hc | hc
  · obtain ⟨env, evs, hE, rfl, hrun, -, -⟩ := h
    have hneeds := ha.needs
    unfold Needs at hneeds
    rw [hc] at hneeds
    simp only at hneeds
    obtain ⟨item, hk⟩ := Option.isSome_iff_exists.1 hneeds
    have hw := ha.item hc
    rw [hk, Option.getD_some] at hw
    have hbytes := item_bytes (completes_args hrun (by rw [hc]; decide)) hk
    exact edited_tidy hg (effect_edited hE hg ha.area hrun hc replaceInInv_command (by decide) (replaceInInv_eq env args hk)
      (replaceInInv_effect (Q := fun b => AmongFirst b (args.nodes.map toBytes)) (invCount_counts _)
        (hbytes 32 (.inr rfl)).1 (hbytes 10 (.inl rfl)).2 (endWord_suffix hw)
        (Spec.AllBlocks.mono hplain fun b h => plain_invsGood h) fun _ _ _ _ _ _ => Iff.rfl))
      hp fun bp b b' hR => tidy_same hR.2.1.2 (congrArg _ hR.2.1.1)
  · have he : ExecArgs args := ⟨hc, ha.needs, ha.area, ha.name⟩
    rcases List.mem_cons.1 hc with h1 | h1
    · exact copy_tidy hg hb hp hs hK' he (.inl h1) h
    rcases List.mem_cons.1 h1 with h1 | h1
    · exact copy_tidy hg hb hp hs hK' he (.inr h1) h
    · obtain ⟨env, evs, hE, rfl, hrun, -, -⟩ := h
      exact run_tidy hE hg hp ⟨h1, ha.needs, ha.area, ha.name⟩ hrun

end MapEditr
