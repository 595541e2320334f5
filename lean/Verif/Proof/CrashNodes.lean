import Verif.Proof.CrashMeta
/-! # Lemmas: node IDs that are too great -/

namespace MapEditr
open Spec
set_option linter.unusedSimpArgs false
set_option linter.unusedVariables false

theorem split_iff {a : Area} (ha : a.isValid = true) {bp : Vec3} : partly a bp = true ↔ Split a bp := by
  constructor
  · intro h
    obtain ⟨⟨i, h1, h2⟩, j, h3, h4⟩ := partly_split ha h
    exact ⟨⟨_, posAt_inBlock bp h1, h2⟩, _, posAt_inBlock bp h3, h4⟩
  · rintro ⟨⟨p, h1, h2⟩, q, h3, h4⟩
    cases hp : partly a bp with
    | true => rfl
    | false =>
      exfalso
      have := whole_spec ha hp (invert := false) ⟨p, h1, (selected_iff ..).2 (by simpa using h2)⟩ q h3
      rw [selected_iff] at this
      exact h4 (by simpa using this)

theorem covered_of_clean {bd : Build} {b b' : MapBlock} (hs : SMap.Sorted b.nimap)
    (hid : ∀ e ∈ b.nimap, e.1 < 65536) (h : cleanNimap bd b = .ok b') : Covered b := by
  unfold cleanNimap at h
  obtain ⟨mx, hM, h⟩ := bind_ok_iff.1 h
  obtain ⟨n, hn, h⟩ := bind_ok_iff.1 h
  obtain ⟨used, hu, -⟩ := bind_ok_iff.1 h
  obtain ⟨h1, v, h2⟩ := maxId_spec hs (unwrap_iff.1 hM)
  have hle : n ≤ mx + 1 := by
    unfold u16 at hn
    split at hn
    · cases hn; omega
    · cases bd with
      | debug => cases hn
      | release => cases hn; omega
  intro id hmem
  have := foldlM_setTrue hu id hmem
  rw [List.length_replicate] at this
  exact ⟨_, h2, by simp only; omega⟩

theorem fill_stuck {bd : Build} {a : Area} (ha : a.isValid = true) {invert : Bool} {node : Bytes} {bp : Vec3}
    {b : MapBlock} (h : Wf b) (hl : node.length < 65536) :
    ((Split a bp ∧ FillStuck a invert node bp b) → ∀ r, fillBlock bd a invert node bp b ≠ .ok r) ∧
    (¬ (Split a bp ∧ FillStuck a invert node bp b) →
      ∃ b' n, fillBlock bd a invert node bp b = .ok (b', n) ∧ Short b') := by
  have hlen := h.nodes.1
  have hshort : ∀ {b' : MapBlock} {n}, fillBlock bd a invert node bp b = .ok (b', n) → Short b' := by
    intro b' n hr
    have hnm := fillBlock_names h ha hr
    have hnames : ∀ e ∈ b'.nimap, e.2.length < 65536 := by
      intro e he
      rcases hnm e he with h1 | ⟨e', h1, h2⟩
      · rw [h1]; exact hl
      · rw [← h2]; exact (h.nimap.fits.2 e' h1).2
    have hs := h.short
    unfold fillBlock at hr
    cases hp : partly a bp with
    | false =>
      rw [hp] at hr
      cases hr
      refine ⟨hs.ver, ?_, hs.metas, hs.objs, hnames⟩
      simp only [List.length_map]
      exact hlen
    | true =>
      rw [hp] at hr
      simp only [if_true] at hr
      obtain ⟨part, hpart, hr⟩ := bind_ok_iff.1 hr
      obtain ⟨⟨id, nimap⟩, f0, hr⟩ := bind_ok_iff.1 hr
      simp only at hr
      obtain ⟨nodes, f1, hr⟩ := bind_ok_iff.1 hr
      obtain ⟨b2, f2, hr⟩ := bind_ok_iff.1 hr
      cases hr
      obtain ⟨part', h1, h2, h3⟩ := part_spec ha hp
      have : part' = part := by
        have := unwrap_iff.1 hpart
        rw [h1] at this
        exact Option.some.inj this
      subst this
      obtain ⟨h4, h5⟩ := selIdx_spec h2 h3 invert
      obtain ⟨l', g1, g2, g3⟩ := fillArea_spec h2 b.nd.nodes hlen id invert (fun i hi => ((h5 i).1 hi).1)
      rw [f1] at g1
      cases g1
      have hs' := (fillId_any h.nimap.sorted f0).1
      obtain ⟨names, nodes', q1, q2, -⟩ := clean_full (b := withNodes b nimap nodes) hs'
        (fillNodes_fit h (fillId_lt h.nimap f0) g2 g3) f2
      subst q1
      exact ⟨hs.ver, q2, hs.metas, hs.objs, hnames⟩
  constructor
  · rintro ⟨hsp, hst⟩ ⟨b', n⟩ hr
    unfold fillBlock at hr
    rw [(split_iff ha).2 hsp] at hr
    simp only [if_true] at hr
    obtain ⟨part, hpart, hr⟩ := bind_ok_iff.1 hr
    obtain ⟨⟨id, nimap⟩, f0, hr⟩ := bind_ok_iff.1 hr
    simp only at hr
    obtain ⟨nodes, f1, hr⟩ := bind_ok_iff.1 hr
    obtain ⟨b2, f2, hr⟩ := bind_ok_iff.1 hr
    obtain ⟨part', h1, h2, h3⟩ := part_spec ha ((split_iff ha).2 hsp)
    have : part' = part := by
      have := unwrap_iff.1 hpart
      rw [h1] at this
      exact Option.some.inj this
    subst this
    obtain ⟨h4, h5⟩ := selIdx_spec h2 h3 invert
    obtain ⟨l', g1, g2, g3⟩ := fillArea_spec h2 b.nd.nodes hlen id invert (fun i hi => ((h5 i).1 hi).1)
    rw [f1] at g1
    cases g1
    obtain ⟨s1, s2, s3, -⟩ := fillId_any h.nimap.sorted f0
    have hidlt := fillId_lt h.nimap f0
    obtain ⟨names, nodes', q1, q2, q3, q4, q5, q6, q7, q8, q9, -⟩ := clean_full (b := withNodes b nimap nodes) s1
      (fillNodes_fit h hidlt g2 g3) f2
    have hcov := covered_of_clean (b := withNodes b nimap nodes) s1 (fun e he => by have := q9 e he; omega) f2
    have q9 : ∀ e ∈ nimap, e.1 < 65535 := q9
    -- what the ID is
    have key : b.nimap ≠ [] ∧ (∀ e ∈ b.nimap, e.1 < 65535) ∧ (¬ Lists b node → ∀ e ∈ b.nimap, e.1 < 65534) ∧
        ∀ e ∈ nimap, (∃ e' ∈ b.nimap, e.1 ≤ e'.1) ∨ (¬ Lists b node ∧ ∃ e' ∈ b.nimap, e.1 ≤ e'.1 + 1) := by
      unfold fillId at f0
      cases hg : NameIdMap.getId b.nimap node with
      | some k =>
        rw [hg] at f0
        cases f0
        refine ⟨List.ne_nil_of_mem (getId_some hg), q9, fun hn => absurd (lists_iff.2 ⟨_, hg⟩) hn, ?_⟩
        intro e he
        exact .inl ⟨e, he, Nat.le_refl _⟩
      | none =>
        rw [hg] at f0
        simp only at f0
        obtain ⟨mx, hM, f0⟩ := bind_ok_iff.1 f0
        obtain ⟨nx, hn, f0⟩ := bind_ok_iff.1 f0
        cases f0
        obtain ⟨m1, v, m2⟩ := maxId_spec h.nimap.sorted (unwrap_iff.1 hM)
        have hlt : mx < 65536 := (h.nimap.fits.2 _ m2).1
        have hmxlt : mx < 65535 := by
          rcases Nat.lt_or_ge mx 65535 with hx | hx
          · exact hx
          · have hx : mx = 65535 := by omega
            subst hx
            unfold u16 at hn
            rw [if_neg (by omega)] at hn
            cases bd with
            | debug => cases hn
            | release =>
              cases hn
              exfalso
              have hget : SMap.get? (SMap.insert b.nimap 0 node) 65535 = some v := by
                rw [SMap.get?_insert]
                simp [SMap.get?_of_mem h.nimap.sorted m2]
              have := q9 _ (SMap.get?_some_mem hget)
              simp only at this
              omega
        have hnx : id = mx + 1 := by
          rw [u16_ok (show mx + 1 < 65536 by omega)] at hn
          cases hn
          rfl
        subst hnx
        have hnew := q9 _ (SMap.get?_some_mem s2)
        simp only at hnew
        refine ⟨List.ne_nil_of_mem m2, fun e he => by have := m1 e he; omega, fun _ e he => by
          have := m1 e he; omega, ?_⟩
        have hnl : ¬ Lists b node := fun hl => by
          obtain ⟨k, hk⟩ := lists_iff.1 hl
          rw [hg] at hk
          cases hk
        intro e he
        rcases s3 e he with rfl | he
        · exact .inr ⟨hnl, _, m2, Nat.le_refl _⟩
        · exact .inl ⟨e, he, Nat.le_refl _⟩
    obtain ⟨k1, k2, k3, k4⟩ := key
    rcases hst with hst | ⟨e, he, hst⟩ | ⟨hn, e, he, hst⟩ | ⟨i, id', hi, hns, hnode, r1, r2⟩
    · exact k1 hst
    · have := k2 e he; omega
    · have := k3 hn e he; omega
    · have hni : i ∉ selIdx part' invert := fun hc => hns ((h5 i).1 hc).2
      have hgi := (g3 i).2 hni
      rw [hnode] at hgi
      obtain ⟨e, he, hle⟩ := hcov id' (List.mem_of_getElem? hgi)
      rcases k4 e he with ⟨e', m1, m2⟩ | ⟨hn, e', m1, m2⟩
      · have := r1 e' m1; omega
      · have := r2 hn e' m1; omega
  · intro hno
    suffices hs : ∃ r, fillBlock bd a invert node bp b = .ok r by
      obtain ⟨⟨b', n⟩, hr⟩ := hs
      exact ⟨b', n, hr, hshort hr⟩
    cases hp : partly a bp with
    | false => unfold fillBlock; rw [hp]; exact ⟨_, rfl⟩
    | true =>
      have hst : ¬ FillStuck a invert node bp b := fun hc => hno ⟨(split_iff ha).1 hp, hc⟩
      have n1 : b.nimap ≠ [] := fun hc => hst (.inl hc)
      have n2 : ∀ e ∈ b.nimap, e.1 < 65535 := fun e he => by
        have h1 := (h.nimap.fits.2 e he).1
        have h2 : e.1 ≠ 65535 := fun hc => hst (.inr (.inl ⟨e, he, hc⟩))
        omega
      have n3 : ¬ Lists b node → ∀ e ∈ b.nimap, e.1 < 65534 := fun hn e he => by
        have h1 := n2 e he
        have h2 : e.1 ≠ 65534 := fun hc => hst (.inr (.inr (.inl ⟨hn, e, he, hc⟩)))
        omega
      have n4 : ∀ i id, i < 4096 → ¬ Selected (some a) invert (posAt bp i) → b.nd.nodes[i]? = some id →
          ¬ ((∀ e ∈ b.nimap, e.1 < id) ∧ (¬ Lists b node → ∀ e ∈ b.nimap, e.1 + 1 < id)) :=
        fun i id h1 h2 h3 h4 => hst (.inr (.inr (.inr ⟨i, id, h1, h2, h3, h4⟩)))
      obtain ⟨part, h1, h2, h3⟩ := part_spec ha hp
      obtain ⟨h4, h5⟩ := selIdx_spec h2 h3 invert
      obtain ⟨M, hM⟩ := maxId_exists n1
      obtain ⟨m1, v, m2⟩ := maxId_spec h.nimap.sorted hM
      obtain ⟨id, nimap, f0, f4, f5, f6, f7⟩ : ∃ id nimap, fillId bd b.nimap node = .ok (id, nimap) ∧
          (∀ e ∈ nimap, e.1 < 65535) ∧ (∃ x ∈ nimap, id ≤ x.1) ∧ (∃ x ∈ nimap, M ≤ x.1) ∧
          (¬ Lists b node → ∃ x ∈ nimap, M + 1 ≤ x.1) := by
        unfold fillId
        cases hg : NameIdMap.getId b.nimap node with
        | some k => exact ⟨k, b.nimap, rfl, n2, ⟨_, getId_some hg, Nat.le_refl _⟩, ⟨_, m2, Nat.le_refl _⟩,
            fun hn => absurd (lists_iff.2 ⟨_, hg⟩) hn⟩
        | none =>
          have hnl : ¬ Lists b node := fun hl => by
            obtain ⟨k, hk⟩ := lists_iff.1 hl
            rw [hg] at hk
            cases hk
          have hM4 : M < 65534 := n3 hnl _ m2
          have hin : (M + 1, node) ∈ SMap.insert b.nimap (M + 1) node :=
            SMap.get?_some_mem (by rw [SMap.get?_insert]; simp)
          simp only [hM, unwrap, res_bind_ok, u16_ok (show M + 1 < 65536 by omega)]
          refine ⟨M + 1, _, rfl, ?_, ⟨_, hin, Nat.le_refl _⟩, ⟨_, hin, Nat.le_succ _⟩, fun _ => ⟨_, hin, Nat.le_refl _⟩⟩
          intro e he
          rcases SMap.mem_insert he with rfl | he
          · simp only; omega
          · exact n2 e he
      obtain ⟨nodes, g1, g2, g3⟩ := fillArea_spec h2 b.nd.nodes hlen id invert (fun i hi => ((h5 i).1 hi).1)
      obtain ⟨s1, -⟩ := fillId_any h.nimap.sorted f0
      obtain ⟨b', hb'⟩ := clean_works bd (b := withNodes b nimap nodes) s1 f4 (by
        intro w hw
        have hw : w ∈ nodes := hw
        obtain ⟨i, hi⟩ := List.mem_iff_getElem?.1 hw
        have hi4 : i < 4096 := by
          rcases Nat.lt_or_ge i nodes.length with hx | hx
          · omega
          · rw [List.getElem?_eq_none hx] at hi; cases hi
        by_cases hsel : i ∈ selIdx part invert
        · rw [(g3 i).1 hsel] at hi
          cases hi
          exact f5
        · rw [(g3 i).2 hsel] at hi
          have hns : ¬ Selected (some a) invert (posAt bp i) := fun hc => hsel ((h5 i).2 ⟨hi4, hc⟩)
          have := n4 i w hi4 hns hi
          by_cases hwM : w ≤ M
          · obtain ⟨x, hx, hle⟩ := f6
            exact ⟨x, hx, by omega⟩
          · by_cases hL : Lists b node
            · exact absurd ⟨fun e he => by have := m1 e he; omega, fun hn => absurd hL hn⟩ this
            · obtain ⟨x, hx, hle⟩ := f7 hL
              refine ⟨x, hx, ?_⟩
              by_cases hw1 : w ≤ M + 1
              · omega
              · exact absurd ⟨fun e he => by have := m1 e he; omega, fun _ e he => by have := m1 e he; omega⟩ this)
        (by
          intro hc
          have hc : nodes = [] := hc
          rw [hc] at g2
          cases g2)
      unfold fillBlock
      rw [hp]
      simp only [if_true, h1, unwrap, res_bind_ok, f0, g1]
      rw [show ({ b with nimap := nimap, nd := { b.nd with nodes := nodes } } : MapBlock) = withNodes b nimap nodes
        from rfl, hb']
      exact ⟨_, rfl⟩

/-! ## replacenodes -/

theorem shiftOne_names {m : NameIdMap} {k : Nat} {P : Bytes → Prop} (h : ∀ e ∈ m, P e.2) :
    ∀ e ∈ NameIdMap.shiftOne m k, P e.2 := by
  unfold NameIdMap.shiftOne
  split
  · next name hg =>
    intro e he
    rcases SMap.mem_insert he with he | he
    · rw [he]
      have := h _ (SMap.get?_some_mem hg)
      exact this
    · exact h e (List.filter_sublist.subset he)
  · exact h

theorem removeShift_names {bd : Build} {m r : NameIdMap} {old : Nat} {P : Bytes → Prop} (h : ∀ e ∈ m, P e.2)
    (hok : NameIdMap.removeShift bd m old = .ok r) : ∀ e ∈ r, P e.2 := by
  unfold NameIdMap.removeShift at hok
  simp only at hok
  obtain ⟨lo, -, hok⟩ := bind_ok_iff.1 hok
  cases hok
  have h0 : ∀ e ∈ SMap.erase m old, P e.2 := fun e he => h e (List.filter_sublist.subset he)
  revert h0
  generalize SMap.erase m old = m0
  generalize List.range' lo ((NameIdMap.maxId m0).getD 0 + 1 - lo) = ks
  intro h0
  induction ks generalizing m0 with
  | nil => exact h0
  | cons k t ih =>
    rw [List.foldl_cons]
    exact ih _ (shiftOne_names h0)

theorem removeShift_ok (bd : Build) {m : NameIdMap} {old : Nat} (h : ¬ (bd = .debug ∧ 65535 ≤ old)) :
    ∃ r, NameIdMap.removeShift bd m old = .ok r := by
  unfold NameIdMap.removeShift
  simp only
  have : ∃ lo, u16 bd (old + 1) = .ok lo := by
    unfold u16
    split
    · exact ⟨_, rfl⟩
    · cases bd with
      | debug => exact absurd ⟨rfl, by omega⟩ h
      | release => exact ⟨_, rfl⟩
  obtain ⟨lo, hlo⟩ := this
  rw [hlo]
  exact ⟨_, rfl⟩

theorem removeShift_stuck {m : NameIdMap} {old : Nat} (h : 65535 ≤ old) :
    ∀ r, NameIdMap.removeShift .debug m old ≠ .ok r := by
  intro r hr
  unfold NameIdMap.removeShift at hr
  simp only at hr
  obtain ⟨lo, h1, -⟩ := bind_ok_iff.1 hr
  unfold u16 at h1
  rw [if_neg (by omega)] at h1
  cases h1

theorem doReplace_stuck {bd : Build} {b : MapBlock} (h : Wf b) {oldNode newNode : Bytes} (hne : oldNode ≠ newNode)
    (hl : newNode.length < 65536) {old : Nat} (hold : NameIdMap.getId b.nimap oldNode = some old)
    {area : Option Area} (ha : AreaOk area) {invert : Bool} {bp : Vec3} (hbp : ValidBlockPos bp)
    (hsel : ∃ p, InBlock bp p ∧ Selected area invert p) :
    ((bd = .debug ∧ ReplaceStuck area invert oldNode newNode bp b) →
      ∀ r, doReplace bd b (keyOf bp) old newNode area invert ≠ .ok r) ∧
    (¬ (bd = .debug ∧ ReplaceStuck area invert oldNode newNode bp b) →
      ∃ b' n, doReplace bd b (keyOf bp) old newNode area invert = .ok (b', n) ∧ Short b') := by
  have hlen := h.nodes.1
  have hs := h.short
  have hsort := h.nimap.sorted
  have hlo : Lists b oldNode := lists_iff.2 ⟨_, hold⟩
  have hfirst : FirstId b oldNode old := (getId_first hsort).1 hold
  have hold65 : old < 65536 := (h.nimap.fits.2 _ (getId_some hold)).1
  have hdiff : ∀ newId, NameIdMap.getId b.nimap newNode = some newId → newId ≠ old := by
    rintro newId hg rfl
    have h1 := SMap.get?_of_mem hsort (getId_some hg)
    have h2 := SMap.get?_of_mem hsort (getId_some hold)
    rw [h1] at h2
    exact hne (Option.some.inj h2).symm
  have hin : ∀ e ∈ SMap.insert b.nimap old newNode, e.2.length < 65536 := by
    intro e he
    rcases SMap.mem_insert he with rfl | he
    · exact hl
    · exact hs.names e he
  -- what being stuck means here
  have hst : ReplaceStuck area invert oldNode newNode bp b ↔
      ((NameIdMap.getId b.nimap newNode = none ∧ (∃ i, i < 4096 ∧ ¬ Selected area invert (posAt bp i)) ∧
        ∃ e ∈ b.nimap, e.1 = 65535) ∨
      (NameIdMap.getId b.nimap newNode ≠ none ∧ old = 65535 ∧
        ∀ i, i < 4096 → b.nd.nodes[i]? = some old → Selected area invert (posAt bp i))) := by
    have hlist : Lists b newNode ↔ NameIdMap.getId b.nimap newNode ≠ none := by
      rw [lists_iff]
      cases NameIdMap.getId b.nimap newNode <;> simp
    unfold ReplaceStuck
    rw [hlist]
    constructor
    · rintro ⟨-, -, ⟨h1, ⟨p, h2, h3⟩, h4⟩ | ⟨h1, h2, h3⟩⟩
      · obtain ⟨i, hi, rfl⟩ := exists_posAt h2
        exact .inl ⟨Classical.byContradiction h1, ⟨i, hi, h3⟩, h4⟩
      · have := firstId_eq hfirst h2
        subst this
        exact .inr ⟨h1, rfl, h3⟩
    · rintro (⟨h1, ⟨i, hi, h2⟩, h3⟩ | ⟨h1, h2, h3⟩)
      · exact ⟨hlo, hsel, .inl ⟨by simp [h1], ⟨_, posAt_inBlock bp hi, h2⟩, h3⟩⟩
      · subst h2
        exact ⟨hlo, hsel, .inr ⟨h1, hfirst, h3⟩⟩
  rw [hst]
  unfold doReplace
  simp only
  rw [fromBlockKey_keyOf bp hbp]
  rcases sel_cases ha hsel with ⟨a, part, e1, e2, e3, e4, e5, e6⟩ | ⟨e1, e2⟩
  · rw [e1]
    simp only
    rw [e3]
    simp only [unwrap, res_bind_ok]
    have hns : ∃ i, i < 4096 ∧ ¬ Selected area invert (posAt bp i) := by
      subst e2
      have hp : partly a bp = true := by
        cases hp : partly a bp with
        | true => rfl
        | false => simp [Option.filter, hp] at e1
      obtain ⟨⟨i, h1, h2⟩, j, h3, h4⟩ := partly_split (ha a rfl) hp
      cases invert with
      | false => exact ⟨j, h3, by rw [selected_iff]; simpa using h4⟩
      | true => exact ⟨i, h1, by rw [selected_iff]; simpa using h2⟩
    have hidxT : inverseIndices part = .ok (selIdx part true) := inverseIndices_sel e4
    have hv : part.isValid := by
      unfold LocalArea at e4
      unfold Area.isValid
      simp
      omega
    have hidxF : (part.positions.map fun p => asUsize (p.x + 16 * (p.y + 16 * p.z))) = selIdx part false := by
      rw [positions_eq part hv]
      rfl
    have hloop : ∀ newId, ∃ l' n, (selIdx part invert).foldlM (replaceAt old newId) (b.nd.nodes, 0) =
          .ok (l', n) ∧ l'.length = 4096 ∧ (newId ≠ old → (l'.contains old = true ↔
            ∃ i, i < 4096 ∧ b.nd.nodes[i]? = some old ∧ ¬ Selected area invert (posAt bp i))) := by
      intro newId
      obtain ⟨l', f1, f2, f3⟩ := foldlM_count (replaceAt old newId) (idHit b.nd.nodes (some old)) newId
        b.nd.nodes (selIdx part invert) e5 (fun i hi => by rw [hlen]; exact ((e6 i).1 hi).1)
        (fun i hi l n hl' he => replaceAt_step hl' (by rw [hlen]; exact ((e6 i).1 hi).1) he) 0
      refine ⟨l', _, f1, by rw [f2, hlen], fun hne => ?_⟩
      have hhit : ∀ i, idHit b.nd.nodes (some old) i = true ↔ b.nd.nodes[i]? = some old := by
        intro i
        unfold idHit
        simp
      rw [List.contains_iff_mem, List.mem_iff_getElem?]
      constructor
      · rintro ⟨i, hi⟩
        have hc : ¬ (i ∈ selIdx part invert ∧ idHit b.nd.nodes (some old) i = true) := by
          intro hc
          rw [(f3 i).1 hc] at hi
          exact hne (Option.some.inj hi)
        rw [(f3 i).2 hc] at hi
        have hi4 : i < 4096 := by
          rcases Nat.lt_or_ge i b.nd.nodes.length with hx | hx
          · omega
          · rw [List.getElem?_eq_none hx] at hi; cases hi
        exact ⟨i, hi4, hi, fun hsl => hc ⟨(e6 i).2 ⟨hi4, hsl⟩, (hhit i).2 hi⟩⟩
      · rintro ⟨i, hi, h1, h2⟩
        refine ⟨i, ?_⟩
        rw [(f3 i).2 fun hc => h2 ((e6 i).1 hc.1).2]
        exact h1
    have hrest : ∀ (m : NameIdMap) (l' : List Nat) (n : Nat), l'.length = 4096 → (∀ e ∈ m, e.2.length < 65536) →
        ¬ (bd = .debug ∧ 65535 ≤ old ∧ l'.contains old = false) →
        ∃ b' n', (if !(l'.contains old) then do
            let nodes := l'.map fun id => if id > old then id - 1 else id
            let nimap ← NameIdMap.removeShift bd m old
            return (withNodes b nimap nodes, n)
          else return (withNodes b m l', n) : Res (MapBlock × Nat)) = .ok (b', n') ∧ Short b' := by
      intro m l' n k1 k2 k3
      split
      · next hc =>
        obtain ⟨r, hr⟩ := removeShift_ok bd (m := m) (old := old) fun hx => k3 ⟨hx.1, hx.2, by simpa using hc⟩
        simp only [hr, res_bind_ok]
        exact ⟨_, _, rfl, hs.ver, by show (l'.map _).length = 4096; rw [List.length_map]; exact k1, hs.metas, hs.objs,
          removeShift_names (P := fun x => x.length < 65536) k2 hr⟩
      · exact ⟨_, _, rfl, hs.ver, k1, hs.metas, hs.objs, k2⟩
    have hfail : ∀ (m : NameIdMap) (l' : List Nat) (n : Nat), 65535 ≤ old → l'.contains old = false →
        ∀ r, (if !(l'.contains old) then do
            let nodes := l'.map fun id => if id > old then id - 1 else id
            let nimap ← NameIdMap.removeShift .debug m old
            return (withNodes b nimap nodes, n)
          else return (withNodes b m l', n) : Res (MapBlock × Nat)) ≠ .ok r := by
      intro m l' n k1 k2 r hr
      rw [if_pos (by rw [k2]; rfl)] at hr
      simp only at hr
      obtain ⟨x, hx, -⟩ := bind_ok_iff.1 hr
      exact removeShift_stuck k1 x hx
    unfold replacePart
    cases hg : NameIdMap.getId b.nimap newNode with
    | some newId =>
      obtain ⟨l', n, f1, f2, f3⟩ := hloop newId
      have f3 := f3 (hdiff newId hg)
      have hiff : (∀ i, i < 4096 → b.nd.nodes[i]? = some old → Selected area invert (posAt bp i)) ↔
          l'.contains old = false := by
        rw [← Bool.not_eq_true, f3]
        constructor
        · rintro hx ⟨i, h1, h2, h3⟩
          exact h3 (hx i h1 h2)
        · intro hx i h1 h2
          exact Classical.byContradiction fun h3 => hx ⟨i, h1, h2, h3⟩
      constructor
      · rintro ⟨rfl, ⟨h1, -⟩ | ⟨-, h2, h3⟩⟩ r hr
        · cases h1
        · refine hfail b.nimap l' n (by omega) (hiff.1 h3) r ?_
          rw [← hr]
          cases invert <;>
            simp only [hidxT, hidxF, res_bind_ok, res_pure, f1, Bool.false_and, Bool.false_eq_true, if_false, if_true] <;>
            rfl
      · intro hno
        obtain ⟨b', n', g1, g2⟩ := hrest b.nimap l' n f2 hs.names (by
          rintro ⟨k1, k2, k3⟩
          exact hno ⟨k1, .inr ⟨by simp, by omega, hiff.2 k3⟩⟩)
        refine ⟨b', n', ?_, g2⟩
        rw [← g1]
        cases invert <;>
          simp only [hidxT, hidxF, res_bind_ok, res_pure, f1, Bool.false_and, Bool.false_eq_true, if_false, if_true] <;>
          rfl
    | none =>
      obtain ⟨mx, hmx⟩ := maxId_exists (List.ne_nil_of_mem (getId_some hold))
      obtain ⟨h5, v, hv5⟩ := maxId_spec hsort hmx
      have hmx65 : mx < 65536 := (h.nimap.fits.2 _ hv5).1
      constructor
      · rintro ⟨rfl, ⟨-, -, e, he, h1⟩ | ⟨h1, -⟩⟩ r hr
        · have := h5 e he
          have : mx = 65535 := by omega
          subst this
          simp only [hmx, unwrap, res_bind_ok] at hr
          rw [show u16 .debug (65535 + 1) = .error (.panic "u16 overflow") from rfl] at hr
          cases hr
        · exact h1 rfl
      · intro hno
        have hbig : ¬ (bd = .debug ∧ mx = 65535) := fun hx => hno ⟨hx.1, .inl ⟨rfl, hns, _, hv5, hx.2⟩⟩
        obtain ⟨nx, hnx⟩ : ∃ nx, u16 bd (mx + 1) = .ok nx := by
          unfold u16
          split
          · exact ⟨_, rfl⟩
          · cases bd with
            | debug => exact absurd ⟨rfl, by omega⟩ hbig
            | release => exact ⟨_, rfl⟩
        obtain ⟨l', n, f1, f2, -⟩ := hloop nx
        obtain ⟨b', n', g1, g2⟩ := hrest (if n > 0 then SMap.insert b.nimap nx newNode else b.nimap) l' n f2
          (by
            split
            · intro e he
              rcases SMap.mem_insert he with rfl | he
              · exact hl
              · exact hs.names e he
            · exact hs.names)
          (by
            rintro ⟨k1, k2, -⟩
            have := h5 _ (getId_some hold)
            simp only at this
            exact hbig ⟨k1, by omega⟩)
        refine ⟨b', n', ?_, g2⟩
        rw [← g1]
        simp only [hmx, unwrap, res_bind_ok, hnx, res_pure]
        cases invert <;>
          simp only [hidxT, hidxF, res_bind_ok, res_pure, f1, Bool.true_and, decide_eq_true_iff, Bool.false_eq_true,
            if_false, if_true] <;> rfl
  · rw [e1]
    simp only
    unfold replaceWhole
    cases hg : NameIdMap.getId b.nimap newNode with
    | some newId =>
      constructor
      · rintro ⟨rfl, ⟨h1, -⟩ | ⟨-, h2, h3⟩⟩ r hr
        · cases h1
        · simp only at hr
          obtain ⟨x, hx, -⟩ := bind_ok_iff.1 hr
          exact removeShift_stuck (by omega) x hx
      · intro hno
        obtain ⟨r, hr⟩ := removeShift_ok bd (m := b.nimap) (old := old) (by
          rintro ⟨k1, k2⟩
          exact hno ⟨k1, .inr ⟨by simp, by omega, fun i hi _ => e2 i hi⟩⟩)
        simp only [hr, res_bind_ok]
        exact ⟨_, _, rfl, hs.ver, by rw [List.length_map]; exact hlen, hs.metas, hs.objs,
          removeShift_names (P := fun x => x.length < 65536) hs.names hr⟩
    | none =>
      constructor
      · rintro ⟨rfl, ⟨-, ⟨i, hi, h1⟩, -⟩ | ⟨h1, -⟩⟩
        · exact absurd (e2 i hi) h1
        · exact absurd rfl h1
      · intro _
        exact ⟨_, _, rfl, hs.ver, hlen, hs.metas, hs.objs, hin⟩

end MapEditr
