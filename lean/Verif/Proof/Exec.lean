import Verif.Spec.Exec
import Verif.Proof.Session
import Verif.Props.OverlayTwice
/-!
# The meaning of every command
-/

namespace MapEditr
open Spec

/-! ## Maps as nodes -/

/-- There is at most one node at a position. -/
theorem hasNode_unique {c : Codec} {t : Table} {p : Vec3} {v v' : NodeView} (hg : GoodTable t)
    (h : HasNode c t p v) (h' : HasNode c t p v') : v = v' := by
  obtain ⟨bp, d, b, i, h1, h2, h3, h4, rfl, rfl⟩ := h
  obtain ⟨bp', d', b', i', g1, g2, g3, g4, g5, rfl⟩ := h'
  have hi := posAt_inBlock bp' g4
  rw [g5] at hi
  have := inBlock_unique (posAt_inBlock bp h4) hi
  subst this
  have := row_unique hg.nodup h2 g2
  subst this
  have := represents_unique h3 g3
  subst this
  have : i' = i := by
    unfold posAt at g5
    simp only [Vec3.mk.injEq] at g5
    omega
  rw [this]

theorem nodesOf_some {c : Codec} {t : Table} (hg : GoodTable t) {p : Vec3} {v : NodeView} :
    nodesOf c t p = some v ↔ HasNode c t p v := by
  unfold nodesOf
  split
  · next h =>
    have hv := Classical.choose_spec h
    constructor
    · intro e
      cases e
      exact hv
    · intro e
      rw [hasNode_unique hg hv e]
  · next h => exact ⟨nofun, fun e => absurd ⟨v, e⟩ h⟩

theorem nodesOf_none {c : Codec} {t : Table} {p : Vec3} : nodesOf c t p = none ↔ ∀ v, ¬ HasNode c t p v := by
  unfold nodesOf
  split
  · next h => exact ⟨nofun, fun e => absurd h.choose_spec (e _)⟩
  · next h => exact ⟨fun _ v e => h ⟨v, e⟩, fun _ => rfl⟩

/-- The map has the block `b` at `bp`. -/
def HasBlock (c : Codec) (t : Table) (bp : Vec3) (b : MapBlock) : Prop :=
  ValidBlockPos bp ∧ ∃ d, (keyOf bp, d) ∈ t ∧ Represents c d b

theorem nodesOf_block {c : Codec} {t : Table} (hg : GoodTable t) {bp : Vec3} {b : MapBlock} (h : HasBlock c t bp b)
    {i : Nat} (hi : i < 4096) : nodesOf c t (posAt bp i) = some (viewAt b i) := by
  obtain ⟨h1, d, h2, h3⟩ := h
  exact (nodesOf_some hg).2 ⟨bp, d, b, i, h1, h2, h3, hi, rfl, rfl⟩

theorem nodesOf_noBlock {c : Codec} {t : Table} {bp : Vec3} (h : ∀ b, ¬ HasBlock c t bp b)
    {i : Nat} (hi : i < 4096) : nodesOf c t (posAt bp i) = none := by
  rw [nodesOf_none]
  rintro v ⟨bp', d, b, i', h1, h2, h3, h4, h5, -⟩
  have h6 := posAt_inBlock bp' h4
  rw [h5] at h6
  have := inBlock_unique (posAt_inBlock bp hi) h6
  subst this
  exact h b ⟨h1, d, h2, h3⟩

theorem hasBlock_unique {c : Codec} {t : Table} (hg : GoodTable t) {bp : Vec3} {b b' : MapBlock}
    (h : HasBlock c t bp b) (h' : HasBlock c t bp b') : b' = b := by
  obtain ⟨h1, d, h2, h3⟩ := h
  obtain ⟨-, d', h5, h6⟩ := h'
  have := row_unique hg.nodup h2 h5
  subst this
  exact represents_unique h6 h3

theorem blockOf_posAt (bp : Vec3) {i : Nat} (hi : i < 4096) : blockOf (posAt bp i) = bp := by
  obtain ⟨x, y, z⟩ := bp
  unfold blockOf posAt
  simp only [Vec3.mk.injEq]
  omega

theorem inBlock_blockOf (p : Vec3) : InBlock (blockOf p) p := by
  unfold InBlock blockOf
  simp only
  omega

theorem posAt_idxOf (p : Vec3) : idxOf p < 4096 ∧ posAt (blockOf p) (idxOf p) = p := by
  obtain ⟨x, y, z⟩ := p
  unfold posAt blockOf idxOf
  simp only [Vec3.mk.injEq]
  omega

theorem exists_at (p : Vec3) : ∃ bp i, i < 4096 ∧ p = posAt bp i :=
  ⟨blockOf p, idxOf p, (posAt_idxOf p).1, (posAt_idxOf p).2.symm⟩

/-- Two maps have the same nodes if, block by block, they do. -/
theorem nodes_ext {W W' : Nodes} (h : ∀ bp i, i < 4096 → W (posAt bp i) = W' (posAt bp i)) : W = W' := by
  funext p
  obtain ⟨bp, i, hi, rfl⟩ := exists_at p
  exact h bp i hi

theorem blockWhole_iff {area : Option Area} {invert : Bool} {bp : Vec3} {i : Nat} (hi : i < 4096) :
    blockWhole area invert (posAt bp i) = true ↔ Whole area invert bp := by
  unfold blockWhole Whole
  rw [blockOf_posAt bp hi, List.all_eq_true]
  constructor
  · intro h p hp
    obtain ⟨j, hj, rfl⟩ := exists_posAt hp
    exact of_decide_eq_true (h j (List.mem_range.2 hj))
  · intro h j hj
    exact decide_eq_true (h _ (posAt_inBlock bp (List.mem_range.1 hj)))

theorem blockSpared_iff {area : Option Area} {invert : Bool} {bp : Vec3} {i : Nat} (hi : i < 4096) :
    blockSpared area invert (posAt bp i) = true ↔ ∀ p, InBlock bp p → ¬ Selected area invert p := by
  unfold blockSpared
  rw [blockOf_posAt bp hi, List.all_eq_true]
  constructor
  · intro h p hp
    obtain ⟨j, hj, rfl⟩ := exists_posAt hp
    exact of_decide_eq_true (h j (List.mem_range.2 hj))
  · intro h j hj
    exact decide_eq_true (h _ (posAt_inBlock bp (List.mem_range.1 hj)))

/-! ## Copying -/

theorem view_modern {b : MapBlock} (h : 28 ≤ b.version) (i : Nat) : (viewAt b i).md = metaOf b i := by
  unfold viewAt
  simp only
  rw [if_neg (by omega)]

theorem view_nodeAs {b b' : MapBlock} {i j : Nat} (h : NodeAs b' i b j) (hw : Wf b) (hn : Named b) (hj : j < 4096)
    (hv : 28 ≤ b.version) (hv' : 28 ≤ b'.version) :
    viewAt b' i = { viewAt b j with timers := (viewAt b' i).timers } := by
  obtain ⟨name, hname⟩ := named_node hw.nodes.1 hn hj
  refine view_of ?_ h.2.1 h.2.2.1 ?_ rfl
  · rw [h.1 name hname]
    exact hname.symm
  · rw [view_modern hv']
    have := h.2.2.2 0 (by omega)
    rw [Nat.mul_zero, Nat.zero_add, Nat.zero_add] at this
    rcases this with h | ⟨h, -⟩
    · rw [h]
      exact (view_modern hv j).symm
    · omega

theorem named_of {b : MapBlock} (hw : Wf b) (h : ∀ i, i < 4096 → ∃ n, nodeName b i = some n) : Named b := by
  intro id hid
  obtain ⟨i, hi, he⟩ := List.getElem_of_mem hid
  obtain ⟨n, hn⟩ := h i (by rw [hw.nodes.1] at hi; exact hi)
  unfold nodeName at hn
  rw [List.getElem?_eq_getElem hi, he] at hn
  exact ⟨n, hn⟩

theorem nodeAs_name {b b' : MapBlock} {i j : Nat} (h : NodeAs b' i b j) (hw : Wf b) (hn : Named b) (hj : j < 4096) :
    ∃ n, nodeName b' i = some n := by
  obtain ⟨n, hn⟩ := named_node hw.nodes.1 hn hj
  exact ⟨n, h.1 n hn⟩

theorem tidy_fine {K : Nat} (hK : 4095 ≤ K) {b : MapBlock} (h : Tidy b) (hw : Wf b) (hn : Named b) : Fine K b := by
  refine ⟨tidy_unique h, hn, fun e he => ?_⟩
  have hid : e.1 ∈ b.nimap.map (·.1) := List.mem_map.2 ⟨e, he, rfl⟩
  have hlen : b.nimap.length ≤ 4096 := by
    have h1 : (b.nimap.map (·.1)).Nodup := by rw [h.ids]; exact List.nodup_range
    have h2 : b.nimap.map (·.1) ⊆ b.nd.nodes := by
      intro i hi
      obtain ⟨e, he, rfl⟩ := List.mem_map.1 hi
      exact h.used e he
    have := List.Nodup.length_le_of_subset h1 h2
    rw [List.length_map, hw.nodes.1] at this
    exact this
  rw [h.ids, List.mem_range] at hid
  omega

theorem usual_mild {K : Nat} (hK : K ≤ 7280) {b : MapBlock} (h : Usual K b) (bd : Build) : Mild bd b :=
  ⟨h.room, fun _ e he => Nat.le_trans (h.fine.small e he) hK⟩

theorem usual_mono {K L : Nat} (h : K ≤ L) {b : MapBlock} (r : Usual K b) : Usual L b :=
  ⟨fine_mono h r.fine, r.gen, r.modern, r.room⟩

/-- What a run does to the nodes, and that the map stays as Minetest writes it. -/
structure Means (c : Codec) (args : InstArgs) (K : Nat) (s t t' : Table) : Prop where
  good : GoodTable t'
  usual : AllBlocks c t' (Usual (K + 1))
  nodes : nodesOf c t' = meaning args (nodesOf c s) (nodesOf c t)

/-- Nodes copied with an offset. -/
theorem copied_nodes {c : Codec} {area : Option Area} {o : Vec3} {K : Nat} (hK : 4095 ≤ K) {src t t' : Table}
    (hg : GoodTable t) (hgs : GoodTable src) (hb : AllBlocks c t (Usual K)) (hbs : AllBlocks c src (Usual K))
    {Sel Reach : Vec3 → Prop}
    (h : Copied c src t t' o Sel Reach)
    (hsel : ∀ p, Sel p ↔ Selected area false (unshift p o))
    (hreach : ∀ q, Reach q ↔ Within 1937 (blockOf q))
    (hr : ∀ r ∈ t', r ∈ t ∨ ∃ b, Represents c r.2 b ∧ Tidy b ∧ MetaRoom b ∧ Written b) :
    GoodTable t' ∧ AllBlocks c t' (Usual (K + 1)) ∧
      ∀ p, nodesOf c t' p = copiedNode area o (nodesOf c src) (nodesOf c t) p := by
  have hg' : GoodTable t' := ⟨h.nodup, fun r hr => by
    obtain ⟨r0, h1, h2⟩ := List.mem_map.1 ((h.keys r.1).1 (List.mem_map.2 ⟨r, hr, rfl⟩))
    rw [← h2]
    exact hg.valid _ h1⟩
  have hblock : ∀ bp b, HasBlock c t bp b → ∃ b', HasBlock c t' bp b' ∧ SameRest b b' ∧ Named b' ∧
      ∀ i, i < 4096 → some (viewAt b' i) = copiedNode area o (nodesOf c src) (nodesOf c t) (posAt bp i) := by
    rintro bp b ⟨h1, d, h2, h3⟩
    have rb := hb _ _ _ h2 h3
    obtain ⟨d', b', f1, f2, f3, f4⟩ := h.good bp d b h1 h2 h3 rb.gen
    have hv' : 28 ≤ b'.version := by rw [f3.1.1]; exact rb.modern
    have hkey : ∀ i, i < 4096 → (∃ n, nodeName b' i = some n) ∧
        some (viewAt b' i) = copiedNode area o (nodesOf c src) (nodesOf c t) (posAt bp i) := by
      intro i hi
      have hwt := nodesOf_block hg ⟨h1, d, h2, h3⟩ hi
      unfold copiedNode
      rw [hwt]
      simp only
      have htim : (viewAt b' i).timers = (viewAt b i).timers := timers_view f3.2.2 i
      have hkeep : NodeAs b' i b i → (∃ n, nodeName b' i = some n) ∧ viewAt b' i = viewAt b i := fun ha =>
        ⟨nodeAs_name ha (wf_of_represents h3) rb.fine.named hi, by
          rw [view_nodeAs ha (wf_of_represents h3) rb.fine.named hi rb.modern hv', htim]⟩
      by_cases hx : Selected area false (unshift (posAt bp i) o) ∧ Within 1937 (blockOf (unshift (posAt bp i) o))
      · rw [if_pos hx]
        obtain ⟨j1, j2⟩ := posAt_idxOf (unshift (posAt bp i) o)
        by_cases hs : ∃ sb, HasBlock c src (blockOf (unshift (posAt bp i) o)) sb
        · obtain ⟨sb, hsb⟩ := hs
          obtain ⟨g1, sd, g2, g3⟩ := id hsb
          have rs := hbs _ _ _ g2 g3
          have ha := (f4 i hi).1 sb ((hsel _).2 hx.1) ((hreach _).2 hx.2) ⟨g1, rs.gen, sd, g2, g3⟩
          have hws := nodesOf_block hgs hsb j1
          rw [j2] at hws
          rw [hws]
          refine ⟨nodeAs_name ha (wf_of_represents g3) rs.fine.named j1, ?_⟩
          rw [view_nodeAs ha (wf_of_represents g3) rs.fine.named j1 rs.modern hv', htim]
        · have hws := nodesOf_noBlock (c := c) (t := src) (fun sb hsb => hs ⟨sb, hsb⟩) j1
          rw [j2] at hws
          rw [hws]
          obtain ⟨k1, k2⟩ := hkeep ((f4 i hi).2 fun sb hc => hs ⟨sb, hc.2.2.1, hc.2.2.2.2⟩)
          exact ⟨k1, by rw [k2]⟩
      · rw [if_neg hx]
        obtain ⟨k1, k2⟩ := hkeep ((f4 i hi).2 fun sb hc => hx ⟨(hsel _).1 hc.1, (hreach _).1 hc.2.1⟩)
        exact ⟨k1, by rw [k2]⟩
    exact ⟨b', ⟨h1, d', f1, f2⟩, f3, named_of (wf_of_represents f2) fun i hi => (hkey i hi).1, fun i hi => (hkey i hi).2⟩
  have hback : ∀ bp b', HasBlock c t' bp b' → ∃ b, HasBlock c t bp b := by
    rintro bp b' ⟨h1, d', h2, h3⟩
    obtain ⟨⟨k, d⟩, g1, g2⟩ := List.mem_map.1 ((h.keys (keyOf bp)).1 (List.mem_map.2 ⟨_, h2, rfl⟩))
    simp only at g2
    subst g2
    by_cases hx : ∃ b, Represents c d b
    · obtain ⟨b, hx⟩ := hx
      exact ⟨b, h1, d, g1, hx⟩
    · have := row_unique h.nodup h2 (h.bad _ d g1 fun b hb => absurd ⟨b, hb⟩ hx)
      subst this
      exact absurd ⟨_, h3⟩ hx
  refine ⟨hg', ?_, ?_⟩
  · intro k d' b' hd' hr'
    obtain ⟨bp, e1, e2, -⟩ := row_pos hg' hd'
    simp only at e2
    subst e2
    rcases hr _ hd' with h1 | ⟨b1, h1, h2, h3⟩
    · exact usual_mono (by omega) (hb _ _ _ h1 hr')
    · have := represents_unique h1 hr'
      subst this
      obtain ⟨b, hbk⟩ := hback bp b1 ⟨e1, _, hd', hr'⟩
      obtain ⟨b2, f1, f2, f3, -⟩ := hblock bp b hbk
      have := hasBlock_unique hg' f1 ⟨e1, _, hd', hr'⟩
      subst this
      obtain ⟨-, d, g1, g2⟩ := hbk
      have rb := hb _ _ _ g1 g2
      refine ⟨tidy_fine (by omega) h2 (wf_of_represents hr') f3, ?_, ?_, h3.1⟩
      · unfold Generated
        rw [f2.1.2.1]
        exact rb.gen
      · rw [f2.1.1]
        exact rb.modern
  · intro p
    obtain ⟨bp, i, hi, rfl⟩ := exists_at p
    by_cases hx : ∃ b, HasBlock c t bp b
    · obtain ⟨b, hx⟩ := hx
      obtain ⟨b', f1, -, -, f2⟩ := hblock bp b hx
      rw [nodesOf_block hg' f1 hi]
      exact f2 i hi
    · rw [nodesOf_noBlock (fun b' hb' => hx (hback bp b' hb')) hi]
      unfold copiedNode
      rw [nodesOf_noBlock (fun b hb => hx ⟨b, hb⟩) hi]

/-- Nodes laid over others. -/
theorem overlaid_nodes {c : Codec} (hl : c.Lawful) {area : Option Area} {invert : Bool} {K : Nat} (hK : 4095 ≤ K)
    {src t t' : Table} (hg : GoodTable t) (hs : Source c K src) (hb : AllBlocks c t (Usual K))
    (h : Overlaid c src t t' area invert fun _ => True)
    (hr : ∀ r ∈ t', r ∈ t ∨ r ∈ src ∨ ∃ b, Represents c r.2 b ∧ Tidy b ∧ MetaRoom b ∧ Written b) :
    GoodTable t' ∧ AllBlocks c t' (Usual (K + 1)) ∧
      ∀ p, nodesOf c t' p = laidNode area invert (nodesOf c src) (nodesOf c t) p := by
  have hg' : GoodTable t' := ⟨h.nodup, fun r hr => by
    rcases h.added r.1 r.2 hr with h1 | ⟨h1, -⟩
    · obtain ⟨r0, h1, h2⟩ := List.mem_map.1 h1
      rw [← h2]
      exact hg.valid _ h1
    · exact hs.good.valid _ h1⟩
  -- partly selected blocks that are in both maps
  have hpart : ∀ bp b sb, HasBlock c t bp b → HasBlock c src bp sb → Partly area invert bp →
      ∃ b', HasBlock c t' bp b' ∧ SameRest (if invert then sb else b) b' ∧ Named b' ∧
      ∀ i, i < 4096 → viewAt b' i = { (if Selected area invert (posAt bp i) then viewAt sb i else viewAt b i) with
        timers := if invert then (viewAt sb i).timers else (viewAt b i).timers } := by
    rintro bp b sb ⟨h1, d, h2, h3⟩ ⟨-, sd, g2, g3⟩ hp
    have rb := hb _ _ _ h2 h3
    have rs := hs.usual _ _ _ g2 g3
    obtain ⟨d', b', f1, f2, f3, -, f4⟩ := h.part bp sd sb d b h1 g2 g3 trivial h2 h3 rb.gen hp
    have hv' : 28 ≤ b'.version := by
      rw [f3.1.1]
      cases invert
      · exact rb.modern
      · exact rs.modern
    have htim : ∀ i, (viewAt b' i).timers = if invert then (viewAt sb i).timers else (viewAt b i).timers := by
      intro i
      rw [timers_view f3.2.2 i]
      cases invert <;> rfl
    have hkey : ∀ i, i < 4096 → (∃ n, nodeName b' i = some n) ∧
        viewAt b' i = { (if Selected area invert (posAt bp i) then viewAt sb i else viewAt b i) with
          timers := if invert then (viewAt sb i).timers else (viewAt b i).timers } := by
      intro i hi
      have ha := f4 i hi
      rw [← htim i]
      by_cases hx : Selected area invert (posAt bp i)
      · rw [if_pos hx] at ha
        rw [if_pos hx]
        exact ⟨nodeAs_name ha (wf_of_represents g3) rs.fine.named hi,
          view_nodeAs ha (wf_of_represents g3) rs.fine.named hi rs.modern hv'⟩
      · rw [if_neg hx] at ha
        rw [if_neg hx]
        exact ⟨nodeAs_name ha (wf_of_represents h3) rb.fine.named hi,
          view_nodeAs ha (wf_of_represents h3) rb.fine.named hi rb.modern hv'⟩
    exact ⟨b', ⟨h1, d', f1, f2⟩, f3, named_of (wf_of_represents f2) fun i hi => (hkey i hi).1, fun i hi => (hkey i hi).2⟩
  -- rows that stay
  have hkept : ∀ bp b, HasBlock c t bp b → (Whole area invert bp → ∀ sb, ¬ HasBlock c src bp sb) →
      (Partly area invert bp → ∀ sb, ¬ HasBlock c src bp sb) → HasBlock c t' bp b := by
    rintro bp b ⟨h1, d, h2, h3⟩ hw hp
    refine ⟨h1, d, h.kept bp d h1 h2 ?_, h3⟩
    rintro (⟨k1, sd, k2, -⟩ | ⟨k1, sd, sb, -, k2, k3, -⟩)
    · obtain ⟨sb, k3⟩ := hs.readable _ k2
      exact hw k1 sb ⟨h1, sd, k2, k3⟩
    · exact hp k1 sb ⟨h1, sd, k2, k3⟩
  have hwhole : ∀ bp sb, HasBlock c src bp sb → Whole area invert bp → HasBlock c t' bp sb := by
    rintro bp sb ⟨h1, sd, h2, h3⟩ hw
    exact ⟨h1, sd, h.whole bp sd h1 h2 hw (genData_of hl h3 (hs.usual _ _ _ h2 h3).gen), h3⟩
  -- where blocks come from
  have hback : ∀ bp b', HasBlock c t' bp b' → (∃ b, HasBlock c t bp b) ∨
      (Whole area invert bp ∧ ∃ sb, HasBlock c src bp sb) := by
    rintro bp b' ⟨h1, d', h2, h3⟩
    rcases h.added _ _ h2 with hk | ⟨k1, -, bp', k2, k3, k4⟩
    · obtain ⟨⟨k, d⟩, g1, g2⟩ := List.mem_map.1 hk
      simp only at g2
      subst g2
      by_cases hx : ∃ b, Represents c d b
      · obtain ⟨b, hx⟩ := hx
        exact .inl ⟨b, h1, d, g1, hx⟩
      · by_cases ho : Overridden c src area invert (fun _ => True) bp d
        · rcases ho with ⟨k1, sd, k2, k3⟩ | ⟨-, sd, sb, b, -, -, -, k4, -⟩
          · obtain ⟨sb, k4⟩ := hs.readable _ k2
            exact .inr ⟨k1, sb, h1, sd, k2, k4⟩
          · exact absurd ⟨b, k4⟩ hx
        · have := row_unique h.nodup h2 (h.kept bp d h1 g1 ho)
          subst this
          exact absurd ⟨_, h3⟩ hx
    · have : bp' = bp := by
        have e1 := fromBlockKey_keyOf bp' k2
        rw [k3, fromBlockKey_keyOf bp h1] at e1
        exact e1.symm
      subst this
      exact .inr ⟨k4, b', h1, d', k1, h3⟩
  refine ⟨hg', ?_, ?_⟩
  · intro k d' b' hd' hr'
    obtain ⟨bp, e1, e2, -⟩ := row_pos hg' hd'
    simp only at e2
    subst e2
    rcases hr _ hd' with h1 | h1 | ⟨b1, h1, h2, h3⟩
    · exact usual_mono (by omega) (hb _ _ _ h1 hr')
    · exact usual_mono (by omega) (hs.usual _ _ _ h1 hr')
    · have := represents_unique h1 hr'
      subst this
      have hB' : HasBlock c t' bp b1 := ⟨e1, _, hd', hr'⟩
      have huse : ∀ b, HasBlock c t bp b → Usual K b := by
        rintro b ⟨-, d, k1, k2⟩
        exact hb _ _ _ k1 k2
      have huses : ∀ b, HasBlock c src bp b → Usual K b := by
        rintro b ⟨-, d, k1, k2⟩
        exact hs.usual _ _ _ k1 k2
      have hfrom : ∀ b, HasBlock c t' bp b → Usual K b → Usual (K + 1) b1 := by
        intro b hb hu
        rw [hasBlock_unique hg' hb hB']
        exact usual_mono (by omega) hu
      by_cases hs' : ∃ sb, HasBlock c src bp sb
      · obtain ⟨sb, hsb⟩ := hs'
        by_cases hw : Whole area invert bp
        · exact hfrom sb (hwhole bp sb hsb hw) (huses sb hsb)
        · rcases hback bp b1 hB' with ⟨b, hbk⟩ | ⟨hw', -⟩
          · by_cases hp : Partly area invert bp
            · obtain ⟨b2, f1, f2, f3, -⟩ := hpart bp b sb hbk hsb hp
              have := hasBlock_unique hg' f1 hB'
              subst this
              refine ⟨tidy_fine (by omega) h2 (wf_of_represents hr') f3, ?_, ?_, h3.1⟩
              · unfold Generated
                rw [f2.1.2.1]
                cases invert
                · exact (huse b hbk).gen
                · exact (huses sb hsb).gen
              · rw [f2.1.1]
                cases invert
                · exact (huse b hbk).modern
                · exact (huses sb hsb).modern
            · exact hfrom b (hkept bp b hbk (fun e => absurd e hw) fun e => absurd e hp) (huse b hbk)
          · exact absurd hw' hw
      · rcases hback bp b1 hB' with ⟨b, hbk⟩ | ⟨-, hx⟩
        · exact hfrom b (hkept bp b hbk (fun _ sb e => hs' ⟨sb, e⟩) fun _ sb e => hs' ⟨sb, e⟩) (huse b hbk)
        · exact absurd hx hs'
  · intro p
    obtain ⟨bp, i, hi, rfl⟩ := exists_at p
    unfold laidNode
    by_cases hs' : ∃ sb, HasBlock c src bp sb
    · obtain ⟨sb, hsb⟩ := hs'
      rw [nodesOf_block hs.good hsb hi]
      by_cases hw : Whole area invert bp
      · rw [if_pos ((blockWhole_iff hi).2 hw), nodesOf_block hg' (hwhole bp sb hsb hw) hi]
      · rw [if_neg fun e => hw ((blockWhole_iff hi).1 e)]
        by_cases ht : ∃ b, HasBlock c t bp b
        · obtain ⟨b, hbk⟩ := ht
          rw [nodesOf_block hg hbk hi]
          by_cases hsp : ∀ p, InBlock bp p → ¬ Selected area invert p
          · rw [if_pos ((blockSpared_iff hi).2 hsp)]
            refine nodesOf_block hg' (hkept bp b hbk (fun e => absurd e hw) fun e => ?_) hi
            obtain ⟨⟨q, e1, e2⟩, -⟩ := e
            exact absurd e2 (hsp q e1)
          · rw [if_neg fun e => hsp ((blockSpared_iff hi).1 e)]
            have hp : Partly area invert bp :=
              ⟨Classical.byContradiction fun hn => hsp fun p hp hq => hn ⟨p, hp, hq⟩,
                Classical.byContradiction fun hn => hw fun p hp => Classical.byContradiction fun hq => hn ⟨p, hp, hq⟩⟩
            obtain ⟨b', f1, -, -, f2⟩ := hpart bp b sb hbk hsb hp
            rw [nodesOf_block hg' f1 hi]
            exact congrArg some (f2 i hi)
        · have hnt := nodesOf_noBlock (c := c) (t := t) (fun b hb => ht ⟨b, hb⟩) hi
          have hnt' := nodesOf_noBlock (c := c) (t := t') (fun b hb => by
            rcases hback bp b hb with h1 | ⟨h1, -⟩
            · exact ht h1
            · exact hw h1) hi
          rw [hnt, hnt']
          split <;> rfl
    · rw [nodesOf_noBlock (c := c) (t := src) (fun sb hsb => hs' ⟨sb, hsb⟩) hi]
      have hsame : nodesOf c t' (posAt bp i) = nodesOf c t (posAt bp i) := by
        by_cases ht : ∃ b, HasBlock c t bp b
        · obtain ⟨b, hbk⟩ := ht
          rw [nodesOf_block hg hbk hi]
          exact nodesOf_block hg' (hkept bp b hbk (fun _ sb e => hs' ⟨sb, e⟩) fun _ sb e => hs' ⟨sb, e⟩) hi
        · rw [nodesOf_noBlock (c := c) (t := t) (fun b hb => ht ⟨b, hb⟩) hi]
          refine nodesOf_noBlock (fun b hb => ?_) hi
          rcases hback bp b hb with h1 | ⟨-, h1⟩
          · exact ht h1
          · exact hs' h1
      rw [hsame]
      split
      · rfl
      · split
        · rfl
        · cases nodesOf c t (posAt bp i) <;> rfl

/-! ## Commands that change nodes one by one -/

/-- What `Usual` says beside `Fine`. -/
structure Housed (b : MapBlock) : Prop where
  gen : Generated b
  modern : 28 ≤ b.version
  room : MetaRoom b

theorem housed_head {b b' : MapBlock} (h : Housed b) (hs : SameHead b b') (hr : MetaRoom b') : Housed b' :=
  ⟨by unfold Generated; rw [hs.2.1]; exact h.gen, by rw [hs.1]; exact h.modern, hr⟩

theorem SoftEdit.housed {c : Codec} {area : Option Area} {invert : Bool} {rest : Prop} {t t' : Table}
    (hg : GoodTable t) (h : SoftEdit c area invert rest t t') (hb : AllBlocks c t Housed) : AllBlocks c t' Housed := by
  obtain ⟨R, h, hR, hM⟩ := h
  intro k d' b' hd hr
  obtain ⟨bp, h1, h2, -⟩ := row_pos (goodTable_of_edited hg h) hd
  simp only at h2
  subst h2
  obtain ⟨d, b, f1, f2, f3⟩ := edited_back h h1 hd hr
  have hw := wf_of_represents hr
  obtain ⟨-, -, g2, g3⟩ := hM _ _ _ hw f3
  have hmb := hb _ _ _ f1 f2
  exact housed_head hmb (hR _ _ _ f3).1 (metaRoom_written hw g2 hmb.room g3)

theorem replacenodes_housed {env : Env} {args : InstArgs} {t t' : Table} {evs : List Event} {old new : String}
    (hE : EnvOk env) (hg : GoodTable t) (hc : args.command = "replacenodes")
    (ha : AreaOk args.area) (ho : args.node = some old) (hn : args.newNode = some new)
    (hid : AllBlocks env.codec t (GoodIds env.build)) (hb : AllBlocks env.codec t Housed)
    (h : Completes env args t t' evs) : AllBlocks env.codec t' Housed := by
  have E := effect_edited hE hg ha h hc replaceNodes_command (by decide) (replaceNodes_eq env args ho hn)
    (replaceNodes_effect env args t (replace_differ hc ho hn h) ha id fun k d b h1 h2 => (hid k d b h1 h2).sound _).written
  intro k d' b' hd hr
  obtain ⟨bp, h1, h2, -⟩ := row_pos (goodTable_of_edited hg E) hd
  simp only at h2
  subst h2
  obtain ⟨d, b, f1, f2, ⟨⟨⟨f0, f3, -⟩, -⟩, -⟩, f4⟩ := edited_back E h1 hd hr
  exact housed_head (hb _ _ _ f1 f2) f0
    (metaRoom_written (wf_of_represents hr) f4 (hb _ _ _ f1 f2).room (sameMeta_none f3))

theorem run_housed {env : Env} {args : InstArgs} {t t' : Table} {evs : List Event} {K : Nat}
    (hE : EnvOk env) (hg : GoodTable t) (hf : AllBlocks env.codec t (Usual K))
    (hK' : K ≤ 65533) (hn : NodeArgs args) (h : Completes env args t t' evs) : AllBlocks env.codec t' Housed := by
  have hb : AllBlocks env.codec t Housed := Spec.AllBlocks.mono hf fun b u => ⟨u.gen, u.modern, u.room⟩
  have hneeds := hn.needs
  unfold Needs at hneeds
  have hc := hn.command
  unfold nodeCommands at hc
  simp only [List.mem_cons, List.not_mem_nil, or_false] at hc
  rcases hc with hc | hc | hc | hc | hc | hc | hc | hc | hc <;> rw [hc] at hneeds <;> (try simp only at hneeds)
  · obtain ⟨a, ha⟩ := Option.isSome_iff_exists.1 hneeds.1
    obtain ⟨n, hnode⟩ := Option.isSome_iff_exists.1 hneeds.2
    exact (fill_soft env args t t' evs a n hE hg hc ha (hn.area a ha) hnode h).housed hg hb
  · obtain ⟨old, ho⟩ := Option.isSome_iff_exists.1 hneeds.1
    obtain ⟨new, hnode⟩ := Option.isSome_iff_exists.1 hneeds.2
    exact replacenodes_housed hE hg hc hn.area ho hnode
      (fun k d b hk hd => ⟨(hf k d b hk hd).fine.unique, by
        have := nimap_length_le (wf_of_represents hd).nimap.sorted (hf k d b hk hd).fine.small
        omega, fun _ e he => by have := (hf k d b hk hd).fine.small e he; omega⟩) hb h
  · obtain ⟨val, hv⟩ := Option.isSome_iff_exists.1 hneeds
    exact (setparam2_soft env args t t' evs val hE hg hc hv hn.area h).housed hg hb
  · exact (deletemeta_soft env args t t' evs hE hg hc hn.area h).housed hg hb
  · exact (deletetimers_soft env args t t' evs hE hg hc hn.area h).housed hg hb
  · obtain ⟨key, hk⟩ := Option.isSome_iff_exists.1 hneeds
    exact (setmetavar_soft env args t t' evs key hE hg hc hn.area hk h).housed hg hb
  · exact (deleteobjects_soft env args t t' evs hE hg hc hn.area h).housed hg hb
  · obtain ⟨k1, k2, k3⟩ := C39_deleteblocks env args t t' evs hg hc hn.area h
    exact fun k d b hk hd => hb k d b (k2 _ hk) hd
  · rw [C53_vacuum env args t t' evs hc h]
    exact hb

theorem remains_iff {args : InstArgs} {p : Vec3} (hc : args.command = "deleteblocks") :
    Remains args p ↔ ¬ blockWhole args.area args.invert p = true := by
  obtain ⟨bp, i, hi, rfl⟩ := exists_at p
  rw [blockWhole_iff hi]
  unfold Remains Whole
  constructor
  · intro h hw
    obtain ⟨bp', q, h1, h2, h3⟩ := h hc
    have := inBlock_unique h1 (posAt_inBlock bp hi)
    subst this
    exact h3 (hw q h2)
  · intro h _
    refine Classical.byContradiction fun hn => h fun q hq => Classical.byContradiction fun hs => hn ?_
    exact ⟨bp, q, posAt_inBlock bp hi, hq, hs⟩

theorem Acts.means {c : Codec} {args : InstArgs} {K : Nat} {s t t' : Table} (hg : GoodTable t)
    (hc : args.command ≠ "clone" ∧ args.command ≠ "overlay") (h : Acts c args K t t') (hh : AllBlocks c t' Housed) :
    Means c args K s t t' := by
  refine ⟨h.good, fun k d b h1 h2 => ⟨h.fine k d b h1 h2, (hh k d b h1 h2).gen, (hh k d b h1 h2).modern,
    (hh k d b h1 h2).room⟩, ?_⟩
  funext p
  have hm : meaning args (nodesOf c s) (nodesOf c t) p =
      if args.command = "deleteblocks" ∧ blockWhole args.area args.invert p = true then none
      else (nodesOf c t p).map (edit args p) := by
    unfold meaning
    split
    · rename_i e; exact absurd e hc.1
    · rename_i e; exact absurd e hc.2
    · rename_i e
      by_cases hw : blockWhole args.area args.invert p = true
      · rw [if_pos hw, if_pos ⟨e, hw⟩]
      · rw [if_neg hw, if_neg fun x => hw x.2]
        cases nodesOf c t p with
        | none => rfl
        | some v => rw [Option.map_some, edit_other (.inr (.inl e))]
    · rename_i e
      rw [if_neg fun x => e x.1]
  rw [hm]
  have hrem : Remains args p ↔ ¬ (args.command = "deleteblocks" ∧ blockWhole args.area args.invert p = true) := by
    by_cases hd : args.command = "deleteblocks"
    · rw [remains_iff hd]
      simp [hd]
    · exact ⟨fun _ e => hd e.1, fun _ e => absurd e hd⟩
  cases hn : nodesOf c t' p with
  | some v' =>
    obtain ⟨h1, v, h2, rfl⟩ := (h.node p v').1 ((nodesOf_some h.good).1 hn)
    rw [if_neg (hrem.1 h1), (nodesOf_some hg).2 h2]
    rfl
  | none =>
    rw [nodesOf_none] at hn
    split
    · rfl
    · rename_i hx
      cases hv : nodesOf c t p with
      | none => rfl
      | some v =>
        exact absurd ((h.node p _).2 ⟨hrem.2 hx, v, (nodesOf_some hg).1 hv, rfl⟩) (hn _)

/-- Every command does to the nodes what `meaning` says. -/
theorem means_run {c : Codec} {args : InstArgs} {K : Nat} {s t t' : Table} (hg : GoodTable t)
    (hb : AllBlocks c t (Usual K)) (hs : args.command = "overlay" → Source c K s) (hK : 4095 ≤ K) (hK' : K ≤ 7280)
    (ha : ExecArgs args) (h : Ran c args s t t') : Means c args K s t t' := by
  obtain ⟨env, evs, hE, rfl, hrun, hwork, hin⟩ := h
  have hneeds := ha.needs
  unfold Needs at hneeds
  have hmild : AllBlocks env.codec t (Mild env.build) := Spec.AllBlocks.mono hb fun b u => usual_mild hK' u _
  rcases List.mem_cons.1 ha.command with hc | hc'
  · rw [hc] at hneeds
    simp only at hneeds
    obtain ⟨a, harea⟩ := Option.isSome_iff_exists.1 hneeds.1
    obtain ⟨o, hoff⟩ := Option.isSome_iff_exists.1 hneeds.2
    have k := C47_clone_partial env args t t' evs a o hE (hwork (.inl hc)) hg hc harea (ha.area a harea) hoff hmild hrun
    have k' := clone_rows env args t t' evs a o hE hg hc harea (ha.area a harea) hoff hmild hrun
    obtain ⟨g1, g2, g3⟩ := copied_nodes (area := args.area) hK hg hg hb hb k (fun p => by
        rw [harea]; unfold Selected; simp)
      (fun _ => Iff.rfl) k'
    refine ⟨g1, g2, funext fun p => ?_⟩
    unfold meaning
    rw [hc, hoff]
    exact g3 p
  rcases List.mem_cons.1 hc' with hc | hn
  · obtain ⟨p, g, hp, hgf, rfl⟩ := hin hc
    have S := hs hc
    have hmilds : AllBlocks env.codec g.table (Mild env.build) := Spec.AllBlocks.mono S.usual fun b u => usual_mild hK' u _
    have hcase : (args.offset = none ∨ args.offset = some ⟨0, 0, 0⟩) ∨ ∃ o, args.offset = some o ∧ o ≠ ⟨0, 0, 0⟩ := by
      cases ho : args.offset with
      | none => exact .inl (.inl rfl)
      | some o =>
        by_cases hz : o = ⟨0, 0, 0⟩
        · exact .inl (.inr (by rw [hz]))
        · exact .inr ⟨o, rfl, hz⟩
    rcases hcase with hoff | ⟨o, hoff, hz⟩
    · have r : Restores env args args.area args.invert g.table :=
        ⟨hE, hwork (.inr hc), hc, ⟨p, g, hp, hgf, rfl⟩, rfl, rfl, hoff⟩
      have k := r.overlaid ha.area hg S.good hmild hmilds hrun
      have k' := overlay_rows env args t t' evs p g hE hg S.good hc hp hgf ha.area hoff hmild hmilds hrun
      obtain ⟨g1, g2, g3⟩ := overlaid_nodes hE.codec hK hg S hb k k'
      refine ⟨g1, g2, funext fun p => ?_⟩
      unfold meaning
      rw [hc]
      simp only
      rw [if_pos (by rcases hoff with e | e <;> rw [e] <;> rfl)]
      exact g3 p
    · have k := C51_overlay_offset_partial env args t t' evs p g o hE (hwork (.inr hc)) hg S.good hc hp hgf ha.area hoff hz
        hmild hmilds hrun
      have k' := shifted_rows env args t t' evs p g o hE hg hc hp hgf ha.area hoff hz hmild hmilds hrun
      obtain ⟨g1, g2, g3⟩ := copied_nodes (area := args.area) hK hg S.good hb S.usual k (fun _ => Iff.rfl)
        (fun _ => Iff.rfl) k'
      refine ⟨g1, g2, funext fun p => ?_⟩
      unfold meaning
      rw [hc, hoff]
      simp only [Option.getD_some]
      rw [if_neg hz]
      exact g3 p
  · have hna : NodeArgs args := ⟨hn, ha.needs, ha.area, ha.name⟩
    exact (acts_run hE hg (Spec.AllBlocks.mono hb fun b u => u.fine) hK (by omega) hna hrun).means hg
      (by constructor <;> (intro e; rw [e] at hn; exact absurd hn (by decide)))
      (run_housed hE hg hb (by omega) hna hrun)

end MapEditr
