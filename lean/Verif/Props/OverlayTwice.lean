import Verif.Props.Tidy
import Verif.Props.Again
/-!
# Property C90, continued: overlaying an area twice
-/

namespace MapEditr
open Spec

theorem Spec.Mild.any {b : MapBlock} (h : Mild .release b) (bd : Build) : Mild bd b := ⟨h.room, fun _ => h.small rfl⟩

theorem Spec.Tidy.small {b : MapBlock} (h : Tidy b) (w : Wf b) : SmallIds b := by
  have hlen : b.nimap.length ≤ 4096 := by
    have h1 : (b.nimap.map (·.1)).Nodup := by rw [h.ids]; exact List.nodup_range
    have h2 : b.nimap.map (·.1) ⊆ b.nd.nodes := by
      intro i hi
      obtain ⟨e, he, rfl⟩ := List.mem_map.1 hi
      exact h.used e he
    have := List.Nodup.length_le_of_subset h1 h2
    rw [List.length_map, w.nodes.1] at this
    exact this
  intro e he
  have : e.1 ∈ b.nimap.map (·.1) := List.mem_map.2 ⟨e, he, rfl⟩
  rw [h.ids, List.mem_range] at this
  omega

/-- What the first run leaves behind is as good as what it found. -/
theorem overlay_mild (env : Env) (args : InstArgs) (t t' : Table) (evs : List Event) (p : String)
    (g : DbFile) (hE : EnvOk env) (hg : GoodTable t)
    (hgs : GoodTable g.table) (hc : args.command = "overlay") (hp : args.inputMapPath = some p)
    (hgf : mapFile env p = some g) (ha : AreaOk args.area)
    (hoff : args.offset = none ∨ args.offset = some ⟨0, 0, 0⟩)
    (hb : AllBlocks env.codec t (Mild .release))
    (hbs : AllBlocks env.codec g.table (Mild .release))
    (h : Completes env args t t' evs) : AllBlocks env.codec t' (Mild .release) := by
  intro k d b hd hr
  rcases overlay_rows env args t t' evs p g hE hg hgs hc hp hgf ha hoff
      (fun k d b h1 h2 => (hb k d b h1 h2).any _) (fun k d b h1 h2 => (hbs k d b h1 h2).any _) h _ hd with
    h | h | ⟨b', h1, h2, h3⟩
  · exact hb _ _ _ h hr
  · exact hbs _ _ _ h hr
  · have := represents_unique h1 hr
    subst this
    exact ⟨h3.1, fun _ => h2.small (wf_of_represents hr)⟩

theorem option_public {b : MapBlock} (h : Public b) (hv : b.version < 28) (i : Nat) :
    (metaOf b i).map publish = metaOf b i := by
  unfold metaOf
  cases hx : SMap.get? b.metas i with
  | none => rfl
  | some m =>
    have hm := SMap.get?_some_mem hx
    have hpub : publish m = m := by
      obtain ⟨vars, inv⟩ := m
      unfold publish
      simp only [NodeMeta.mk.injEq, and_true]
      conv => rhs; rw [← List.map_id vars]
      refine List.map_congr_left fun v hv' => ?_
      have : v.2.2 = false := by
        cases hb : v.2.2 with
        | false => rfl
        | true => exact absurd ⟨_, hm, v, hv', hb⟩ (h hv)
      obtain ⟨x, y, z⟩ := v
      simp only at this
      subst this
      rfl
    by_cases hvoid : MetaVoid m <;> simp [Option.filter, hvoid, hpub]

/-- Two copies of the same node are alike. -/
theorem nodeAs_again {sb b b' : MapBlock} {i j : Nat} (h : NodeAs b i sb j) (h' : NodeAs b' i sb j)
    (hn : ∃ n, nodeName sb j = some n) (hv : b'.version = b.version) (hp : Public b) (hp' : Public b') :
    NodeAs b' i b i := by
  obtain ⟨n, hn⟩ := hn
  refine ⟨fun m hm => ?_, h'.2.1.trans h.2.1.symm, h'.2.2.1.trans h.2.2.1.symm, fun q hq => .inl ?_⟩
  · rw [h.1 n hn] at hm
    rw [h'.1 n hn, hm]
  · have h1 := h.2.2.2 q hq
    have h2 := h'.2.2.2 q hq
    have e1 := fun hv => option_public hp hv (4096 * q + i)
    have e2 := fun hv => option_public hp' hv (4096 * q + i)
    rcases h1 with h1 | ⟨k1, h1⟩
    · rcases h2 with h2 | ⟨k2, h2⟩
      · rw [h2, h1]
      · rw [hv] at k2
        rw [h2, ← h1, e1 k2]
    · rcases h2 with h2 | ⟨k2, h2⟩
      · have := e2 (hv ▸ k1)
        rw [← this, h2, ← h1]
      · rw [h2, h1]

theorem sameRest_two {b b1 b2 : MapBlock} (h1 : SameRest b b1) (h2 : SameRest b b2) : SameRest b1 b2 := by
  obtain ⟨⟨a1, a2, a3, a4⟩, a5, a6⟩ := h1
  obtain ⟨⟨c1, c2, c3, c4⟩, c5, c6⟩ := h2
  exact ⟨⟨c1.trans a1.symm, c2.trans a2.symm, c3.trans a3.symm, c4.trans a4.symm⟩, c5.trans a5.symm, c6.trans a6.symm⟩

/-- `overlay` with an area, without offset: the second run leaves every row as it is, or at least its
contents.  (It is assumed that no statement of the first run fails: else it may have left out nodes that the
second run copies.) -/
theorem C90_overlay_area (env env2 : Env) (args : InstArgs) (t t' t'' : Table) (evs evs2 : List Event) (p : String)
    (g : DbFile) (a : Area) (hE : EnvOk env) (hE2 : EnvOk env2) (hcodec : env2.codec = env.codec)
    (hwork : DbWorks env args) (hg : GoodTable t) (hgs : GoodTable g.table)
    (hc : args.command = "overlay") (hp : args.inputMapPath = some p) (hgf : mapFile env p = some g)
    (hgf2 : mapFile env2 p = some g) (harea : args.area = some a) (ha : a.isValid = true)
    (hoff : args.offset = none ∨ args.offset = some ⟨0, 0, 0⟩)
    (hb : AllBlocks env.codec t (Mild .release)) (hbs : AllBlocks env.codec g.table (Mild .release))
    (hnamed : AllBlocks env.codec g.table Named)
    (h : Completes env args t t' evs) (h2 : Completes env2 args t' t'' evs2) :
    Alike env.codec t' t'' := by
  have hao : AreaOk args.area := by rw [harea]; intro x hx; cases hx; exact ha
  have O1 := C50_overlay_partial env args t t' evs p g a hE hwork hg hgs hc hp hgf harea ha hoff
    (fun k d b h1 h2 => (hb k d b h1 h2).any _) (fun k d b h1 h2 => (hbs k d b h1 h2).any _) h
  have hb' := overlay_mild env args t t' evs p g hE hg hgs hc hp hgf hao hoff hb hbs h
  have hg' : GoodTable t' := by
    refine ⟨O1.nodup, fun r hr => ?_⟩
    rcases O1.added r.1 r.2 hr with h | ⟨h, -⟩
    · obtain ⟨r0, h1, h2⟩ := List.mem_map.1 h
      rw [← h2]
      exact hg.valid _ h1
    · exact hgs.valid _ h
  have O2 := C83_overlay env2 args t' t'' evs2 p g a hE2 hg' hgs hc hp hgf2 harea ha hoff
    (fun k d b h1 h2 => (hb' k d b h1 (by rw [← hcodec]; exact h2)).any _)
    (fun k d b h1 h2 => (hbs k d b h1 (by rw [← hcodec]; exact h2)).any _) h2
  rw [hcodec] at O2
  have huniq : ∀ {tt : Table} {k : Int} {d d2 : Bytes}, (tt.map (·.1)).Nodup → (k, d) ∈ tt → (k, d2) ∈ tt → d2 = d := by
    intro tt k d d2 hn h1 h2
    have e := Table.get?_of_mem hn h1
    rw [Table.get?_of_mem hn h2] at e
    exact Option.some.inj e
  have hrows : ∀ k d, (k, d) ∈ t' → (k, d) ∈ t'' ∨ ∃ d' b b', (k, d') ∈ t'' ∧ Represents env.codec d b ∧
      Represents env.codec d' b' ∧ SameRest b b' ∧ ∀ i, i < 4096 → NodeAs b' i b i := by
    intro k d' hd'
    obtain ⟨bp, hbp, hkey, -⟩ := row_pos hg' hd'
    simp only at hkey
    subst hkey
    by_cases hov : Overridden env.codec g.table (some a) args.invert (fun _ => True) bp d'
    · rcases hov with ⟨hw, sd, h3, h4⟩ | ⟨hpt, sd, sb, b', h3, h4, -, h5, h6⟩
      · have := huniq O1.nodup hd' (O1.whole bp sd hbp h3 hw h4)
        subst this
        exact .inl (O2.whole bp _ hbp h3 hw h4)
      · have hnw : ¬ Whole (some a) args.invert bp := by
          obtain ⟨-, q, hq, hq'⟩ := hpt
          exact fun hw => hq' (hw q hq)
        have hin : keyOf bp ∈ t.map (·.1) := by
          rcases O1.added _ _ hd' with h | ⟨-, -, bp2, k1, k2, k3⟩
          · exact h
          · have : bp2 = bp := keyOf_inj _ _ k1 hbp k2
            subst this
            exact absurd k3 hnw
        obtain ⟨⟨k0, d⟩, hd, e0⟩ := List.mem_map.1 hin
        simp only at e0
        subst e0
        by_cases hov1 : Overridden env.codec g.table (some a) args.invert (fun _ => True) bp d
        · rcases hov1 with ⟨hw, -⟩ | ⟨-, sd1, sb1, b, k3, k4, -, k5, k6⟩
          · exact absurd hw hnw
          · have := huniq hgs.nodup h3 k3
            subst this
            have := represents_unique h4 k4
            subst this
            obtain ⟨d1, b1, m1, m2, m3, m4, m5⟩ := O1.part bp _ sb d b hbp h3 h4 trivial hd k5 k6 hpt
            have := huniq O1.nodup hd' m1
            subst this
            have := represents_unique h5 m2
            subst this
            rcases O2.part bp _ sb _ b' hbp h3 h4 trivial hd' h5 h6 hpt with n1 | ⟨d2, b2, n1, n2, n3, n4, n5⟩
            · exact .inl n1
            · have hrest : SameRest b' b2 := by
                cases hi : args.invert with
                | false => rw [hi] at n3; exact n3
                | true =>
                  rw [hi] at n3 m3
                  exact sameRest_two m3 n3
              refine .inr ⟨d2, b', b2, n1, h5, n2, hrest, fun i hi => ?_⟩
              have p1 := m5 i hi
              have p2 := n5 i hi
              split at p2
              · next hs =>
                rw [if_pos hs] at p1
                refine nodeAs_again p1 p2 ?_ hrest.1.1 m4 n4
                have hN := hnamed _ _ _ h3 h4
                have hl : sb.nd.nodes.length = 4096 := (wf_of_represents h4).nodes.1
                obtain ⟨n, hn⟩ := hN (sb.nd.nodes[i]'(by omega)) (List.getElem_mem _)
                refine ⟨n, ?_⟩
                unfold nodeName
                rw [List.getElem?_eq_getElem (by omega)]
                exact hn
              · exact p2
        · have := huniq O1.nodup hd' (O1.kept bp d hbp hd hov1)
          subst this
          exact absurd (.inr ⟨hpt, sd, sb, b', h3, h4, trivial, h5, h6⟩) hov1
    · exact .inl (O2.kept bp d' hbp hd' hov)
  refine ⟨O2.nodup, fun k => ⟨fun hk => ?_, fun hk => ?_⟩, hrows⟩
  · obtain ⟨⟨k0, d⟩, hd, e0⟩ := List.mem_map.1 hk
    simp only at e0
    subst e0
    rcases O2.added _ _ hd with h | ⟨k1, k2, bp, k3, k4, k5⟩
    · exact h
    · subst k4
      exact List.mem_map.2 ⟨_, O1.whole bp d k3 k1 k5 k2, rfl⟩
  · obtain ⟨⟨k0, d⟩, hd, e0⟩ := List.mem_map.1 hk
    simp only at e0
    subst e0
    rcases hrows _ _ hd with h | ⟨d', b, b', h, -⟩
    · exact List.mem_map.2 ⟨_, h, rfl⟩
    · exact List.mem_map.2 ⟨_, h, rfl⟩

theorem Spec.Tidy.isNamed {b : MapBlock} (h : Tidy b) (hne : b.nimap ≠ []) (w : Wf b) : Named b := by
  intro id hid
  have h1 : id ∈ b.nimap.map (·.1) := by
    rw [h.ids, List.mem_range]
    exact h.named hne id hid
  obtain ⟨e, he, rfl⟩ := List.mem_map.1 h1
  exact ⟨e.2, SMap.get?_of_mem w.nimap.sorted he⟩

/-- Non-trivial case: a node is laid over another, twice. -/
example : ∃ t' t'' evs evs2,
    EnvOk (twoEnv (oneMap (Toy.block 28)) (oneMap (otherBlock 0))) ∧ EnvOk (twoEnv t' (oneMap (otherBlock 0))) ∧
    GoodTable (oneMap (Toy.block 28)) ∧ GoodTable (oneMap (otherBlock 0)) ∧
    AllBlocks (Toy.codec id) (oneMap (Toy.block 28)) (Mild .release) ∧
    AllBlocks (Toy.codec id) (oneMap (otherBlock 0)) (Mild .release) ∧
    AllBlocks (Toy.codec id) (oneMap (otherBlock 0)) Named ∧
    Completes (twoEnv (oneMap (Toy.block 28)) (oneMap (otherBlock 0))) (overlayArgs false)
      (oneMap (Toy.block 28)) t' evs ∧
    Completes (twoEnv t' (oneMap (otherBlock 0))) (overlayArgs false) t' t'' evs2 := by
  obtain ⟨t', evs, h⟩ := overlay_toy false 0 (by omega)
  have hw := Toy.block_wf 28 (by omega)
  have hw' := otherBlock_wf (flags := 0) (by omega)
  have a1 := oneMap_all hw (P := Tame) (toy_tame 28)
  have a2 := oneMap_all hw' (P := Tame) (otherBlock_tame _)
  have hall : AllBlocks (Toy.codec id) t' Tame := by
    intro k d b hd hr
    rcases overlay_rows _ _ _ t' evs "other" _ (twoEnv_ok _ _) (oneMap_good _) (oneMap_good _) rfl rfl rfl
      (by intro x hx; cases hx; decide) (.inl rfl) (a1.mild _) (a2.mild _) h _ hd with h1 | h1 | ⟨b', h1, h2, h3⟩
    · exact a1 _ _ _ h1 hr
    · exact a2 _ _ _ h1 hr
    · have := represents_unique h1 hr
      subst this
      have hwf := wf_of_represents hr
      refine ⟨named_covered (h2.isNamed ?_ hwf), h2.small hwf, h3.1⟩
      have O := C50_overlay_partial _ _ _ t' evs "other" _ _ (twoEnv_ok _ _) (fun _ _ => rfl) (oneMap_good _)
        (oneMap_good _) rfl rfl rfl rfl (by decide) (.inl rfl) (a1.mild _) (a2.mild _) h
      obtain ⟨d2, b2, g1, g2, -, -, g3⟩ := O.part ⟨0, 0, 0⟩ _ _ _ _ (by unfold ValidBlockPos; decide)
        (oneMap_mem (otherBlock 0)) (Toy.data_rep hw') trivial (oneMap_mem (Toy.block 28)) (Toy.data_rep hw) rfl
        (partly_toy false)
      have hk : k = keyOf ⟨0, 0, 0⟩ := by
        rcases O.added _ _ hd with hx | ⟨hx, -⟩
        · obtain ⟨r, hr, rfl⟩ := List.mem_map.1 hx
          unfold oneMap at hr
          rw [List.mem_singleton] at hr
          subst hr
          rfl
        · have hx : (k, d) ∈ oneMap (otherBlock 0) := hx
          unfold oneMap at hx
          rw [List.mem_singleton] at hx
          cases hx
          rfl
      subst hk
      have e1 := Table.get?_of_mem O.nodup g1
      rw [Table.get?_of_mem O.nodup hd] at e1
      cases e1
      have := represents_unique g2 hr
      subst this
      have g4 := (g3 0 (by decide)).1
      rw [if_pos (by rw [selected_iff]; decide)] at g4
      have g5 := g4 (ascii "b") (by decide)
      intro hnil
      unfold nodeName at g5
      rw [hnil] at g5
      cases hx : b2.nd.nodes[0]? <;> rw [hx] at g5 <;> cases g5
  obtain ⟨t'', evs2, h2⟩ := C50_overlay_completes (twoEnv t' (oneMap (otherBlock 0))) (overlayArgs false) _ _ "other"
    ⟨⟨0, 0, 0⟩, ⟨0, 0, 0⟩⟩ (twoEnv_ok _ _) (fun _ => rfl) rfl ⟨_, rfl⟩ rfl rfl ⟨_, rfl⟩ (oneMap_good _) (by
      rintro (⟨-, h⟩ | ⟨a, h, h'⟩ | ⟨o, h, h'⟩ | ⟨n, h, -⟩)
      · cases h
      · cases h
        exact h' (by decide)
      · cases h
      · cases h) rfl rfl (by decide) (.inl rfl) hall a2 (by intro h; cases h)
  exact ⟨t', t'', evs, evs2, twoEnv_ok _ _, twoEnv_ok _ _, oneMap_good _, oneMap_good _, a1.mild _, a2.mild _,
    oneMap_all hw' (otherBlock_named _), h, h2⟩

end MapEditr
