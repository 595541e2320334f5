import Verif.Spec.Undo
import Verif.Props.Overlay
import Verif.Proof.Effect
/-!
# Laying the old map over a changed one
-/

namespace MapEditr
open Spec

theorem Spec.AllBlocks.mono {c : Codec} {t : Table} {P Q : MapBlock → Prop} (h : AllBlocks c t P)
    (hPQ : ∀ b, P b → Q b) : AllBlocks c t Q := fun k d b h1 h2 => hPQ b (h k d b h1 h2)

theorem nodeAs_trans {b b' b'' : MapBlock} {i j k : Nat} (hv : b''.version = b'.version)
    (h : NodeAs b' j b i) (h' : NodeAs b'' k b' j) : NodeAs b'' k b i :=
  ⟨fun n hn => h'.1 n (h.1 n hn), h'.2.1.trans h.2.1, h'.2.2.1.trans h.2.2.1, fun q hq => by
    have h1 := h.2.2.2 q hq
    have h2 := h'.2.2.2 q hq
    rcases h1 with h1 | ⟨k1, h1⟩
    · rcases h2 with h2 | ⟨k2, h2⟩
      · exact .inl (h2.trans h1)
      · exact .inr ⟨k2, by rw [h2, h1]⟩
    · rcases h2 with h2 | ⟨k2, h2⟩
      · exact .inr ⟨hv ▸ k1, h2.trans h1⟩
      · refine .inr ⟨k2, ?_⟩
        rw [h2, h1, Option.map_map]
        congr 1
        funext x
        exact publish_publish x⟩

theorem Spec.Confined.good {c : Codec} {area : Option Area} {invert : Bool} {t t' : Table}
    (h : Confined c area invert t t') (hg : GoodTable t) : GoodTable t' :=
  ⟨h.nodup, fun r hr => by
    obtain ⟨r0, h1, h2⟩ := List.mem_map.1 (h.keys r.1 (List.mem_map.2 ⟨r, hr, rfl⟩))
    rw [← h2]
    exact hg.valid _ h1⟩

theorem row_unique {tt : Table} {k : Int} {d d2 : Bytes} (hn : (tt.map (·.1)).Nodup) (h1 : (k, d) ∈ tt)
    (h2 : (k, d2) ∈ tt) : d2 = d := by
  have e := Table.get?_of_mem hn h1
  rw [Table.get?_of_mem hn h2] at e
  exact Option.some.inj e

theorem genData_of {c : Codec} (hc : c.Lawful) {d : Bytes} {b : MapBlock} (h : Represents c d b) (hg : Generated b) :
    GenData c d :=
  (genData_iff c d).1 ((C25_generated_check c hc d b (deserialize_iff.2 h)).2 hg)

/-- Laying the old map over a map whose changes are confined to the area gives the old map. -/
theorem Spec.Confined.undo {c : Codec} {area : Option Area} {invert : Bool} {t t' t'' : Table} (hg : GoodTable t)
    (h : Confined c area invert t t') (O : Overlaid c t t' t'' area invert fun _ => True) : Alike c t t'' := by
  have hrows : ∀ k d, (k, d) ∈ t → (k, d) ∈ t'' ∨ ∃ d' b b', (k, d') ∈ t'' ∧ Represents c d b ∧
      Represents c d' b' ∧ SameRest b b' ∧ ∀ i, i < 4096 → NodeAs b' i b i := by
    intro k d hd
    obtain ⟨bp, hbp, hkey, -⟩ := row_pos hg hd
    simp only at hkey
    subst hkey
    rcases h.rows bp d hbp hd with h1 | ⟨h1, h2⟩ | ⟨hp, d', b, b', h1, h2, h3, h4, h5, h6, h7⟩
    · by_cases hov : Overridden c t area invert (fun _ => True) bp d
      · rcases hov with ⟨hw, sd, k1, k2⟩ | ⟨hp, sd, sb, b, k1, k2, -, k3, k4⟩
        · have := row_unique hg.nodup hd k1
          subst this
          exact .inl (O.whole bp _ hbp hd hw k2)
        · obtain ⟨d2, b2, m1, m2, m3, -, m4⟩ := O.part bp d b d b hbp hd k3 trivial h1 k3 k4 hp
          refine .inr ⟨d2, b, b2, m1, k3, m2, ?_, fun i hi => ?_⟩
          · rwa [ite_self] at m3
          · have := m4 i hi
            rwa [ite_self] at this
      · exact .inl (O.kept bp d hbp h1 hov)
    · exact .inl (O.whole bp d hbp hd h1 h2)
    · obtain ⟨d2, b2, m1, m2, m3, -, m4⟩ := O.part bp d b d' b' hbp hd h2 trivial h1 h3 h4 hp
      have hrest : SameRest b b2 := by
        cases hi : invert with
        | true =>
          rw [hi] at m3
          exact m3
        | false =>
          rw [hi] at m3
          have m3 : SameRest b' b2 := m3
          have h6 := h6 hi
          obtain ⟨⟨a1, a2, a3, a4⟩, a5, a6⟩ := h6
          obtain ⟨⟨c1, c2, c3, c4⟩, c5, c6⟩ := m3
          exact ⟨⟨c1.trans a1, c2.trans a2, c3.trans a3, c4.trans a4⟩, c5.trans a5, c6.trans a6⟩
      refine .inr ⟨d2, b, b2, m1, h2, m2, hrest, fun i hi => ?_⟩
      have := m4 i hi
      split at this
      · exact this
      · next hs => exact nodeAs_trans (hrest.1.1.trans h5.symm) (h7 i hi hs) this
  refine ⟨O.nodup, fun k => ⟨fun hk => ?_, fun hk => ?_⟩, hrows⟩
  · obtain ⟨⟨k0, d⟩, hd, e0⟩ := List.mem_map.1 hk
    simp only at e0
    subst e0
    rcases O.added _ _ hd with h1 | ⟨k1, -⟩
    · exact h.keys _ h1
    · exact List.mem_map.2 ⟨_, k1, rfl⟩
  · obtain ⟨⟨k0, d⟩, hd, e0⟩ := List.mem_map.1 hk
    simp only at e0
    subst e0
    rcases hrows _ _ hd with h | ⟨d', b, b', h, -⟩
    · exact List.mem_map.2 ⟨_, h, rfl⟩
    · exact List.mem_map.2 ⟨_, h, rfl⟩

/-- A run that lays `old` over the selected nodes does so, with an area or without. -/
theorem Spec.Restores.overlaid {env : Env} {args : InstArgs} {area : Option Area} {invert : Bool}
    {old t t' : Table} {evs : List Event} (r : Restores env args area invert old) (ha : AreaOk area)
    (hg : GoodTable t) (hgs : GoodTable old) (hb : AllBlocks env.codec t (Mild env.build))
    (hbs : AllBlocks env.codec old (Mild env.build)) (h : Completes env args t t' evs) :
    Overlaid env.codec old t t' area invert fun _ => True := by
  obtain ⟨p, g, hp, hgf, rfl⟩ := r.input
  cases hA : area with
  | some a =>
    have := C50_overlay_partial env args t t' evs p g a r.ok r.works hg hgs r.command hp hgf (r.area.trans hA)
      (ha a hA) r.offset hb hbs h
    rwa [r.invert] at this
  | none =>
    obtain ⟨h1, h2⟩ := C49_overlay_all env args t t' evs p g hg.nodup hgs.nodup r.command hp hgf (r.area.trans hA)
      r.offset h
    refine ⟨h1, fun bp sd _ h3 _ h4 => (h2 _ _).2 (.inl ⟨h3, h4⟩), ?_, ?_, ?_⟩
    · rintro bp sd sb d b - - - - - - - ⟨-, q, -, hq⟩
      exact absurd trivial hq
    · intro bp d hbp h3 h4
      refine (h2 _ _).2 (.inr ⟨h3, fun ⟨sd, h5, h6⟩ => h4 (.inl ⟨fun _ _ => trivial, sd, h5, h6⟩)⟩)
    · intro k d hd
      rcases (h2 k d).1 hd with ⟨h3, h4⟩ | ⟨h3, -⟩
      · obtain ⟨bp, hbp, hkey, -⟩ := row_pos hgs h3
        exact .inr ⟨h3, h4, bp, hbp, hkey, fun _ _ => trivial⟩
      · exact .inl (List.mem_map.2 ⟨_, h3, rfl⟩)

/-- Edits of nodes in generated blocks are confined to the selected nodes. -/
theorem confined_edited {c : Codec} (hc : c.Lawful) {area : Option Area} {invert : Bool} {t t' : Table}
    {R : Vec3 → MapBlock → MapBlock → Prop} (h : Edited c area invert t t' R) (hgen : AllBlocks c t Generated)
    (hR : ∀ bp b b', R bp b b' → SameHead b b' ∧ (invert = false → Partly area invert bp → SameRest b b') ∧
      ∀ i, i < 4096 → ¬ Selected area invert (posAt bp i) → NodeAs b' i b i) : Confined c area invert t t' := by
  refine ⟨h.nodup, fun k hk => (h.keys k).1 hk, fun bp d hbp hd => ?_⟩
  by_cases hb : ∃ b, Represents c d b
  · obtain ⟨b, hb⟩ := hb
    have hgb := hgen _ _ _ hd hb
    by_cases hs : ∃ p, InBlock bp p ∧ Selected area invert p
    · by_cases hw : Whole area invert bp
      · exact .inr (.inl ⟨hw, genData_of hc hb hgb⟩)
      · have hp : Partly area invert bp := by
          refine ⟨hs, Classical.byContradiction fun hn => hw fun p hp => Classical.byContradiction fun hq => hn ⟨p, hp, hq⟩⟩
        obtain ⟨d', b', h1, h2, h3⟩ := h.good bp d b hbp hd hb
        obtain ⟨g1, g2, g3⟩ := hR _ _ _ h3
        refine .inr (.inr ⟨hp, d', b, b', h1, hb, h2, ?_, g1.1, fun hi => g2 hi hp, g3⟩)
        unfold Generated
        rw [g1.2.1]
        exact hgb
    · exact .inl (h.outside bp d hbp hd fun p hp hq => hs ⟨p, hp, hq⟩)
  · exact .inl (h.bad _ d hd fun b hb' => hb ⟨b, hb'⟩)

/-- Nodes that only change their name. -/
theorem nodeAs_named {b b' : MapBlock} {i : Nat} (h : SameButNodes b b')
    (hn : ∀ n, nodeName b i = some n → nodeName b' i = some n) : NodeAs b' i b i := by
  obtain ⟨h1, h2, -, -, h3, h4⟩ := h
  refine ⟨hn, by rw [h3], by rw [h4], fun q _ => ?_⟩
  rcases h2 (4096 * q + i) with h | ⟨h, h'⟩
  · exact .inl h
  · exact .inr ⟨h1.1 ▸ h, h'⟩

theorem nodeAs_nodes {b b' : MapBlock} {i : Nat} (h : SameHead b b') (hs : SameNodes b b')
    (hm : ∀ q, q < 16 → SavedMeta b (metaOf b (4096 * q + i)) (metaOf b' (4096 * q + i))) : NodeAs b' i b i := by
  obtain ⟨h1, h2⟩ := hs
  refine ⟨fun n hn => ?_, by rw [h1], by rw [h1], fun q hq => ?_⟩
  · unfold nodeName at hn ⊢
    rw [h1, h2]
    exact hn
  · rcases hm q hq with h' | ⟨h', h''⟩
    · exact .inl h'
    · exact .inr ⟨h.1 ▸ h', h''⟩

theorem Effect.written {γ : Type} {env : Env} {strs : List Bytes} {area : Option Area} {invert : Bool}
    {edit : Int → MapBlock → Res (Option MapBlock × γ)} {t : Table} {R : Vec3 → MapBlock → MapBlock → Prop}
    {F : Vec3 → MapBlock → γ} {zero : γ} (h : Effect env strs area invert edit t R F zero) :
    Effect env strs area invert edit t (fun bp b b' => R bp b b' ∧ (b' = b ∨ Written b')) F zero := by
  constructor
  · intro bp d b h1 h2 h3 h4 h5 ob n h6 h7
    obtain ⟨g1, g2, g3⟩ := h.good bp d b h1 h2 h3 h4 h5 ob n h6 h7
    exact ⟨g1, fun e => ⟨g2 e, .inl rfl⟩, fun b' e => ⟨(g3 b' e).1, (g3 b' e).2, .inr ⟨b', rfl⟩⟩⟩
  · intro bp d b h1 h2 h3 h4 h5
    obtain ⟨g1, g2⟩ := h.skip bp d b h1 h2 h3 h4 h5
    exact ⟨⟨g1, .inl rfl⟩, g2⟩

theorem mem_stored_visible {b : MapBlock} {e : Nat × NodeMeta} (h : e ∈ (stored b).metas) : ¬ MetaVoid e.2 := by
  unfold stored at h
  simp only at h
  split at h
  · have := (List.mem_filter.1 h).2
    simpa using this
  · obtain ⟨e', h1, rfl⟩ := List.mem_map.1 h
    have := (List.mem_filter.1 h1).2
    simp only [decide_not, Bool.not_eq_eq_eq_not, Bool.not_true, decide_eq_false_iff_not] at this
    intro hv
    apply this
    unfold MetaVoid publish at *
    simpa using hv

/-- Where no metadata appears, there is room for metadata still. -/
theorem metaRoom_written {b b' : MapBlock} (hw : Wf b') (h : b' = b ∨ Written b') (hr : MetaRoom b)
    (hm : ∀ i, metaOf b i = none → metaOf b' i = none) : MetaRoom b' := by
  rcases h with rfl | ⟨b0, rfl⟩
  · exact hr
  · intro e he
    have h1 : metaOf (stored b0) e.1 = some e.2 := by
      unfold metaOf
      rw [SMap.get?_of_mem hw.metas.sorted he, Option.filter_some, if_pos (by simpa using mem_stored_visible he)]
    cases h2 : metaOf b e.1 with
    | none => rw [hm _ h2] at h1; cases h1
    | some m =>
      unfold metaOf at h2
      cases h3 : SMap.get? b.metas e.1 with
      | none => rw [h3] at h2; cases h2
      | some m' => exact hr (e.1, m') (SMap.get?_some_mem h3)

theorem savedMeta_none {b : MapBlock} {m : Option NodeMeta} (h : SavedMeta b none m) : m = none := by
  rcases h with h | ⟨-, h⟩
  · exact h
  · rw [h]; rfl

end MapEditr
