import Verif.Proof.Clone
/-! # Lemmas: from the rows after a copying loop to the nodes -/

namespace MapEditr
open Spec

theorem nodeAs_refl (b : MapBlock) (i : Nat) : NodeAs b i b i := ⟨fun _ h => h, rfl, rfl, fun _ _ => .inl rfl⟩

theorem CopyDone.keys {c : Codec} {find : Vec3 → Option MapBlock} {part : Int → Area} {o : Vec3}
    {ks : List Int} {dur t : Table} {cols : List Col} {w : World} {t' : Table} {w' : World}
    (h : CopyDone c find part o ks dur t cols w t' w') (hk : ∀ k ∈ ks, k ∈ t.map (·.1)) (k : Int) :
    k ∈ t'.map (·.1) ↔ k ∈ t.map (·.1) := by
  have e1 := Table.get?_none (t := t') (k := k)
  have e2 := Table.get?_none (t := t) (k := k)
  by_cases hm : k ∈ ks
  · obtain ⟨d', h1, -⟩ := h.on k hm
    rw [h1] at e1
    simp only [hk k hm, iff_true]
    exact Classical.not_not.1 fun hc => by cases e1.2 hc
  · rw [h.off k hm] at e1
    rw [e1] at e2
    exact ⟨fun h => Classical.not_not.1 fun hc => e2.2 hc h, fun h => Classical.not_not.1 fun hc => e2.1 hc h⟩

theorem copied_of {c : Codec} (hc : c.Lawful) {src : Table} (hns : (src.map (·.1)).Nodup)
    {part : Int → Area} {o : Vec3} {ks : List Int} {dur t : Table} {cols : List Col} {w : World}
    {t' : Table} {w' : World} (h : CopyDone c (findIn c src) part o ks dur t cols w t' w')
    (hg : GoodTable t) {Sel : Vec3 → Prop}
    (hk : ∀ k ∈ ks, k ∈ t.map (·.1))
    (hon : ∀ bp, ValidBlockPos bp → keyOf bp ∈ ks → (∃ p, InBlock bp p ∧ Sel p) ∧
      ∀ p, InBlock bp p →
        (InBox ((part (keyOf bp)).sub o).min ((part (keyOf bp)).sub o).max (unshift p o) ↔ Sel p))
    (hoff : ∀ bp, ValidBlockPos bp → keyOf bp ∈ t.map (·.1) → keyOf bp ∉ ks → ∀ p, InBlock bp p → ¬ Sel p) :
    Copied c src t t' o Sel fun q => Within 1937 (blockOf q) := by
  refine ⟨h.nodup, h.keys hk, ?_, ?_, ?_⟩
  · intro k d hd hb
    have hgd := Table.get?_of_mem hg.nodup hd
    by_cases hm : k ∈ ks
    · obtain ⟨d', h1, h2, -⟩ := h.on k hm
      rw [h2 d hgd (fun b hb' => by
        obtain ⟨d2, e1, e2, e3⟩ := (orig_ok hc).1 hb'
        rw [hgd] at e1
        cases e1
        exact hb b e2 e3)] at h1
      exact Table.get?_some_mem h1
    · exact Table.get?_some_mem ((h.off k hm).trans hgd)
  · intro bp d hbp hd hno
    have hgd := Table.get?_of_mem hg.nodup hd
    have hm : keyOf bp ∉ ks := fun hm => by
      obtain ⟨⟨p, h1, h2⟩, -⟩ := hon bp hbp hm
      exact hno p h1 h2
    exact Table.get?_some_mem ((h.off _ hm).trans hgd)
  · intro bp d b hbp hd hr hgen
    have hgd := Table.get?_of_mem hg.nodup hd
    by_cases hmk : keyOf bp ∈ ks
    · obtain ⟨d', h1, -, h2⟩ := h.on _ hmk
      obtain ⟨b', h3, h4⟩ := h2 b ((orig_ok hc).2 ⟨d, hgd, hr, hgen⟩)
      refine ⟨d', b', Table.get?_some_mem h1, h3, h4.rest, ?_⟩
      intro i hi
      have hn := h4.nodes i hi
      have hsel := (hon bp hbp hmk).2 _ (posAt_inBlock bp hi)
      rw [fromBlockKey_keyOf bp hbp] at hn
      unfold srcAt at hn
      have hfi := fun sb => findIn_iff hc hns (q := unshift (posAt bp i) o) (b := sb)
      generalize hq : unshift (posAt bp i) o = q at *
      constructor
      · intro sb s1 s2 s3
        unfold fromSrc at hn
        rw [if_pos (hsel.2 s1), (hfi sb).2 ⟨s2, s3⟩] at hn
        exact hn
      · intro hno
        unfold fromSrc at hn
        split at hn
        · next hin =>
          cases hf : findIn c src (blockOf q) with
          | none => rw [hf] at hn; exact hn
          | some sb => exact absurd ⟨hsel.1 hin, (hfi sb).1 hf⟩ (hno sb)
        · exact hn
    · refine ⟨d, b, Table.get?_some_mem ((h.off _ hmk).trans hgd), hr, ⟨⟨rfl, rfl, rfl, rfl⟩, rfl, rfl⟩, ?_⟩
      intro i hi
      refine ⟨fun sb s1 => ?_, fun _ => nodeAs_refl b i⟩
      exact absurd s1 (hoff bp hbp (List.mem_map.2 ⟨_, hd, rfl⟩) hmk _ (posAt_inBlock bp hi))

end MapEditr
