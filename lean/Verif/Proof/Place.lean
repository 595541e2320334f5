import Verif.Spec.Total
import Verif.Proof.Rest
/-!
# Lemmas: metadata, timers and objects stay where they belong
-/

namespace MapEditr
open Spec

/-- What `InPlace` says beside `PlainInvs`. -/
structure Seat (b : MapBlock) : Prop where
  metas : MetaInside b
  timers : TimersInside b
  objects : ObjectsNear b

theorem metaInside_none {b : MapBlock} (h : MetaInside b) {j : Nat} (hj : 4096 ≤ j) : metaOf b j = none := by
  unfold metaOf
  cases h1 : SMap.get? b.metas j with
  | none => rfl
  | some m =>
    have := h (j, m) (SMap.get?_some_mem h1)
    simp only at this
    omega

theorem metaInside_written {b' : MapBlock} (hw : Wf b') (h : Written b')
    (hm : ∀ j, 4096 ≤ j → j < 65536 → metaOf b' j = none) : MetaInside b' := by
  obtain ⟨b0, rfl⟩ := h
  intro e he
  refine Nat.lt_of_not_le fun hn => ?_
  have h1 : metaOf (stored b0) e.1 = some e.2 := by
    unfold metaOf
    rw [SMap.get?_of_mem hw.metas.sorted he, Option.filter_some, if_pos (by simpa using mem_stored_visible he)]
  rw [hm e.1 hn (hw.metas.keys e he)] at h1
  cases h1

theorem seat_rest {b b' : MapBlock} (h : SameRest b b') (hm : MetaInside b') (hb : Seat b) : Seat b' :=
  ⟨hm, by unfold TimersInside; rw [h.2.2]; exact hb.timers, by unfold ObjectsNear; rw [h.2.1]; exact hb.objects⟩

theorem SoftEdit.inside {c : Codec} {area : Option Area} {invert : Bool} {rest : Prop} {t t' : Table}
    (hg : GoodTable t) (h : SoftEdit c area invert rest t t') (hb : AllBlocks c t MetaInside) :
    AllBlocks c t' MetaInside := by
  obtain ⟨R, h, -, hM⟩ := h
  intro k d' b' hd hr
  obtain ⟨bp, h1, h2, -⟩ := row_pos (goodTable_of_edited hg h) hd
  simp only at h2
  subst h2
  obtain ⟨d, b, f1, f2, f3⟩ := edited_back h h1 hd hr
  obtain ⟨-, -, g2, g3⟩ := hM _ _ _ (wf_of_represents hr) f3
  have hmb := hb _ _ _ f1 f2
  rcases g2 with rfl | g2
  · exact hmb
  · exact metaInside_written (wf_of_represents hr) g2 fun j hj _ => g3 j (metaInside_none hmb hj)

theorem SoftEdit.seat {c : Codec} {area : Option Area} {invert : Bool} {t t' : Table}
    (hg : GoodTable t) (h : SoftEdit c area invert True t t') (hb : AllBlocks c t Seat) : AllBlocks c t' Seat := by
  have hm := h.inside hg (Spec.AllBlocks.mono hb fun b h => h.metas)
  obtain ⟨R, h, hR, -⟩ := h
  intro k d' b' hd hr
  obtain ⟨bp, h1, h2, -⟩ := row_pos (goodTable_of_edited hg h) hd
  simp only at h2
  subst h2
  obtain ⟨d, b, f1, f2, f3⟩ := edited_back h h1 hd hr
  exact seat_rest ((hR _ _ _ f3).2.1 trivial) (hm _ _ _ hd hr) (hb _ _ _ f1 f2)

theorem edited_seat {c : Codec} {area : Option Area} {invert : Bool} {t t' : Table}
    {R : Vec3 → MapBlock → MapBlock → Prop} (hg : GoodTable t) (h : Edited c area invert t t' R)
    (hm : AllBlocks c t' MetaInside) (hb : AllBlocks c t Seat)
    (hR : ∀ bp b b', R bp b b' → (∀ x ∈ b'.timers, x ∈ b.timers) ∧ ∀ o ∈ b'.objects, o ∈ b.objects) :
    AllBlocks c t' Seat := by
  intro k d' b' hd hr
  obtain ⟨bp, h1, h2, -⟩ := row_pos (goodTable_of_edited hg h) hd
  simp only at h2
  subst h2
  obtain ⟨d, b, f1, f2, f3⟩ := edited_back h h1 hd hr
  have hs := hb _ _ _ f1 f2
  exact ⟨hm _ _ _ hd hr, fun x hx => hs.timers x ((hR _ _ _ f3).1 x hx), fun o ho => hs.objects o ((hR _ _ _ f3).2 o ho)⟩

theorem replacenodes_seat {env : Env} {args : InstArgs} {t t' : Table} {evs : List Event} {old new : String}
    (hE : EnvOk env) (hg : GoodTable t) (hc : args.command = "replacenodes")
    (ha : AreaOk args.area) (ho : args.node = some old) (hn : args.newNode = some new)
    (hid : AllBlocks env.codec t (GoodIds env.build)) (hb : AllBlocks env.codec t Seat)
    (h : Completes env args t t' evs) : AllBlocks env.codec t' Seat := by
  have E := effect_edited hE hg ha h hc replaceNodes_command (by decide) (replaceNodes_eq env args ho hn)
    (replaceNodes_effect env args t (replace_differ hc ho hn h) ha id fun k d b h1 h2 => (hid k d b h1 h2).sound _).written
  intro k d' b' hd hr
  obtain ⟨bp, h1, h2, -⟩ := row_pos (goodTable_of_edited hg E) hd
  simp only at h2
  subst h2
  obtain ⟨d, b, f1, f2, ⟨⟨⟨f0, f3, f5, f6, -⟩, -⟩, -⟩, f4⟩ := edited_back E h1 hd hr
  have hs := hb _ _ _ f1 f2
  refine seat_rest ⟨f0, f5, f6⟩ ?_ hs
  rcases f4 with rfl | f4
  · exact hs.metas
  · exact metaInside_written (wf_of_represents hr) f4 fun j hj _ => sameMeta_none f3 j (metaInside_none hs.metas hj)

theorem without_mem {P : α → Prop} {l l' : List α} (h : Without P l l') {a : α} (ha : a ∈ l') : a ∈ l := by
  classical
  rw [without_list h] at ha
  exact (List.mem_filter.1 ha).1

/-- What the commands other than `clone`, `overlay` and `replaceininv` do. -/
theorem run_seat {env : Env} {args : InstArgs} {t t' : Table} {evs : List Event} {K : Nat}
    (hE : EnvOk env) (hg : GoodTable t) (hf : AllBlocks env.codec t (Usual K)) (hb : AllBlocks env.codec t Seat)
    (hK' : K ≤ 65533) (hn : NodeArgs args) (h : Completes env args t t' evs) : AllBlocks env.codec t' Seat := by
  have hneeds := hn.needs
  unfold Needs at hneeds
  have hc := hn.command
  have hu : AllBlocks env.codec t UniqueNames := Spec.AllBlocks.mono hf fun b f => f.fine.unique
  have hbm : AllBlocks env.codec t MetaInside := Spec.AllBlocks.mono hb fun b h => h.metas
  unfold nodeCommands at hc
  simp only [List.mem_cons, List.not_mem_nil, or_false] at hc
  rcases hc with hc | hc | hc | hc | hc | hc | hc | hc | hc <;> rw [hc] at hneeds <;> (try simp only at hneeds)
  · obtain ⟨a, ha⟩ := Option.isSome_iff_exists.1 hneeds.1
    obtain ⟨n, hnode⟩ := Option.isSome_iff_exists.1 hneeds.2
    exact (fill_soft env args t t' evs a n hE hg hc ha (hn.area a ha) hnode h).seat hg hb
  · obtain ⟨old, ho⟩ := Option.isSome_iff_exists.1 hneeds.1
    obtain ⟨new, hnode⟩ := Option.isSome_iff_exists.1 hneeds.2
    exact replacenodes_seat hE hg hc hn.area ho hnode
      (fun k d b hk hd => ⟨(hf k d b hk hd).fine.unique, by
        have := nimap_length_le (wf_of_represents hd).nimap.sorted (hf k d b hk hd).fine.small
        omega, fun _ e he => by have := (hf k d b hk hd).fine.small e he; omega⟩) hb h
  · obtain ⟨val, hv⟩ := Option.isSome_iff_exists.1 hneeds
    exact (setparam2_soft env args t t' evs val hE hg hc hv hn.area h).seat hg hb
  · exact (deletemeta_soft env args t t' evs hE hg hc hn.area h).seat hg hb
  · refine edited_seat hg (C42_deletetimers env args t t' evs hE hg hc hn.area (fun _ => hu) h)
      ((deletetimers_soft env args t t' evs hE hg hc hn.area h).inside hg hbm) hb fun bp b b' hR => ⟨fun x hx => ?_, ?_⟩
    · exact without_mem hR.2.2.2.2 hx
    · rw [hR.2.2.2.1]
      exact fun _ h => h
  · obtain ⟨key, hk⟩ := Option.isSome_iff_exists.1 hneeds
    exact (setmetavar_soft env args t t' evs key hE hg hc hn.area hk h).seat hg hb
  · refine edited_seat hg (C43_deleteobjects env args t t' evs hE hg hc hn.area h)
      ((deleteobjects_soft env args t t' evs hE hg hc hn.area h).inside hg hbm) hb fun bp b b' hR => ⟨?_, fun x hx => ?_⟩
    · rw [hR.2.2.2.1]
      exact fun _ h => h
    · exact without_mem hR.2.2.2.2 hx
  · obtain ⟨k1, k2, k3⟩ := C39_deleteblocks env args t t' evs hg hc hn.area h
    exact fun k d b hk hd => hb k d b (k2 _ hk) hd
  · rw [C53_vacuum env args t t' evs hc h]
    exact hb

/-! ## clone and overlay -/

theorem nodeAs_inside {b b' : MapBlock} {i j q : Nat} (h : NodeAs b' i b j) (hb : MetaInside b) (hq : q < 16)
    (h1 : 1 ≤ q) : metaOf b' (4096 * q + i) = none := by
  have := h.2.2.2 q hq
  rw [metaInside_none hb (by omega)] at this
  exact savedMeta_none this

theorem copied_seat {c : Codec} {o : Vec3} {src t t' : Table} (hg : GoodTable t) {Sel Reach : Vec3 → Prop}
    (h : Copied c src t t' o Sel Reach) (hb : AllBlocks c t Seat) (hbs : AllBlocks c src MetaInside)
    (hr' : ∀ r ∈ t', r ∈ t ∨ ∃ b, Represents c r.2 b ∧ Written b) : AllBlocks c t' Seat := by
  have hg' : GoodTable t' := ⟨h.nodup, fun r hr => by
    obtain ⟨r0, h1, h2⟩ := List.mem_map.1 ((h.keys r.1).1 (List.mem_map.2 ⟨r, hr, rfl⟩))
    rw [← h2]
    exact hg.valid _ h1⟩
  intro k d' b' hk hr
  rcases hr' _ hk with hold | ⟨b1, hr1, hwr⟩
  · exact hb _ _ _ hold hr
  have := represents_unique hr1 hr
  subst this
  obtain ⟨bp, e1, e2, -⟩ := row_pos hg' hk
  simp only at e2
  subst e2
  obtain ⟨⟨k, d⟩, g1, g2⟩ := List.mem_map.1 ((h.keys (keyOf bp)).1 (List.mem_map.2 ⟨_, hk, rfl⟩))
  simp only at g2
  subst g2
  by_cases hx : ∃ b, Represents c d b ∧ Generated b
  · obtain ⟨b, hx, hgen⟩ := hx
    obtain ⟨d2, b2, f1, f2, f3, f4⟩ := h.good bp d b e1 g1 hx hgen
    have := row_unique h.nodup f1 hk
    subst this
    have := represents_unique f2 hr
    subst this
    have hs := hb _ _ _ g1 hx
    refine seat_rest f3 (metaInside_written (wf_of_represents hr) hwr fun j hj hj' => ?_) hs
    obtain ⟨q, i, hq, hi, rfl⟩ := meta_index hj'
    by_cases hsh : ∃ sb, Sel (posAt bp i) ∧ Reach (unshift (posAt bp i) o) ∧ Shows c src (unshift (posAt bp i) o) sb
    · obtain ⟨sb, s1, s2, s3⟩ := hsh
      have ha := (f4 i hi).1 sb s1 s2 s3
      obtain ⟨-, -, sd, k1, k2⟩ := s3
      exact nodeAs_inside ha (hbs _ _ _ k1 k2) hq (by omega)
    · exact nodeAs_inside ((f4 i hi).2 fun sb e => hsh ⟨sb, e⟩) hs.metas hq (by omega)
  · have := row_unique h.nodup hk (h.bad _ d g1 fun b hb hgen => hx ⟨b, hb, hgen⟩)
    subst this
    exact hb _ _ _ g1 hr

theorem overlaid_seat {c : Codec} {area : Option Area} {invert : Bool} {src t t' : Table} (hg : GoodTable t)
    (h : Overlaid c src t t' area invert fun _ => True) (hb : AllBlocks c t Seat) (hbs : AllBlocks c src Seat)
    (hr' : ∀ r ∈ t', r ∈ t ∨ r ∈ src ∨ ∃ b, Represents c r.2 b ∧ Written b) : AllBlocks c t' Seat := by
  intro k d' b' hk hr
  rcases hr' _ hk with hold | hold | ⟨b1, hr1, hwr⟩
  · exact hb _ _ _ hold hr
  · exact hbs _ _ _ hold hr
  have := represents_unique hr1 hr
  subst this
  rcases h.added k d' hk with hm | ⟨hm, -⟩
  · obtain ⟨⟨k, d⟩, g1, g2⟩ := List.mem_map.1 hm
    simp only at g2
    subst g2
    obtain ⟨bp, e1, e2, -⟩ := row_pos hg g1
    simp only at e2
    subst e2
    by_cases ho : Overridden c src area invert (fun _ => True) bp d
    · rcases ho with ⟨k1, sd, k2, k3⟩ | ⟨k1, sd, sb, b, k2, k3, k4, k5, k6⟩
      · have := row_unique h.nodup hk (h.whole bp sd e1 k2 k1 k3)
        subst this
        exact hbs _ _ _ k2 hr
      · obtain ⟨d2, b2, f1, f2, f3, -, f4⟩ := h.part bp sd sb d b e1 k2 k3 k4 g1 k5 k6 k1
        have := row_unique h.nodup f1 hk
        subst this
        have := represents_unique f2 hr
        subst this
        have hs1 := hb _ _ _ g1 k5
        have hs2 := hbs _ _ _ k2 k3
        refine seat_rest f3 (metaInside_written (wf_of_represents hr) hwr fun j hj hj' => ?_) (by split <;> assumption)
        obtain ⟨q, i, hq, hi, rfl⟩ := meta_index hj'
        refine nodeAs_inside (f4 i hi) ?_ hq (by omega)
        split
        · exact hs2.metas
        · exact hs1.metas
    · have := row_unique h.nodup hk (h.kept bp d e1 g1 ho)
      subst this
      exact hb _ _ _ g1 hr
  · exact hbs _ _ _ hm hr

theorem copy_seat {c : Codec} {args : InstArgs} {K : Nat} {s t t' : Table} (hg : GoodTable t)
    (hb : AllBlocks c t (Usual K)) (hp : AllBlocks c t Seat)
    (hs : args.command = "overlay" → Source c K s ∧ AllBlocks c s Seat) (hK' : K ≤ 7280)
    (ha : ExecArgs args) (hc : args.command = "clone" ∨ args.command = "overlay") (h : Ran c args s t t') :
    AllBlocks c t' Seat := by
  obtain ⟨env, evs, hE, rfl, hrun, hwork, hin⟩ := h
  have hneeds := ha.needs
  unfold Needs at hneeds
  have hmild : AllBlocks env.codec t (Mild env.build) := Spec.AllBlocks.mono hb fun b u => usual_mild hK' u _
  have hpm : AllBlocks env.codec t MetaInside := Spec.AllBlocks.mono hp fun b h => h.metas
  rcases hc with hc | hc
  · rw [hc] at hneeds
    simp only at hneeds
    obtain ⟨a, harea⟩ := Option.isSome_iff_exists.1 hneeds.1
    obtain ⟨o, hoff⟩ := Option.isSome_iff_exists.1 hneeds.2
    refine copied_seat hg
      (C47_clone_partial env args t t' evs a o hE (hwork (.inl hc)) hg hc harea (ha.area a harea) hoff hmild hrun) hp hpm
      fun r hr => ?_
    rcases clone_rows env args t t' evs a o hE hg hc harea (ha.area a harea) hoff hmild hrun r hr with h | ⟨b, h1, -, -, h2⟩
    · exact .inl h
    · exact .inr ⟨b, h1, h2⟩
  · obtain ⟨p, g, hp', hgf, rfl⟩ := hin hc
    obtain ⟨S, hps⟩ := hs hc
    have hmilds : AllBlocks env.codec g.table (Mild env.build) := Spec.AllBlocks.mono S.usual fun b u => usual_mild hK' u _
    have hcase : (args.offset = none ∨ args.offset = some ⟨0, 0, 0⟩) ∨ ∃ o, args.offset = some o ∧ o ≠ ⟨0, 0, 0⟩ := by
      cases ho : args.offset with
      | none => exact .inl (.inl rfl)
      | some o =>
        by_cases hz : o = ⟨0, 0, 0⟩
        · exact .inl (.inr (by rw [hz]))
        · exact .inr ⟨o, rfl, hz⟩
    rcases hcase with hoff | ⟨o, hoff, hz⟩
    · have r : Restores env args args.area args.invert g.table :=
        ⟨hE, hwork (.inr hc), hc, ⟨p, g, hp', hgf, rfl⟩, rfl, rfl, hoff⟩
      refine overlaid_seat hg (r.overlaid ha.area hg S.good hmild hmilds hrun) hp hps fun r hr => ?_
      rcases overlay_rows env args t t' evs p g hE hg S.good hc hp' hgf ha.area hoff hmild hmilds hrun r hr with
        h | h | ⟨b, h1, -, -, h2⟩
      · exact .inl h
      · exact .inr (.inl h)
      · exact .inr (.inr ⟨b, h1, h2⟩)
    · refine copied_seat hg
        (C51_overlay_offset_partial env args t t' evs p g o hE (hwork (.inr hc)) hg S.good hc hp' hgf ha.area hoff hz
          hmild hmilds hrun) hp (Spec.AllBlocks.mono hps fun b h => h.metas) fun r hr => ?_
      rcases shifted_rows env args t t' evs p g o hE hg hc hp' hgf ha.area hoff hz hmild hmilds hrun r hr with
        h | ⟨b, h1, -, -, h2⟩
      · exact .inl h
      · exact .inr ⟨b, h1, h2⟩

theorem inPlace_iff {b : MapBlock} : InPlace b ↔ PlainInvs b ∧ Seat b :=
  ⟨fun h => ⟨h.plain, h.metas, h.timers, h.objects⟩, fun h => ⟨h.1, h.2.metas, h.2.timers, h.2.objects⟩⟩

/-- Every command leaves things in place. -/
theorem place_every {c : Codec} {args : InstArgs} {K : Nat} {s t t' : Table} (hg : GoodTable t)
    (hb : AllBlocks c t (Usual K)) (hp : AllBlocks c t InPlace)
    (hs : args.command = "overlay" → Source c K s ∧ AllBlocks c s InPlace) (hK : 4095 ≤ K) (hK' : K ≤ 7280)
    (ha : AnyArgs args) (h : Ran c args s t t') : AllBlocks c t' InPlace := by
  have hplain : AllBlocks c t PlainInvs := Spec.AllBlocks.mono hp fun b h => h.plain
  have hseat : AllBlocks c t Seat := Spec.AllBlocks.mono hp fun b h => (inPlace_iff.1 h).2
  have k1 := (means_every hg hb hplain (fun e => ⟨(hs e).1, Spec.AllBlocks.mono (hs e).2 fun b h => h.plain⟩) hK hK' ha h).2
  have k2 : AllBlocks c t' Seat := by
    have hcmd : args.command = "replaceininv" ∨ args.command ∈ execCommands := by
      by_cases hv : args.command = "vacuum"
      · exact .inr (by rw [hv]; decide)
      · obtain ⟨env, evs, -, -, hrun, -⟩ := h
        obtain ⟨D⟩ := completes_done hrun hv
        exact commands_all D.cmd_ok
    rcases hcmd with hc | hc
    · obtain ⟨env, evs, hE, rfl, hrun, -, -⟩ := h
      have hneeds := ha.needs
      unfold Needs at hneeds
      rw [hc] at hneeds
      simp only at hneeds
      obtain ⟨item, hk⟩ := Option.isSome_iff_exists.1 hneeds
      have hw := ha.item hc
      rw [hk, Option.getD_some] at hw
      exact (replaceininv_soft env args t t' evs item hE hg hc ha.area hk (endWord_suffix hw)
        (Spec.AllBlocks.mono hplain fun b h => plain_invsGood h) hrun).seat hg hseat
    · have he : ExecArgs args := ⟨hc, ha.needs, ha.area, ha.name⟩
      have hs' : args.command = "overlay" → Source c K s ∧ AllBlocks c s Seat := fun e =>
        ⟨(hs e).1, Spec.AllBlocks.mono (hs e).2 fun b h => (inPlace_iff.1 h).2⟩
      rcases List.mem_cons.1 hc with h1 | h1
      · exact copy_seat hg hb hseat hs' hK' he (.inl h1) h
      rcases List.mem_cons.1 h1 with h1 | h1
      · exact copy_seat hg hb hseat hs' hK' he (.inr h1) h
      · obtain ⟨env, evs, hE, rfl, hrun, -, -⟩ := h
        exact run_seat hE hg hb hseat (by omega) ⟨h1, ha.needs, ha.area, ha.name⟩ hrun
  exact fun k d b hk hd => inPlace_iff.2 ⟨k1 k d b hk hd, k2 k d b hk hd⟩

end MapEditr
