import Verif.Spec.Every
import Verif.Proof.Stacks
import Verif.Proof.Exec
/-!
# Inventories in sessions
-/

namespace MapEditr
open Spec

theorem plain_of {b : MapBlock} (hw : Wf b) (h : ∀ j, j < 65536 → ∀ m, metaOf b j = some m → PlainInv m.inv) : PlainInvs b := by
  intro e he
  by_cases hv : MetaVoid e.2
  · rw [hv.2]
    exact plain_end
  · refine h e.1 (hw.metas.keys e he) e.2 ?_
    unfold metaOf
    rw [SMap.get?_of_mem hw.metas.sorted he, Option.filter_some, if_pos (by simpa using hv)]

theorem plain_meta {b : MapBlock} (h : PlainInvs b) {j : Nat} {m : NodeMeta} (hm : metaOf b j = some m) : PlainInv m.inv := by
  unfold metaOf at hm
  obtain ⟨h1, -⟩ := Option.filter_eq_some_iff.1 hm
  exact h _ (SMap.get?_some_mem h1)

theorem plain_saved {b : MapBlock} {m m' : Option NodeMeta} (h : SavedMeta b m m')
    (hm : ∀ x, m = some x → PlainInv x.inv) : ∀ x, m' = some x → PlainInv x.inv := by
  intro x hx
  rcases h with h | ⟨-, h⟩
  · exact hm x (h ▸ hx)
  · rw [h] at hx
    obtain ⟨y, h1, rfl⟩ := Option.map_eq_some_iff.1 hx
    exact hm y h1

theorem plain_same {b b' : MapBlock} (hw : Wf b') (h : SameMeta b b') (hp : PlainInvs b) : PlainInvs b' :=
  plain_of hw fun j _ => plain_saved (h j) fun _ hx => plain_meta hp hx

theorem edited_plain {c : Codec} {area : Option Area} {invert : Bool} {t t' : Table}
    {R : Vec3 → MapBlock → MapBlock → Prop} (hg : GoodTable t) (h : Edited c area invert t t' R)
    (hp : AllBlocks c t PlainInvs) (hR : ∀ bp b b', Wf b' → PlainInvs b → R bp b b' → PlainInvs b') : AllBlocks c t' PlainInvs := by
  intro k d' b' hk hr
  obtain ⟨bp, h1, h2, -⟩ := row_pos (goodTable_of_edited hg h) hk
  simp only at h2
  subst h2
  obtain ⟨d, b, f1, f2, f3⟩ := edited_back h h1 hk hr
  exact hR bp b b' (wf_of_represents hr) (hp _ _ _ f1 f2) f3

theorem meta_index {j : Nat} (h : j < 65536) : ∃ q i, q < 16 ∧ i < 4096 ∧ j = 4096 * q + i :=
  ⟨j / 4096, j % 4096, by omega, by omega, by omega⟩

theorem copied_plain {c : Codec} {o : Vec3} {src t t' : Table} (hg : GoodTable t) {Sel Reach : Vec3 → Prop}
    (h : Copied c src t t' o Sel Reach) (hp : AllBlocks c t PlainInvs) (hps : AllBlocks c src PlainInvs) :
    AllBlocks c t' PlainInvs := by
  have hg' : GoodTable t' := ⟨h.nodup, fun r hr => by
    obtain ⟨r0, h1, h2⟩ := List.mem_map.1 ((h.keys r.1).1 (List.mem_map.2 ⟨r, hr, rfl⟩))
    rw [← h2]
    exact hg.valid _ h1⟩
  intro k d' b' hk hr
  obtain ⟨bp, e1, e2, -⟩ := row_pos hg' hk
  simp only at e2
  subst e2
  obtain ⟨⟨k, d⟩, g1, g2⟩ := List.mem_map.1 ((h.keys (keyOf bp)).1 (List.mem_map.2 ⟨_, hk, rfl⟩))
  simp only at g2
  subst g2
  by_cases hx : ∃ b, Represents c d b ∧ Generated b
  · obtain ⟨b, hx, hgen⟩ := hx
    obtain ⟨d2, b2, f1, f2, -, f4⟩ := h.good bp d b e1 g1 hx hgen
    have := row_unique h.nodup f1 hk
    subst this
    have := represents_unique f2 hr
    subst this
    refine plain_of (wf_of_represents hr) fun j hj => ?_
    obtain ⟨q, i, hq, hi, rfl⟩ := meta_index hj
    by_cases hs : ∃ sb, Sel (posAt bp i) ∧ Reach (unshift (posAt bp i) o) ∧ Shows c src (unshift (posAt bp i) o) sb
    · obtain ⟨sb, s1, s2, s3⟩ := hs
      obtain ⟨-, -, -, ha⟩ := (f4 i hi).1 sb s1 s2 s3
      obtain ⟨-, -, sd, k1, k2⟩ := s3
      exact plain_saved (ha q hq) fun _ hx => plain_meta (hps _ _ _ k1 k2) hx
    · obtain ⟨-, -, -, ha⟩ := (f4 i hi).2 fun sb e => hs ⟨sb, e⟩
      exact plain_saved (ha q hq) fun _ hx => plain_meta (hp _ _ _ g1 ‹_›) hx
  · have := row_unique h.nodup hk (h.bad _ d g1 fun b hb hgen => hx ⟨b, hb, hgen⟩)
    subst this
    exact hp _ _ _ g1 hr

theorem overlaid_plain {c : Codec} {area : Option Area} {invert : Bool} {src t t' : Table} (hg : GoodTable t)
    (h : Overlaid c src t t' area invert fun _ => True) (hp : AllBlocks c t PlainInvs)
    (hps : AllBlocks c src PlainInvs) : AllBlocks c t' PlainInvs := by
  intro k d' b' hk hr
  rcases h.added k d' hk with hm | ⟨hm, -⟩
  · obtain ⟨⟨k, d⟩, g1, g2⟩ := List.mem_map.1 hm
    simp only at g2
    subst g2
    obtain ⟨bp, e1, e2, -⟩ := row_pos hg g1
    simp only at e2
    subst e2
    by_cases ho : Overridden c src area invert (fun _ => True) bp d
    · rcases ho with ⟨k1, sd, k2, k3⟩ | ⟨k1, sd, sb, b, k2, k3, k4, k5, k6⟩
      · have := row_unique h.nodup hk (h.whole bp sd e1 k2 k1 k3)
        subst this
        exact hps _ _ _ k2 hr
      · obtain ⟨d2, b2, f1, f2, -, -, f4⟩ := h.part bp sd sb d b e1 k2 k3 k4 g1 k5 k6 k1
        have := row_unique h.nodup f1 hk
        subst this
        have := represents_unique f2 hr
        subst this
        refine plain_of (wf_of_represents hr) fun j hj => ?_
        obtain ⟨q, i, hq, hi, rfl⟩ := meta_index hj
        obtain ⟨-, -, -, ha⟩ := f4 i hi
        refine plain_saved (ha q hq) fun _ hx => ?_
        split at hx
        · exact plain_meta (hps _ _ _ k2 k3) hx
        · exact plain_meta (hp _ _ _ g1 k5) hx
    · have := row_unique h.nodup hk (h.kept bp d e1 g1 ho)
      subst this
      exact hp _ _ _ g1 hr
  · exact hps _ _ _ hm hr

section
variable {env : Env} {args : InstArgs} {t t' : Table} {evs : List Event} {K : Nat}

/-- What the commands other than `clone`, `overlay` and `replaceininv` do to inventories. -/
theorem run_plain (hE : EnvOk env) (hg : GoodTable t) (hf : AllBlocks env.codec t (Fine K))
    (hp : AllBlocks env.codec t PlainInvs)
    (hK' : K ≤ 65533) (hn : NodeArgs args) (h : Completes env args t t' evs) : AllBlocks env.codec t' PlainInvs := by
  have hneeds := hn.needs
  unfold Needs at hneeds
  have hc := hn.command
  have hu : AllBlocks env.codec t UniqueNames := Spec.AllBlocks.mono hf fun b f => f.unique
  unfold nodeCommands at hc
  simp only [List.mem_cons, List.not_mem_nil, or_false] at hc
  rcases hc with hc | hc | hc | hc | hc | hc | hc | hc | hc <;> rw [hc] at hneeds <;> (try simp only at hneeds)
  · obtain ⟨a, ha⟩ := Option.isSome_iff_exists.1 hneeds.1
    obtain ⟨n, hnode⟩ := Option.isSome_iff_exists.1 hneeds.2
    exact edited_plain hg (fill_edited env args t t' evs a n hE hg hc ha (hn.area a ha) hnode h) hp
      fun bp b b' hw hb hR => plain_same hw hR.1.2.1 hb
  · obtain ⟨old, ho⟩ := Option.isSome_iff_exists.1 hneeds.1
    obtain ⟨new, hnode⟩ := Option.isSome_iff_exists.1 hneeds.2
    exact edited_plain hg (C35_replacenodes_exact_partial env args t t' evs old new hE hg hc hn.area ho hnode
      (fun k d b hk hd => ⟨(hf k d b hk hd).unique, by
        have := nimap_length_le (wf_of_represents hd).nimap.sorted (hf k d b hk hd).small
        omega, fun _ e he => by have := (hf k d b hk hd).small e he; omega⟩) h) hp
      fun bp b b' hw hb hR => plain_same hw hR.1.2.1 hb
  · obtain ⟨val, hv⟩ := Option.isSome_iff_exists.1 hneeds
    exact edited_plain hg (C37_setparam2 env args t t' evs val hE hg hc hv hn.area (fun _ => hu) h) hp
      fun bp b b' hw hb hR => plain_same hw hR.2.1 hb
  · refine edited_plain hg (C40_deletemeta env args t t' evs hE hg hc hn.area (fun _ => hu) h) hp
      fun bp b b' hw hb hR => plain_of hw fun j _ => plain_saved (hR.2.2.2.2 j) fun x hx => ?_
    split at hx
    · cases hx
    · exact plain_meta hb hx
  · exact edited_plain hg (C42_deletetimers env args t t' evs hE hg hc hn.area (fun _ => hu) h) hp
      fun bp b b' hw hb hR => plain_same hw hR.2.2.1 hb
  · obtain ⟨key, hk⟩ := Option.isSome_iff_exists.1 hneeds
    refine edited_plain hg (C41_setmetavar env args t t' evs key hE hg hc hn.area hk (fun _ => hu) h) hp
      fun bp b b' hw hb hR => plain_of hw fun j _ => plain_saved (hR.2.2.2.2 j) fun x hx => ?_
    split at hx
    · unfold visible at hx
      obtain ⟨h1, -⟩ := Option.filter_eq_some_iff.1 hx
      obtain ⟨y, h2, rfl⟩ := Option.map_eq_some_iff.1 h1
      exact plain_meta (m := y) hb h2
    · exact plain_meta hb hx
  · exact edited_plain hg (C43_deleteobjects env args t t' evs hE hg hc hn.area h) hp
      fun bp b b' hw hb hR => plain_same hw hR.2.2.1 hb
  · obtain ⟨k1, k2, k3⟩ := C39_deleteblocks env args t t' evs hg hc hn.area h
    exact fun k d b hk hd => hp k d b (k2 _ hk) hd
  · rw [C53_vacuum env args t t' evs hc h]
    exact hp

theorem endWord_suffix {s : Bytes} (h : ¬ endWord <:+: s) : ¬ endWord <:+ s := fun e => h e.isInfix

theorem plain_invsGood {item : Bytes} {b : MapBlock} (h : PlainInvs b) : InvsGood item b := fun e he => plain_good (h e he)

/-- `replaceininv` with inventories as Minetest writes them. -/
theorem acts_replaceininv (hE : EnvOk env) (hg : GoodTable t) (hf : AllBlocks env.codec t (Fine K))
    (hp : AllBlocks env.codec t PlainInvs) (hc : args.command = "replaceininv") (hn : AnyArgs args)
    (h : Completes env args t t' evs) : Acts env.codec args K t t' ∧ AllBlocks env.codec t' PlainInvs := by
  have hneeds := hn.needs
  unfold Needs at hneeds
  rw [hc] at hneeds
  simp only at hneeds
  obtain ⟨item, hk⟩ := Option.isSome_iff_exists.1 hneeds
  have hw := hn.item hc
  rw [hk, Option.getD_some] at hw
  have k := C46_replaceininv_partial env args t t' evs item hE hg hc hn.area hk (endWord_suffix hw)
    (fun _ => Spec.AllBlocks.mono hf fun b f => f.unique) (Spec.AllBlocks.mono hp fun b h => plain_invsGood h) h
  refine ⟨acts_edited hg hf (by rw [hc]; decide) k ?_, edited_plain hg k hp ?_⟩
  · rintro bp b b' hwf hfine ⟨h1, h2, h3, h4, h5⟩
    refine ⟨fine_mono (by omega) (fine_nodes h2 hfine), fun i hi => ?_⟩
    have h9 := h5 i
    rw [Nat.mod_eq_of_lt hi] at h9
    have r1 := name_nodes h2 i
    have r2 : b'.nd.param1[i]? = (viewAt b i).param1 := by rw [h2.1]; rfl
    have r3 : b'.nd.param2[i]? = (viewAt b i).param2 := by rw [h2.1]; rfl
    have r4 := timers_view h4 i
    by_cases hs : Selected args.area args.invert (posAt bp i)
    · rw [edit_hit hs, hc]
      simp only
      by_cases hx : (viewAt b i).OfKinds args.nodes
      · rw [if_pos hx]
        rw [if_pos ⟨hs, (ofKinds_view b i _).1 hx⟩] at h9
        refine view_of r1 r2 r3 ?_ r4
        rw [hk, Option.getD_some]
        have hmd : (viewAt b i).md = seenMeta b (metaOf b i) := rfl
        simp only [hmd]
        cases hm : metaOf b i with
        | none =>
          have e : metaOf b' i = none := h9.1 hm
          unfold viewAt seenMeta
          simp only [e]
          split <;> split <;> rfl
        | some m =>
          obtain ⟨m', n, g1, g2⟩ := h9.2 m hm
          rw [md_view h1.1 g2, invEdit_fn g1]
          unfold seenMeta
          split <;> rfl
      · rw [if_neg hx]
        rw [if_neg fun e => hx ((ofKinds_view b i _).2 e.2)] at h9
        exact view_of r1 r2 r3 (md_view h1.1 h9) r4
    · rw [edit_skip hs]
      rw [if_neg fun e => hs e.1] at h9
      exact view_of r1 r2 r3 (md_view h1.1 h9) r4
  · rintro bp b b' hwf hb ⟨-, -, -, -, h5⟩
    refine plain_of hwf fun j _ => ?_
    have h9 := h5 j
    split at h9
    · cases hm : metaOf b j with
      | none => rw [h9.1 hm]; nofun
      | some m =>
        obtain ⟨m', n, g1, g2⟩ := h9.2 m hm
        refine plain_saved g2 fun x hx => ?_
        cases hx
        exact invEdit_plain g1 hw (plain_meta hb hm)
    · exact plain_saved h9 fun x hx => plain_meta hb hx

end

/-! ## Every command -/

theorem commands_all {name : String} {c : Command} (h : command? name = some c) : name = "replaceininv" ∨ name ∈ execCommands := by
  have hall : ∀ e ∈ commands, e.1 = "replaceininv" ∨ e.1 ∈ execCommands := by decide
  unfold command? at h
  obtain ⟨e, h1, -⟩ := Option.map_eq_some_iff.1 h
  have h2 := List.find?_some h1
  have h3 := hall e (List.mem_of_find?_eq_some h1)
  rw [beq_iff_eq.1 h2] at h3
  exact h3

/-- What `clone` and `overlay` do to inventories. -/
theorem copy_plain {c : Codec} {args : InstArgs} {K : Nat} {s t t' : Table} (hg : GoodTable t)
    (hb : AllBlocks c t (Usual K)) (hp : AllBlocks c t PlainInvs)
    (hs : args.command = "overlay" → Source c K s ∧ AllBlocks c s PlainInvs) (hK' : K ≤ 7280)
    (ha : ExecArgs args) (hc : args.command = "clone" ∨ args.command = "overlay") (h : Ran c args s t t') :
    AllBlocks c t' PlainInvs := by
  obtain ⟨env, evs, hE, rfl, hrun, hwork, hin⟩ := h
  have hneeds := ha.needs
  unfold Needs at hneeds
  have hmild : AllBlocks env.codec t (Mild env.build) := Spec.AllBlocks.mono hb fun b u => usual_mild hK' u _
  rcases hc with hc | hc
  · rw [hc] at hneeds
    simp only at hneeds
    obtain ⟨a, harea⟩ := Option.isSome_iff_exists.1 hneeds.1
    obtain ⟨o, hoff⟩ := Option.isSome_iff_exists.1 hneeds.2
    exact copied_plain hg
      (C47_clone_partial env args t t' evs a o hE (hwork (.inl hc)) hg hc harea (ha.area a harea) hoff hmild hrun) hp hp
  · obtain ⟨p, g, hp', hgf, rfl⟩ := hin hc
    obtain ⟨S, hps⟩ := hs hc
    have hmilds : AllBlocks env.codec g.table (Mild env.build) := Spec.AllBlocks.mono S.usual fun b u => usual_mild hK' u _
    have hcase : (args.offset = none ∨ args.offset = some ⟨0, 0, 0⟩) ∨ ∃ o, args.offset = some o ∧ o ≠ ⟨0, 0, 0⟩ := by
      cases ho : args.offset with
      | none => exact .inl (.inl rfl)
      | some o =>
        by_cases hz : o = ⟨0, 0, 0⟩
        · exact .inl (.inr (by rw [hz]))
        · exact .inr ⟨o, rfl, hz⟩
    rcases hcase with hoff | ⟨o, hoff, hz⟩
    · have r : Restores env args args.area args.invert g.table :=
        ⟨hE, hwork (.inr hc), hc, ⟨p, g, hp', hgf, rfl⟩, rfl, rfl, hoff⟩
      exact overlaid_plain hg (r.overlaid ha.area hg S.good hmild hmilds hrun) hp hps
    · exact copied_plain hg
        (C51_overlay_offset_partial env args t t' evs p g o hE (hwork (.inr hc)) hg S.good hc hp' hgf ha.area hoff hz
          hmild hmilds hrun) hp hps

theorem means_every {c : Codec} {args : InstArgs} {K : Nat} {s t t' : Table} (hg : GoodTable t)
    (hb : AllBlocks c t (Usual K)) (hp : AllBlocks c t PlainInvs)
    (hs : args.command = "overlay" → Source c K s ∧ AllBlocks c s PlainInvs) (hK : 4095 ≤ K) (hK' : K ≤ 7280)
    (ha : AnyArgs args) (h : Ran c args s t t') : Means c args K s t t' ∧ AllBlocks c t' PlainInvs := by
  have hcmd : args.command = "replaceininv" ∨ args.command ∈ execCommands := by
    by_cases hv : args.command = "vacuum"
    · exact .inr (by rw [hv]; decide)
    · obtain ⟨env, evs, -, -, hrun, -⟩ := h
      obtain ⟨D⟩ := completes_done hrun hv
      exact commands_all D.cmd_ok
  rcases hcmd with hc | hc
  · obtain ⟨env, evs, hE, rfl, hrun, -, -⟩ := h
    obtain ⟨k1, k2⟩ := acts_replaceininv hE hg (Spec.AllBlocks.mono hb fun b u => u.fine) hp hc ha hrun
    refine ⟨k1.means hg (by rw [hc]; decide) ?_, k2⟩
    have hneeds := ha.needs
    unfold Needs at hneeds
    rw [hc] at hneeds
    simp only at hneeds
    obtain ⟨item, hk⟩ := Option.isSome_iff_exists.1 hneeds
    have hw := ha.item hc
    rw [hk, Option.getD_some] at hw
    exact (replaceininv_soft env args t t' evs item hE hg hc ha.area hk (endWord_suffix hw)
      (Spec.AllBlocks.mono hp fun b h => plain_invsGood h) hrun).housed hg
      (Spec.AllBlocks.mono hb fun b u => ⟨u.gen, u.modern, u.room⟩)
  · have he : ExecArgs args := ⟨hc, ha.needs, ha.area, ha.name⟩
    refine ⟨means_run hg hb (fun e => (hs e).1) hK hK' he h, ?_⟩
    rcases List.mem_cons.1 hc with h1 | h1
    · exact copy_plain hg hb hp hs hK' he (.inl h1) h
    rcases List.mem_cons.1 h1 with h1 | h1
    · exact copy_plain hg hb hp hs hK' he (.inr h1) h
    · obtain ⟨env, evs, hE, rfl, hrun, -, -⟩ := h
      exact run_plain hE hg (Spec.AllBlocks.mono hb fun b u => u.fine) hp (by omega) ⟨h1, ha.needs, ha.area, ha.name⟩ hrun

end MapEditr
