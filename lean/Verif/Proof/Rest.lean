import Verif.Spec.Rest
import Verif.Proof.Every
/-!
# What is beside the nodes
-/

namespace MapEditr
open Spec

theorem hasRest_unique {c : Codec} {t : Table} {bp : Vec3} {r r' : BlockRest} (hg : GoodTable t)
    (h : HasRest c t bp r) (h' : HasRest c t bp r') : r = r' := by
  obtain ⟨h1, d, b, h2, h3, rfl⟩ := h
  obtain ⟨-, d', b', g2, g3, rfl⟩ := h'
  rw [hasBlock_unique hg ⟨h1, d, h2, h3⟩ ⟨h1, d', g2, g3⟩]

theorem restsOf_some {c : Codec} {t : Table} (hg : GoodTable t) {bp : Vec3} {r : BlockRest} :
    restsOf c t bp = some r ↔ HasRest c t bp r := by
  unfold restsOf
  split
  · rename_i h
    have hs := Classical.choose_spec h
    constructor
    · intro e
      cases e
      exact hs
    · intro e
      rw [hasRest_unique hg hs e]
  · rename_i h
    exact ⟨nofun, fun e => absurd ⟨r, e⟩ h⟩

theorem restsOf_block {c : Codec} {t : Table} (hg : GoodTable t) {bp : Vec3} {b : MapBlock} (h : HasBlock c t bp b) :
    restsOf c t bp = some (restAt b) := by
  obtain ⟨h1, d, h2, h3⟩ := h
  exact (restsOf_some hg).2 ⟨h1, d, b, h2, h3, rfl⟩

theorem restsOf_none {c : Codec} {t : Table} {bp : Vec3} (h : ∀ b, ¬ HasBlock c t bp b) : restsOf c t bp = none := by
  unfold restsOf
  rw [dif_neg]
  rintro ⟨r, h1, d, b, h2, h3, rfl⟩
  exact h b ⟨h1, d, h2, h3⟩

theorem rest_head {b b' : MapBlock} (h : SameHead b b') (ho : b'.objects = b.objects) : restAt b' = restAt b := by
  obtain ⟨h1, h2, h3, h4⟩ := h
  unfold restAt
  rw [h1, h2, h3, h4, ho]

theorem edited_rest {c : Codec} {area : Option Area} {invert : Bool} {t t' : Table}
    {R : Vec3 → MapBlock → MapBlock → Prop} (hg : GoodTable t) (h : Edited c area invert t t' R)
    {f : Vec3 → BlockRest → BlockRest} (hR : ∀ bp b b', R bp b b' → restAt b' = f bp (restAt b)) (bp : Vec3) :
    restsOf c t' bp = (restsOf c t bp).map (f bp) := by
  have hg' := goodTable_of_edited hg h
  by_cases hx : ∃ b, HasBlock c t bp b
  · obtain ⟨b, h1, d, h2, h3⟩ := hx
    obtain ⟨d', b', f1, f2, f3⟩ := h.good bp d b h1 h2 h3
    rw [restsOf_block hg ⟨h1, d, h2, h3⟩, restsOf_block hg' ⟨h1, d', f1, f2⟩, hR bp b b' f3]
    rfl
  · rw [restsOf_none fun b hb => hx ⟨b, hb⟩, restsOf_none]
    · rfl
    · rintro b' ⟨h1, d', h2, h3⟩
      obtain ⟨d, b, f1, f2, -⟩ := edited_back h h1 h2 h3
      exact hx ⟨b, h1, d, f1, f2⟩

theorem edited_rest_id {c : Codec} {area : Option Area} {invert : Bool} {t t' : Table}
    {R : Vec3 → MapBlock → MapBlock → Prop} (hg : GoodTable t) (h : Edited c area invert t t' R)
    (hR : ∀ bp b b', R bp b b' → SameHead b b' ∧ b'.objects = b.objects) : restsOf c t' = restsOf c t := by
  funext bp
  rw [edited_rest (f := fun _ r => r) hg h (fun bp b b' e => rest_head (hR bp b b' e).1 (hR bp b b' e).2) bp]
  cases restsOf c t bp <;> rfl

theorem copied_rest {c : Codec} {o : Vec3} {src t t' : Table} (hg : GoodTable t) {Sel Reach : Vec3 → Prop}
    (h : Copied c src t t' o Sel Reach) (hgen : AllBlocks c t Generated) : restsOf c t' = restsOf c t := by
  have hg' : GoodTable t' := ⟨h.nodup, fun r hr => by
    obtain ⟨r0, h1, h2⟩ := List.mem_map.1 ((h.keys r.1).1 (List.mem_map.2 ⟨r, hr, rfl⟩))
    rw [← h2]
    exact hg.valid _ h1⟩
  funext bp
  by_cases hx : ∃ b, HasBlock c t bp b
  · obtain ⟨b, h1, d, h2, h3⟩ := hx
    obtain ⟨d', b', f1, f2, f3, -⟩ := h.good bp d b h1 h2 h3 (hgen _ _ _ h2 h3)
    rw [restsOf_block hg ⟨h1, d, h2, h3⟩, restsOf_block hg' ⟨h1, d', f1, f2⟩, rest_head f3.1 f3.2.1]
  · rw [restsOf_none fun b hb => hx ⟨b, hb⟩, restsOf_none]
    rintro b' ⟨h1, d', h2, h3⟩
    obtain ⟨⟨k, d⟩, g1, g2⟩ := List.mem_map.1 ((h.keys (keyOf bp)).1 (List.mem_map.2 ⟨_, h2, rfl⟩))
    simp only at g2
    subst g2
    have := row_unique h.nodup h2 (h.bad _ d g1 fun b hb => absurd ⟨b, h1, d, g1, hb⟩ hx)
    subst this
    exact hx ⟨b', h1, _, g1, h3⟩

/-- What `overlay` without offset makes of a block. -/
inductive LaidBlock (c : Codec) (area : Option Area) (invert : Bool) (src t t' : Table) (bp : Vec3) : Prop
  /-- the block of the source -/
  | whole (sb : MapBlock) : Whole area invert bp → HasBlock c src bp sb → HasBlock c t' bp sb → LaidBlock c area invert src t t' bp
  /-- a mixture -/
  | part (sb b b' : MapBlock) : Partly area invert bp → HasBlock c src bp sb → HasBlock c t bp b → HasBlock c t' bp b' →
      SameRest (if invert then sb else b) b' → LaidBlock c area invert src t t' bp
  /-- the same block as before -/
  | kept (b : MapBlock) : HasBlock c t bp b → HasBlock c t' bp b →
      ((∀ p, InBlock bp p → ¬ Selected area invert p) ∨ ∀ sb, ¬ HasBlock c src bp sb) → LaidBlock c area invert src t t' bp
  /-- no block, before and after -/
  | none : (∀ b, ¬ HasBlock c t bp b) → (∀ b, ¬ HasBlock c t' bp b) →
      (Whole area invert bp → ∀ sb, ¬ HasBlock c src bp sb) → LaidBlock c area invert src t t' bp

theorem laid_from {c : Codec} {area : Option Area} {invert : Bool} {K : Nat} {src t t' : Table}
    (h : Overlaid c src t t' area invert fun _ => True) (hs : Source c K src) {bp : Vec3} {d' : Bytes} {b' : MapBlock}
    (h1 : ValidBlockPos bp) (h2 : (keyOf bp, d') ∈ t') (h3 : Represents c d' b')
    (hno : Whole area invert bp → ∀ sb, ¬ HasBlock c src bp sb) : ∃ b, HasBlock c t bp b := by
  rcases h.added _ _ h2 with hk | ⟨k1, -, bp', k2, k3, k4⟩
  · obtain ⟨⟨k, d⟩, g1, g2⟩ := List.mem_map.1 hk
    simp only at g2
    subst g2
    by_cases hx : ∃ b, Represents c d b
    · obtain ⟨b, hx⟩ := hx
      exact ⟨b, h1, d, g1, hx⟩
    · by_cases ho : Overridden c src area invert (fun _ => True) bp d
      · rcases ho with ⟨k1, sd, k2, k3⟩ | ⟨-, sd, sb, b, -, -, -, k4, -⟩
        · obtain ⟨sb, k4⟩ := hs.readable _ k2
          exact absurd ⟨h1, sd, k2, k4⟩ (hno k1 sb)
        · exact absurd ⟨b, k4⟩ hx
      · have := row_unique h.nodup h2 (h.kept bp d h1 g1 ho)
        subst this
        exact absurd ⟨_, h3⟩ hx
  · have : bp' = bp := by
      have e1 := fromBlockKey_keyOf bp' k2
      rw [k3, fromBlockKey_keyOf bp h1] at e1
      exact e1.symm
    subst this
    exact absurd ⟨h1, d', k1, h3⟩ (hno k4 b')

theorem overlaid_block {c : Codec} (hl : c.Lawful) {area : Option Area} {invert : Bool} {K : Nat}
    {src t t' : Table} (hs : Source c K src) (hgen : AllBlocks c t Generated)
    (h : Overlaid c src t t' area invert fun _ => True) (bp : Vec3) : LaidBlock c area invert src t t' bp := by
  have hkept : ∀ bp b, HasBlock c t bp b → (Whole area invert bp → ∀ sb, ¬ HasBlock c src bp sb) →
      (Partly area invert bp → ∀ sb, ¬ HasBlock c src bp sb) → HasBlock c t' bp b := by
    rintro bp b ⟨h1, d, h2, h3⟩ hw hp
    refine ⟨h1, d, h.kept bp d h1 h2 ?_, h3⟩
    rintro (⟨k1, sd, k2, -⟩ | ⟨k1, sd, sb, -, k2, k3, -⟩)
    · obtain ⟨sb, k3⟩ := hs.readable _ k2
      exact hw k1 sb ⟨h1, sd, k2, k3⟩
    · exact hp k1 sb ⟨h1, sd, k2, k3⟩
  by_cases hS : ∃ sb, HasBlock c src bp sb
  · obtain ⟨sb, hsb⟩ := hS
    by_cases hw : Whole area invert bp
    · obtain ⟨h1, sd, h2, h3⟩ := hsb
      exact .whole sb hw ⟨h1, sd, h2, h3⟩
        ⟨h1, sd, h.whole bp sd h1 h2 hw (genData_of hl h3 (hs.usual _ _ _ h2 h3).gen), h3⟩
    · by_cases hx : ∃ b, HasBlock c t bp b
      · obtain ⟨b, hb⟩ := hx
        by_cases hp : Partly area invert bp
        · obtain ⟨h1, d, h2, h3⟩ := id hb
          obtain ⟨-, sd, g2, g3⟩ := id hsb
          obtain ⟨d', b', f1, f2, f3, -, -⟩ := h.part bp sd sb d b h1 g2 g3 trivial h2 h3 (hgen _ _ _ h2 h3) hp
          exact .part sb b b' hp hsb hb ⟨h1, d', f1, f2⟩ f3
        · refine .kept b hb (hkept bp b hb (fun e => absurd e hw) fun e => absurd e hp) (.inl fun p hi hsel => ?_)
          exact hp ⟨⟨p, hi, hsel⟩, Classical.byContradiction fun hn => hw fun q hq =>
            Classical.byContradiction fun hn' => hn ⟨q, hq, hn'⟩⟩
      · refine .none (fun b hb => hx ⟨b, hb⟩) ?_ fun e => absurd e hw
        rintro b' ⟨h1, d', h2, h3⟩
        exact hx (laid_from h hs h1 h2 h3 (fun e => absurd e hw))
  · by_cases hx : ∃ b, HasBlock c t bp b
    · obtain ⟨b, hb⟩ := hx
      exact .kept b hb (hkept bp b hb (fun _ sb e => hS ⟨sb, e⟩) fun _ sb e => hS ⟨sb, e⟩) (.inr fun sb e => hS ⟨sb, e⟩)
    · refine .none (fun b hb => hx ⟨b, hb⟩) ?_ fun _ sb e => hS ⟨sb, e⟩
      rintro b' ⟨h1, d', h2, h3⟩
      exact hx (laid_from h hs h1 h2 h3 fun _ sb e => hS ⟨sb, e⟩)

open Classical in
theorem overlaid_rest {c : Codec} (hl : c.Lawful) {area : Option Area} {invert : Bool} {K : Nat}
    {src t t' : Table} (hg : GoodTable t) (hg' : GoodTable t') (hs : Source c K src) (hgen : AllBlocks c t Generated)
    (h : Overlaid c src t t' area invert fun _ => True) (bp : Vec3) :
    restsOf c t' bp = if Whole area invert bp then
        match restsOf c src bp with
        | some r => some r
        | none => restsOf c t bp
      else if Spec.Touched area invert bp ∧ invert then
        match restsOf c src bp, restsOf c t bp with
        | some r, some _ => some r
        | _, w => w
      else restsOf c t bp := by
  rcases overlaid_block hl hs hgen h bp with ⟨sb, h1, h2, h3⟩ | ⟨sb, b, b', h1, h2, h3, h4, h5⟩ | ⟨b, h1, h2, h3⟩ | ⟨h1, h2, h3⟩
  · rw [if_pos h1, restsOf_block hs.good h2, restsOf_block hg' h3]
  · have hw : ¬ Whole area invert bp := fun e => by
      obtain ⟨-, q, hq, hn⟩ := h1
      exact hn (e q hq)
    rw [if_neg hw, restsOf_block hs.good h2, restsOf_block hg h3, restsOf_block hg' h4, rest_head h5.1 h5.2.1]
    cases invert with
    | false =>
      refine Eq.trans ?_ (if_neg (fun e => absurd e.2 (by decide))).symm
      rfl
    | true =>
      refine Eq.trans ?_ (if_pos ⟨h1.1, rfl⟩).symm
      rfl
  · rw [restsOf_block hg h1, restsOf_block hg' h2]
    rcases h3 with h3 | h3
    · have ht : ¬ Spec.Touched area invert bp := fun ⟨p, e1, e2⟩ => h3 p e1 e2
      have hw : ¬ Whole area invert bp := fun e => ht ⟨_, posAt_inBlock bp (i := 0) (by omega), e _ (posAt_inBlock bp (by omega))⟩
      rw [if_neg hw, if_neg fun e => ht e.1]
    · rw [restsOf_none h3]
      split
      · rfl
      · split <;> rfl
  · rw [restsOf_none h1, restsOf_none h2]
    split
    · rename_i hw
      rw [restsOf_none (h3 hw)]
    · split
      · cases restsOf c src bp <;> rfl
      · rfl

theorem without_list {P : α → Prop} {l l' : List α} (h : Without P l l') [DecidablePred P] :
    l' = l.filter fun a => ¬ P a := by
  have := without_eq h (fun _ => True)
  simp only [true_and] at this
  rw [← this]
  exact (List.filter_eq_self.2 (by simp)).symm

/-- Commands that change nodes only. -/
theorem rest_same {c : Codec} {args : InstArgs} {s t t' : Table} (h : restsOf c t' = restsOf c t)
    (hc : args.command ≠ "deleteobjects") (hc' : args.command ≠ "deleteblocks") (ho : args.command = "overlay" →
      args.offset.getD ⟨0, 0, 0⟩ ≠ ⟨0, 0, 0⟩) : restsOf c t' = restMeaning args (restsOf c s) (restsOf c t) := by
  rw [h]
  funext bp
  unfold restMeaning
  split
  · rename_i e; exact absurd e hc
  · rename_i e; exact absurd e hc'
  · rename_i e; rw [if_pos (ho e)]
  · rfl

section
variable {env : Env} {args : InstArgs} {t t' : Table} {evs : List Event} {K : Nat}

open Classical in
/-- What the commands other than `clone`, `overlay` and `replaceininv` do beside the nodes. -/
theorem run_rest {s : Table} (hE : EnvOk env) (hg : GoodTable t) (hf : AllBlocks env.codec t (Fine K))
    (hK' : K ≤ 65533) (hn : NodeArgs args) (h : Completes env args t t' evs) :
    restsOf env.codec t' = restMeaning args (restsOf env.codec s) (restsOf env.codec t) := by
  have hneeds := hn.needs
  unfold Needs at hneeds
  have hc := hn.command
  have hu : AllBlocks env.codec t UniqueNames := Spec.AllBlocks.mono hf fun b f => f.unique
  have hsame : restsOf env.codec t' = restsOf env.codec t → args.command ≠ "deleteobjects" ∧
      args.command ≠ "deleteblocks" ∧ args.command ≠ "overlay" →
      restsOf env.codec t' = restMeaning args (restsOf env.codec s) (restsOf env.codec t) :=
    fun e h => rest_same e h.1 h.2.1 fun e => absurd e h.2.2
  unfold nodeCommands at hc
  simp only [List.mem_cons, List.not_mem_nil, or_false] at hc
  rcases hc with hc | hc | hc | hc | hc | hc | hc | hc | hc <;> rw [hc] at hneeds <;> (try simp only at hneeds)
  · obtain ⟨a, ha⟩ := Option.isSome_iff_exists.1 hneeds.1
    obtain ⟨n, hnode⟩ := Option.isSome_iff_exists.1 hneeds.2
    exact hsame (edited_rest_id hg (fill_edited env args t t' evs a n hE hg hc ha (hn.area a ha) hnode h)
      fun bp b b' hR => ⟨hR.1.1, hR.1.2.2.1⟩) (by rw [hc]; decide)
  · obtain ⟨old, ho⟩ := Option.isSome_iff_exists.1 hneeds.1
    obtain ⟨new, hnode⟩ := Option.isSome_iff_exists.1 hneeds.2
    exact hsame (edited_rest_id hg (C35_replacenodes_exact_partial env args t t' evs old new hE hg hc hn.area ho hnode
      (fun k d b hk hd => ⟨(hf k d b hk hd).unique, by
        have := nimap_length_le (wf_of_represents hd).nimap.sorted (hf k d b hk hd).small
        omega, fun _ e he => by have := (hf k d b hk hd).small e he; omega⟩) h)
      fun bp b b' hR => ⟨hR.1.1, hR.1.2.2.1⟩) (by rw [hc]; decide)
  · obtain ⟨val, hv⟩ := Option.isSome_iff_exists.1 hneeds
    exact hsame (edited_rest_id hg (C37_setparam2 env args t t' evs val hE hg hc hv hn.area (fun _ => hu) h)
      fun bp b b' hR => ⟨hR.1, hR.2.2.1⟩) (by rw [hc]; decide)
  · exact hsame (edited_rest_id hg (C40_deletemeta env args t t' evs hE hg hc hn.area (fun _ => hu) h)
      fun bp b b' hR => ⟨hR.1, hR.2.2.1⟩) (by rw [hc]; decide)
  · exact hsame (edited_rest_id hg (C42_deletetimers env args t t' evs hE hg hc hn.area (fun _ => hu) h)
      fun bp b b' hR => ⟨hR.1, hR.2.2.2.1⟩) (by rw [hc]; decide)
  · obtain ⟨key, hk⟩ := Option.isSome_iff_exists.1 hneeds
    exact hsame (edited_rest_id hg (C41_setmetavar env args t t' evs key hE hg hc hn.area hk (fun _ => hu) h)
      fun bp b b' hR => ⟨hR.1, hR.2.2.1⟩) (by rw [hc]; decide)
  · funext bp
    unfold restMeaning
    rw [hc]
    simp only
    refine edited_rest (f := fun bp r => { r with objects := r.objects.filter fun o => ¬ ObjectGoes args bp o })
      hg (C43_deleteobjects env args t t' evs hE hg hc hn.area h) ?_ bp
    rintro bp b b' ⟨⟨g1, g2, g3, g4⟩, -, -, -, g5⟩
    unfold restAt
    simp only [g1, g2, g3, g4]
    congr 1
    exact without_list g5
  · obtain ⟨k1, k2, k3⟩ := C39_deleteblocks env args t t' evs hg hc hn.area h
    have hg' : GoodTable t' := ⟨k1, fun r hr => hg.valid r (k2 r hr)⟩
    funext bp
    unfold restMeaning
    rw [hc]
    simp only
    by_cases hx : ∃ b, HasBlock env.codec t bp b
    · obtain ⟨b, h1, d, h2, h3⟩ := hx
      by_cases hw : Whole args.area args.invert bp
      · rw [if_pos hw]
        refine restsOf_none ?_
        rintro b' ⟨-, d', g2, -⟩
        exact (k3 bp d h1 h2).1 hw (List.mem_map.2 ⟨_, g2, rfl⟩)
      · rw [if_neg hw, restsOf_block hg ⟨h1, d, h2, h3⟩]
        refine restsOf_block hg' ⟨h1, d, (k3 bp d h1 h2).2 ?_, h3⟩
        exact Classical.byContradiction fun hn => hw fun p hp => Classical.byContradiction fun hs => hn ⟨p, hp, hs⟩
    · rw [restsOf_none (t := t) fun b hb => hx ⟨b, hb⟩, restsOf_none]
      · split <;> rfl
      · rintro b' ⟨h1, d', h2, h3⟩
        exact hx ⟨b', h1, d', k2 _ h2, h3⟩
  · refine hsame ?_ (by rw [hc]; decide)
    rw [C53_vacuum env args t t' evs hc h]

end

/-- Every command does to what is beside the nodes what `restMeaning` says. -/
theorem rest_every {c : Codec} {args : InstArgs} {K : Nat} {s t t' : Table} (hg : GoodTable t)
    (hb : AllBlocks c t (Usual K)) (hp : args.command = "replaceininv" → AllBlocks c t PlainInvs)
    (hs : args.command = "overlay" → Source c K s) (hK : 4095 ≤ K) (hK' : K ≤ 7280)
    (ha : AnyArgs args) (h : Ran c args s t t') : restsOf c t' = restMeaning args (restsOf c s) (restsOf c t) := by
  have hcmd : args.command = "replaceininv" ∨ args.command ∈ execCommands := by
    by_cases hv : args.command = "vacuum"
    · exact .inr (by rw [hv]; decide)
    · obtain ⟨env, evs, -, -, hrun, -⟩ := h
      obtain ⟨D⟩ := completes_done hrun hv
      exact commands_all D.cmd_ok
  have hgen : AllBlocks c t Generated := Spec.AllBlocks.mono hb fun b u => u.gen
  have hneeds := ha.needs
  unfold Needs at hneeds
  rcases hcmd with hc | hc
  · obtain ⟨env, evs, hE, rfl, hrun, -, -⟩ := h
    rw [hc] at hneeds
    simp only at hneeds
    obtain ⟨item, hk⟩ := Option.isSome_iff_exists.1 hneeds
    have hw := ha.item hc
    rw [hk, Option.getD_some] at hw
    refine rest_same (edited_rest_id hg (C46_replaceininv_partial env args t t' evs item hE hg hc ha.area hk (endWord_suffix hw)
      (fun _ => Spec.AllBlocks.mono hb fun b f => f.fine.unique)
      (Spec.AllBlocks.mono (hp hc) fun b h => plain_invsGood h) hrun) fun bp b b' hR => ⟨hR.1, hR.2.2.1⟩)
      (by rw [hc]; decide) (by rw [hc]; decide) fun e => by rw [hc] at e; exact absurd e (by decide)
  · have he : ExecArgs args := ⟨hc, ha.needs, ha.area, ha.name⟩
    have M := means_run hg hb hs hK hK' he h
    obtain ⟨env, evs, hE, rfl, hrun, hwork, hin⟩ := h
    have hmild : AllBlocks env.codec t (Mild env.build) := Spec.AllBlocks.mono hb fun b u => usual_mild hK' u _
    rcases List.mem_cons.1 hc with h1 | h1
    · rw [h1] at hneeds
      simp only at hneeds
      obtain ⟨a, harea⟩ := Option.isSome_iff_exists.1 hneeds.1
      obtain ⟨o, hoff⟩ := Option.isSome_iff_exists.1 hneeds.2
      exact rest_same (copied_rest hg
        (C47_clone_partial env args t t' evs a o hE (hwork (.inl h1)) hg h1 harea (ha.area a harea) hoff hmild hrun) hgen)
        (by rw [h1]; decide) (by rw [h1]; decide) fun e => by rw [h1] at e; exact absurd e (by decide)
    rcases List.mem_cons.1 h1 with hc | h1
    · obtain ⟨p, g, hp', hgf, rfl⟩ := hin hc
      have S := hs hc
      have hmilds : AllBlocks env.codec g.table (Mild env.build) := Spec.AllBlocks.mono S.usual fun b u => usual_mild hK' u _
      have hcase : (args.offset = none ∨ args.offset = some ⟨0, 0, 0⟩) ∨ ∃ o, args.offset = some o ∧ o ≠ ⟨0, 0, 0⟩ := by
        cases ho : args.offset with
        | none => exact .inl (.inl rfl)
        | some o =>
          by_cases hz : o = ⟨0, 0, 0⟩
          · exact .inl (.inr (by rw [hz]))
          · exact .inr ⟨o, rfl, hz⟩
      rcases hcase with hoff | ⟨o, hoff, hz⟩
      · have r : Restores env args args.area args.invert g.table :=
          ⟨hE, hwork (.inr hc), hc, ⟨p, g, hp', hgf, rfl⟩, rfl, rfl, hoff⟩
        have k := overlaid_rest hE.codec hg M.good S hgen (r.overlaid ha.area hg S.good hmild hmilds hrun)
        funext bp
        unfold restMeaning
        rw [hc]
        simp only
        rw [if_neg (by rcases hoff with e | e <;> rw [e] <;> simp)]
        exact k bp
      · exact rest_same (copied_rest hg
          (C51_overlay_offset_partial env args t t' evs p g o hE (hwork (.inr hc)) hg S.good hc hp' hgf ha.area hoff hz
            hmild hmilds hrun) hgen)
          (by rw [hc]; decide) (by rw [hc]; decide) fun _ => by rw [hoff]; exact hz
    · exact run_rest hE hg (Spec.AllBlocks.mono hb fun b u => u.fine) (by omega) ⟨h1, ha.needs, ha.area, ha.name⟩ hrun

end MapEditr
