import Verif.Spec.Session
import Verif.Props.Again
import Verif.Props.DeleteBlocks
import Verif.Props.DeleteObjects
import Verif.Props.Tidy
import Verif.Props.Undo
/-!
# Commands as functions on nodes
-/

namespace MapEditr
open Spec

/-- One run does to the nodes what `edit` says. -/
structure Acts (c : Codec) (args : InstArgs) (K : Nat) (t t' : Table) : Prop where
  good : GoodTable t'
  fine : AllBlocks c t' (Fine (K + 1))
  node : ∀ p v', HasNode c t' p v' ↔ Remains args p ∧ ∃ v, HasNode c t p v ∧ edit args p v = v'

theorem fine_mono {K L : Nat} (h : K ≤ L) {b : MapBlock} (f : Fine K b) : Fine L b :=
  ⟨f.unique, f.named, fun e he => Nat.le_trans (f.small e he) h⟩

theorem fine_nodes {K : Nat} {b b' : MapBlock} (hs : SameNodes b b') (f : Fine K b) : Fine K b' := by
  obtain ⟨h1, h2⟩ := hs
  obtain ⟨f1, f2, f3⟩ := f
  refine ⟨?_, ?_, ?_⟩
  · unfold UniqueNames at *; rw [h2]; exact f1
  · unfold Named at *; rw [h1, h2]; exact f2
  · rw [h2]; exact f3

theorem acts_edited {c : Codec} {args : InstArgs} {K : Nat} {t t' : Table} {R : Vec3 → MapBlock → MapBlock → Prop}
    (hg : GoodTable t) (hf : AllBlocks c t (Fine K)) (hc : args.command ≠ "deleteblocks")
    (h : Edited c args.area args.invert t t' R)
    (hR : ∀ bp b b', Wf b → Fine K b → R bp b b' →
      Fine (K + 1) b' ∧ ∀ i, i < 4096 → viewAt b' i = edit args (posAt bp i) (viewAt b i)) : Acts c args K t t' := by
  have hg' := goodTable_of_edited hg h
  refine ⟨hg', ?_, fun p v' => ⟨?_, ?_⟩⟩
  · intro k d' b' hk hr
    obtain ⟨bp, h1, h2, -⟩ := row_pos hg' hk
    simp only at h2
    subst h2
    obtain ⟨d, b, f1, f2, f3⟩ := edited_back h h1 hk hr
    exact (hR bp b b' (wf_of_represents f2) (hf _ _ _ f1 f2) f3).1
  · rintro ⟨bp, d', b', i, h1, h2, h3, h4, rfl, rfl⟩
    obtain ⟨d, b, f1, f2, f3⟩ := edited_back h h1 h2 h3
    exact ⟨fun e => absurd e hc, viewAt b i, ⟨bp, d, b, i, h1, f1, f2, h4, rfl, rfl⟩,
      ((hR bp b b' (wf_of_represents f2) (hf _ _ _ f1 f2) f3).2 i h4).symm⟩
  · rintro ⟨-, v, ⟨bp, d, b, i, h1, h2, h3, h4, rfl, rfl⟩, rfl⟩
    obtain ⟨d', b', f1, f2, f3⟩ := h.good bp d b h1 h2 h3
    exact ⟨bp, d', b', i, h1, f1, f2, h4, rfl,
      ((hR bp b b' (wf_of_represents h3) (hf _ _ _ h2 h3) f3).2 i h4).symm⟩

theorem edited_and {c : Codec} {area : Option Area} {invert : Bool} {t t' : Table}
    {R S : Vec3 → MapBlock → MapBlock → Prop} (h1 : Edited c area invert t t' R) (h2 : Edited c area invert t t' S) :
    Edited c area invert t t' fun bp b b' => R bp b b' ∧ S bp b b' := by
  refine ⟨h1.nodup, h1.keys, h1.bad, h1.outside, fun bp d b k1 k2 k3 => ?_⟩
  obtain ⟨d', b', f1, f2, f3⟩ := h1.good bp d b k1 k2 k3
  obtain ⟨d'', b'', g1, g2, g3⟩ := h2.good bp d b k1 k2 k3
  have := row_unique h1.nodup f1 g1
  subst this
  have := represents_unique f2 g2
  subst this
  exact ⟨_, _, f1, f2, f3, g3⟩

/-! ## Parts of a node -/

theorem name_nodes {b b' : MapBlock} (h : SameNodes b b') (i : Nat) : nodeName b' i = nodeName b i := by
  unfold nodeName
  rw [h.1, h.2]

/-- Metadata as `viewAt` shows it. -/
def seenMeta (b : MapBlock) (m : Option NodeMeta) : Option NodeMeta := if b.version < 28 then m.map publish else m

theorem seen_saved {b : MapBlock} {m m' : Option NodeMeta} (h : SavedMeta b m m') : seenMeta b m' = seenMeta b m := by
  unfold seenMeta
  rcases h with h | ⟨h1, h2⟩
  · rw [h]
  · rw [if_pos h1, if_pos h1, h2, Option.map_map]
    congr 1
    funext m
    exact publish_publish m

theorem md_view {b b' : MapBlock} {i : Nat} {m : Option NodeMeta} (hv : b'.version = b.version)
    (h : SavedMeta b m (metaOf b' i)) : (viewAt b' i).md = seenMeta b m := by
  rw [← seen_saved h]
  unfold viewAt seenMeta
  simp only [hv]

theorem view_of {b' : MapBlock} {i : Nat} {v : NodeView} (h1 : nodeName b' i = v.name)
    (h2 : b'.nd.param1[i]? = v.param1) (h3 : b'.nd.param2[i]? = v.param2) (h4 : (viewAt b' i).md = v.md)
    (h5 : (viewAt b' i).timers = v.timers) : viewAt b' i = v := by
  cases v
  unfold viewAt at h4 h5 ⊢
  simp only at h1 h2 h3 h4 h5
  rw [h1, h2, h3, h4, h5]

theorem timers_view {b b' : MapBlock} (h : b'.timers = b.timers) (i : Nat) : (viewAt b' i).timers = (viewAt b i).timers := by
  unfold viewAt
  simp only [h]

theorem ofKind_view (b : MapBlock) (i : Nat) (node : Option String) :
    (viewAt b i).OfKind node ↔ IsNode b (node.map toBytes) i := by
  unfold NodeView.OfKind IsNode viewAt
  cases node with
  | none => simp
  | some n => simp

theorem ofKinds_view (b : MapBlock) (i : Nat) (nodes : List String) :
    (viewAt b i).OfKinds nodes ↔ AmongNodes b (nodes.map toBytes) i := by
  unfold NodeView.OfKinds AmongNodes viewAt
  rw [List.map_eq_nil_iff]
  refine or_congr Iff.rfl ⟨?_, ?_⟩
  · rintro ⟨n, h1, h2⟩
    exact ⟨_, List.mem_map.2 ⟨n, h1, rfl⟩, h2⟩
  · rintro ⟨n, h1, h2⟩
    obtain ⟨n, h3, rfl⟩ := List.mem_map.1 h1
    exact ⟨n, h3, h2⟩

theorem seen_visible {b : MapBlock} (m : Option NodeMeta) (key : Bytes) (v : Option Bytes) :
    seenMeta b (visible (m.map (varEdit key v))) = visible ((seenMeta b m).map (varEdit key v)) := by
  unfold seenMeta
  split
  · cases m with
    | none => rfl
    | some m =>
      unfold visible
      simp only [Option.map_some, publish_varEdit, Option.filter_some, void_publish]
      split <;> simp
  · rfl

theorem without_eq {P : α → Prop} {l l' : List α} (h : Without P l l') (Q : α → Prop) [DecidablePred Q]
    [DecidablePred P] : l'.filter (fun a => Q a) = l.filter fun a => Q a ∧ ¬ P a := by
  induction h with
  | nil => rfl
  | drop h _ ih => rw [ih, List.filter_cons_of_neg]; simp [h]
  | @keep a l l' h _ ih =>
    by_cases hq : Q a
    · rw [List.filter_cons_of_pos (by simpa using hq), List.filter_cons_of_pos (by simp [hq, h]), ih]
    · rw [List.filter_cons_of_neg (by simpa using hq), List.filter_cons_of_neg (by simp [hq]), ih]

theorem pair_unique {l : List (Nat × Bytes)} (h : (l.map (·.2)).Nodup) {i j : Nat} {n : Bytes} (hi : (i, n) ∈ l)
    (hj : (j, n) ∈ l) : i = j := by
  induction l with
  | nil => cases hi
  | cons e l ih =>
    rw [List.map_cons, List.nodup_cons] at h
    rcases List.mem_cons.1 hi with rfl | hi'
    · rcases List.mem_cons.1 hj with h' | hj'
      · exact (congrArg Prod.fst h').symm
      · exact absurd (List.mem_map.2 ⟨_, hj', rfl⟩) h.1
    · rcases List.mem_cons.1 hj with rfl | hj'
      · exact absurd (List.mem_map.2 ⟨_, hi', rfl⟩) h.1
      · exact ih h.2 hi' hj'

theorem tidy_unique {b : MapBlock} (h : Tidy b) : UniqueNames b := by
  intro i j n hi hj
  exact pair_unique h.names (SMap.get?_some_mem hi) (SMap.get?_some_mem hj)

theorem edit_skip {args : InstArgs} {p : Vec3} (h : ¬ Selected args.area args.invert p) (v : NodeView) :
    edit args p v = v := by
  unfold edit
  rw [if_neg h]

theorem edit_hit {args : InstArgs} {p : Vec3} (h : Selected args.area args.invert p) (v : NodeView) :
    edit args p v = match args.command with
      | "fill" => { v with name := args.newNode.map toBytes }
      | "replacenodes" => if v.name = args.node.map toBytes then { v with name := args.newNode.map toBytes } else v
      | "setparam2" => if v.OfKind args.node then { v with param2 := args.param2 } else v
      | "deletemeta" => if v.OfKind args.node then { v with md := none } else v
      | "deletetimers" => if v.OfKind args.node then { v with timers := [] } else v
      | "setmetavar" =>
        if v.OfKinds args.nodes then
          { v with md := visible (v.md.map (varEdit (toBytes (args.key.getD ""))
            (if args.delete then none else some (toBytes (args.value.getD ""))))) }
        else v
      | "replaceininv" =>
        if v.OfKinds args.nodes then
          { v with md := v.md.map (stacksEdit (toBytes (args.item.getD ""))
            (newItemOf args (toBytes (args.item.getD ""))) args.deleteMeta) }
        else v
      | _ => v :=
  if_pos h

section
variable {env : Env} {args : InstArgs} {t t' : Table} {evs : List Event} {K : Nat}

theorem acts_fill (hE : EnvOk env) (hg : GoodTable t) (hf : AllBlocks env.codec t (Fine K)) (hK : 4095 ≤ K)
    (hc : args.command = "fill") (hn : NodeArgs args) (h : Completes env args t t' evs) :
    Acts env.codec args K t t' := by
  have hneeds := hn.needs
  unfold Needs at hneeds
  rw [hc] at hneeds
  obtain ⟨ha, hnode⟩ := hneeds
  obtain ⟨a, ha⟩ := Option.isSome_iff_exists.1 ha
  obtain ⟨node, hnode⟩ := Option.isSome_iff_exists.1 hnode
  have k := fill_edited env args t t' evs a node hE hg hc ha (hn.area a ha) hnode h
  rw [← ha] at k
  refine acts_edited hg hf (by rw [hc]; decide) k ?_
  rintro bp b b' hwf hfine ⟨⟨h1, h2, h3, h4, h5, h6, h7⟩, h8, h9⟩
  refine ⟨?_, fun i hi => ?_⟩
  · by_cases hs : ∃ i, i < 4096 ∧ Selected args.area args.invert (posAt bp i)
    · obtain ⟨-, g2, g3, g4⟩ := h8 hs
      exact ⟨tidy_unique g4, g2, fun e he => by have := g3 e he; omega⟩
    · rw [h9 fun i hi hsel => hs ⟨i, hi, hsel⟩]
      exact fine_mono (by omega) hfine
  · have hrest : b'.nd.param1[i]? = (viewAt b i).param1 ∧ b'.nd.param2[i]? = (viewAt b i).param2 ∧
        (viewAt b' i).md = (viewAt b i).md ∧ (viewAt b' i).timers = (viewAt b i).timers :=
      ⟨by rw [h5]; rfl, by rw [h6]; rfl, md_view h1.1 (h2 i), timers_view h4 i⟩
    obtain ⟨r1, r2, r3, r4⟩ := hrest
    by_cases hs : Selected args.area args.invert (posAt bp i)
    · rw [edit_hit hs, hc]
      refine view_of ?_ r1 r2 r3 r4
      rw [(h7 i hi).1 (by rw [← ha]; exact hs), hnode]
      rfl
    · rw [edit_skip hs]
      refine view_of ?_ r1 r2 r3 r4
      obtain ⟨name, hname⟩ := named_node hwf.nodes.1 hfine.named hi
      rw [(h7 i hi).2 (by rw [← ha]; exact hs) name hname]
      exact hname.symm

theorem acts_replacenodes (hE : EnvOk env) (hg : GoodTable t) (hf : AllBlocks env.codec t (Fine K)) (hK : K ≤ 65533)
    (hc : args.command = "replacenodes") (hn : NodeArgs args) (h : Completes env args t t' evs) :
    Acts env.codec args K t t' := by
  have hneeds := hn.needs
  unfold Needs at hneeds
  rw [hc] at hneeds
  obtain ⟨ho, hnode⟩ := hneeds
  obtain ⟨old, ho⟩ := Option.isSome_iff_exists.1 ho
  obtain ⟨new, hnode⟩ := Option.isSome_iff_exists.1 hnode
  have k1 := C35_replacenodes_exact_partial env args t t' evs old new hE hg hc hn.area ho hnode
    (fun k d b hk hd => ⟨(hf k d b hk hd).unique, by
      have := nimap_length_le (wf_of_represents hd).nimap.sorted (hf k d b hk hd).small
      omega, fun _ e he => by have := (hf k d b hk hd).small e he; omega⟩) h
  have k2 := C35_replacenodes_names env args t t' evs old new K hE hg hc hn.area ho hnode (hn.name new hnode) hK
    (fun k d b hk hd => ⟨(hf k d b hk hd).unique, (hf k d b hk hd).named, (hf k d b hk hd).small⟩) h
  have k := edited_and k1 k2
  refine acts_edited hg hf (by rw [hc]; decide) k ?_
  rintro bp b b' hwf hfine ⟨⟨⟨h1, h2, h3, h4, h5, h6⟩, h7⟩, g1, g2, g3⟩
  refine ⟨⟨g1, g2, g3⟩, fun i hi => ?_⟩
  have hrest : b'.nd.param1[i]? = (viewAt b i).param1 ∧ b'.nd.param2[i]? = (viewAt b i).param2 ∧
      (viewAt b' i).md = (viewAt b i).md ∧ (viewAt b' i).timers = (viewAt b i).timers :=
    ⟨by rw [h5]; rfl, by rw [h6]; rfl, md_view h1.1 (h2 i), timers_view h4 i⟩
  obtain ⟨r1, r2, r3, r4⟩ := hrest
  have h8 := h7 hfine.named i hi
  by_cases hs : Selected args.area args.invert (posAt bp i)
  · rw [edit_hit hs, hc]
    simp only
    by_cases hx : (viewAt b i).name = args.node.map toBytes
    · rw [if_pos hx]
      refine view_of ?_ r1 r2 r3 r4
      rw [ho] at hx
      rw [h8, if_pos ⟨hs, hx⟩, hnode]
      rfl
    · rw [if_neg hx]
      refine view_of ?_ r1 r2 r3 r4
      rw [ho] at hx
      rw [h8, if_neg fun e => hx e.2]
      rfl
  · rw [edit_skip hs]
    refine view_of ?_ r1 r2 r3 r4
    rw [h8, if_neg fun e => hs e.1]
    rfl

theorem acts_setparam2 (hE : EnvOk env) (hg : GoodTable t) (hf : AllBlocks env.codec t (Fine K))
    (hc : args.command = "setparam2") (hn : NodeArgs args) (h : Completes env args t t' evs) :
    Acts env.codec args K t t' := by
  have hneeds := hn.needs
  unfold Needs at hneeds
  rw [hc] at hneeds
  obtain ⟨val, hv⟩ := Option.isSome_iff_exists.1 hneeds
  have k := C37_setparam2 env args t t' evs val hE hg hc hv hn.area
    (fun _ k d b hk hd => (hf k d b hk hd).unique) h
  refine acts_edited hg hf (by rw [hc]; decide) k ?_
  rintro bp b b' hwf hfine ⟨h1, h2, h3, h4, h5, h6, h7, h8⟩
  have hname : ∀ i, nodeName b' i = nodeName b i := fun i => by unfold nodeName; rw [h5, h6]
  refine ⟨fine_mono (K := K) (by omega) ⟨?_, ?_, ?_⟩, fun i hi => ?_⟩
  · have := hfine.unique; unfold UniqueNames at *; rw [h5]; exact this
  · have := hfine.named; unfold Named at *; rw [h5, h6]; exact this
  · rw [h5]; exact hfine.small
  · have h9 := h8 i hi
    have r1 := hname i
    have r2 : b'.nd.param1[i]? = (viewAt b i).param1 := by rw [h7]; rfl
    have r3 : (viewAt b' i).md = (viewAt b i).md := md_view h1.1 (h2 i)
    have r4 := timers_view h4 i
    by_cases hs : Selected args.area args.invert (posAt bp i)
    · rw [edit_hit hs, hc]
      simp only
      by_cases hx : (viewAt b i).OfKind args.node
      · rw [if_pos hx]
        refine view_of r1 r2 ?_ r3 r4
        rw [h9, if_pos ⟨hs, (ofKind_view b i _).1 hx⟩, hv]
      · rw [if_neg hx]
        refine view_of r1 r2 ?_ r3 r4
        rw [h9, if_neg fun e => hx ((ofKind_view b i _).2 e.2)]
        rfl
    · rw [edit_skip hs]
      refine view_of r1 r2 ?_ r3 r4
      rw [h9, if_neg fun e => hs e.1]
      rfl

theorem acts_deletemeta (hE : EnvOk env) (hg : GoodTable t) (hf : AllBlocks env.codec t (Fine K))
    (hc : args.command = "deletemeta") (hn : NodeArgs args) (h : Completes env args t t' evs) :
    Acts env.codec args K t t' := by
  have k := C40_deletemeta env args t t' evs hE hg hc hn.area (fun _ k d b hk hd => (hf k d b hk hd).unique) h
  refine acts_edited hg hf (by rw [hc]; decide) k ?_
  rintro bp b b' hwf hfine ⟨h1, h2, h3, h4, h5⟩
  refine ⟨fine_mono (by omega) (fine_nodes h2 hfine), fun i hi => ?_⟩
  have h9 := md_view h1.1 (h5 i)
  rw [Nat.mod_eq_of_lt hi] at h9
  have r1 := name_nodes h2 i
  have r2 : b'.nd.param1[i]? = (viewAt b i).param1 := by rw [h2.1]; rfl
  have r3 : b'.nd.param2[i]? = (viewAt b i).param2 := by rw [h2.1]; rfl
  have r4 := timers_view h4 i
  by_cases hs : Selected args.area args.invert (posAt bp i)
  · rw [edit_hit hs, hc]
    simp only
    by_cases hx : (viewAt b i).OfKind args.node
    · rw [if_pos hx]
      refine view_of r1 r2 r3 ?_ r4
      rw [h9, if_pos ⟨hs, (ofKind_view b i _).1 hx⟩]
      unfold seenMeta
      split <;> rfl
    · rw [if_neg hx]
      refine view_of r1 r2 r3 ?_ r4
      rw [h9, if_neg fun e => hx ((ofKind_view b i _).2 e.2)]
      rfl
  · rw [edit_skip hs]
    refine view_of r1 r2 r3 ?_ r4
    rw [h9, if_neg fun e => hs e.1]
    rfl

theorem acts_setmetavar (hE : EnvOk env) (hg : GoodTable t) (hf : AllBlocks env.codec t (Fine K))
    (hc : args.command = "setmetavar") (hn : NodeArgs args) (h : Completes env args t t' evs) :
    Acts env.codec args K t t' := by
  have hneeds := hn.needs
  unfold Needs at hneeds
  rw [hc] at hneeds
  obtain ⟨key, hk⟩ := Option.isSome_iff_exists.1 hneeds
  have k := C41_setmetavar env args t t' evs key hE hg hc hn.area hk
    (fun _ k d b hk hd => (hf k d b hk hd).unique) h
  refine acts_edited hg hf (by rw [hc]; decide) k ?_
  rintro bp b b' hwf hfine ⟨h1, h2, h3, h4, h5⟩
  refine ⟨fine_mono (by omega) (fine_nodes h2 hfine), fun i hi => ?_⟩
  have h9 := md_view h1.1 (h5 i)
  rw [Nat.mod_eq_of_lt hi] at h9
  have r1 := name_nodes h2 i
  have r2 : b'.nd.param1[i]? = (viewAt b i).param1 := by rw [h2.1]; rfl
  have r3 : b'.nd.param2[i]? = (viewAt b i).param2 := by rw [h2.1]; rfl
  have r4 := timers_view h4 i
  by_cases hs : Selected args.area args.invert (posAt bp i)
  · rw [edit_hit hs, hc]
    simp only
    by_cases hx : (viewAt b i).OfKinds args.nodes
    · rw [if_pos hx]
      refine view_of r1 r2 r3 ?_ r4
      rw [h9, if_pos ⟨hs, (ofKinds_view b i _).1 hx⟩, seen_visible, hk]
      rfl
    · rw [if_neg hx]
      refine view_of r1 r2 r3 ?_ r4
      rw [h9, if_neg fun e => hx ((ofKinds_view b i _).2 e.2)]
      rfl
  · rw [edit_skip hs]
    refine view_of r1 r2 r3 ?_ r4
    rw [h9, if_neg fun e => hs e.1]
    rfl

theorem acts_deletetimers (hE : EnvOk env) (hg : GoodTable t) (hf : AllBlocks env.codec t (Fine K))
    (hc : args.command = "deletetimers") (hn : NodeArgs args) (h : Completes env args t t' evs) :
    Acts env.codec args K t t' := by
  have k := C42_deletetimers env args t t' evs hE hg hc hn.area (fun _ k d b hk hd => (hf k d b hk hd).unique) h
  refine acts_edited hg hf (by rw [hc]; decide) k ?_
  rintro bp b b' hwf hfine ⟨h1, h2, h3, h4, h5⟩
  refine ⟨fine_mono (by omega) (fine_nodes h2 hfine), fun i hi => ?_⟩
  have h9 := without_eq h5 fun t => t.pos = i
  have r1 := name_nodes h2 i
  have r2 : b'.nd.param1[i]? = (viewAt b i).param1 := by rw [h2.1]; rfl
  have r3 : b'.nd.param2[i]? = (viewAt b i).param2 := by rw [h2.1]; rfl
  have r4 : (viewAt b' i).md = (viewAt b i).md := md_view h1.1 (h3 i)
  have hkeep : ¬ (Selected args.area args.invert (posAt bp i) ∧ (viewAt b i).OfKind args.node) →
      (viewAt b' i).timers = (viewAt b i).timers := by
    intro hno
    unfold viewAt
    simp only
    rw [h9]
    congr 1
    refine List.filter_congr fun t _ => ?_
    refine decide_eq_decide.2 ⟨fun e => e.1, fun e => ⟨e, fun hx => hno ?_⟩⟩
    rw [e, Nat.mod_eq_of_lt hi] at hx
    exact ⟨hx.1, (ofKind_view b i _).2 hx.2⟩
  by_cases hs : Selected args.area args.invert (posAt bp i)
  · rw [edit_hit hs, hc]
    simp only
    by_cases hx : (viewAt b i).OfKind args.node
    · rw [if_pos hx]
      refine view_of r1 r2 r3 r4 ?_
      unfold viewAt
      simp only
      rw [h9, List.map_eq_nil_iff, List.filter_eq_nil_iff]
      intro t _ he
      obtain ⟨e1, e2⟩ := of_decide_eq_true he
      apply e2
      rw [e1, Nat.mod_eq_of_lt hi]
      exact ⟨hs, (ofKind_view b i _).1 hx⟩
    · rw [if_neg hx]
      exact view_of r1 r2 r3 r4 (hkeep fun e => hx e.2)
  · rw [edit_skip hs]
    exact view_of r1 r2 r3 r4 (hkeep fun e => hs e.1)

theorem edit_other {p : Vec3} {v : NodeView} (h : args.command = "deleteobjects" ∨ args.command = "deleteblocks" ∨
    args.command = "vacuum") : edit args p v = v := by
  unfold edit
  rcases h with h | h | h <;> rw [h] <;> simp

theorem acts_deleteobjects (hE : EnvOk env) (hg : GoodTable t) (hf : AllBlocks env.codec t (Fine K))
    (hc : args.command = "deleteobjects") (hn : NodeArgs args) (h : Completes env args t t' evs) :
    Acts env.codec args K t t' := by
  have k := C43_deleteobjects env args t t' evs hE hg hc hn.area h
  refine acts_edited hg hf (by rw [hc]; decide) k ?_
  rintro bp b b' hwf hfine ⟨h1, h2, h3, h4, h5⟩
  refine ⟨fine_mono (by omega) (fine_nodes h2 hfine), fun i hi => ?_⟩
  rw [edit_other (.inl hc)]
  exact view_of (name_nodes h2 i) (by rw [h2.1]; rfl) (by rw [h2.1]; rfl) (md_view h1.1 (h3 i)) (timers_view h4 i)

theorem acts_vacuum (hg : GoodTable t) (hf : AllBlocks env.codec t (Fine K))
    (hc : args.command = "vacuum") (h : Completes env args t t' evs) : Acts env.codec args K t t' := by
  rw [C53_vacuum env args t t' evs hc h]
  refine ⟨hg, Spec.AllBlocks.mono hf fun b f => fine_mono (by omega) f, fun p v' => ⟨fun h => ?_, ?_⟩⟩
  · exact ⟨fun e => absurd (hc.symm.trans e) (by decide), v', h, edit_other (.inr (.inr hc))⟩
  · rintro ⟨-, v, h1, rfl⟩
    rw [edit_other (.inr (.inr hc))]
    exact h1

theorem inBlock_unique {bp bp' p : Vec3} (h : InBlock bp p) (h' : InBlock bp' p) : bp' = bp := by
  obtain ⟨x, y, z⟩ := bp
  obtain ⟨x', y', z'⟩ := bp'
  unfold InBlock at h h'
  simp only at h h'
  simp only [Vec3.mk.injEq]
  omega

theorem acts_deleteblocks (hg : GoodTable t) (hf : AllBlocks env.codec t (Fine K))
    (hc : args.command = "deleteblocks") (hn : NodeArgs args) (h : Completes env args t t' evs) :
    Acts env.codec args K t t' := by
  obtain ⟨k1, k2, k3⟩ := C39_deleteblocks env args t t' evs hg hc hn.area h
  refine ⟨⟨k1, fun r hr => hg.valid r (k2 r hr)⟩,
    fun k d b hk hd => fine_mono (by omega) (hf k d b (k2 _ hk) hd), fun p v' => ⟨?_, ?_⟩⟩
  · rintro ⟨bp, d, b, i, h1, h2, h3, h4, rfl, rfl⟩
    refine ⟨fun _ => ?_, _, ⟨bp, d, b, i, h1, k2 _ h2, h3, h4, rfl, rfl⟩, edit_other (.inr (.inl hc))⟩
    by_cases hall : ∀ p, InBlock bp p → Selected args.area args.invert p
    · exact absurd (List.mem_map.2 ⟨_, h2, rfl⟩) ((k3 bp d h1 (k2 _ h2)).1 hall)
    · obtain ⟨q, hq⟩ := Classical.not_forall.1 hall
      obtain ⟨hq1, hq2⟩ := Classical.not_imp.1 hq
      exact ⟨bp, q, posAt_inBlock bp h4, hq1, hq2⟩
  · rintro ⟨hst, v, ⟨bp, d, b, i, h1, h2, h3, h4, rfl, rfl⟩, rfl⟩
    obtain ⟨bp', q, e1, e2, e3⟩ := hst hc
    have := inBlock_unique (posAt_inBlock bp h4) e1
    subst this
    exact ⟨_, d, b, i, h1, (k3 _ d h1 h2).2 ⟨q, e2, e3⟩, h3, h4, rfl, edit_other (.inr (.inl hc))⟩

/-- Every run of these commands. -/
theorem acts_run (hE : EnvOk env) (hg : GoodTable t) (hf : AllBlocks env.codec t (Fine K)) (hK : 4095 ≤ K)
    (hK' : K ≤ 65533) (hn : NodeArgs args) (h : Completes env args t t' evs) : Acts env.codec args K t t' := by
  have hc := hn.command
  unfold nodeCommands at hc
  simp only [List.mem_cons, List.not_mem_nil, or_false] at hc
  rcases hc with hc | hc | hc | hc | hc | hc | hc | hc | hc
  · exact acts_fill hE hg hf hK hc hn h
  · exact acts_replacenodes hE hg hf hK' hc hn h
  · exact acts_setparam2 hE hg hf hc hn h
  · exact acts_deletemeta hE hg hf hc hn h
  · exact acts_deletetimers hE hg hf hc hn h
  · exact acts_setmetavar hE hg hf hc hn h
  · exact acts_deleteobjects hE hg hf hc hn h
  · exact acts_deleteblocks hg hf hc hn h
  · exact acts_vacuum hg hf hc h

end

end MapEditr
