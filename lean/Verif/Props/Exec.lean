import Verif.Proof.Exec
import Verif.Props.Session
/-!
# Property C95: what every command means
-/

namespace MapEditr
open Spec

/-- What a run does to the nodes of a map is a function of the nodes of the map and of the map given as input.
How the nodes are stored does not matter, nor which build is used, nor in which order blocks are listed. -/
theorem C95_run (c : Codec) (args : InstArgs) (s t t' : Table) (K : Nat) (hg : GoodTable t)
    (hb : AllBlocks c t (Usual K)) (hs : args.command = "overlay" → Source c K s) (hK : 4095 ≤ K) (hK' : K ≤ 7280)
    (ha : ExecArgs args) (h : Ran c args s t t') :
    nodesOf c t' = meaning args (nodesOf c s) (nodesOf c t) :=
  (means_run hg hb hs hK hK' ha h).nodes

theorem source_mono {c : Codec} {K L : Nat} (h : K ≤ L) {s : Table} (hs : Source c K s) : Source c L s :=
  ⟨hs.good, Spec.AllBlocks.mono hs.usual fun _ u => usual_mono h u, hs.readable⟩

theorem means_all {c : Codec} {l : List (InstArgs × Table)} {t t' : Table} (h : RanAll c l t t') :
    ∀ {K : Nat}, GoodTable t → AllBlocks c t (Usual K) →
      (∀ x ∈ l, ExecArgs x.1 ∧ (x.1.command = "overlay" → Source c K x.2)) → 4095 ≤ K → K + l.length ≤ 7281 →
      GoodTable t' ∧ AllBlocks c t' (Usual (K + l.length)) ∧
        nodesOf c t' = l.foldl (fun W x => meaning x.1 (nodesOf c x.2) W) (nodesOf c t) := by
  induction h with
  | nil => exact fun hg hb _ _ _ => ⟨hg, hb, rfl⟩
  | @cons args s t t1 l t' hrun _ ih =>
    intro K hg hb ha hK hK'
    rw [List.length_cons] at hK'
    obtain ⟨a1, a2⟩ := ha _ List.mem_cons_self
    have k := means_run hg hb a2 hK (by omega) a1 hrun
    obtain ⟨g1, g2, g3⟩ := ih k.good k.usual
      (fun x hx => ⟨(ha x (List.mem_cons_of_mem _ hx)).1,
        fun e => source_mono (by omega) ((ha x (List.mem_cons_of_mem _ hx)).2 e)⟩) (by omega) (by omega)
    refine ⟨g1, ?_, ?_⟩
    · rw [List.length_cons, show K + (l.length + 1) = K + 1 + l.length by omega]
      exact g2
    · rw [g3, k.nodes]
      rfl

/-- Any number of runs, of any of the commands: the nodes at the end are those the commands mean, one after
the other.  (The bound on the number of runs, some 3000 for maps written by Minetest, is there because
`replacenodes` may use one more ID in each run, and release builds of `clone` and `overlay` need IDs to be
at most 7280, see `Mild`.) -/
theorem C95_session (c : Codec) (l : List (InstArgs × Table)) (t t' : Table) (K : Nat) (hg : GoodTable t)
    (hb : AllBlocks c t (Usual K)) (ha : ∀ x ∈ l, ExecArgs x.1 ∧ (x.1.command = "overlay" → Source c K x.2))
    (hK : 4095 ≤ K) (hK' : K + l.length ≤ 7281) (h : RanAll c l t t') :
    nodesOf c t' = l.foldl (fun W x => meaning x.1 (nodesOf c x.2) W) (nodesOf c t) :=
  (means_all h hg hb ha hK hK').2.2

/-- The map stays as Minetest writes it, so that a session can go on, and the map can be an input map. -/
theorem C95_usual (c : Codec) (l : List (InstArgs × Table)) (t t' : Table) (K : Nat) (hg : GoodTable t)
    (hb : AllBlocks c t (Usual K)) (ha : ∀ x ∈ l, ExecArgs x.1 ∧ (x.1.command = "overlay" → Source c K x.2))
    (hK : 4095 ≤ K) (hK' : K + l.length ≤ 7281) (h : RanAll c l t t') :
    GoodTable t' ∧ AllBlocks c t' (Usual (K + l.length)) :=
  ⟨(means_all h hg hb ha hK hK').1, (means_all h hg hb ha hK hK').2.1⟩

/-- Two maps with the same nodes, however stored, have the same nodes after the same session, even if the
compression is not the same. -/
theorem C95_same (c1 c2 : Codec) (l1 l2 : List (InstArgs × Table)) (t1 t2 t1' t2' : Table) (K : Nat)
    (hg1 : GoodTable t1) (hg2 : GoodTable t2) (hb1 : AllBlocks c1 t1 (Usual K)) (hb2 : AllBlocks c2 t2 (Usual K))
    (ha1 : ∀ x ∈ l1, ExecArgs x.1 ∧ (x.1.command = "overlay" → Source c1 K x.2))
    (ha2 : ∀ x ∈ l2, ExecArgs x.1 ∧ (x.1.command = "overlay" → Source c2 K x.2))
    (hK : 4095 ≤ K) (hK1 : K + l1.length ≤ 7281)
    (hl : l1.map (fun x => (x.1, nodesOf c1 x.2)) = l2.map fun x => (x.1, nodesOf c2 x.2))
    (h1 : RanAll c1 l1 t1 t1') (h2 : RanAll c2 l2 t2 t2')
    (h : nodesOf c1 t1 = nodesOf c2 t2) : nodesOf c1 t1' = nodesOf c2 t2' := by
  have hlen : l1.length = l2.length := by
    have := congrArg List.length hl
    rwa [List.length_map, List.length_map] at this
  rw [C95_session c1 l1 t1 t1' K hg1 hb1 ha1 hK hK1 h1, C95_session c2 l2 t2 t2' K hg2 hb2 ha2 hK (hlen ▸ hK1) h2, h]
  have e : ∀ (c : Codec) (l : List (InstArgs × Table)) (W : Nodes),
      l.foldl (fun W x => meaning x.1 (nodesOf c x.2) W) W =
        (l.map fun x => (x.1, nodesOf c x.2)).foldl (fun W x => meaning x.1 x.2 W) W := by
    intro c l W
    rw [List.foldl_map]
  rw [e, e, hl]

/-! ## What follows -/

/-- Laying a map over itself changes no node. -/
theorem laid_self (area : Option Area) (invert : Bool) (W : Nodes) (p : Vec3) :
    laidNode area invert W W p = W p := by
  unfold laidNode
  cases W p with
  | none =>
    split
    · rfl
    · split <;> rfl
  | some v => cases invert <;> simp

theorem C95_overlay_self (c : Codec) (args : InstArgs) (s t t' : Table) (K : Nat) (hg : GoodTable t)
    (hb : AllBlocks c t (Usual K)) (hs : Source c K s) (hK : 4095 ≤ K) (hK' : K ≤ 7280)
    (ha : ExecArgs args) (hc : args.command = "overlay") (ho : args.offset.getD ⟨0, 0, 0⟩ = ⟨0, 0, 0⟩)
    (h : Ran c args s t t') (he : nodesOf c s = nodesOf c t) : nodesOf c t' = nodesOf c t := by
  rw [C95_run c args s t t' K hg hb (fun _ => hs) hK hK' ha h, he]
  funext p
  unfold meaning
  rw [hc]
  simp only
  rw [if_pos ho]
  exact laid_self _ _ _ p

/-- Laying a map over another twice is as good as once. -/
theorem laid_twice (area : Option Area) (invert : Bool) (S W : Nodes) (p : Vec3) :
    laidNode area invert S (laidNode area invert S W) p = laidNode area invert S W p := by
  unfold laidNode
  by_cases h1 : blockWhole area invert p = true
  · simp only [h1, if_true]
    cases S p <;> rfl
  · by_cases h2 : blockSpared area invert p = true
    · simp only [h1, h2, if_true]
      rfl
    · simp only [h1, h2]
      cases S p <;> cases W p <;> simp
      split <;> cases invert <;> simp

theorem C95_overlay_twice (c : Codec) (args args' : InstArgs) (s s' t t' t'' : Table) (K : Nat) (hg : GoodTable t)
    (hb : AllBlocks c t (Usual K)) (hs : Source c K s) (hs' : Source c K s') (hK : 4095 ≤ K) (hK' : K ≤ 7279)
    (ha : ExecArgs args) (ha' : ExecArgs args') (hc : args.command = "overlay") (hc' : args'.command = "overlay")
    (ho : args.offset.getD ⟨0, 0, 0⟩ = ⟨0, 0, 0⟩) (ho' : args'.offset.getD ⟨0, 0, 0⟩ = ⟨0, 0, 0⟩)
    (harea : args'.area = args.area) (hinv : args'.invert = args.invert)
    (he : nodesOf c s' = nodesOf c s) (h : Ran c args s t t') (h' : Ran c args' s' t' t'') :
    nodesOf c t'' = nodesOf c t' := by
  have k := means_run hg hb (fun _ => hs) hK (by omega) ha h
  rw [C95_run c args' s' t' t'' (K + 1) k.good k.usual (fun _ => source_mono (by omega) hs') (by omega) (by omega) ha' h',
    k.nodes, he]
  funext p
  unfold meaning
  rw [hc, hc']
  simp only
  rw [if_pos ho', harea, hinv]
  simp only [if_pos ho]
  exact laid_twice _ _ _ _ p

/-- Laying a map over another inside an area and then outside of it lays all of it over the other, wherever
there has been a node before. -/
theorem laid_halves (area : Option Area) (S W : Nodes) (p : Vec3) (h : (S p).isSome → (W p).isSome) :
    laidNode area true S (laidNode area false S W) p = laidNode none false S W p := by
  have hall : blockWhole none false p = true := by
    unfold blockWhole
    rw [List.all_eq_true]
    intro i _
    exact decide_eq_true trivial
  obtain ⟨bp, i, hi, rfl⟩ := exists_at p
  cases hA : area with
  | none =>
    have hall' : blockWhole none true (posAt bp i) = true := (blockWhole_iff hi).2 fun _ _ => trivial
    unfold laidNode
    simp only [hall, hall', if_true]
    cases S (posAt bp i) <;> rfl
  | some a =>
    have hsel : ∀ q, Selected (some a) true q ↔ ¬ Selected (some a) false q := by
      intro q
      unfold Selected
      simp
    unfold laidNode
    simp only [hall, if_true]
    cases hS : S (posAt bp i) with
    | none =>
      simp only
      repeat' split
      all_goals rfl
    | some u =>
      rw [hS] at h
      obtain ⟨v, hv⟩ := Option.isSome_iff_exists.1 (h rfl)
      simp only [hv]
      have hp := posAt_inBlock bp hi
      by_cases h1 : blockWhole (some a) true (posAt bp i) = true
      · rw [if_pos h1]
      · rw [if_neg h1]
        by_cases h2 : blockWhole (some a) false (posAt bp i) = true
        · have h3 : blockSpared (some a) true (posAt bp i) = true :=
            (blockSpared_iff hi).2 fun q hq e => (hsel q).1 e ((blockWhole_iff hi).1 h2 q hq)
          rw [if_pos h3, if_pos h2]
        · have h3 : ¬ blockSpared (some a) true (posAt bp i) = true := fun e => h2 ((blockWhole_iff hi).2 fun q hq =>
            Classical.byContradiction fun hx => (blockSpared_iff hi).1 e q hq ((hsel q).2 hx))
          have h4 : ¬ blockSpared (some a) false (posAt bp i) = true := fun e => h1 ((blockWhole_iff hi).2 fun q hq =>
            (hsel q).2 ((blockSpared_iff hi).1 e q hq))
          rw [if_neg h3, if_neg h2, if_neg h4]
          simp only
          by_cases hq : Selected (some a) false (posAt bp i)
          · rw [if_neg fun e => (hsel _).1 e hq, if_pos hq]
          · rw [if_pos ((hsel _).2 hq)]

theorem C95_overlay_halves (c : Codec) (args args' : InstArgs) (s s' t t' t'' : Table) (K : Nat) (hg : GoodTable t)
    (hb : AllBlocks c t (Usual K)) (hs : Source c K s) (hs' : Source c K s') (hK : 4095 ≤ K) (hK' : K ≤ 7279)
    (ha : ExecArgs args) (ha' : ExecArgs args') (hc : args.command = "overlay") (hc' : args'.command = "overlay")
    (ho : args.offset.getD ⟨0, 0, 0⟩ = ⟨0, 0, 0⟩) (ho' : args'.offset.getD ⟨0, 0, 0⟩ = ⟨0, 0, 0⟩)
    (harea : args'.area = args.area) (hinv : args.invert = false) (hinv' : args'.invert = true)
    (he : nodesOf c s' = nodesOf c s) (h : Ran c args s t t') (h' : Ran c args' s' t' t'')
    (hin : ∀ p, (nodesOf c s p).isSome → (nodesOf c t p).isSome) (p : Vec3) :
    nodesOf c t'' p = (nodesOf c s p).or (nodesOf c t p) := by
  have k := means_run hg hb (fun _ => hs) hK (by omega) ha h
  rw [C95_run c args' s' t' t'' (K + 1) k.good k.usual (fun _ => source_mono (by omega) hs') (by omega) (by omega) ha' h',
    k.nodes, he]
  unfold meaning
  rw [hc, hc']
  simp only
  rw [if_pos ho', harea, hinv, hinv']
  simp only [if_pos ho]
  rw [show (fun p => laidNode args.area false (nodesOf c s) (nodesOf c t) p) =
    laidNode args.area false (nodesOf c s) (nodesOf c t) from rfl, laid_halves _ _ _ p (hin p)]
  unfold laidNode
  have hall : blockWhole none false p = true := by
    unfold blockWhole
    rw [List.all_eq_true]
    intro i _
    exact decide_eq_true trivial
  rw [if_pos hall]
  cases nodesOf c s p <;> rfl

/-- Copying an area onto itself changes no node. -/
theorem C95_clone_still (c : Codec) (args : InstArgs) (s t t' : Table) (K : Nat) (hg : GoodTable t)
    (hb : AllBlocks c t (Usual K)) (hK : 4095 ≤ K) (hK' : K ≤ 7280)
    (ha : ExecArgs args) (hc : args.command = "clone") (ho : args.offset = some ⟨0, 0, 0⟩)
    (h : Ran c args s t t') : nodesOf c t' = nodesOf c t := by
  rw [C95_run c args s t t' K hg hb (fun e => absurd (hc.symm.trans e) (by decide)) hK hK' ha h]
  funext p
  unfold meaning
  rw [hc, ho]
  simp only [Option.getD_some]
  unfold copiedNode
  have : unshift p ⟨0, 0, 0⟩ = p := by
    unfold unshift
    simp
  rw [this]
  cases nodesOf c t p with
  | none => rfl
  | some v =>
    simp only
    split <;> rfl

/-- Where no command has anything to do, the node is as before after any session. -/
theorem meaning_untouched {args : InstArgs} {S W : Nodes} {p : Vec3}
    (h : ¬ Touches args p) : meaning args S W p = W p := by
  unfold Touches at h
  unfold meaning
  split at h
  · rename_i e
    rw [e]
    simp only
    unfold copiedNode
    cases W p with
    | none => rfl
    | some v => simp only; rw [if_neg fun x => h x.1]
  · rename_i e
    rw [e]
    simp only
    by_cases ho : args.offset.getD ⟨0, 0, 0⟩ = ⟨0, 0, 0⟩
    · rw [if_pos ho] at h ⊢
      obtain ⟨bp, i, hi, rfl⟩ := exists_at p
      have h2 : blockSpared args.area args.invert (posAt bp i) = true :=
        (blockSpared_iff hi).2 fun q hq e => h ⟨q, by rw [blockOf_posAt bp hi]; exact hq, e⟩
      have h1 : ¬ blockWhole args.area args.invert (posAt bp i) = true := fun e =>
        (blockSpared_iff hi).1 h2 _ (posAt_inBlock bp hi) ((blockWhole_iff hi).1 e _ (posAt_inBlock bp hi))
      unfold laidNode
      rw [if_neg h1, if_pos h2]
    · rw [if_neg ho] at h ⊢
      unfold copiedNode
      cases W p with
      | none => rfl
      | some v => simp only; rw [if_neg fun x => h x.1]
  · rename_i e1 e2
    split
    · rename_i e; exact absurd e e1
    · rename_i e; exact absurd e e2
    · obtain ⟨bp, i, hi, rfl⟩ := exists_at p
      rw [if_neg fun e => h ((blockWhole_iff hi).1 e _ (posAt_inBlock bp hi))]
    · cases W p with
      | none => rfl
      | some v => rw [Option.map_some, edit_skip h]

theorem C95_untouched (c : Codec) (l : List (InstArgs × Table)) (t t' : Table) (K : Nat) (hg : GoodTable t)
    (hb : AllBlocks c t (Usual K)) (ha : ∀ x ∈ l, ExecArgs x.1 ∧ (x.1.command = "overlay" → Source c K x.2))
    (hK : 4095 ≤ K) (hK' : K + l.length ≤ 7281) (h : RanAll c l t t') (p : Vec3)
    (hp : ∀ x ∈ l, ¬ Touches x.1 p) : nodesOf c t' p = nodesOf c t p := by
  rw [C95_session c l t t' K hg hb ha hK hK' h]
  generalize nodesOf c t = W
  clear h hK hK' hb hg
  induction l generalizing W with
  | nil => rfl
  | cons x l ih =>
    rw [List.foldl_cons, ih (fun x hx => ha x (List.mem_cons_of_mem _ hx)) (fun x hx => hp x (List.mem_cons_of_mem _ hx)),
      meaning_untouched (hp x List.mem_cons_self)]

theorem meaning_node {args : InstArgs} {S W : Nodes} {p : Vec3} (hc : args.command ∈ nodeCommands)
    (hw : ¬ blockWhole args.area args.invert p = true) : meaning args S W p = (W p).map (edit args p) := by
  unfold meaning
  split
  · rename_i e; rw [e] at hc; exact absurd hc (by decide)
  · rename_i e; rw [e] at hc; exact absurd hc (by decide)
  · rename_i e
    rw [if_neg hw]
    cases W p with
    | none => rfl
    | some v => rw [Option.map_some, edit_other (.inr (.inl e))]
  · rfl

theorem edit_timers {args : InstArgs} (hc : args.command ≠ "deletetimers") (p : Vec3) (v : NodeView) :
    (edit args p v).timers = v.timers := by
  unfold edit
  split
  · split <;> first | rfl | (split <;> rfl) | contradiction
  · rfl

/-- Laying the old map over a changed one brings the old nodes back.  (Not the timers in blocks at the border
of the area, unless `--invert` is given: see `C92_timers_false`.) -/
theorem laid_back {args : InstArgs} {S W : Nodes} (hc : args.command ∈ nodeCommands)
    (ht : args.command = "deletetimers" → args.area = none ∨ args.invert = true) (p : Vec3) :
    laidNode args.area args.invert W (meaning args S W) p = W p := by
  have hnone : W p = none → meaning args S W p = none := by
    intro e
    unfold meaning
    split
    · rename_i e; rw [e] at hc; exact absurd hc (by decide)
    · rename_i e; rw [e] at hc; exact absurd hc (by decide)
    · rw [e]; split <;> rfl
    · rw [e]; rfl
  unfold laidNode
  by_cases h1 : blockWhole args.area args.invert p = true
  · rw [if_pos h1]
    cases e : W p with
    | none => exact hnone e
    | some v => rfl
  · rw [if_neg h1]
    by_cases h2 : blockSpared args.area args.invert p = true
    · rw [if_pos h2, meaning_node hc h1]
      obtain ⟨bp, i, hi, rfl⟩ := exists_at p
      cases e : W (posAt bp i) with
      | none => rfl
      | some v => rw [Option.map_some, edit_skip ((blockSpared_iff hi).1 h2 _ (posAt_inBlock bp hi))]
    · rw [if_neg h2, meaning_node hc h1]
      cases e : W p with
      | none => rfl
      | some v =>
        simp only [Option.map_some, Option.some.injEq]
        have htim : (if args.invert = true then v.timers else (edit args p v).timers) = v.timers := by
          by_cases hd : args.command = "deletetimers"
          · rcases ht hd with ha | ha
            · refine absurd ?_ h1
              rw [ha]
              unfold blockWhole
              rw [List.all_eq_true]
              exact fun i _ => decide_eq_true trivial
            · rw [if_pos ha]
          · rw [edit_timers hd, ite_self]
        rw [htim]
        split
        · rfl
        · rename_i hs
          rw [edit_skip hs]

theorem C95_undo (c : Codec) (args args' : InstArgs) (s s' t t' t'' : Table) (K : Nat) (hg : GoodTable t)
    (hb : AllBlocks c t (Usual K)) (hs' : Source c K s') (hK : 4095 ≤ K) (hK' : K ≤ 7279)
    (ha : ExecArgs args) (ha' : ExecArgs args') (hc : args.command ∈ nodeCommands)
    (ht : args.command = "deletetimers" → args.area = none ∨ args.invert = true) (hc' : args'.command = "overlay")
    (ho' : args'.offset.getD ⟨0, 0, 0⟩ = ⟨0, 0, 0⟩)
    (harea : args'.area = args.area) (hinv : args'.invert = args.invert)
    (he : nodesOf c s' = nodesOf c t) (h : Ran c args s t t') (h' : Ran c args' s' t' t'') :
    nodesOf c t'' = nodesOf c t := by
  have k := means_run hg hb (fun e => by rw [e] at hc; exact absurd hc (by decide)) hK (by omega) ha h
  rw [C95_run c args' s' t' t'' (K + 1) k.good k.usual (fun _ => source_mono (by omega) hs') (by omega) (by omega) ha' h',
    k.nodes, he]
  funext p
  conv => lhs; unfold meaning
  rw [hc']
  simp only
  rw [if_pos ho', harea, hinv]
  exact laid_back hc ht p

theorem meaning_overlay {args : InstArgs} {S W : Nodes} {p : Vec3} (hc : args.command = "overlay")
    (ho : args.offset.getD ⟨0, 0, 0⟩ = ⟨0, 0, 0⟩) :
    meaning args S W p = laidNode args.area args.invert S W p := by
  unfold meaning
  rw [hc]
  simp only
  rw [if_pos ho]

/-- A node in a block at the border of the area. -/
def mixedNode (area : Option Area) (S W : Nodes) (p : Vec3) : Option NodeView :=
  match S p, W p with
  | some u, some v => some { (if Selected area false p then u else v) with timers := v.timers }
  | _, w => w

theorem mixedNode_some {area : Option Area} {S W : Nodes} {p : Vec3} {u v : NodeView} (hu : S p = some u)
    (hv : W p = some v) :
    mixedNode area S W p = some { (if Selected area false p then u else v) with timers := v.timers } := by
  unfold mixedNode
  rw [hu, hv]

theorem laid_partly {area : Option Area} {S W : Nodes} {bp : Vec3} {i : Nat} (hi : i < 4096)
    (hp : Partly area false bp) : laidNode area false S W (posAt bp i) = mixedNode area S W (posAt bp i) := by
  obtain ⟨⟨q, q1, q2⟩, r, r1, r2⟩ := hp
  unfold laidNode mixedNode
  rw [if_neg fun e => r2 ((blockWhole_iff hi).1 e r r1), if_neg fun e => (blockSpared_iff hi).1 e q q1 q2]
  cases S (posAt bp i) <;> cases W (posAt bp i) <;> rfl

/-! ## An example

A node is copied into the neighbouring block, then a node of another map is laid over the place it came from,
then the copy is given another name. -/

theorem toy_usual : Usual 4095 (stored (Toy.block 28)) :=
  ⟨toy_fine 28, toy_generated 28, by decide, (toy_tame 28).room⟩

theorem other_usual : Usual 4095 (stored (otherBlock 0)) := by
  refine ⟨⟨?_, otherBlock_named 0, ?_⟩, rfl, by decide, (otherBlock_tame 0).room⟩
  · intro i j n h1 h2
    have e : (stored (otherBlock 0)).nimap = [(0, ascii "air"), (1, ascii "b")] := rfl
    rw [e] at h1 h2
    have g1 := SMap.get?_some_mem h1
    have g2 := SMap.get?_some_mem h2
    simp only [List.mem_cons, List.not_mem_nil, or_false, Prod.mk.injEq] at g1 g2
    rcases g1 with ⟨rfl, rfl⟩ | ⟨rfl, rfl⟩ <;> rcases g2 with ⟨rfl, hn⟩ | ⟨rfl, hn⟩ <;>
      first | rfl | exact absurd hn (by decide)
  · intro e he
    have : e ∈ [(0, ascii "air"), (1, ascii "b")] := he
    simp only [List.mem_cons, List.not_mem_nil, or_false] at this
    rcases this with rfl | rfl <;> decide

theorem usual_tame {K : Nat} (hK : K ≤ 7280) {b : MapBlock} (h : Usual K b) : Tame b :=
  ⟨named_covered h.fine.named, fun e he => Nat.le_trans (h.fine.small e he) hK, h.room⟩

theorem cloneArgs_exec : ExecArgs (cloneArgs 0 18) :=
  ⟨by decide, by unfold Needs; exact ⟨rfl, rfl⟩, by intro a h; cases h; decide, by intro n h; cases h⟩

theorem overlayArgs_exec : ExecArgs (overlayArgs false) :=
  ⟨by decide, by unfold Needs; exact rfl, by intro a h; cases h; decide, by intro n h; cases h⟩

theorem replArgs_exec : ExecArgs replArgs :=
  ⟨by decide, by unfold Needs; exact ⟨rfl, rfl⟩, by intro a h; cases h; decide, by intro n h; cases h; decide⟩

theorem oneMap_readable {b : MapBlock} (hw : Wf b) : ∀ r ∈ oneMap b, ∃ b', Represents (Toy.codec id) r.2 b' :=
  List.forall_mem_singleton.2 ⟨_, Toy.data_rep hw⟩

theorem other_source : Source (Toy.codec id) 4095 (oneMap (otherBlock 0)) := by
  have hw := otherBlock_wf (flags := 0) (by omega)
  exact ⟨oneMap_good _, oneMap_all hw other_usual, oneMap_readable hw⟩

/-- The session of the example. -/
def toySession : List (InstArgs × Table) :=
  [(cloneArgs 0 18, []), (overlayArgs false, oneMap (otherBlock 0)), (replArgs, [])]

theorem toySession_ok : ∀ x ∈ toySession, ExecArgs x.1 ∧ (x.1.command = "overlay" → Source (Toy.codec id) 4095 x.2) := by
  unfold toySession
  simp only [List.mem_cons, List.not_mem_nil, or_false, forall_eq_or_imp, forall_eq]
  exact ⟨⟨cloneArgs_exec, fun e => absurd e (by decide)⟩, ⟨overlayArgs_exec, fun _ => other_source⟩,
    replArgs_exec, fun e => absurd e (by decide)⟩

theorem toySession_runs : ∃ t', RanAll (Toy.codec id) toySession (pairMap 0 (Toy.block 28)) t' := by
  have hw := Toy.block_wf 28 (by omega)
  have hg := pairMap_good (x := 0) (by decide) (by decide) (Toy.block 28)
  have hb := pairMap_all (x := 0) hw (P := Usual 4095) toy_usual
  obtain ⟨t1, e1, h1⟩ := clone_toy (x := 0) (y := 0) (d := 18) 28 (by omega) (by decide) (by decide) (by omega)
    (by omega) (by omega)
  have r1 : Ran (Toy.codec id) (cloneArgs 0 18) [] (pairMap 0 (Toy.block 28)) t1 :=
    ⟨_, e1, editEnv_ok _, rfl, h1, fun _ _ _ => rfl, fun e => absurd e (by decide)⟩
  have k1 := means_run hg hb (fun e => absurd e (by decide)) (by omega) (by omega) cloneArgs_exec r1
  have hw' := otherBlock_wf (flags := 0) (by omega)
  obtain ⟨t2, e2, h2⟩ := C50_overlay_completes (twoEnv t1 (oneMap (otherBlock 0))) (overlayArgs false) _ _ "other"
    ⟨⟨0, 0, 0⟩, ⟨0, 0, 0⟩⟩ (twoEnv_ok _ _) (fun _ => rfl) rfl ⟨_, rfl⟩ rfl rfl ⟨_, rfl⟩ (oneMap_good _)
    (by rw [← verifyArgs_iff]; decide) rfl rfl (by decide) (.inl rfl)
    (Spec.AllBlocks.mono k1.usual fun b u => usual_tame (by omega) u) (oneMap_all hw' (otherBlock_tame _))
    (by intro h; cases h)
  have r2 : Ran (Toy.codec id) (overlayArgs false) (oneMap (otherBlock 0)) t1 t2 :=
    ⟨_, e2, twoEnv_ok _ _, rfl, h2, fun _ _ _ => rfl, fun _ => ⟨_, _, rfl, rfl, rfl⟩⟩
  have k2 := means_run k1.good k1.usual (fun _ => source_mono (by omega) other_source) (by omega) (by omega)
    overlayArgs_exec r2
  obtain ⟨t3, e3, h3⟩ := C35_replacenodes_completes (editEnv t2) replArgs _ "air" "default:stone"
    (editEnv_ok _) (fun _ => rfl) (editEnv_file _) ⟨_, rfl⟩ k2.good
    (by rw [← verifyArgs_iff]; decide)
    (by unfold CommandRefuses; simp [replArgs, runArgs]) rfl (by intro a h; cases h; decide) rfl rfl (by decide) rfl
    (by intro h; cases h) (Spec.AllBlocks.mono k2.usual fun b u e he => Nat.le_trans (u.fine.small e he) (by omega))
  have r3 : Ran (Toy.codec id) replArgs [] t2 t3 :=
    ⟨_, e3, editEnv_ok _, rfl, h3, fun e => absurd e (by decide), fun e => absurd e (by decide)⟩
  exact ⟨t3, .cons r1 (.cons r2 (.cons r3 .nil))⟩

/-- The assumptions are met; the result is that of three commands: `a` has been copied, `b` has been laid over
the original, and the air around has been replaced. -/
example : ∃ t', RanAll (Toy.codec id) toySession (pairMap 0 (Toy.block 28)) t' ∧
    GoodTable (pairMap 0 (Toy.block 28)) ∧ AllBlocks (Toy.codec id) (pairMap 0 (Toy.block 28)) (Usual 4095) ∧
    (nodesOf (Toy.codec id) t' ⟨18, 0, 0⟩).bind (·.name) = some (ascii "a") ∧
    (nodesOf (Toy.codec id) t' ⟨0, 0, 0⟩).bind (·.name) = some (ascii "b") ∧
    (nodesOf (Toy.codec id) t' ⟨1, 0, 0⟩).bind (·.name) = some (ascii "default:stone") := by
  have hw := Toy.block_wf 28 (by omega)
  have hg := pairMap_good (x := 0) (by decide) (by decide) (Toy.block 28)
  have hb := pairMap_all (x := 0) hw (P := Usual 4095) toy_usual
  obtain ⟨t', h⟩ := toySession_runs
  have hm := C95_session _ _ _ _ 4095 hg hb toySession_ok (by omega) (by decide) h
  have b0 : HasBlock (Toy.codec id) (pairMap 0 (Toy.block 28)) ⟨0, 0, 0⟩ (stored (Toy.block 28)) :=
    ⟨by unfold ValidBlockPos; decide, _, List.mem_cons_self, Toy.data_rep hw⟩
  have b1 : HasBlock (Toy.codec id) (pairMap 0 (Toy.block 28)) ⟨1, 0, 0⟩ (stored (Toy.block 28)) :=
    ⟨by unfold ValidBlockPos; decide, _, List.mem_cons_of_mem _ List.mem_cons_self, Toy.data_rep hw⟩
  have bs : HasBlock (Toy.codec id) (oneMap (otherBlock 0)) ⟨0, 0, 0⟩ (stored (otherBlock 0)) :=
    ⟨by unfold ValidBlockPos; decide, _, List.mem_cons_self, Toy.data_rep (otherBlock_wf (by omega))⟩
  have n0 : nodesOf (Toy.codec id) (pairMap 0 (Toy.block 28)) ⟨0, 0, 0⟩ = some (viewAt (stored (Toy.block 28)) 0) :=
    nodesOf_block (i := 0) hg b0 (by decide)
  have n1 : nodesOf (Toy.codec id) (pairMap 0 (Toy.block 28)) ⟨1, 0, 0⟩ = some (viewAt (stored (Toy.block 28)) 1) :=
    nodesOf_block (i := 1) hg b0 (by decide)
  have n18 : nodesOf (Toy.codec id) (pairMap 0 (Toy.block 28)) ⟨18, 0, 0⟩ = some (viewAt (stored (Toy.block 28)) 2) :=
    nodesOf_block (i := 2) hg b1 (by decide)
  have s0 : nodesOf (Toy.codec id) (oneMap (otherBlock 0)) ⟨0, 0, 0⟩ = some (viewAt (stored (otherBlock 0)) 0) :=
    nodesOf_block (i := 0) (oneMap_good _) bs (by decide)
  have s1 : nodesOf (Toy.codec id) (oneMap (otherBlock 0)) ⟨1, 0, 0⟩ = some (viewAt (stored (otherBlock 0)) 1) :=
    nodesOf_block (i := 1) (oneMap_good _) bs (by decide)
  generalize nodesOf (Toy.codec id) (pairMap 0 (Toy.block 28)) = W at hm n0 n1 n18
  have c18 : meaning (cloneArgs 0 18) (nodesOf (Toy.codec id) []) W ⟨18, 0, 0⟩ =
      some { viewAt (stored (Toy.block 28)) 0 with timers := (viewAt (stored (Toy.block 28)) 2).timers } := by
    show copiedNode _ _ W W _ = _
    unfold copiedNode
    rw [n18]
    simp only
    rw [if_pos (by decide), show unshift ⟨18, 0, 0⟩ _ = (⟨0, 0, 0⟩ : Vec3) by decide, n0]
  have cother : ∀ p, ¬ Touches (cloneArgs 0 18) p → meaning (cloneArgs 0 18) (nodesOf (Toy.codec id) []) W p = W p :=
    fun p hp => meaning_untouched hp
  have c0 := cother ⟨0, 0, 0⟩ fun e => absurd
    (show Selected (cloneArgs 0 18).area false (unshift ⟨0, 0, 0⟩ ⟨18, 0, 0⟩) from e) (by decide)
  have c1 := cother ⟨1, 0, 0⟩ fun e => absurd
    (show Selected (cloneArgs 0 18).area false (unshift ⟨1, 0, 0⟩ ⟨18, 0, 0⟩) from e) (by decide)
  rw [n0] at c0
  rw [n1] at c1
  have hm' : nodesOf (Toy.codec id) t' = meaning replArgs (nodesOf (Toy.codec id) [])
    (meaning (overlayArgs false) (nodesOf (Toy.codec id) (oneMap (otherBlock 0)))
      (meaning (cloneArgs 0 18) (nodesOf (Toy.codec id) []) W)) := by
    rw [hm]
    unfold toySession
    rw [List.foldl_cons, List.foldl_cons, List.foldl_cons, List.foldl_nil]
  generalize nodesOf (Toy.codec id) (oneMap (otherBlock 0)) = S at s0 s1 hm'
  generalize meaning (cloneArgs 0 18) (nodesOf (Toy.codec id) []) W = W1 at c18 c0 c1 hm'
  have hpart : ∀ i, i < 4096 → meaning (overlayArgs false) S W1 (posAt ⟨0, 0, 0⟩ i) =
      mixedNode (some ⟨⟨0, 0, 0⟩, ⟨0, 0, 0⟩⟩) S W1 (posAt ⟨0, 0, 0⟩ i) := fun i hi =>
    (meaning_overlay (args := overlayArgs false) rfl rfl).trans (laid_partly hi (partly_toy false))
  have o0 := hpart 0 (by decide)
  have o1 := hpart 1 (by decide)
  rw [show posAt ⟨0, 0, 0⟩ 0 = (⟨0, 0, 0⟩ : Vec3) by decide, mixedNode_some s0 c0,
    if_pos (by decide)] at o0
  rw [show posAt ⟨0, 0, 0⟩ 1 = (⟨1, 0, 0⟩ : Vec3) by decide, mixedNode_some s1 c1,
    if_neg (by decide)] at o1
  have o18 : meaning (overlayArgs false) S W1 ⟨18, 0, 0⟩ = W1 ⟨18, 0, 0⟩ := by
    refine meaning_untouched ?_
    rintro ⟨q, h1, h2⟩
    rw [show blockOf ⟨18, 0, 0⟩ = (⟨1, 0, 0⟩ : Vec3) by decide] at h1
    have h2 : InBox ⟨0, 0, 0⟩ ⟨0, 0, 0⟩ q := ((selected_iff ⟨⟨0, 0, 0⟩, ⟨0, 0, 0⟩⟩ false q).1 h2).2 rfl
    unfold InBlock at h1
    unfold InBox at h2
    simp only at h1 h2
    omega
  rw [c18] at o18
  generalize meaning (overlayArgs false) S W1 = W2 at o0 o1 o18 hm'
  have hr : ∀ p, nodesOf (Toy.codec id) t' p = (W2 p).map (edit replArgs p) := by
    intro p
    rw [hm']
    rfl
  refine ⟨t', h, hg, hb, ?_, ?_, ?_⟩
  · rw [hr, o18]
    decide
  · rw [hr, o0]
    decide
  · rw [hr, o1]
    decide

theorem overlayArgs_exec' (inv : Bool) : ExecArgs (overlayArgs inv) :=
  ⟨by cases inv <;> decide, by unfold Needs; exact rfl, by intro a h; cases h; decide, by intro n h; cases h⟩

/-- `overlay` with the toy area, on any usual map. -/
theorem overlay_ran (inv : Bool) {K : Nat} (hK : K ≤ 7280) {s t : Table} (hs : Source (Toy.codec id) K s)
    (hb : AllBlocks (Toy.codec id) t (Usual K)) : ∃ t', Ran (Toy.codec id) (overlayArgs inv) s t t' := by
  obtain ⟨t', evs, h⟩ := C50_overlay_completes (twoEnv t s) (overlayArgs inv) _ _ "other"
    ⟨⟨0, 0, 0⟩, ⟨0, 0, 0⟩⟩ (twoEnv_ok _ _) (fun _ => rfl) rfl ⟨_, rfl⟩ rfl rfl ⟨_, rfl⟩ hs.good
    (by rw [← verifyArgs_iff]; cases inv <;> decide) rfl rfl (by decide) (.inl rfl)
    (Spec.AllBlocks.mono hb fun b u => usual_tame hK u) (Spec.AllBlocks.mono hs.usual fun b u => usual_tame hK u)
    (by intro h; cases h)
  exact ⟨t', _, evs, twoEnv_ok _ _, rfl, h, fun _ _ _ => rfl, fun _ => ⟨_, _, rfl, rfl, rfl⟩⟩

theorem toy_one_usual : AllBlocks (Toy.codec id) (oneMap (Toy.block 28)) (Usual 4095) :=
  oneMap_all (Toy.block_wf 28 (by omega)) toy_usual

theorem toy_source : Source (Toy.codec id) 4095 (oneMap (Toy.block 28)) :=
  ⟨oneMap_good _, toy_one_usual, oneMap_readable (Toy.block_wf 28 (by omega))⟩

/-- The map over itself (`C95_overlay_self`). -/
example : ∃ t', Ran (Toy.codec id) (overlayArgs false) (oneMap (Toy.block 28)) (oneMap (Toy.block 28)) t' ∧
    Source (Toy.codec id) 4095 (oneMap (Toy.block 28)) :=
  let ⟨t', h⟩ := overlay_ran false (by omega) toy_source toy_one_usual
  ⟨t', h, toy_source⟩

/-- The same map over another twice (`C95_overlay_twice`), and inside and outside of the area
(`C95_overlay_halves`). -/
example (inv : Bool) : ∃ t' t'', Ran (Toy.codec id) (overlayArgs false) (oneMap (otherBlock 0)) (oneMap (Toy.block 28)) t' ∧
    Ran (Toy.codec id) (overlayArgs inv) (oneMap (otherBlock 0)) t' t'' ∧
    (∀ p, (nodesOf (Toy.codec id) (oneMap (otherBlock 0)) p).isSome →
      (nodesOf (Toy.codec id) (oneMap (Toy.block 28)) p).isSome) ∧
    Source (Toy.codec id) 4095 (oneMap (otherBlock 0)) ∧ AllBlocks (Toy.codec id) (oneMap (Toy.block 28)) (Usual 4095) := by
  obtain ⟨t', h⟩ := overlay_ran false (by omega) other_source toy_one_usual
  have k := means_run (oneMap_good _) toy_one_usual (fun _ => other_source) (by omega) (by omega) overlayArgs_exec h
  obtain ⟨t'', h'⟩ := overlay_ran inv (K := 4096) (by omega) (source_mono (by omega) other_source) k.usual
  refine ⟨t', t'', h, h', fun p hp => ?_, other_source, toy_one_usual⟩
  obtain ⟨v, hv⟩ := Option.isSome_iff_exists.1 hp
  obtain ⟨bp, d, b, i, h1, h2, h3, h4, rfl, rfl⟩ := (nodesOf_some (oneMap_good _)).1 hv
  have hk : keyOf bp = 0 := by
    unfold oneMap at h2
    rw [List.mem_singleton, Prod.mk.injEq] at h2
    exact h2.1
  have : HasBlock (Toy.codec id) (oneMap (Toy.block 28)) bp (stored (Toy.block 28)) :=
    ⟨h1, _, by rw [hk]; exact List.mem_cons_self, Toy.data_rep (Toy.block_wf 28 (by omega))⟩
  rw [nodesOf_block (oneMap_good _) this h4]
  rfl

/-- `fill`, and back (`C95_undo`). -/
example : ∃ t' t'', Ran (Toy.codec id) (fillArgs false) [] (oneMap (Toy.block 28)) t' ∧
    Ran (Toy.codec id) (overlayArgs false) (oneMap (Toy.block 28)) t' t'' ∧ ExecArgs (fillArgs false) ∧
    (fillArgs false).command ∈ nodeCommands ∧ (overlayArgs false).area = (fillArgs false).area := by
  have hn := fillArgs_node false
  have ha : ExecArgs (fillArgs false) := ⟨by decide, hn.needs, hn.area, hn.name⟩
  obtain ⟨t', evs, h⟩ := C32_fill_completes (editEnv (oneMap (Toy.block 28))) (fillArgs false) _
    ⟨⟨0, 0, 0⟩, ⟨0, 0, 0⟩⟩ "default:stone" (editEnv_ok _) (fun _ => rfl) (editEnv_file _) ⟨_, rfl⟩ (oneMap_good _)
    (fillArgs_ok false) rfl rfl (by decide) rfl (by decide) rfl (by intro h; cases h)
    (Spec.AllBlocks.mono toy_one_usual fun b u => ⟨named_covered u.fine.named, fun e he =>
      Nat.le_trans (u.fine.small e he) (by omega)⟩)
  have r : Ran (Toy.codec id) (fillArgs false) [] (oneMap (Toy.block 28)) t' :=
    ⟨_, evs, editEnv_ok _, rfl, h, fun e => absurd e (by decide), fun e => absurd e (by decide)⟩
  have k := means_run (oneMap_good _) toy_one_usual (fun e => absurd e (by decide)) (by omega) (by omega) ha r
  obtain ⟨t'', h'⟩ := overlay_ran false (K := 4096) (by omega) (source_mono (by omega) toy_source) k.usual
  exact ⟨t', t'', r, h', ha, by decide, rfl⟩

/-- Copying in place (`C95_clone_still`). -/
example : ∃ t', Ran (Toy.codec id) (cloneArgs 0 0) [] (pairMap 0 (Toy.block 28)) t' ∧
    AllBlocks (Toy.codec id) (pairMap 0 (Toy.block 28)) (Usual 4095) := by
  obtain ⟨t', evs, h⟩ := clone_toy (x := 0) (y := 0) (d := 0) 28 (by omega) (by decide) (by decide) (by omega)
    (by omega) (by omega)
  exact ⟨t', ⟨_, evs, editEnv_ok _, rfl, h, fun _ _ _ => rfl, fun e => absurd e (by decide)⟩,
    pairMap_all (Toy.block_wf 28 (by omega)) toy_usual⟩

end MapEditr
