import Verif.Proof.Session
/-!
# Property C94: sessions of several commands
-/

namespace MapEditr
open Spec

/-- There is at most one node at a position. -/
theorem C94_one_node (c : Codec) (t : Table) (p : Vec3) (v v' : NodeView) (hg : GoodTable t)
    (h : HasNode c t p v) (h' : HasNode c t p v') : v = v' := by
  obtain ⟨bp, d, b, i, h1, h2, h3, h4, rfl, rfl⟩ := h
  obtain ⟨bp', d', b', i', g1, g2, g3, g4, g5, rfl⟩ := h'
  have hi := posAt_inBlock bp' g4
  rw [g5] at hi
  have := inBlock_unique (posAt_inBlock bp h4) hi
  subst this
  have := row_unique hg.nodup h2 g2
  subst this
  have := represents_unique h3 g3
  subst this
  have : i' = i := by
    unfold posAt at g5
    simp only [Vec3.mk.injEq] at g5
    omega
  rw [this]

/-- What a command does to the nodes of a map: each node becomes what `edit` says, whatever the other nodes
are, and however the nodes are stored.  Only `deleteblocks` removes nodes; no node is new. -/
theorem C94_run (env : Env) (args : InstArgs) (t t' : Table) (evs : List Event) (K : Nat) (hE : EnvOk env)
    (hg : GoodTable t) (hf : AllBlocks env.codec t (Fine K)) (hK : 4095 ≤ K) (hK' : K ≤ 65533) (ha : NodeArgs args)
    (h : Completes env args t t' evs) (p : Vec3) (v' : NodeView) :
    HasNode env.codec t' p v' ↔ Remains args p ∧ ∃ v, HasNode env.codec t p v ∧ edit args p v = v' :=
  (acts_run hE hg hf hK hK' ha h).node p v'

theorem session_acts {c : Codec} {l : List InstArgs} {t t' : Table} (h : Session c l t t') :
    ∀ {K : Nat}, GoodTable t → AllBlocks c t (Fine K) → 4095 ≤ K → K + l.length ≤ 65534 → (∀ a ∈ l, NodeArgs a) →
      GoodTable t' ∧ AllBlocks c t' (Fine (K + l.length)) ∧ ∀ p v', HasNode c t' p v' ↔ (∀ a ∈ l, Remains a p) ∧
        ∃ v, HasNode c t p v ∧ l.foldl (fun v a => edit a p v) v = v' := by
  induction h with
  | nil =>
    intro K hg hf _ _ _
    refine ⟨hg, hf, fun p v' => ⟨fun h => ⟨(by intro a ha; cases ha), v', h, rfl⟩, ?_⟩⟩
    rintro ⟨-, v, h, rfl⟩
    exact h
  | @cons env args t t1 evs l t' hE hcodec hrun _ ih =>
    intro K hg hf hK hK' ha
    subst hcodec
    rw [List.length_cons] at hK'
    have k := acts_run hE hg hf hK (by omega) (ha args List.mem_cons_self) hrun
    obtain ⟨g1, g2, g3⟩ := ih k.good k.fine (by omega) (by omega) fun a h => ha a (List.mem_cons_of_mem _ h)
    refine ⟨g1, ?_, fun p v' => ⟨fun h => ?_, ?_⟩⟩
    · rw [List.length_cons, show K + (l.length + 1) = K + 1 + l.length by omega]
      exact g2
    · obtain ⟨e1, v1, e2, e3⟩ := (g3 p v').1 h
      obtain ⟨f1, v, f2, rfl⟩ := (k.node p v1).1 e2
      exact ⟨fun a h => (List.mem_cons.1 h).elim (fun h => h ▸ f1) (e1 a), v, f2, e3⟩
    · rintro ⟨e1, v, e2, e3⟩
      exact (g3 p v').2 ⟨fun a h => e1 a (List.mem_cons_of_mem _ h), _,
        (k.node p _).2 ⟨e1 args List.mem_cons_self, v, e2, rfl⟩, e3⟩

/-- Any number of runs, one after the other, does to each node what the commands do, one after the other.
The number of runs is limited only by the node IDs: `replacenodes` may need a new one in each run. -/
theorem C94_session (c : Codec) (l : List InstArgs) (t t' : Table) (K : Nat) (hg : GoodTable t)
    (hf : AllBlocks c t (Fine K)) (hK : 4095 ≤ K) (hK' : K + l.length ≤ 65534) (ha : ∀ a ∈ l, NodeArgs a)
    (h : Session c l t t') (p : Vec3) (v' : NodeView) :
    HasNode c t' p v' ↔ (∀ a ∈ l, Remains a p) ∧
      ∃ v, HasNode c t p v ∧ l.foldl (fun v a => edit a p v) v = v' :=
  (session_acts h hg hf hK hK' ha).2.2 p v'

/-- Afterwards every node still has a name and no block has a name twice, so a session can be continued. -/
theorem C94_fine (c : Codec) (l : List InstArgs) (t t' : Table) (K : Nat) (hg : GoodTable t)
    (hf : AllBlocks c t (Fine K)) (hK : 4095 ≤ K) (hK' : K + l.length ≤ 65534) (ha : ∀ a ∈ l, NodeArgs a)
    (h : Session c l t t') : GoodTable t' ∧ AllBlocks c t' (Fine (K + l.length)) :=
  ⟨(session_acts h hg hf hK hK' ha).1, (session_acts h hg hf hK hK' ha).2.1⟩

/-- A node that no command selects is as before after the session. -/
theorem C94_untouched (c : Codec) (l : List InstArgs) (t t' : Table) (K : Nat) (hg : GoodTable t)
    (hf : AllBlocks c t (Fine K)) (hK : 4095 ≤ K) (hK' : K + l.length ≤ 65534) (ha : ∀ a ∈ l, NodeArgs a)
    (h : Session c l t t') (p : Vec3) (hp : ∀ a ∈ l, ¬ Selected a.area a.invert p) (v : NodeView) :
    HasNode c t' p v ↔ HasNode c t p v := by
  rw [C94_session c l t t' K hg hf hK hK' ha h]
  have hfold : ∀ (l : List InstArgs), (∀ a ∈ l, ¬ Selected a.area a.invert p) → ∀ v : NodeView,
      l.foldl (fun v a => edit a p v) v = v := by
    intro l
    induction l with
    | nil => intro _ v; rfl
    | cons a l ih =>
      intro hp v
      rw [List.foldl_cons, edit_skip (hp a List.mem_cons_self)]
      exact ih (fun a h => hp a (List.mem_cons_of_mem _ h)) v
  constructor
  · rintro ⟨-, v0, h1, rfl⟩
    rw [hfold l hp]
    exact h1
  · intro h1
    refine ⟨fun a h2 _ => ?_, v, h1, hfold l hp v⟩
    obtain ⟨bp, d, b, i, -, -, -, h4, rfl, -⟩ := h1
    exact ⟨bp, _, posAt_inBlock bp h4, posAt_inBlock bp h4, hp a h2⟩

/-- Two neighbouring commands of a session can be swapped if each does the same whether the other has been
there before or not: both sessions end with the same nodes. -/
theorem C94_swap (c : Codec) (l l' : List InstArgs) (a a' : InstArgs) (t t1 t2 : Table) (K : Nat) (hg : GoodTable t)
    (hf : AllBlocks c t (Fine K)) (hK : 4095 ≤ K) (hK' : K + (l ++ a :: a' :: l').length ≤ 65534)
    (ha : ∀ x ∈ l ++ a :: a' :: l', NodeArgs x) (hi : Independent a a')
    (h1 : Session c (l ++ a :: a' :: l') t t1) (h2 : Session c (l ++ a' :: a :: l') t t2) (p : Vec3) (v : NodeView) :
    HasNode c t1 p v ↔ HasNode c t2 p v := by
  have hmem : ∀ x, x ∈ l ++ a' :: a :: l' ↔ x ∈ l ++ a :: a' :: l' := by
    intro x
    simp only [List.mem_append, List.mem_cons]
    constructor <;> rintro (h | h | h | h) <;> simp [h]
  rw [C94_session c _ t t1 K hg hf hK hK' ha h1, C94_session c _ t t2 K hg hf hK (by simpa using hK')
    (fun x hx => ha x ((hmem x).1 hx)) h2]
  refine and_congr ⟨fun h x hx => h x ((hmem x).1 hx), fun h x hx => h x ((hmem x).2 hx)⟩ ?_
  refine exists_congr fun v0 => and_congr Iff.rfl ?_
  rw [List.foldl_append, List.foldl_append, List.foldl_cons, List.foldl_cons, List.foldl_cons, List.foldl_cons, hi]

/-- Commands that select different nodes are independent. -/
theorem C94_disjoint (a a' : InstArgs)
    (h : ∀ p, Selected a.area a.invert p → ¬ Selected a'.area a'.invert p) : Independent a a' := by
  intro p v
  by_cases hs : Selected a.area a.invert p
  · rw [edit_skip (h p hs), edit_skip (h p hs)]
  · rw [edit_skip hs, edit_skip hs]

/-- What the commands that do not change names do depends on the name and on the part they change. -/
theorem edit_part (a : InstArgs) (p : Vec3) :
    (partChanged a.command = .param2 → ∃ g : Option Bytes → Option UInt8 → Option UInt8,
      ∀ v, edit a p v = { v with param2 := g v.name v.param2 }) ∧
    (partChanged a.command = .md → ∃ g : Option Bytes → Option NodeMeta → Option NodeMeta,
      ∀ v, edit a p v = { v with md := g v.name v.md }) ∧
    (partChanged a.command = .timers → ∃ g : Option Bytes → List (Nat × Nat) → List (Nat × Nat),
      ∀ v, edit a p v = { v with timers := g v.name v.timers }) ∧
    (partChanged a.command = .nothing → ∀ v, edit a p v = v) := by
  by_cases hs : Selected a.area a.invert p
  · refine ⟨fun h => ?_, fun h => ?_, fun h => ?_, fun h v => ?_⟩
    · have hc : a.command = "setparam2" := by
        unfold partChanged at h
        split at h <;> first | assumption | cases h
      refine ⟨fun n q => if (NodeView.mk n none none none []).OfKind a.node then a.param2 else q, fun v => ?_⟩
      rw [edit_hit hs, hc]
      simp only
      have : (NodeView.mk v.name none none none []).OfKind a.node ↔ v.OfKind a.node := Iff.rfl
      by_cases hk : v.OfKind a.node
      · rw [if_pos hk, if_pos (this.2 hk)]
      · rw [if_neg hk, if_neg fun e => hk (this.1 e)]
    · have hc : a.command = "deletemeta" ∨ a.command = "setmetavar" ∨ a.command = "replaceininv" := by
        unfold partChanged at h
        split at h <;> first | exact .inl ‹_› | exact .inr (.inl ‹_›) | exact .inr (.inr ‹_›) | cases h
      rcases hc with hc | hc | hc
      · refine ⟨fun n q => if (NodeView.mk n none none none []).OfKind a.node then none else q, fun v => ?_⟩
        rw [edit_hit hs, hc]
        simp only
        have : (NodeView.mk v.name none none none []).OfKind a.node ↔ v.OfKind a.node := Iff.rfl
        by_cases hk : v.OfKind a.node
        · rw [if_pos hk, if_pos (this.2 hk)]
        · rw [if_neg hk, if_neg fun e => hk (this.1 e)]
      · refine ⟨fun n q => if (NodeView.mk n none none none []).OfKinds a.nodes then
          visible (q.map (varEdit (toBytes (a.key.getD ""))
            (if a.delete then none else some (toBytes (a.value.getD ""))))) else q, fun v => ?_⟩
        rw [edit_hit hs, hc]
        simp only
        have : (NodeView.mk v.name none none none []).OfKinds a.nodes ↔ v.OfKinds a.nodes := Iff.rfl
        by_cases hk : v.OfKinds a.nodes
        · rw [if_pos hk, if_pos (this.2 hk)]
        · rw [if_neg hk, if_neg fun e => hk (this.1 e)]
      · refine ⟨fun n q => if (NodeView.mk n none none none []).OfKinds a.nodes then
          q.map (stacksEdit (toBytes (a.item.getD "")) (newItemOf a (toBytes (a.item.getD ""))) a.deleteMeta)
            else q, fun v => ?_⟩
        rw [edit_hit hs, hc]
        simp only
        have : (NodeView.mk v.name none none none []).OfKinds a.nodes ↔ v.OfKinds a.nodes := Iff.rfl
        by_cases hk : v.OfKinds a.nodes
        · rw [if_pos hk, if_pos (this.2 hk)]
        · rw [if_neg hk, if_neg fun e => hk (this.1 e)]
    · have hc : a.command = "deletetimers" := by
        unfold partChanged at h
        split at h <;> first | assumption | cases h
      refine ⟨fun n q => if (NodeView.mk n none none none []).OfKind a.node then [] else q, fun v => ?_⟩
      rw [edit_hit hs, hc]
      simp only
      have : (NodeView.mk v.name none none none []).OfKind a.node ↔ v.OfKind a.node := Iff.rfl
      by_cases hk : v.OfKind a.node
      · rw [if_pos hk, if_pos (this.2 hk)]
      · rw [if_neg hk, if_neg fun e => hk (this.1 e)]
    · rw [edit_hit hs]
      unfold partChanged at h
      split <;> first | rfl | (rename_i hx; rw [hx] at h; cases h)
  · refine ⟨fun _ => ⟨fun _ q => q, ?_⟩, fun _ => ⟨fun _ q => q, ?_⟩, fun _ => ⟨fun _ q => q, ?_⟩, fun _ => ?_⟩ <;>
      exact fun v => edit_skip hs v

/-- Commands that change different parts of a node are independent, also if they select the same nodes; but
none of them may change names, since the other may select nodes by name. -/
theorem C94_parts (a a' : InstArgs) (h : partChanged a.command ≠ .name) (h' : partChanged a'.command ≠ .name)
    (hne : partChanged a.command ≠ partChanged a'.command) : Independent a a' := by
  intro p v
  obtain ⟨h1, h2, h3, h4⟩ := edit_part a p
  obtain ⟨g1, g2, g3, g4⟩ := edit_part a' p
  generalize partChanged a.command = x at *
  generalize partChanged a'.command = x' at *
  cases x with
  | name => exact absurd rfl h
  | nothing => rw [h4 rfl, h4 rfl]
  | param2 =>
    obtain ⟨f, h1⟩ := h1 rfl
    cases x' with
    | name => exact absurd rfl h'
    | nothing => rw [g4 rfl, g4 rfl]
    | param2 => exact absurd rfl hne
    | md => obtain ⟨g, g2⟩ := g2 rfl; simp only [h1, g2]
    | timers => obtain ⟨g, g3⟩ := g3 rfl; simp only [h1, g3]
  | md =>
    obtain ⟨f, h2⟩ := h2 rfl
    cases x' with
    | name => exact absurd rfl h'
    | nothing => rw [g4 rfl, g4 rfl]
    | param2 => obtain ⟨g, g1⟩ := g1 rfl; simp only [h2, g1]
    | md => exact absurd rfl hne
    | timers => obtain ⟨g, g3⟩ := g3 rfl; simp only [h2, g3]
  | timers =>
    obtain ⟨f, h3⟩ := h3 rfl
    cases x' with
    | name => exact absurd rfl h'
    | nothing => rw [g4 rfl, g4 rfl]
    | param2 => obtain ⟨g, g1⟩ := g1 rfl; simp only [h3, g1]
    | md => obtain ⟨g, g2⟩ := g2 rfl; simp only [h3, g2]
    | timers => exact absurd rfl hne

/-! ## A session -/

theorem toy_fine (v : Nat) : Fine 4095 (stored (Toy.block v)) :=
  ⟨toy_unique v, toy_named v, fun e he => by have := toy_small v e he; omega⟩

theorem fillArgs_node (invert : Bool) : NodeArgs (fillArgs invert) :=
  ⟨by cases invert <;> decide, by unfold Needs; exact ⟨rfl, rfl⟩, by intro a h; cases h; decide,
    by intro n h; cases h; decide⟩

theorem param2Args_node : NodeArgs param2Args :=
  ⟨by decide, by unfold Needs; exact rfl, by intro a h; cases h; decide, by intro n h; cases h⟩

/-- First `fill`, then `setparam2` on the other nodes; or the other way round.  All assumptions are met, and
the node at the origin is filled in both cases. -/
example : ∃ t1 t2, Session (Toy.codec id) [fillArgs false, param2Args] (toyMap (Toy.block 28)) t1 ∧
    Session (Toy.codec id) [param2Args, fillArgs false] (toyMap (Toy.block 28)) t2 ∧
    GoodTable (toyMap (Toy.block 28)) ∧ AllBlocks (Toy.codec id) (toyMap (Toy.block 28)) (Fine 4095) ∧
    (∀ a ∈ [fillArgs false, param2Args], NodeArgs a) ∧ Independent (fillArgs false) param2Args ∧
    HasNode (Toy.codec id) t1 ⟨0, 0, 0⟩ { viewAt (stored (Toy.block 28)) 0 with name := some (toBytes "default:stone") } ∧
    HasNode (Toy.codec id) t2 ⟨0, 0, 0⟩ { viewAt (stored (Toy.block 28)) 0 with name := some (toBytes "default:stone") } := by
  have hw := Toy.block_wf 28 (by omega)
  have hg := toyMap_good (Toy.block 28)
  have hf := toyMap_all hw (toy_fine 28)
  have hn : ∀ a ∈ [fillArgs false, param2Args], NodeArgs a := by
    intro a h
    rw [List.mem_cons, List.mem_singleton] at h
    rcases h with rfl | rfl
    · exact fillArgs_node false
    · exact param2Args_node
  have hp2 : ∀ t : Table, GoodTable t → ∃ t' evs, Completes (editEnv t) param2Args t t' evs := fun t h =>
    C37_setparam2_completes (editEnv t) param2Args _ 7 (editEnv_ok _) (fun _ => rfl) (editEnv_file _) ⟨_, rfl⟩ h
      (by rw [← verifyArgs_iff]; decide) rfl rfl param2Args_node.area (.inl (by decide)) rfl (by intro h; cases h)
  have hi : Independent (fillArgs false) param2Args := C94_disjoint _ _ fun p h1 h2 => by
    have e1 : InBox ⟨0, 0, 0⟩ ⟨0, 0, 0⟩ p := h1.2 rfl
    exact absurd (h2.1 e1) (by decide)
  have hsel : Selected (fillArgs false).area (fillArgs false).invert ⟨0, 0, 0⟩ := by decide
  have hns : ¬ Selected param2Args.area param2Args.invert ⟨0, 0, 0⟩ := by decide
  have hnode : HasNode (Toy.codec id) (toyMap (Toy.block 28)) ⟨0, 0, 0⟩ (viewAt (stored (Toy.block 28)) 0) :=
    ⟨⟨0, 0, 0⟩, _, _, 0, by unfold ValidBlockPos; decide, List.mem_cons_self, Toy.data_rep hw, by omega, rfl, rfl⟩
  obtain ⟨t1, evs1, h1⟩ := fill_toy false (Toy.block 28) hw (toy_tame 28).covered (toy_small 28)
  have k1 := acts_run (editEnv_ok _) hg hf (by omega) (by omega) (fillArgs_node false) h1
  obtain ⟨t2, evs2, h2⟩ := hp2 t1 k1.good
  obtain ⟨t3, evs3, h3⟩ := hp2 _ hg
  have k3 := acts_run (editEnv_ok _) hg hf (by omega) (by omega) param2Args_node h3
  obtain ⟨t4, evs4, h4⟩ := C32_fill_completes (editEnv t3) (fillArgs false) _ ⟨⟨0, 0, 0⟩, ⟨0, 0, 0⟩⟩ "default:stone"
    (editEnv_ok _) (fun _ => rfl) (editEnv_file _) ⟨_, rfl⟩ k3.good (fillArgs_ok false) rfl rfl
    (by decide) rfl (by decide) rfl (by intro h; cases h) (fun k d b hk hd => by
      have hfine := k3.fine k d b hk hd
      refine ⟨fun id hid => ?_, fun e he => Nat.le_trans (hfine.small e he) (by decide)⟩
      obtain ⟨name, hname⟩ := hfine.named id hid
      exact ⟨_, SMap.get?_some_mem hname, Nat.le_refl _⟩)
  have s1 : Session (Toy.codec id) [fillArgs false, param2Args] (toyMap (Toy.block 28)) t2 :=
    .cons (editEnv_ok _) rfl h1 (.cons (editEnv_ok _) rfl h2 .nil)
  have s2 : Session (Toy.codec id) [param2Args, fillArgs false] (toyMap (Toy.block 28)) t4 :=
    .cons (editEnv_ok _) rfl h3 (.cons (editEnv_ok _) rfl h4 .nil)
  have key : HasNode (Toy.codec id) t2 ⟨0, 0, 0⟩
      { viewAt (stored (Toy.block 28)) 0 with name := some (toBytes "default:stone") } := by
    rw [C94_session _ _ _ _ 4095 hg hf (by omega) (by decide) hn s1]
    refine ⟨fun a h e => ?_, _, hnode, ?_⟩
    · rw [List.mem_cons, List.mem_singleton] at h
      rcases h with rfl | rfl <;> exact absurd e (by decide)
    · rw [List.foldl_cons, List.foldl_cons, List.foldl_nil, edit_skip hns, edit_hit hsel]
      rfl
  exact ⟨t2, t4, s1, s2, hg, hf, hn, hi, key,
    (C94_swap _ [] [] _ _ _ _ _ 4095 hg hf (by omega) (by decide) hn hi s1 s2 _ _).1 key⟩

/-- `fill` and `replacenodes` on the same node are not independent. -/
example : ¬ Independent (fillArgs false)
    { runArgs false "replacenodes" "map" none with node := some "default:stone", newNode := some "air" } := by
  intro h
  have := congrArg NodeView.name (h ⟨0, 0, 0⟩ ⟨none, none, none, none, []⟩)
  revert this
  decide

/-- `deletemeta` and `setparam2` are, whatever they select. -/
example : Independent (metaArgs "deletemeta") param2Args := C94_parts _ _ nofun nofun nofun

end MapEditr
