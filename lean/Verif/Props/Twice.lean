import Verif.Proof.Twice
import Verif.Props.Fill
import Verif.Props.DeleteBlocks
import Verif.Props.DeleteMeta
import Verif.Props.ReplaceNodes
/-!
# Property C65: running a command a second time changes nothing further

The second run happens in another environment (`env2`): the file holds the result of the first run, hash
maps may be iterated in another order, and the build may be another; only the compression is the same.
-/

namespace MapEditr
open Spec

/-! ## Lemmas -/

theorem deleteMetaEdit_zero {args : InstArgs} {k : Int} {b : MapBlock} {ob : Option MapBlock}
    (h : deleteMetaEdit args k b = .ok (ob, 0)) : ob = none := by
  unfold deleteMetaEdit at h
  simp only at h
  split at h
  · cases h; rfl
  · cases hd : metaToDelete args ((args.node.map toBytes).bind fun n => NameIdMap.getId b.nimap n) k b.nd.nodes
      b.metas with
    | error e => rw [hd] at h; cases h
    | ok del =>
      rw [hd] at h
      simp only [Except.map] at h
      cases del with
      | nil => cases h; rfl
      | cons a l =>
        simp only [List.isEmpty_cons, Bool.not_false, if_true] at h
        have := congrArg Prod.snd (Except.ok.inj h)
        simp at this

theorem deleteTimersEdit_zero {args : InstArgs} {k : Int} {b : MapBlock} {ob : Option MapBlock}
    (h : deleteTimersEdit args k b = .ok (ob, 0)) : ob = none := by
  unfold deleteTimersEdit at h
  simp only at h
  split at h
  · cases h; rfl
  · cases hd : removeRev (timerHit args ((args.node.map toBytes).bind fun n => NameIdMap.getId b.nimap n) k
      b.nd.nodes) b.timers with
    | error e => rw [hd] at h; cases h
    | ok r =>
      rw [hd] at h
      simp only [Except.map] at h
      split at h
      · next hp =>
        have := congrArg Prod.snd (Except.ok.inj h)
        simp only at this
        omega
      · cases h; rfl

theorem nodeName_sameNodes {b b' : MapBlock} (h : SameNodes b b') (i : Nat) : nodeName b' i = nodeName b i := by
  unfold nodeName
  rw [h.1, h.2]

theorem isNode_sameNodes {b b' : MapBlock} (h : SameNodes b b') (node : Option Bytes) (i : Nat) :
    IsNode b' node i ↔ IsNode b node i := by
  unfold IsNode
  rw [nodeName_sameNodes h]

theorem isFirst_sameNodes {b b' : MapBlock} (h : SameNodes b b') (node : Option Bytes) (i : Nat) :
    IsFirst b' node i ↔ IsFirst b node i := by
  unfold IsFirst FirstId
  rw [h.1, h.2]

/-- Saved metadata is never void. -/
theorem metaOf_of_mem_stored {b : MapBlock} (hw : SMap.Sorted b.metas) {e : Nat × NodeMeta} (he : e ∈ (stored b).metas) :
    metaOf (stored b) e.1 = some e.2 := by
  have hnv : ∀ e ∈ (stored b).metas, ¬ MetaVoid e.2 := by
    intro e he
    unfold stored dropVoid at he
    simp only at he
    split at he
    · have := (List.mem_filter.1 he).2
      simpa using this
    · obtain ⟨e0, h1, rfl⟩ := List.mem_map.1 he
      have := (List.mem_filter.1 h1).2
      simp only
      rw [publish_void]
      simpa using this
  have hs : SMap.Sorted (stored b).metas := by
    unfold stored dropVoid
    simp only
    split
    · exact SMap.sorted_filter hw _
    · exact SMap.sorted_mapVal (SMap.sorted_filter hw _) fun _ m => publish m
  unfold metaOf
  rw [SMap.get?_of_mem hs he]
  have := hnv e he
  simp [Option.filter, this]

/-! ## C65 -/

/-- `fill`: the second run leaves every block's contents as they are. -/
theorem C65_fill (env env2 : Env) (args : InstArgs) (t t' t'' : Table) (evs evs2 : List Event) (a : Area)
    (node : String) (hE : EnvOk env) (hE2 : EnvOk env2) (hcodec : env2.codec = env.codec) (hg : GoodTable t)
    (hc : args.command = "fill") (harea : args.area = some a) (ha : a.isValid = true)
    (hnode : args.newNode = some node)
    (h : Completes env args t t' evs) (h2 : Completes env2 args t' t'' evs2) :
    Edited env.codec (some a) args.invert t' t'' fun _ b' b'' =>
      SameButNodes b' b'' ∧ ∀ i, i < 4096 → nodeName b'' i = nodeName b' i := by
  have k1 := fill_edited env args t t' evs a node hE hg hc harea ha hnode h
  have k2 := fill_edited env2 args t' t'' evs2 a node hE2 (goodTable_of_edited hg k1) hc harea ha hnode h2
  rw [hcodec] at k2
  refine edited_second k1 k2 ?_
  rintro bp b b' b'' ⟨⟨-, -, -, -, -, -, r1⟩, r2, -⟩ ⟨⟨s1, s2, s3, s4, s5, s6, s7⟩, -, s8⟩
  refine ⟨⟨s1, s2, s3, s4, s5, s6⟩, fun i hi => ?_⟩
  by_cases hs : ∃ j, j < 4096 ∧ Selected (some a) args.invert (posAt bp j)
  · by_cases hi' : Selected (some a) args.invert (posAt bp i)
    · rw [(s7 i hi).1 hi', (r1 i hi).1 hi']
    · obtain ⟨name, hn⟩ := named_node (r2 hs).1 (r2 hs).2.1 hi
      rw [(s7 i hi).2 hi' name hn, hn]
  · rw [s8 fun j hj hx => hs ⟨j, hj, hx⟩]

/-- `replacenodes`: the second run leaves every block's contents as they are, also the nodes without a
name.  (ID 65535 must be free if one of the runs is of a release build.) -/
theorem C65_replacenodes (env env2 : Env) (args : InstArgs) (t t' t'' : Table) (evs evs2 : List Event)
    (old new : String) (hE : EnvOk env) (hE2 : EnvOk env2) (hcodec : env2.codec = env.codec) (hg : GoodTable t)
    (hc : args.command = "replacenodes") (ha : AreaOk args.area) (ho : args.node = some old)
    (hn : args.newNode = some new)
    (hb : AllBlocks env.codec t fun b => GoodIds env.build b ∧ GoodIds env2.build b)
    (h : Completes env args t t' evs) (h2 : Completes env2 args t' t'' evs2) :
    Edited env.codec args.area args.invert t' t'' fun _ b' b'' =>
      SameButNodes b' b'' ∧ ∀ i, i < 4096 → nodeName b'' i = nodeName b' i := by
  have hne := replace_differ hc ho hn h
  obtain ⟨br, h3, h4, h5⟩ : ∃ br : Build, (env.build = .release → br = .release) ∧ (env2.build = .release → br = .release) ∧
      AllBlocks env.codec t (Sound br (toBytes new)) := by
    cases hb1 : env.build with
    | release => exact ⟨.release, fun _ => rfl, fun _ => rfl, fun k d b h1 h2 => by
        have := (hb k d b h1 h2).1.sound (toBytes new); rw [hb1] at this; exact this⟩
    | debug => exact ⟨env2.build, nofun, id, fun k d b h1 h2 => (hb k d b h1 h2).2.sound (toBytes new)⟩
  have k1 := replaceNodes_edited env args t t' evs old new hE hg hc ha ho hn h3 h5 h
  have k2 := replaceNodes_edited env2 args t' t'' evs2 old new hE2 (goodTable_of_edited hg k1) hc ha ho hn h4
    (by rw [hcodec]; exact edited_all hg k1 h5 fun _ _ _ _ hr => hr.2) h2
  rw [hcodec] at k2
  refine edited_second k1 k2 ?_
  rintro bp b b' b'' ⟨⟨-, r1⟩, -⟩ ⟨⟨s1, s2⟩, -⟩
  have hno : ∀ i, i < 4096 → ¬ (Selected args.area args.invert (posAt bp i) ∧ nodeName b' i = some (toBytes old)) := by
    rintro i hi ⟨x1, x2⟩
    obtain ⟨y1, y2, y3⟩ := r1 i hi
    cases hb : nodeName b i with
    | none =>
      rcases y3 hb with hz | ⟨hz, -⟩
      · rw [hz] at x2; cases x2
      · rw [hz] at x2; exact hne (Option.some.inj x2).symm
    | some name =>
      by_cases hx : name = toBytes old
      · subst hx
        rw [y1 ⟨x1, hb⟩] at x2
        exact hne (Option.some.inj x2).symm
      · have := y2 (fun hc => hx (by rw [hb] at hc; exact Option.some.inj hc.2)) name hb
        rw [this] at x2
        exact hx (Option.some.inj x2)
  refine ⟨s1, fun i hi => ?_⟩
  obtain ⟨z1, z2, z3⟩ := s2 i hi
  cases hb : nodeName b' i with
  | none =>
    rcases z3 hb with hz | ⟨-, j, hj, hz⟩
    · exact hz
    · exact absurd hz (hno j hj)
  | some name => exact z2 (hno i hi) name hb

/-- `deleteblocks`: the second run leaves every row as it is. -/
theorem C65_deleteblocks (env env2 : Env) (args : InstArgs) (t t' t'' : Table) (evs evs2 : List Event)
    (hg : GoodTable t) (hc : args.command = "deleteblocks") (ha : AreaOk args.area)
    (h : Completes env args t t' evs) (h2 : Completes env2 args t' t'' evs2) (r : Int × Bytes) :
    r ∈ t'' ↔ r ∈ t' := by
  obtain ⟨a1, a2, a3⟩ := C39_deleteblocks env args t t' evs hg hc ha h
  have hg' : GoodTable t' := ⟨a1, fun r hr => hg.valid r (a2 r hr)⟩
  obtain ⟨b1, b2, b3⟩ := C39_deleteblocks env2 args t' t'' evs2 hg' hc ha h2
  refine ⟨b2 r, fun hr => ?_⟩
  obtain ⟨bp, h1, h3, -⟩ := row_pos hg' hr
  have hr' : (keyOf bp, r.2) ∈ t' := by rw [h3]; exact hr
  have hr0 : (keyOf bp, r.2) ∈ t := a2 _ hr'
  have : ∃ p, InBlock bp p ∧ ¬ Selected args.area args.invert p := by
    refine Classical.byContradiction fun hno => ?_
    refine (a3 bp r.2 h1 hr0).1 (fun p hp => Classical.byContradiction fun hs => hno ⟨p, hp, hs⟩) ?_
    exact List.mem_map.2 ⟨_, hr', rfl⟩
  have := (b3 bp r.2 h1 hr').2 this
  rw [h3] at this
  exact this

theorem mem_iff_of_get? {t t' : Table} (hn : (t.map (·.1)).Nodup) (hn' : (t'.map (·.1)).Nodup)
    (h : ∀ k, t'.get? k = t.get? k) (r : Int × Bytes) : r ∈ t' ↔ r ∈ t := by
  constructor
  · intro hr
    have := Table.get?_of_mem hn' (k := r.1) (d := r.2) hr
    rw [h] at this
    exact Table.get?_some_mem this
  · intro hr
    have := Table.get?_of_mem hn (k := r.1) (d := r.2) hr
    rw [← h] at this
    exact Table.get?_some_mem this

/-- `deletemeta`: the second run leaves every row as it is. -/
theorem C65_deletemeta (env env2 : Env) (args : InstArgs) (t t' t'' : Table) (evs evs2 : List Event)
    (hE : EnvOk env) (hcodec : env2.codec = env.codec) (hg : GoodTable t) (hc : args.command = "deletemeta")
    (h : Completes env args t t' evs) (h2 : Completes env2 args t' t'' evs2) (r : Int × Bytes) :
    r ∈ t'' ↔ r ∈ t' := by
  obtain ⟨D, g, e, -⟩ := change_edits h hc deleteMeta_command (by decide) hg.nodup (deleteMetadata_eq env args)
  obtain ⟨D2, g2, e2, -⟩ := change_edits h2 hc deleteMeta_command (by decide) e.nodup (deleteMetadata_eq env2 args)
  refine mem_iff_of_get? e.nodup e2.nodup (edits_twice hE hcodec e e2 ?_) r
  intro r hr b b1 n hrep hedit
  obtain ⟨hrt, -⟩ := mem_hits.1 hr
  obtain ⟨bp, hbp, hkey, -⟩ := row_pos hg hrt
  rw [← hkey] at hedit ⊢
  have hrt' : (keyOf bp, r.2) ∈ t := by rw [hkey]; exact hrt
  obtain ⟨ob, f1, -, f3⟩ := deleteMeta_block (Q := fun b => IsFirst b (args.node.map toBytes)) hbp
    (wf_of_represents hrep) (fun _ => Iff.rfl) (.inr ⟨_, hedit⟩)
  rw [hedit] at f1
  have hob := congrArg Prod.fst (Except.ok.inj f1)
  simp only at hob
  obtain ⟨g1, -, g2, -, -, g3⟩ := f3 b1 hob.symm
  refine ⟨g1, fun ob2 n2 hedit2 => ?_⟩
  obtain ⟨s, s1, s2⟩ := serialize_spec hE.codec hE.full (hE.ord 0) g1
  have hmeta : ∀ x ∈ (stored b1).metas, ¬ (Selected args.area args.invert (posAt bp (x.1 % 4096)) ∧
      IsFirst (stored b1) (args.node.map toBytes) x.1) := by
    intro x hx
    have hx' := metaOf_of_mem_stored g1.metas.sorted hx
    have hsv := g3 x.1
    unfold SavedMeta at hsv
    rw [hx'] at hsv
    split at hsv
    · rcases hsv with hsv | ⟨-, hsv⟩ <;> cases hsv
    · next hns => exact fun hc' => hns ⟨hc'.1, (isFirst_sameNodes g2 _ _).1 hc'.2⟩
  obtain ⟨ob3, k1, -⟩ := deleteMeta_block (Q := fun b => IsFirst b (args.node.map toBytes)) hbp
    (wf_of_represents s2) (fun _ => Iff.rfl) (.inr ⟨_, hedit2⟩)
  rw [filter_none hmeta] at k1
  rw [hedit2] at k1
  have hn2 := congrArg Prod.snd (Except.ok.inj k1)
  simp only [List.length_nil] at hn2
  subst hn2
  exact deleteMetaEdit_zero hedit2

theorem without_none {P : α → Prop} {l l' : List α} (h : Without P l l') : ∀ a ∈ l', ¬ P a := by
  induction h with
  | nil => intro a ha; cases ha
  | drop _ _ ih => exact ih
  | keep hp _ ih =>
    intro a ha
    rcases List.mem_cons.1 ha with rfl | ha
    · exact hp
    · exact ih a ha

theorem without_sub {P : α → Prop} {l l' : List α} (h : Without P l l') : ∀ a ∈ l', a ∈ l := by
  induction h with
  | nil => intro a ha; cases ha
  | drop _ _ ih => intro a ha; exact List.mem_cons_of_mem _ (ih a ha)
  | keep _ _ ih =>
    intro a ha
    rcases List.mem_cons.1 ha with rfl | ha
    · exact List.mem_cons_self
    · exact List.mem_cons_of_mem _ (ih a ha)

/-- `deletetimers`: the second run leaves every row as it is. -/
theorem C65_deletetimers (env env2 : Env) (args : InstArgs) (t t' t'' : Table) (evs evs2 : List Event)
    (hE : EnvOk env) (hcodec : env2.codec = env.codec) (hg : GoodTable t) (hc : args.command = "deletetimers")
    (h : Completes env args t t' evs) (h2 : Completes env2 args t' t'' evs2) (r : Int × Bytes) :
    r ∈ t'' ↔ r ∈ t' := by
  obtain ⟨D, g, e, -⟩ := change_edits h hc deleteTimers_command (by decide) hg.nodup (deleteTimers_eq env args)
  obtain ⟨D2, g2, e2, -⟩ := change_edits h2 hc deleteTimers_command (by decide) e.nodup (deleteTimers_eq env2 args)
  refine mem_iff_of_get? e.nodup e2.nodup (edits_twice hE hcodec e e2 ?_) r
  intro r hr b b1 n hrep hedit
  obtain ⟨hrt, -⟩ := mem_hits.1 hr
  obtain ⟨bp, hbp, hkey, -⟩ := row_pos hg hrt
  rw [← hkey] at hedit ⊢
  have hrt' : (keyOf bp, r.2) ∈ t := by rw [hkey]; exact hrt
  obtain ⟨ob, f1, -, f3⟩ := deleteTimers_block (Q := fun b => IsFirst b (args.node.map toBytes)) hbp
    (wf_of_represents hrep) (fun _ => Iff.rfl) (.inr ⟨_, hedit⟩)
  rw [hedit] at f1
  have hob := congrArg Prod.fst (Except.ok.inj f1)
  simp only at hob
  obtain ⟨g1, -, g2, -, -, g3⟩ := f3 b1 hob.symm
  refine ⟨g1, fun ob2 n2 hedit2 => ?_⟩
  obtain ⟨s, s1, s2⟩ := serialize_spec hE.codec hE.full (hE.ord 0) g1
  obtain ⟨ob3, k1, -⟩ := deleteTimers_block (Q := fun b => IsFirst b (args.node.map toBytes)) hbp
    (wf_of_represents s2) (fun _ => Iff.rfl) (.inr ⟨_, hedit2⟩)
  rw [filter_none fun x hx hc' => without_none g3 x hx ⟨hc'.1, (isFirst_sameNodes g2 _ _).1 hc'.2⟩] at k1
  rw [hedit2] at k1
  have hn2 := congrArg Prod.snd (Except.ok.inj k1)
  simp only [List.length_nil] at hn2
  subst hn2
  exact deleteTimersEdit_zero hedit2

/-- Two runs in a row exist: `fill` on a map with a readable and an unreadable block. -/
example : ∃ t' t'' evs evs2,
    Completes (editEnv (toyMap (Toy.block 28))) (fillArgs true) (toyMap (Toy.block 28)) t' evs ∧
    Completes (editEnv t') (fillArgs true) t' t'' evs2 ∧ GoodTable (toyMap (Toy.block 28)) := by
  have hw := Toy.block_wf 28 (by omega)
  obtain ⟨t', evs, h⟩ := fill_toy true (Toy.block 28) hw (named_covered (toy_named 28)) (toy_small 28)
  have k1 := fill_edited _ _ _ t' evs ⟨⟨0, 0, 0⟩, ⟨0, 0, 0⟩⟩ "default:stone" (editEnv_ok _) (toyMap_good _).nodup rfl rfl
    (by decide) rfl h
  have hg' := goodTable_of_edited (toyMap_good _) k1
  have hb : AllBlocks (Toy.codec id) (toyMap (Toy.block 28)) (fun b => Covered b ∧ ∀ e ∈ b.nimap, e.1 ≤ 65533) :=
    toyMap_all hw ⟨named_covered (toy_named 28), fun e he => Nat.le_trans (toy_small 28 e he) (by decide)⟩
  have hb' : AllBlocks (Toy.codec id) t' (fun b => Covered b ∧ ∀ e ∈ b.nimap, e.1 ≤ 65533) := by
    refine edited_all (toyMap_good _) k1 hb ?_
    rintro bp b b' hb ⟨-, h2, h3⟩
    by_cases hs : ∃ j, j < 4096 ∧ Selected (some ⟨⟨0, 0, 0⟩, ⟨0, 0, 0⟩⟩) (fillArgs true).invert (posAt bp j)
    · obtain ⟨-, k2, k3⟩ := h2 hs
      exact ⟨named_covered k2, fun e he => Nat.le_trans (k3.1 e he) (by decide)⟩
    · rw [h3 fun j hj hx => hs ⟨j, hj, hx⟩]
      exact hb
  obtain ⟨t'', evs2, h2⟩ := C32_fill_completes (editEnv t') (fillArgs true) _ ⟨⟨0, 0, 0⟩, ⟨0, 0, 0⟩⟩ "default:stone"
    (editEnv_ok _) (fun _ => rfl) (editEnv_file _) ⟨_, rfl⟩ hg' (fillArgs_ok true) rfl rfl
    (by decide) rfl (by decide) rfl (by intro h; cases h) hb'
  exact ⟨t', t'', evs, evs2, h, h2, toyMap_good _⟩

/-- Also for `replacenodes`. -/
example : ∃ t' t'' evs evs2,
    Completes (editEnv (toyMap (Toy.block 29))) replArgs (toyMap (Toy.block 29)) t' evs ∧
    Completes (editEnv t') replArgs t' t'' evs2 ∧ GoodTable (toyMap (Toy.block 29)) ∧
    AllBlocks (Toy.codec id) (toyMap (Toy.block 29)) (fun b => GoodIds .debug b ∧ GoodIds .debug b) := by
  have hw := Toy.block_wf 29 (by omega)
  have ha : AreaOk replArgs.area := by intro a h; cases h; decide
  have hb : AllBlocks (Toy.codec id) (toyMap (Toy.block 29))
      (fun b => UniqueNames b ∧ Named b ∧ ∀ e ∈ b.nimap, e.1 ≤ 65532) :=
    toyMap_all hw ⟨toy_unique 29, toy_named 29, fun e he => Nat.le_trans (toy_small 29 e he) (by decide)⟩
  have hdone : ∀ t, GoodTable t → AllBlocks (Toy.codec id) t (fun b => ∀ e ∈ b.nimap, e.1 ≤ 65533) →
      ∃ t' evs, Completes (editEnv t) replArgs t t' evs := fun t hg hb =>
    C35_replacenodes_completes (editEnv t) replArgs _ "air" "default:stone"
      (editEnv_ok _) (fun _ => rfl) (editEnv_file _) ⟨_, rfl⟩ hg (by rw [← verifyArgs_iff]; decide)
      (by unfold CommandRefuses; simp [replArgs, runArgs]) rfl ha rfl rfl (by decide) rfl (by intro h; cases h) hb
  obtain ⟨t', evs, h⟩ := hdone _ (toyMap_good _) fun k d b h1 h2 e he => by have := (hb k d b h1 h2).2.2 e he; omega
  have k1 := C35_replacenodes_names _ _ _ t' evs "air" "default:stone" 65532 (editEnv_ok _) (toyMap_good _).nodup rfl ha rfl rfl
    (by decide) (by decide) hb h
  obtain ⟨t'', evs2, h2⟩ := hdone t' (goodTable_of_edited (toyMap_good _) k1)
    (edited_all (toyMap_good _) k1 hb fun _ _ _ _ hr => hr.2.2)
  have hgood : GoodIds .debug (stored (Toy.block 29)) := ⟨toy_unique 29, by decide, nofun⟩
  exact ⟨t', t'', evs, evs2, h, h2, toyMap_good _, toyMap_all hw ⟨hgood, hgood⟩⟩

end MapEditr
