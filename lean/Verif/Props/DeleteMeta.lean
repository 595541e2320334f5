import Verif.Proof.Metas
import Verif.Proof.Effect
import Verif.Props.Param2
/-!
# Properties C40 and C42: `deletemeta` and `deletetimers`
-/

namespace MapEditr
open Spec

theorem deleteMeta_command : command? "deletemeta" = some ⟨deleteMetadata,
    fun a => .ok (deleteMetaVerify a), [.node false, .area false, .invert]⟩ := rfl

theorem deleteTimers_command : command? "deletetimers" = some ⟨deleteTimers,
    fun _ => .ok .ok, [.node false, .area false, .invert]⟩ := rfl

/-! ## The changes of one block -/

/-- `deletemeta`. -/
def deleteMetaEdit (args : InstArgs) (k : Int) (b : MapBlock) : Res (Option MapBlock × Nat) :=
  let nodeId := (args.node.map toBytes).bind fun n => NameIdMap.getId b.nimap n
  if (args.node.map toBytes).isSome && nodeId.isNone then .ok (none, 0)
  else (metaToDelete args nodeId k b.nd.nodes b.metas).map fun del =>
    if !del.isEmpty then (some (withMetas b (del.foldl SMap.erase b.metas)), del.length) else (none, 0)

theorem deleteMetadata_eq (env : Env) (args : InstArgs) :
    deleteMetadata env args = editCommand env false (toSlice (args.node.map toBytes)) args.area args.invert
      (deleteMetaEdit args) (· + ·) 0 (Msg.count "Deleted metadata from {} nodes.") := by
  unfold deleteMetadata editCommand
  have : deleteMetaStep env args (args.node.map toBytes) = editStep env false (deleteMetaEdit args) (· + ·) := by
    funext count key
    refine step_eq fun b => ?_
    unfold deleteMetaEdit
    simp only
    split
    · rfl
    · cases metaToDelete args ((args.node.map toBytes).bind fun n => NameIdMap.getId b.nimap n) key b.nd.nodes
        b.metas with
      | error e => rfl
      | ok del =>
        simp only [Except.map, lift_ok, pure_bind]
        split
        · simp only [bind_assoc, writeOpt, incIf, pure_bind, Bool.false_eq_true, if_false, withMetas]
        · rfl
  rw [← this]

/-- `deletetimers`. -/
def deleteTimersEdit (args : InstArgs) (k : Int) (b : MapBlock) : Res (Option MapBlock × Nat) :=
  let nodeId := (args.node.map toBytes).bind fun n => NameIdMap.getId b.nimap n
  if (args.node.map toBytes).isSome && nodeId.isNone then .ok (none, 0)
  else (removeRev (timerHit args nodeId k b.nd.nodes) b.timers).map fun r =>
    if r.2 > 0 then (some { b with timers := r.1 }, r.2) else (none, 0)

theorem deleteTimers_eq (env : Env) (args : InstArgs) :
    deleteTimers env args = editCommand env false (toSlice (args.node.map toBytes)) args.area args.invert
      (deleteTimersEdit args) (· + ·) 0 (Msg.count "Deleted {} node timers.") := by
  unfold deleteTimers editCommand
  have : deleteTimersStep env args (args.node.map toBytes) = editStep env false (deleteTimersEdit args) (· + ·) := by
    funext count key
    refine step_eq fun b => ?_
    unfold deleteTimersEdit
    simp only
    split
    · rfl
    · cases removeRev (timerHit args ((args.node.map toBytes).bind fun n => NameIdMap.getId b.nimap n) key
        b.nd.nodes) b.timers with
      | error e => rfl
      | ok r =>
        simp only [Except.map, lift_ok, pure_bind]
        split
        · simp only [bind_assoc, writeOpt, incIf, pure_bind, Bool.false_eq_true, if_false]
        · rfl
  rw [← this]

/-- What `deletemeta` does to a block where the nodes `Q` are chosen by name. -/
def MetaDeleted (area : Option Area) (invert : Bool) (Q : MapBlock → Nat → Prop) [∀ b, DecidablePred (Q b)]
    (bp : Vec3) (b b' : MapBlock) : Prop :=
  SameHead b b' ∧ SameNodes b b' ∧ b'.objects = b.objects ∧ b'.timers = b.timers ∧
  ∀ i, SavedMeta b (if Selected area invert (posAt bp (i % 4096)) ∧ Q b i then none else metaOf b i) (metaOf b' i)

/-- What `deletetimers` does to a block where the nodes `Q` are chosen by name. -/
def TimersDeleted (area : Option Area) (invert : Bool) (Q : MapBlock → Nat → Prop) (bp : Vec3) (b b' : MapBlock) :
    Prop :=
  SameHead b b' ∧ SameNodes b b' ∧ SameMeta b b' ∧ b'.objects = b.objects ∧
  Without (fun t => Selected area invert (posAt bp (t.pos % 4096)) ∧ Q b t.pos) b.timers b'.timers

/-- The change of one block by `deletemeta`, if the tests of all entries succeed. -/
theorem deleteMeta_block {args : InstArgs} {bp : Vec3} {b : MapBlock} (hbp : ValidBlockPos bp) (hwf : Wf b)
    {Q : MapBlock → Nat → Prop} [∀ b, DecidablePred (Q b)] (hQ : ∀ i, Q b i ↔ IsFirst b (args.node.map toBytes) i)
    (hok : (args.node ≠ none → MetaInside b) ∨ ∃ r, deleteMetaEdit args (keyOf bp) b = .ok r) :
    ∃ ob, deleteMetaEdit args (keyOf bp) b = .ok (ob, (b.metas.filter fun e =>
        Selected args.area args.invert (posAt bp (e.1 % 4096)) ∧ Q b e.1).length) ∧
      (ob = none → MetaDeleted args.area args.invert Q bp b b) ∧
      ∀ b', ob = some b' → Wf b' ∧ MetaDeleted args.area args.invert Q bp b (stored b') := by
  have hsame : (∀ e ∈ b.metas, ¬ (Selected args.area args.invert (posAt bp (e.1 % 4096)) ∧ Q b e.1)) →
      MetaDeleted args.area args.invert Q bp b b := by
    intro h
    refine ⟨⟨rfl, rfl, rfl, rfl⟩, ⟨rfl, rfl⟩, rfl, rfl, fun i => ?_⟩
    split
    · next hs =>
      left
      cases he : SMap.get? b.metas i with
      | none => unfold metaOf; rw [he]; rfl
      | some m => exact absurd hs (h (i, m) (SMap.get?_some_mem he))
    · exact .inl rfl
  unfold deleteMetaEdit at hok ⊢
  simp only at hok ⊢
  rcases nodeId_hit hwf hQ with ⟨h1, h2⟩ | ⟨h1, h2⟩
  · have hno : ∀ e ∈ b.metas, ¬ (Selected args.area args.invert (posAt bp (e.1 % 4096)) ∧ Q b e.1) :=
      fun e _ hi => h2 _ hi.2
    rw [h1, if_pos rfl, filter_none hno]
    exact ⟨none, rfl, fun _ => hsame hno, by simp⟩
  · rw [h1, if_neg (by simp)] at hok ⊢
    have hdel := metaToDelete_eq (args := args) (key := keyOf bp) (nodes := b.nd.nodes)
      (nodeId := (args.node.map toBytes).bind fun n => NameIdMap.getId b.nimap n)
      (P := fun i => Selected args.area args.invert (posAt bp (i % 4096)) ∧ Q b i)
      (l := b.metas) (by
        intro e he
        refine hit_eq hbp (h2 e.1) ?_
        rcases hok with hok | ⟨r, hok⟩
        · exact .inl fun hn => hok (by intro h; rw [h] at hn; exact hn rfl) e he
        · right
          cases hr : metaToDelete args ((args.node.map toBytes).bind fun n => NameIdMap.getId b.nimap n)
              (keyOf bp) b.nd.nodes b.metas with
          | error x => rw [hr] at hok; cases hok
          | ok del => exact metaToDelete_ok hr e he)
    rw [hdel]
    simp only [Except.map]
    split
    · next hne =>
      refine ⟨_, by rw [List.length_map], by simp, ?_⟩
      intro b' hb'
      cases hb'
      have hw' := metasWf_sublist hwf.metas (foldl_erase_sublist
        ((b.metas.filter fun e => Selected args.area args.invert (posAt bp (e.1 % 4096)) ∧ Q b e.1).map (·.1)) b.metas)
      refine ⟨wf_withMetas hwf hw', ⟨rfl, rfl, rfl, rfl⟩, ⟨rfl, rfl⟩, rfl, rfl, fun i => ?_⟩
      have h3 := savedMeta_stored (b := withMetas b _) hw'.sorted i
      have h4 : metaOf (withMetas b (List.foldl SMap.erase b.metas
          ((b.metas.filter fun e => Selected args.area args.invert (posAt bp (e.1 % 4096)) ∧ Q b e.1).map (·.1)))) i =
          if Selected args.area args.invert (posAt bp (i % 4096)) ∧ Q b i then none else metaOf b i := by
        unfold metaOf withMetas
        simp only
        rw [get?_foldl_erase]
        by_cases hs : Selected args.area args.invert (posAt bp (i % 4096)) ∧ Q b i
        · rw [if_pos hs]
          split
          · rfl
          · next hnm =>
            cases he : SMap.get? b.metas i with
            | none => rfl
            | some m =>
              refine absurd (List.mem_map.2 ⟨(i, m), ?_, rfl⟩) hnm
              rw [List.mem_filter]
              exact ⟨SMap.get?_some_mem he, by simpa using hs⟩
        · rw [if_neg hs, if_neg]
          intro hc
          obtain ⟨e, h5, rfl⟩ := List.mem_map.1 hc
          rw [List.mem_filter] at h5
          exact hs (by simpa using h5.2)
      rw [h4] at h3
      exact h3
    · next hne =>
      have hnil : (b.metas.filter fun e => Selected args.area args.invert (posAt bp (e.1 % 4096)) ∧ Q b e.1) = [] := by
        simpa using hne
      rw [hnil]
      rw [List.filter_eq_nil_iff] at hnil
      exact ⟨none, rfl, fun _ => hsame fun e he hc => hnil e he (decide_eq_true hc), by simp⟩

theorem deleteMeta_effect (env : Env) (args : InstArgs) (t : Table) (Q : MapBlock → Nat → Prop)
    [∀ b, DecidablePred (Q b)]
    (hQ : AllBlocks env.codec t fun b => ∀ i, Q b i ↔ IsFirst b (args.node.map toBytes) i) :
    Effect env (toSlice (args.node.map toBytes)) args.area args.invert (deleteMetaEdit args) t
      (MetaDeleted args.area args.invert Q)
      (fun bp b => (b.metas.filter fun e => Selected args.area args.invert (posAt bp (e.1 % 4096)) ∧ Q b e.1).length)
      0 := by
  constructor
  · intro bp d b hbp hd hrep hwf hsel ob n hok _
    obtain ⟨ob', h1, h2⟩ := deleteMeta_block hbp hwf (hQ _ _ _ hd hrep) (.inr ⟨_, hok⟩)
    rw [h1] at hok
    cases hok
    exact ⟨rfl, h2⟩
  · intro bp d b hbp hd hrep hwf hno
    have hn : ∀ i, ¬ (Selected args.area args.invert (posAt bp (i % 4096)) ∧ Q b i) := by
      rintro i ⟨h1, h2⟩
      rcases hno with h | h
      · exact h _ (posAt_inBlock bp (Nat.mod_lt i (by decide))) h1
      · exact skipped_isNode hrep h i (isNode_of_first ((hQ _ _ _ hd hrep i).1 h2))
    refine ⟨⟨⟨rfl, rfl, rfl, rfl⟩, ⟨rfl, rfl⟩, rfl, rfl, fun i => ?_⟩, ?_⟩
    · rw [if_neg (hn i)]; exact .inl rfl
    · rw [filter_none fun e _ => hn e.1]; rfl

/-- The change of one block by `deletetimers`, if the tests of all timers succeed. -/
theorem deleteTimers_block {args : InstArgs} {bp : Vec3} {b : MapBlock} (hbp : ValidBlockPos bp) (hwf : Wf b)
    {Q : MapBlock → Nat → Prop} [∀ b, DecidablePred (Q b)] (hQ : ∀ i, Q b i ↔ IsFirst b (args.node.map toBytes) i)
    (hok : (args.node ≠ none → TimersInside b) ∨ ∃ r, deleteTimersEdit args (keyOf bp) b = .ok r) :
    ∃ ob, deleteTimersEdit args (keyOf bp) b = .ok (ob, (b.timers.filter fun t =>
        Selected args.area args.invert (posAt bp (t.pos % 4096)) ∧ Q b t.pos).length) ∧
      (ob = none → TimersDeleted args.area args.invert Q bp b b) ∧
      ∀ b', ob = some b' → Wf b' ∧ TimersDeleted args.area args.invert Q bp b (stored b') := by
  have hsame : (∀ t ∈ b.timers, ¬ (Selected args.area args.invert (posAt bp (t.pos % 4096)) ∧ Q b t.pos)) →
      TimersDeleted args.area args.invert Q bp b b :=
    fun h => ⟨⟨rfl, rfl, rfl, rfl⟩, ⟨rfl, rfl⟩, sameMeta_refl b, rfl, without_self h⟩
  unfold deleteTimersEdit at hok ⊢
  simp only at hok ⊢
  rcases nodeId_hit hwf hQ with ⟨h1, h2⟩ | ⟨h1, h2⟩
  · have hno : ∀ t ∈ b.timers, ¬ (Selected args.area args.invert (posAt bp (t.pos % 4096)) ∧ Q b t.pos) :=
      fun e _ hi => h2 _ hi.2
    rw [h1, if_pos rfl, filter_none hno]
    exact ⟨none, rfl, fun _ => hsame hno, by simp⟩
  · rw [h1, if_neg (by simp)] at hok ⊢
    have hdel := removeRev_eq (del := timerHit args
        ((args.node.map toBytes).bind fun n => NameIdMap.getId b.nimap n) (keyOf bp) b.nd.nodes)
      (P := fun t => Selected args.area args.invert (posAt bp (t.pos % 4096)) ∧ Q b t.pos)
      (l := b.timers) (by
        intro e he
        refine hit_eq hbp (h2 e.pos) ?_
        rcases hok with hok | ⟨r, hok⟩
        · exact .inl fun hn => hok (by intro h; rw [h] at hn; exact hn rfl) e he
        · right
          cases hr : removeRev (timerHit args ((args.node.map toBytes).bind fun n => NameIdMap.getId b.nimap n)
              (keyOf bp) b.nd.nodes) b.timers with
          | error x => rw [hr] at hok; cases hok
          | ok del => exact removeRev_ok hr e he)
    rw [hdel]
    simp only [Except.map]
    split
    · next hne =>
      refine ⟨_, rfl, by simp, ?_⟩
      intro b' hb'
      cases hb'
      have hsub : (b.timers.filter fun t => ¬ (Selected args.area args.invert (posAt bp (t.pos % 4096)) ∧
          Q b t.pos)).Sublist b.timers := List.filter_sublist
      refine ⟨⟨hwf.ver, hwf.flags, hwf.light, hwf.light_old, hwf.widths, hwf.nodes, hwf.metas, hwf.objs, hwf.time,
        hwf.nimap, Nat.lt_of_le_of_lt hsub.length_le hwf.timers.1, fun t ht => hwf.timers.2 t (hsub.subset ht)⟩,
        ⟨rfl, rfl, rfl, rfl⟩, ⟨rfl, rfl⟩, sameMeta_stored hwf.metas.sorted rfl rfl, rfl, ?_⟩
      exact without_filter _ _
    · next hne =>
      have hnil : (b.timers.filter fun t => Selected args.area args.invert (posAt bp (t.pos % 4096)) ∧
          Q b t.pos) = [] := by
        rw [← List.length_eq_zero_iff]
        omega
      rw [hnil]
      rw [List.filter_eq_nil_iff] at hnil
      exact ⟨none, rfl, fun _ => hsame fun t ht hc => hnil t ht (decide_eq_true hc), by simp⟩

theorem deleteTimers_effect (env : Env) (args : InstArgs) (t : Table) (Q : MapBlock → Nat → Prop)
    [∀ b, DecidablePred (Q b)]
    (hQ : AllBlocks env.codec t fun b => ∀ i, Q b i ↔ IsFirst b (args.node.map toBytes) i) :
    Effect env (toSlice (args.node.map toBytes)) args.area args.invert (deleteTimersEdit args) t
      (TimersDeleted args.area args.invert Q)
      (fun bp b => (b.timers.filter fun t => Selected args.area args.invert (posAt bp (t.pos % 4096)) ∧
        Q b t.pos).length) 0 := by
  constructor
  · intro bp d b hbp hd hrep hwf hsel ob n hok _
    obtain ⟨ob', h1, h2⟩ := deleteTimers_block hbp hwf (hQ _ _ _ hd hrep) (.inr ⟨_, hok⟩)
    rw [h1] at hok
    cases hok
    exact ⟨rfl, h2⟩
  · intro bp d b hbp hd hrep hwf hno
    have hn : ∀ i, ¬ (Selected args.area args.invert (posAt bp (i % 4096)) ∧ Q b i) := by
      rintro i ⟨h1, h2⟩
      rcases hno with h | h
      · exact h _ (posAt_inBlock bp (Nat.mod_lt i (by decide))) h1
      · exact skipped_isNode hrep h i (isNode_of_first ((hQ _ _ _ hd hrep i).1 h2))
    refine ⟨⟨⟨rfl, rfl, rfl, rfl⟩, ⟨rfl, rfl⟩, sameMeta_refl b, rfl, without_self fun t _ => hn t.pos⟩, ?_⟩
    rw [filter_none fun e _ => hn e.pos]; rfl

/-! ## C40 -/

/-- After `deletemeta`, the metadata of the selected nodes is gone, and everything else is as it
was.  (An entry for a node number from 4096 on belongs to no node; its position is taken to be that of
the number modulo 4096.) -/
theorem C40_deletemeta (env : Env) (args : InstArgs) (t t' : Table) (evs : List Event)
    (hE : EnvOk env) (hg : (t.map (·.1)).Nodup) (hc : args.command = "deletemeta") (ha : AreaOk args.area)
    (hu : args.node ≠ none → AllBlocks env.codec t UniqueNames)
    (h : Completes env args t t' evs) :
    Edited env.codec args.area args.invert t t' fun bp b b' =>
      SameHead b b' ∧ SameNodes b b' ∧ b'.objects = b.objects ∧ b'.timers = b.timers ∧
      ∀ i, SavedMeta b
        (if Selected args.area args.invert (posAt bp (i % 4096)) ∧ IsNode b (args.node.map toBytes) i then none
          else metaOf b i) (metaOf b' i) :=
  effect_edited hE hg ha h hc deleteMeta_command (by decide) (deleteMetadata_eq env args)
    (deleteMeta_effect env args t (fun b => IsNode b (args.node.map toBytes)) (names_first hu))

/-- It reports the number of removed entries. -/
theorem C40_deletemeta_count (env : Env) (args : InstArgs) (t t' : Table) (evs : List Event)
    (bs : List (Vec3 × MapBlock)) (hg : GoodTable t) (hc : args.command = "deletemeta")
    (ha : AreaOk args.area)
    (hu : args.node ≠ none → AllBlocks env.codec t UniqueNames)
    (h : Completes env args t t' evs) (hbs : Listed env.codec t bs) :
    Reported evs "Deleted metadata from {} nodes." (bs.map fun e => (e.2.metas.filter fun m =>
      Selected args.area args.invert (posAt e.1 (m.1 % 4096)) ∧
        IsNode e.2 (args.node.map toBytes) m.1).length).sum :=
  effect_reported hg ha h hc deleteMeta_command (by decide) (by decide) (deleteMetadata_eq env args)
    (deleteMeta_effect env args t (fun b => IsNode b (args.node.map toBytes)) (names_first hu)) hbs

/-- It completes whenever the database works and the arguments are accepted; if a node is named,
metadata must belong to nodes. -/
theorem C40_deletemeta_completes (env : Env) (args : InstArgs) (f : DbFile)
    (hE : EnvOk env) (hfail : ∀ n, env.fail n = false) (hfile : mapFile env args.mapPath = some f)
    (hcols : MapColumns f.cols) (hg : GoodTable f.table) (hargs : ¬ BadArgs args)
    (hc : args.command = "deletemeta") (ha : AreaOk args.area)
    (hin : args.inputMapPath = none) (hconf : args.doConfirmation = true → env.answer = some true)
    (hm : args.node ≠ none → AllBlocks env.codec f.table MetaInside) :
    ∃ t' evs, Completes env args f.table t' evs := by
  refine edit_completes hfail hE.ord hfile ((colsOk_iff _).2 hcols) hg ha ((verifyArgs_iff args).2 hargs) hc
    deleteMeta_command (by decide) (res := deleteMetaVerify args) rfl ?_ hin hconf (deleteMetadata_eq env args) ?_
  · intro e
    unfold deleteMetaVerify
    split <;> simp
  · intro bp d b hbp hd hrep hwf hsel
    obtain ⟨ob, h1, -, h2⟩ := deleteMeta_block (Q := fun b => IsFirst b (args.node.map toBytes)) hbp hwf
      (fun _ => Iff.rfl) (.inl fun hn => hm hn _ _ _ hd hrep)
    exact ⟨ob, _, h1, fun b' hb' => (h2 b' hb').1⟩

/-! ## C42 -/

/-- After `deletetimers`, the timers of a block are those not selected, in the same order, and
everything else is as it was. -/
theorem C42_deletetimers (env : Env) (args : InstArgs) (t t' : Table) (evs : List Event)
    (hE : EnvOk env) (hg : (t.map (·.1)).Nodup) (hc : args.command = "deletetimers") (ha : AreaOk args.area)
    (hu : args.node ≠ none → AllBlocks env.codec t UniqueNames)
    (h : Completes env args t t' evs) :
    Edited env.codec args.area args.invert t t' fun bp b b' =>
      SameHead b b' ∧ SameNodes b b' ∧ SameMeta b b' ∧ b'.objects = b.objects ∧
      Without (fun t => Selected args.area args.invert (posAt bp (t.pos % 4096)) ∧
        IsNode b (args.node.map toBytes) t.pos) b.timers b'.timers :=
  effect_edited hE hg ha h hc deleteTimers_command (by decide) (deleteTimers_eq env args)
    (deleteTimers_effect env args t (fun b => IsNode b (args.node.map toBytes)) (names_first hu))

/-- It reports the number of removed timers. -/
theorem C42_deletetimers_count (env : Env) (args : InstArgs) (t t' : Table) (evs : List Event)
    (bs : List (Vec3 × MapBlock)) (hg : GoodTable t) (hc : args.command = "deletetimers")
    (ha : AreaOk args.area)
    (hu : args.node ≠ none → AllBlocks env.codec t UniqueNames)
    (h : Completes env args t t' evs) (hbs : Listed env.codec t bs) :
    Reported evs "Deleted {} node timers." (bs.map fun e => (e.2.timers.filter fun t =>
      Selected args.area args.invert (posAt e.1 (t.pos % 4096)) ∧
        IsNode e.2 (args.node.map toBytes) t.pos).length).sum :=
  effect_reported hg ha h hc deleteTimers_command (by decide) (by decide) (deleteTimers_eq env args)
    (deleteTimers_effect env args t (fun b => IsNode b (args.node.map toBytes)) (names_first hu)) hbs

/-- It completes whenever the database works and the arguments are accepted; if a node is named,
timers must belong to nodes. -/
theorem C42_deletetimers_completes (env : Env) (args : InstArgs) (f : DbFile)
    (hE : EnvOk env) (hfail : ∀ n, env.fail n = false) (hfile : mapFile env args.mapPath = some f)
    (hcols : MapColumns f.cols) (hg : GoodTable f.table) (hargs : ¬ BadArgs args)
    (hc : args.command = "deletetimers") (ha : AreaOk args.area)
    (hin : args.inputMapPath = none) (hconf : args.doConfirmation = true → env.answer = some true)
    (hm : args.node ≠ none → AllBlocks env.codec f.table TimersInside) :
    ∃ t' evs, Completes env args f.table t' evs := by
  refine edit_completes hfail hE.ord hfile ((colsOk_iff _).2 hcols) hg ha ((verifyArgs_iff args).2 hargs) hc
    deleteTimers_command (by decide) (res := .ok) rfl (by simp) hin hconf (deleteTimers_eq env args) ?_
  intro bp d b hbp hd hrep hwf hsel
  obtain ⟨ob, h1, -, h2⟩ := deleteTimers_block (Q := fun b => IsFirst b (args.node.map toBytes)) hbp hwf
    (fun _ => Iff.rfl) (.inl fun hn => hm hn _ _ _ hd hrep)
  exact ⟨ob, _, h1, fun b' hb' => (h2 b' hb').1⟩

/-! ## Examples -/

theorem toy_timersInside (v : Nat) : TimersInside (stored (Toy.block v)) := by
  intro e he
  have : e ∈ [(⟨0, 10, 5⟩ : NodeTimer)] := he
  rw [List.mem_singleton] at this
  subst this
  decide

/-- Delete metadata or timers of the node at (0,0,0). -/
def metaArgs (command : String) : InstArgs :=
  { runArgs false command "map" none with
    area := some ⟨⟨0, 0, 0⟩, ⟨0, 0, 0⟩⟩ }

/-- The hypotheses are met, and metadata is deleted. -/
example : ∃ t' evs, Completes (editEnv (toyMap (Toy.block 29))) (metaArgs "deletemeta") (toyMap (Toy.block 29)) t' evs ∧
    GoodTable (toyMap (Toy.block 29)) ∧ AllBlocks (Toy.codec id) (toyMap (Toy.block 29)) UniqueNames ∧
    AllBlocks (Toy.codec id) (toyMap (Toy.block 29)) MetaInside ∧
    Reported evs "Deleted metadata from {} nodes." 1 := by
  have hw := Toy.block_wf 29 (by omega)
  have h1 := toyMap_all hw (toy_unique 29)
  have h2 := toyMap_all hw (metaInside_stored (toy_metaInside 29))
  have ha : AreaOk (metaArgs "deletemeta").area := by intro a h; cases h; decide
  obtain ⟨t', evs, h⟩ := C40_deletemeta_completes (editEnv (toyMap (Toy.block 29))) (metaArgs "deletemeta") _
    (editEnv_ok _) (fun _ => rfl) (editEnv_file _) ⟨_, rfl⟩ (toyMap_good _)
    (by rw [← verifyArgs_iff]; decide) rfl ha rfl (by intro h; cases h) (fun _ => h2)
  have h3 := C40_deletemeta_count _ _ _ _ _ _ (toyMap_good _) rfl ha (fun _ => h1) h (toyMap_listed hw)
  rw [List.map_cons, List.map_nil, List.sum_cons] at h3
  exact ⟨t', evs, h, toyMap_good _, h1, h2, h3⟩

/-- The hypotheses are met, and a timer is deleted. -/
example : ∃ t' evs, Completes (editEnv (toyMap (Toy.block 29))) (metaArgs "deletetimers") (toyMap (Toy.block 29)) t' evs ∧
    GoodTable (toyMap (Toy.block 29)) ∧ AllBlocks (Toy.codec id) (toyMap (Toy.block 29)) UniqueNames ∧
    AllBlocks (Toy.codec id) (toyMap (Toy.block 29)) TimersInside ∧
    Reported evs "Deleted {} node timers." 1 := by
  have hw := Toy.block_wf 29 (by omega)
  have h1 := toyMap_all hw (toy_unique 29)
  have h2 := toyMap_all hw (toy_timersInside 29)
  have ha : AreaOk (metaArgs "deletetimers").area := by intro a h; cases h; decide
  obtain ⟨t', evs, h⟩ := C42_deletetimers_completes (editEnv (toyMap (Toy.block 29))) (metaArgs "deletetimers") _
    (editEnv_ok _) (fun _ => rfl) (editEnv_file _) ⟨_, rfl⟩ (toyMap_good _)
    (by rw [← verifyArgs_iff]; decide) rfl ha rfl (by intro h; cases h) (fun _ => h2)
  have h3 := C42_deletetimers_count _ _ _ _ _ _ (toyMap_good _) rfl ha (fun _ => h1) h (toyMap_listed hw)
  rw [List.map_cons, List.map_nil, List.sum_cons] at h3
  exact ⟨t', evs, h, toyMap_good _, h1, h2, h3⟩

end MapEditr
