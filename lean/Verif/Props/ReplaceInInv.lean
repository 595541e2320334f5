import Verif.Props.SetMetaVar
/-!
# Property C46: `replaceininv`
-/

namespace MapEditr
open Spec

theorem replaceInInv_command : command? "replaceininv" = some ⟨replaceInInv,
    fun a => .ok (replaceInInvVerify a),
    [.item, .newItem, .delete, .deleteMeta, .nodes, .area false, .invert]⟩ := rfl

/-- `replaceininv` on one block. -/
def replaceInInvEdit (args : InstArgs) (item : Bytes) (k : Int) (b : MapBlock) :
    Res (Option MapBlock × (Nat × Nat)) :=
  (metaEdit args (args.nodes.map toBytes) (editInv item (newItemOf args item) args.deleteMeta) k b).map
    fun r => (r.1, (r.2.sum, (r.2.filter (· > 0)).length))

/-- How the counts of blocks add up. -/
def addPair (x y : Nat × Nat) : Nat × Nat := (x.1 + y.1, x.2 + y.2)

theorem replaceInInv_eq (env : Env) (args : InstArgs) {item : String} (hk : args.item = some item) :
    replaceInInv env args = editCommand env false (args.nodes.map toBytes) args.area args.invert
      (replaceInInvEdit args (toBytes item)) addPair (0, 0)
      (fun c => Msg.count2 "Replaced {} itemstacks in {} nodes." c.1 c.2) := by
  unfold replaceInInv editCommand
  have : replaceInInvStep env args (toBytes item) (newItemOf args (toBytes item)) (args.nodes.map toBytes) =
      editStep env false (replaceInInvEdit args (toBytes item)) addPair := by
    funext count bkey
    refine step_eq fun b => ?_
    unfold replaceInInvEdit metaEdit
    simp only
    split
    · rfl
    · cases editMetas args ((args.nodes.map toBytes).filterMap fun n => NameIdMap.getId b.nimap n) bkey
        b.nd.nodes (editInv (toBytes item) (newItemOf args (toBytes item)) args.deleteMeta) b.metas with
      | error e => rfl
      | ok r =>
        simp only [Except.map, lift_ok, pure_bind]
        split
        · simp only [bind_assoc, writeOpt, incIf, pure_bind, Bool.false_eq_true, if_false, withMetas, addPair]
        · rfl
  rw [← this, hk]
  rfl

/-- What `replaceininv` does to a block where the nodes `Q` are chosen by name. -/
def InvsReplaced (args : InstArgs) (item : Bytes) (Q : MapBlock → Nat → Prop) [∀ b, DecidablePred (Q b)]
    (bp : Vec3) (b b' : MapBlock) : Prop :=
  SameHead b b' ∧ SameNodes b b' ∧ b'.objects = b.objects ∧ b'.timers = b.timers ∧
  ∀ i, if Selected args.area args.invert (posAt bp (i % 4096)) ∧ Q b i then
      (metaOf b i = none → metaOf b' i = none) ∧
      ∀ m, metaOf b i = some m →
        ∃ m' n, InvEdit item (newItemOf args item) args.deleteMeta m m' n ∧ SavedMeta b (some m') (metaOf b' i)
    else SavedMeta b (metaOf b i) (metaOf b' i)

theorem invText_nil {ls : List Bytes} (h : invText ls = endInv) : ls = [] := by
  cases ls with
  | nil => rfl
  | cons l t =>
    have h1 := congrArg List.length h
    unfold invText at h1
    simp at h1
    omega

theorem invEdit_void {item newItem : Bytes} {delMeta : Bool} {m m' : NodeMeta} {n : Nat}
    (h : InvEdit item newItem delMeta m m' n) : MetaVoid m' ↔ MetaVoid m := by
  obtain ⟨h1, ls, ls', h2, h3, h4⟩ := h
  unfold MetaVoid
  rw [h1, h2.1, h3.1]
  constructor
  · rintro ⟨h5, h6⟩
    have := invText_nil h6
    subst this
    cases h4
    exact ⟨h5, rfl⟩
  · rintro ⟨h5, h6⟩
    have := invText_nil h6
    subst this
    cases h4
    exact ⟨h5, rfl⟩

section
variable {args : InstArgs} {item : Bytes} {cnt : Bytes → Nat} {Q : MapBlock → Nat → Prop}
  [∀ b, DecidablePred (Q b)]

/-- The entries of a block, edited one by one. -/
theorem editInv_good (hcnt : CountsStacks item cnt) (hi : 32 ∉ item) (hn : (10 : UInt8) ∉ newItemOf args item)
    (hw : ¬ endWord <:+ newItemOf args item) {b : MapBlock} (hwf : Wf b) (hgood : InvsGood item b) :
    ∀ e ∈ b.metas,
      MetaWf (editInv item (newItemOf args item) args.deleteMeta e.2).1 ∧
      InvEdit item (newItemOf args item) args.deleteMeta e.2
        (editInv item (newItemOf args item) args.deleteMeta e.2).1 (cnt e.2.inv) ∧
      (editInv item (newItemOf args item) args.deleteMeta e.2).2 = cnt e.2.inv ∧
      (cnt e.2.inv = 0 → (editInv item (newItemOf args item) args.deleteMeta e.2).1 = e.2) := by
  intro e he
  obtain ⟨lines, h1, h2⟩ := hgood e he
  rw [hcnt _ _ h1]
  exact editInv_spec args.deleteMeta hi hn hw (hwf.metas.metas e he) h1 h2

/-- What is reported for a block. -/
def invsCount (args : InstArgs) (cnt : Bytes → Nat) (Q : MapBlock → Nat → Prop) [∀ b, DecidablePred (Q b)]
    (bp : Vec3) (b : MapBlock) : Nat × Nat :=
  ((b.metas.filter fun e => Selected args.area args.invert (posAt bp (e.1 % 4096)) ∧ Q b e.1).map
      (fun e => cnt e.2.inv) |>.sum,
    (b.metas.filter fun e => (Selected args.area args.invert (posAt bp (e.1 % 4096)) ∧ Q b e.1) ∧
      cnt e.2.inv > 0).length)

theorem invsReplaced_of (hcnt : CountsStacks item cnt) (hi : 32 ∉ item) (hn : (10 : UInt8) ∉ newItemOf args item)
    (hw : ¬ endWord <:+ newItemOf args item) {bp : Vec3} {b b' : MapBlock} (hwf : Wf b) (hgood : InvsGood item b)
    (h : EditedBy (fun i m => if hitBy args Q bp b i then
      (editInv item (newItemOf args item) args.deleteMeta m).1 else m) b b') :
    InvsReplaced args item Q bp b b' := by
  obtain ⟨h1, h2, h3, h4, h5⟩ := h
  refine ⟨h1, h2, h3, h4, fun i => ?_⟩
  have h6 := h5 i
  have hmv : metaOf b i = visible (SMap.get? b.metas i) := rfl
  split
  · next hh =>
    have hh : hitBy args Q bp b i := hh
    simp only [if_pos hh] at h6
    rw [hmv]
    cases hg : SMap.get? b.metas i with
    | none =>
      rw [hg] at h6
      refine ⟨fun _ => ?_, fun m hm => by cases hm⟩
      rcases h6 with h6 | ⟨_, h6⟩ <;> rw [h6] <;> rfl
    | some m =>
      rw [hg] at h6
      obtain ⟨-, g2, -, -⟩ := editInv_good hcnt hi hn hw hwf hgood _ (SMap.get?_some_mem hg)
      simp only at g2
      have gv := invEdit_void g2
      unfold visible at h6 ⊢
      rw [Option.map_some] at h6
      by_cases hm : MetaVoid m
      · rw [Option.filter_some, if_neg (by simpa using gv.2 hm)] at h6
        rw [Option.filter_some, if_neg (by simpa using hm)]
        refine ⟨fun _ => ?_, fun m hm => by cases hm⟩
        rcases h6 with h6 | ⟨_, h6⟩ <;> rw [h6] <;> rfl
      · rw [Option.filter_some, if_pos (by simpa using fun h => hm (gv.1 h))] at h6
        rw [Option.filter_some, if_pos (by simpa using hm)]
        refine ⟨fun h => (by cases h), ?_⟩
        rintro m0 hm0
        cases hm0
        exact ⟨_, _, g2, h6⟩
  · next hh =>
    have hh : ¬ hitBy args Q bp b i := hh
    simp only [if_neg hh] at h6
    rw [hmv]
    simpa using h6

theorem invs_counts (hcnt : CountsStacks item cnt) (hi : 32 ∉ item) (hn : (10 : UInt8) ∉ newItemOf args item)
    (hw : ¬ endWord <:+ newItemOf args item) {bp : Vec3} {b : MapBlock} (hwf : Wf b) (hgood : InvsGood item b) :
    ((b.metas.filter fun e => hitBy args Q bp b e.1).map fun e =>
      (editInv item (newItemOf args item) args.deleteMeta e.2).2) =
    (b.metas.filter fun e => Selected args.area args.invert (posAt bp (e.1 % 4096)) ∧
      Q b e.1).map (fun e => cnt e.2.inv) := by
  have hf : (b.metas.filter fun e => hitBy args Q bp b e.1) =
      (b.metas.filter fun e => Selected args.area args.invert (posAt bp (e.1 % 4096)) ∧
      Q b e.1) := by
    refine List.filter_congr fun e _ => ?_
    congr 1
  rw [hf]
  refine List.map_congr_left fun e he => ?_
  exact (editInv_good hcnt hi hn hw hwf hgood e (List.mem_filter.1 he).1).2.2.1

theorem invs_positive {bp : Vec3} {b : MapBlock} :
    (((b.metas.filter fun e => Selected args.area args.invert (posAt bp (e.1 % 4096)) ∧
      Q b e.1).map (fun e => cnt e.2.inv)).filter (· > 0)).length =
    (b.metas.filter fun e => (Selected args.area args.invert (posAt bp (e.1 % 4096)) ∧
        Q b e.1) ∧ cnt e.2.inv > 0).length := by
  rw [List.filter_map, List.length_map, List.filter_filter]
  congr 1
  refine List.filter_congr fun e _ => ?_
  simp only [Function.comp]
  rw [Bool.eq_iff_iff, Bool.and_eq_true, decide_eq_true_iff, decide_eq_true_iff, decide_eq_true_iff]
  exact And.comm

/-- The change of one block, if the tests of all entries succeed. -/
theorem replaceInInv_block (hcnt : CountsStacks item cnt) (hi : 32 ∉ item)
    (hn : (10 : UInt8) ∉ newItemOf args item) (hw : ¬ endWord <:+ newItemOf args item) {bp : Vec3} {b : MapBlock}
    (hbp : ValidBlockPos bp) (hwf : Wf b) (hgood : InvsGood item b)
    (hQ : ∀ i, Q b i ↔ AmongFirst b (args.nodes.map toBytes) i)
    (hok : (args.nodes ≠ [] → MetaInside b) ∨ ∃ r, replaceInInvEdit args item (keyOf bp) b = .ok r) :
    ∃ ob, replaceInInvEdit args item (keyOf bp) b = .ok (ob, invsCount args cnt Q bp b) ∧
      (ob = none → InvsReplaced args item Q bp b b) ∧
      ∀ b', ob = some b' → Wf b' ∧ InvsReplaced args item Q bp b (stored b') := by
  have hspec := editInv_good hcnt hi hn hw hwf hgood
  obtain ⟨ob, h1, h2, h3⟩ := metaEdit_spec (args := args) (nodes := args.nodes.map toBytes)
    (edit := editInv item (newItemOf args item) args.deleteMeta) hbp hwf hQ
    (by
      rcases hok with hok | ⟨r, hok⟩
      · exact .inl fun hne => hok (by intro h; rw [h] at hne; exact hne rfl)
      · right
        unfold replaceInInvEdit at hok
        cases hr : metaEdit args (args.nodes.map toBytes)
            (editInv item (newItemOf args item) args.deleteMeta) (keyOf bp) b with
        | error x => rw [hr] at hok; cases hok
        | ok r' => exact ⟨r', rfl⟩)
    (fun e he h0 => (hspec e he).2.2.2 (by rw [← (hspec e he).2.2.1]; exact h0))
  refine ⟨ob, ?_, fun h => invsReplaced_of hcnt hi hn hw hwf hgood (h2 h), fun b' hb' => ?_⟩
  · unfold replaceInInvEdit invsCount
    rw [h1, invs_counts hcnt hi hn hw hwf hgood]
    simp only [Except.map]
    rw [invs_positive]
  · obtain ⟨h4, h5⟩ := h3 b' hb'
    refine ⟨?_, invsReplaced_of hcnt hi hn hw hwf hgood h5⟩
    rw [h4]
    exact metaEdit_wf hwf fun e he _ => (hspec e he).1

theorem replaceInInv_effect {env : Env} {t : Table} (hcnt : CountsStacks item cnt) (hi : 32 ∉ item)
    (hn : (10 : UInt8) ∉ newItemOf args item) (hw : ¬ endWord <:+ newItemOf args item)
    (hv : AllBlocks env.codec t (InvsGood item))
    (hQ : AllBlocks env.codec t fun b => ∀ i, Q b i ↔ AmongFirst b (args.nodes.map toBytes) i) :
    Effect env (args.nodes.map toBytes) args.area args.invert (replaceInInvEdit args item) t
      (InvsReplaced args item Q) (invsCount args cnt Q) (0, 0) := by
  constructor
  · intro bp d b hbp hd hrep hwf hsel ob n hok hsave
    obtain ⟨ob', h1, h2, h3⟩ := replaceInInv_block hcnt hi hn hw hbp hwf (hv _ _ _ hd hrep) (hQ _ _ _ hd hrep)
      (.inr ⟨_, hok⟩)
    rw [h1] at hok
    cases hok
    exact ⟨rfl, h2, h3⟩
  · intro bp d b hbp hd hrep hwf hno
    have hgood := hv _ _ _ hd hrep
    obtain ⟨h1, h2⟩ := editedBy_skip (args := args)
      (edit := editInv item (newItemOf args item) args.deleteMeta) (hQ _ _ _ hd hrep) hrep hno
    refine ⟨invsReplaced_of hcnt hi hn hw hwf hgood h1, ?_⟩
    unfold invsCount
    rw [← invs_positive, ← invs_counts hcnt hi hn hw hwf hgood, h2]
    rfl

end

theorem reported2_iff {args : InstArgs} {wn : Option String} {failed : Nat} {what : String} {n1 m1 n2 m2 : Nat} :
    Reported2 (allEvents args wn (.count2 what n1 m1) failed) what n2 m2 ↔ n1 = n2 ∧ m1 = m2 := by
  have hmem : ∀ n m, .log .info (.count2 what n m) ∈ allEvents args wn (.count2 what n1 m1) failed ↔
      n1 = n ∧ m1 = m := by
    intro n m
    unfold allEvents cmdEvents
    simp only [List.mem_append]
    constructor
    · rintro (((h | h) | h) | h)
      · exact absurd h preEvents_not_info
      · simp only [List.mem_cons, List.not_mem_nil, or_false] at h
        rcases h with h | h | h | h | h <;> cases h
        exact ⟨rfl, rfl⟩
      · unfold skipEvents at h
        split at h
        · simp only [List.mem_singleton] at h
          cases h
        · cases h
      · simp only [List.mem_cons, List.not_mem_nil, or_false] at h
        rcases h with h | h <;> cases h
    · rintro ⟨rfl, rfl⟩
      exact .inl (.inl (.inr (by simp)))
  unfold Reported2
  simp only [hmem]
  constructor
  · exact fun h => h.1
  · rintro ⟨rfl, rfl⟩; exact ⟨⟨rfl, rfl⟩, fun n m h => ⟨h.1.symm, h.2.symm⟩⟩

/-- Names accepted by `verify_args`. -/
theorem item_bytes {args : InstArgs} (h : ¬ BadArgs args) {item : String} (hk : args.item = some item)
    (c : UInt8) (hc : c = 10 ∨ c = 32) : c ∉ toBytes item ∧ c ∉ newItemOf args (toBytes item) := by
  have hn : ∀ n ∈ allNames args, NameForm n := by
    intro n hn
    refine Classical.byContradiction fun hf => h (.inr (.inr (.inr ⟨n, hn, hf⟩)))
  have h1 : c ∉ toBytes item := nameForm_bytes (hn item (by unfold allNames; simp [hk])) c hc
  refine ⟨h1, ?_⟩
  unfold newItemOf
  cases hnew : args.newItem with
  | none =>
    simp only [Option.map_none, Option.getD_none]
    split
    · simp
    · exact h1
  | some n =>
    exact nameForm_bytes (hn n (by unfold allNames; simp [hnew])) c hc

/-! ## Counting stacks -/

/-- The lines of an inventory, for counting. -/
def invCount (item inv : Bytes) : Nat := ((splitOn 10 inv).filter fun l => decide (IsStack item l)).length

theorem invCount_counts (item : Bytes) : CountsStacks item (invCount item) := by
  rintro inv lines ⟨rfl, hl, -⟩
  unfold invCount
  have h1 : invText lines = linesText (lines ++ [endWord]) ++ [] := by
    unfold invText linesText
    rw [List.flatMap_append, endInv_word]
    simp
  rw [h1, splitOn_text _ [] (by
    intro l h
    rcases List.mem_append.1 h with h | h
    · exact hl l h
    · rw [List.mem_singleton.1 h]; decide) (by simp)]
  have hhead : ascii "Item " = 73 :: ascii "tem " := by decide
  have h2 : ¬ IsStack item endWord := by
    have he : endWord = 69 :: endWord.tail := by decide
    rw [he]
    unfold IsStack
    rw [hhead]
    rintro (h | ⟨r, h⟩) <;> simp at h
  have h3 : ¬ IsStack item [] := by
    unfold IsStack
    rw [hhead]
    rintro (h | ⟨r, h⟩) <;> simp at h
  rw [List.filter_append, List.filter_append, List.filter_cons, if_neg (by simpa using h2), List.filter_cons,
    if_neg (by simpa using h3)]
  simp

/-! ## C46 -/

/-- After `replaceininv`, the inventories of the selected nodes are rewritten line by line, and
everything else is as it was.  Inventories are assumed to be as Minetest writes them, and the new
name must not end in `EndInventory`, see `C46_false`. -/
theorem C46_replaceininv_partial (env : Env) (args : InstArgs) (t t' : Table) (evs : List Event)
    (item : String) (hE : EnvOk env) (hg : (t.map (·.1)).Nodup) (hc : args.command = "replaceininv")
    (ha : AreaOk args.area) (hk : args.item = some item)
    (hw : ¬ endWord <:+ newItemOf args (toBytes item))
    (hu : args.nodes ≠ [] → AllBlocks env.codec t UniqueNames)
    (hv : AllBlocks env.codec t (InvsGood (toBytes item)))
    (h : Completes env args t t' evs) :
    Edited env.codec args.area args.invert t t' fun bp b b' =>
      SameHead b b' ∧ SameNodes b b' ∧ b'.objects = b.objects ∧ b'.timers = b.timers ∧
      ∀ i, if Selected args.area args.invert (posAt bp (i % 4096)) ∧ AmongNodes b (args.nodes.map toBytes) i then
          (metaOf b i = none → metaOf b' i = none) ∧
          ∀ m, metaOf b i = some m →
            ∃ m' n, InvEdit (toBytes item) (newItemOf args (toBytes item)) args.deleteMeta m m' n ∧
              SavedMeta b (some m') (metaOf b' i)
        else SavedMeta b (metaOf b i) (metaOf b' i) := by
  have hb := item_bytes (completes_args h (by rw [hc]; decide)) hk
  exact effect_edited hE hg ha h hc replaceInInv_command (by decide) (replaceInInv_eq env args hk)
    (replaceInInv_effect (Q := fun b => AmongNodes b (args.nodes.map toBytes)) (invCount_counts _)
      (hb 32 (.inr rfl)).1 (hb 10 (.inl rfl)).2 hw hv (lists_first hu))

/-- It reports the number of replaced stacks and of nodes holding them. -/
theorem C46_replaceininv_count (env : Env) (args : InstArgs) (t t' : Table) (evs : List Event)
    (item : String) (cnt : Bytes → Nat) (bs : List (Vec3 × MapBlock)) (hg : GoodTable t)
    (hc : args.command = "replaceininv") (ha : AreaOk args.area) (hk : args.item = some item)
    (hw : ¬ endWord <:+ newItemOf args (toBytes item))
    (hu : args.nodes ≠ [] → AllBlocks env.codec t UniqueNames)
    (hv : AllBlocks env.codec t (InvsGood (toBytes item)))
    (hcnt : CountsStacks (toBytes item) cnt)
    (h : Completes env args t t' evs) (hbs : Listed env.codec t bs) :
    Reported2 evs "Replaced {} itemstacks in {} nodes."
      (bs.map fun e => ((e.2.metas.filter fun m => Selected args.area args.invert (posAt e.1 (m.1 % 4096)) ∧
        AmongNodes e.2 (args.nodes.map toBytes) m.1).map fun m => cnt m.2.inv).sum).sum
      (bs.map fun e => (e.2.metas.filter fun m => (Selected args.area args.invert (posAt e.1 (m.1 % 4096)) ∧
        AmongNodes e.2 (args.nodes.map toBytes) m.1) ∧ cnt m.2.inv > 0).length).sum := by
  have hb := item_bytes (completes_args h (by rw [hc]; decide)) hk
  have ch := replaceInInv_effect (env := env) (t := t) (Q := fun b => AmongNodes b (args.nodes.map toBytes)) hcnt
    (hb 32 (.inr rfl)).1 (hb 10 (.inl rfl)).2 hw hv (lists_first hu)
  obtain ⟨D, g, e, he⟩ := change_edits h hc replaceInInv_command (by decide) hg.nodup (replaceInInv_eq env args hk)
  rw [he, reported2_iff, e.sum]
  exact ⟨effect_sum hg ha e ch (φ := Prod.fst) rfl (fun _ _ => rfl) hbs,
    effect_sum hg ha e ch (φ := Prod.snd) rfl (fun _ _ => rfl) hbs⟩

/-- It completes whenever the database works and the arguments are accepted. -/
theorem C46_replaceininv_completes (env : Env) (args : InstArgs) (f : DbFile) (item : String)
    (hE : EnvOk env) (hfail : ∀ n, env.fail n = false) (hfile : mapFile env args.mapPath = some f)
    (hcols : MapColumns f.cols) (hg : GoodTable f.table) (hargs : ¬ BadArgs args)
    (hr : ¬ CommandRefuses args) (hc : args.command = "replaceininv") (ha : AreaOk args.area)
    (hk : args.item = some item) (hw : ¬ endWord <:+ newItemOf args (toBytes item))
    (hin : args.inputMapPath = none) (hconf : args.doConfirmation = true → env.answer = some true)
    (hm : args.nodes ≠ [] → AllBlocks env.codec f.table MetaInside)
    (hv : AllBlocks env.codec f.table (InvsGood (toBytes item))) :
    ∃ t' evs, Completes env args f.table t' evs := by
  have hb := item_bytes hargs hk
  refine edit_completes hfail hE.ord hfile ((colsOk_iff _).2 hcols) hg ha ((verifyArgs_iff args).2 hargs) hc
    replaceInInv_command (by decide) (res := replaceInInvVerify args) rfl ?_ hin hconf (replaceInInv_eq env args hk) ?_
  · intro e he
    unfold replaceInInvVerify at he
    refine hr (.inr (.inr (.inr (.inl ⟨hc, ?_⟩))))
    split at he
    · next h1 => left; simpa [and_assoc] using h1
    · split at he
      · next h2 => right; left; simpa [Option.isSome_iff_ne_none] using h2
      · split at he
        · next h3 => right; right; simpa using h3
        · cases he
  · intro bp d b hbp hd hrep hwf hsel
    obtain ⟨ob, h1, -, h2⟩ := replaceInInv_block (Q := fun b => AmongFirst b (args.nodes.map toBytes))
      (invCount_counts _) (hb 32 (.inr rfl)).1 (hb 10 (.inl rfl)).2 hw hbp hwf (hv _ _ _ hd hrep)
      (fun _ => Iff.rfl) (.inl fun hn => hm hn _ _ _ hd hrep)
    exact ⟨ob, _, h1, fun b' hb' => (h2 b' hb').1⟩

/-! ## Examples, and where it goes wrong -/

/-- The lines of an inventory with one stack. -/
def sampleLines : List Bytes := [ascii "List main 1", ascii "Item a:b", ascii "EndInventoryList"]

/-- A block with this inventory at node 0. -/
def invBlock : MapBlock := { Toy.block 29 with metas := [(0, ⟨[], invText sampleLines⟩)] }

theorem sampleLines_inv : InvLines (invText sampleLines) sampleLines :=
  ⟨rfl, by unfold Lines; decide, by decide⟩

theorem invBlock_wf : Wf invBlock := by
  refine wf_withMetas (Toy.block_wf 29 (by omega)) ⟨by unfold SMap.Sorted; simp, by decide, ?_, ?_⟩
  · intro e he
    rw [List.mem_singleton] at he
    subst he
    decide
  · intro e he
    rw [List.mem_singleton] at he
    subst he
    refine ⟨by unfold SMap.Sorted; simp, by decide, by simp, ?_⟩
    exact framed_lines sampleLines_inv.2.1 (by decide)

theorem invBlock_stored : stored invBlock = invBlock := rfl

theorem invBlock_inside : MetaInside invBlock := by
  intro e he
  have he : e ∈ [(0, (⟨[], invText sampleLines⟩ : NodeMeta))] := he
  rw [List.mem_singleton] at he
  subst he
  decide

theorem invLines_unique {inv : Bytes} {ls ls' : List Bytes} (h : InvLines inv ls) (h' : InvLines inv ls') :
    ls = ls' := by
  have key : ∀ l, Lines l → splitOn 10 (invText l) = l ++ [endWord] ++ [[]] := by
    intro l hl
    have h1 : invText l = linesText (l ++ [endWord]) ++ [] := by
      unfold invText linesText
      rw [List.flatMap_append, endInv_word]
      simp
    rw [h1, splitOn_text _ [] (by
      intro x h
      rcases List.mem_append.1 h with h | h
      · exact hl x h
      · rw [List.mem_singleton.1 h]; decide) (by simp)]
  have h1 := key ls h.2.1
  rw [← h.1, h'.1, key ls' h'.2.1] at h1
  exact (List.append_cancel_right (List.append_cancel_right h1)).symm

theorem invBlock_good : InvsGood (toBytes "a:b") invBlock := by
  intro e he
  have he : e ∈ [(0, (⟨[], invText sampleLines⟩ : NodeMeta))] := he
  rw [List.mem_singleton] at he
  subst he
  refine ⟨sampleLines, sampleLines_inv, ?_⟩
  intro l hl tail ht
  have h1 := isStack_iff.2 ⟨tail, ht⟩
  have h2 : l = ascii "Item " ++ toBytes "a:b" := by
    revert h1
    have : ∀ l ∈ sampleLines, IsStack (toBytes "a:b") l → l = ascii "Item " ++ toBytes "a:b" := by decide
    exact this l hl
  have h3 := ht.2
  rw [h2] at h3
  have h4 : tail = [] := by simpa using h3
  rw [h4]
  decide

/-- Replace `a:b` by `a:c` in the node at (0,0,0). -/
def invArgs (newItem : String) : InstArgs :=
  { metaArgs "replaceininv" with item := some "a:b", newItem := some newItem }

/-- The hypotheses are met, and a stack is replaced. -/
example : ∃ t' evs, Completes (editEnv (toyMap invBlock)) (invArgs "a:c") (toyMap invBlock) t' evs ∧
    GoodTable (toyMap invBlock) ∧ AllBlocks (Toy.codec id) (toyMap invBlock) MetaInside ∧
    AllBlocks (Toy.codec id) (toyMap invBlock) (InvsGood (toBytes "a:b")) ∧
    ¬ endWord <:+ newItemOf (invArgs "a:c") (toBytes "a:b") ∧
    Reported2 evs "Replaced {} itemstacks in {} nodes." 1 1 := by
  have hw := invBlock_wf
  have h2 := toyMap_all hw (P := MetaInside) (by rw [invBlock_stored]; exact invBlock_inside)
  have h3 := toyMap_all hw (P := InvsGood (toBytes "a:b")) (by rw [invBlock_stored]; exact invBlock_good)
  have ha : AreaOk (invArgs "a:c").area := by intro a h; cases h; decide
  have he : ¬ endWord <:+ newItemOf (invArgs "a:c") (toBytes "a:b") := by decide
  obtain ⟨t', evs, h⟩ := C46_replaceininv_completes (editEnv (toyMap invBlock)) (invArgs "a:c") _ "a:b"
    (editEnv_ok _) (fun _ => rfl) (editEnv_file _) ⟨_, rfl⟩ (toyMap_good _)
    (by rw [← verifyArgs_iff]; decide)
    (by unfold CommandRefuses; simp [invArgs, metaArgs, runArgs]) rfl ha rfl he rfl (by intro h; cases h)
    (fun h => absurd rfl h) h3
  have h4 := C46_replaceininv_count _ _ _ _ _ "a:b" _ _ (toyMap_good _) rfl ha rfl he
    (fun h => absurd rfl h) h3 (invCount_counts _) h (toyMap_listed hw)
  rw [List.map_cons, List.map_nil, List.sum_cons, List.map_cons, List.map_nil, List.sum_cons] at h4
  exact ⟨t', evs, h, toyMap_good _, h2, h3, he, h4⟩

/-- `replaceininv` on the sample block with a name ending in `EndInventory`. -/
theorem badName_completes : ∃ t' evs, Completes (editEnv (toyMap invBlock)) (invArgs "a:EndInventory")
    (toyMap invBlock) t' evs := by
  refine completes_of (f := ⟨toyMap invBlock, [⟨"pos", "INT", 1⟩, ⟨"data", "BLOB", 0⟩]⟩) (by decide)
    replaceInInv_command (res := .ok) (by decide) (by simp) (editEnv_file _) (by decide)
    (by intro p hp; cases hp) (fun _ => rfl) (by intro h; cases h) (by decide) ?_
  intro w1 ho _
  show ∃ w2, replaceInInv _ _ w1 = _
  rw [replaceInInv_eq _ _ (item := "a:b") rfl]
  refine editCommand_works ho (toyMap_good _).nodup (fun _ => rfl) (editEnv_ok _).ord ?_
  intro r hr b hd
  have hmem : r = (0, Toy.data invBlock) ∨ r = (1, [25]) := by
    have := (mem_hits.1 hr).1
    unfold toyMap at this
    simpa using this
  rcases hmem with rfl | rfl
  · have hcodec : (editEnv (toyMap invBlock)).codec = Toy.codec id := rfl
    rw [hcodec] at hd
    simp only at hd
    have hb := represents_unique (deserialize_iff.1 hd) (Toy.data_rep invBlock_wf)
    rw [invBlock_stored] at hb
    subst hb
    have hed : ∀ nodes, editMetas (invArgs "a:EndInventory") [] 0 nodes
        (editInv (toBytes "a:b") (toBytes "a:EndInventory") false) [(0, ⟨[], invText sampleLines⟩)] =
        .ok ([(0, ⟨[], invText [ascii "List main 1", ascii "Item a:EndInventory", ascii "EndInventoryList"]⟩)], [1]) := by
      intro nodes
      rfl
    refine ⟨some { invBlock with metas := [(0, ⟨[], invText [ascii "List main 1", ascii "Item a:EndInventory",
      ascii "EndInventoryList"]⟩)] }, (1, 1), ?_, ?_⟩
    · have h1 : metaEdit (invArgs "a:EndInventory") [] (editInv (toBytes "a:b") (toBytes "a:EndInventory") false) 0
          invBlock = (editMetas (invArgs "a:EndInventory") [] 0 invBlock.nd.nodes
        (editInv (toBytes "a:b") (toBytes "a:EndInventory") false) [(0, ⟨[], invText sampleLines⟩)]).map fun r =>
          (if r.2.any (· > 0) then some (withMetas invBlock r.1) else none, r.2) := rfl
      rw [hed] at h1
      show (metaEdit (invArgs "a:EndInventory") [] (editInv (toBytes "a:b") (toBytes "a:EndInventory") false) 0
          invBlock).map _ = _
      rw [h1]
      rfl
    · intro b' hb' ord hord
      cases hb'
      refine serialize_ok_metas _ (wf_withMetas invBlock_wf (m := []) ⟨by unfold SMap.Sorted; simp, by decide, by simp, by simp⟩) ?_
      have h0 : ord 0 [] = [] := (hord 0 []).eq_nil
      show ∃ ml, wrMetaList ord [(0, ⟨[], _⟩)] 29 = .ok ml
      simp only [wrMetaList, wrEach, wrMetaEntry, NodeMeta.serialize, h0]
      exact ⟨_, rfl⟩
  · exact absurd (deserialize_iff.1 hd) (bad25 b)

/-- The full statement is false: given a name ending in `EndInventory`, the saved inventory is cut short
when it is read again (or the block becomes unreadable). -/
theorem C46_false : ∃ env args t t' evs item, EnvOk env ∧ GoodTable t ∧ args.command = "replaceininv" ∧
    AreaOk args.area ∧ args.item = some item ∧ AllBlocks env.codec t MetaInside ∧ args.nodes = [] ∧
    AllBlocks env.codec t (InvsGood (toBytes item)) ∧ Completes env args t t' evs ∧
    ¬ Edited env.codec args.area args.invert t t' fun bp b b' =>
      SameHead b b' ∧ SameNodes b b' ∧ b'.objects = b.objects ∧ b'.timers = b.timers ∧
      ∀ i, if Selected args.area args.invert (posAt bp (i % 4096)) ∧ AmongNodes b (args.nodes.map toBytes) i then
          (metaOf b i = none → metaOf b' i = none) ∧
          ∀ m, metaOf b i = some m →
            ∃ m' n, InvEdit (toBytes item) (newItemOf args (toBytes item)) args.deleteMeta m m' n ∧
              SavedMeta b (some m') (metaOf b' i)
        else SavedMeta b (metaOf b i) (metaOf b' i) := by
  obtain ⟨t', evs, h⟩ := badName_completes
  have hw := invBlock_wf
  refine ⟨_, _, _, t', evs, "a:b", editEnv_ok _, toyMap_good _, rfl, by intro a h; cases h; decide, rfl,
    toyMap_all hw (P := MetaInside) (by rw [invBlock_stored]; exact invBlock_inside), rfl,
    toyMap_all hw (P := InvsGood (toBytes "a:b")) (by rw [invBlock_stored]; exact invBlock_good), h, ?_⟩
  intro hE
  have hrep := Toy.data_rep invBlock_wf
  rw [invBlock_stored] at hrep
  obtain ⟨d', b', -, h2, -, -, -, -, h3⟩ := hE.good ⟨0, 0, 0⟩ (Toy.data invBlock) invBlock
    (by unfold ValidBlockPos; decide) List.mem_cons_self hrep
  have h4 := h3 0
  rw [if_pos (by refine ⟨?_, .inl rfl⟩; decide)] at h4
  obtain ⟨m', n, ⟨h5, ls, ls', h6, h7, h8⟩, h9⟩ := h4.2 ⟨[], invText sampleLines⟩ rfl
  have hls := invLines_unique h6 sampleLines_inv
  subst hls
  have hm : metaOf b' 0 = some m' := by
    rcases h9 with h9 | ⟨h9, _⟩
    · exact h9
    · exact absurd h9 (by decide)
  have hwf := wf_of_represents h2
  have hget : SMap.get? b'.metas 0 = some m' := by
    unfold metaOf at hm
    exact Option.filter_eq_some_iff.1 hm |>.1
  have hfr := (hwf.metas.metas _ (SMap.get?_some_mem hget)).inv
  simp only at hfr
  rw [h7.1] at hfr
  have hend := lines_framed h7.2.1 hfr
  refine hend (ascii "Item a:EndInventory") ?_ (by decide)
  have hnot : ∀ l ∈ [ascii "List main 1", ascii "EndInventoryList"], ¬ IsStack (toBytes "a:b") l := by decide
  cases h8 with
  | item tail _ _ ha _ _ => exact absurd (isStack_iff.2 ⟨tail, ha⟩) (hnot _ List.mem_cons_self)
  | other _ _ h8 =>
    cases h8 with
    | other _ ha _ => exact absurd (isStack_iff.1 (show IsStack (toBytes "a:b") (ascii "Item a:b") by decide)) ha
    | item tail _ l' ha hb _ =>
      have ht : tail = [] := by
        have := ha.2
        have h10 : ascii "Item a:b" = ascii "Item " ++ toBytes "a:b" := by decide
        rw [h10] at this
        simpa using this
      subst ht
      have hl' : l' = ascii "Item a:EndInventory" := by
        rcases hb with ⟨hb, _⟩ | ⟨_, _, rfl⟩ | ⟨_, hb, _⟩
        · exact absurd hb (by decide)
        · decide
        · exact absurd hb (by decide)
      rw [hl']
      simp

end MapEditr
