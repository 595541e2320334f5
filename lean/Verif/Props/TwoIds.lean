import Verif.Props.ReplaceInInv
import Verif.Props.ReplaceNodes
/-!
# Property C89: a name that is twice in a name table

The statements of C35–C37, C40–C42 and C46 speak of blocks whose name table has no name twice.  If a
name is twice in a table, commands take only the nodes with its least ID; what they do is stated here
without assumptions on names.
-/

namespace MapEditr
open Spec

/-- `setparam2`. -/
theorem C89_setparam2_partial (env : Env) (args : InstArgs) (t t' : Table) (evs : List Event) (val : UInt8)
    (hE : EnvOk env) (hg : (t.map (·.1)).Nodup) (hc : args.command = "setparam2")
    (hv : args.param2 = some val) (ha : AreaOk args.area) (h : Completes env args t t' evs) :
    Edited env.codec args.area args.invert t t' fun bp b b' =>
      SameHead b b' ∧ SameMeta b b' ∧ b'.objects = b.objects ∧ b'.timers = b.timers ∧
      b'.nimap = b.nimap ∧ b'.nd.nodes = b.nd.nodes ∧ b'.nd.param1 = b.nd.param1 ∧
      ∀ i, i < 4096 → b'.nd.param2[i]? =
        if Selected args.area args.invert (posAt bp i) ∧ IsFirst b (args.node.map toBytes) i then some val
        else b.nd.param2[i]? :=
  change_edited hE hg ha h hc setParam2_command (by decide) (setParam2_eq env args val hv)
    (setParam2_change env args val t ha (fun b => IsFirst b (args.node.map toBytes)) fun _ _ _ _ _ _ => Iff.rfl)

/-- `deletemeta`. -/
theorem C89_deletemeta_partial (env : Env) (args : InstArgs) (t t' : Table) (evs : List Event)
    (hE : EnvOk env) (hg : (t.map (·.1)).Nodup) (hc : args.command = "deletemeta") (ha : AreaOk args.area)
    (h : Completes env args t t' evs) :
    Edited env.codec args.area args.invert t t' fun bp b b' =>
      SameHead b b' ∧ SameNodes b b' ∧ b'.objects = b.objects ∧ b'.timers = b.timers ∧
      ∀ i, SavedMeta b
        (if Selected args.area args.invert (posAt bp (i % 4096)) ∧ IsFirst b (args.node.map toBytes) i then none
          else metaOf b i) (metaOf b' i) :=
  effect_edited hE hg ha h hc deleteMeta_command (by decide) (deleteMetadata_eq env args)
    (deleteMeta_effect env args t (fun b => IsFirst b (args.node.map toBytes)) fun _ _ _ _ _ _ => Iff.rfl)

/-- `deletetimers`. -/
theorem C89_deletetimers_partial (env : Env) (args : InstArgs) (t t' : Table) (evs : List Event)
    (hE : EnvOk env) (hg : (t.map (·.1)).Nodup) (hc : args.command = "deletetimers") (ha : AreaOk args.area)
    (h : Completes env args t t' evs) :
    Edited env.codec args.area args.invert t t' fun bp b b' =>
      SameHead b b' ∧ SameNodes b b' ∧ SameMeta b b' ∧ b'.objects = b.objects ∧
      Without (fun t => Selected args.area args.invert (posAt bp (t.pos % 4096)) ∧
        IsFirst b (args.node.map toBytes) t.pos) b.timers b'.timers :=
  effect_edited hE hg ha h hc deleteTimers_command (by decide) (deleteTimers_eq env args)
    (deleteTimers_effect env args t (fun b => IsFirst b (args.node.map toBytes)) fun _ _ _ _ _ _ => Iff.rfl)

/-- `setmetavar`. -/
theorem C89_setmetavar_partial (env : Env) (args : InstArgs) (t t' : Table) (evs : List Event) (key : String)
    (hE : EnvOk env) (hg : (t.map (·.1)).Nodup) (hc : args.command = "setmetavar") (ha : AreaOk args.area)
    (hk : args.key = some key) (h : Completes env args t t' evs) :
    Edited env.codec args.area args.invert t t' fun bp b b' =>
      SameHead b b' ∧ SameNodes b b' ∧ b'.objects = b.objects ∧ b'.timers = b.timers ∧
      ∀ i, SavedMeta b
        (if Selected args.area args.invert (posAt bp (i % 4096)) ∧ AmongFirst b (args.nodes.map toBytes) i then
          visible ((metaOf b i).map (varEdit (toBytes key)
            (if args.delete then none else some (toBytes (args.value.getD "")))))
          else metaOf b i) (metaOf b' i) :=
  effect_edited hE hg ha h hc setMetaVar_command (by decide) (setMetaVar_eq env args hk)
    (setMetaVar_effect (Q := fun b => AmongFirst b (args.nodes.map toBytes)) hE fun _ _ _ _ _ _ => Iff.rfl)

/-- `replaceininv`. -/
theorem C89_replaceininv_partial (env : Env) (args : InstArgs) (t t' : Table) (evs : List Event)
    (item : String) (hE : EnvOk env) (hg : (t.map (·.1)).Nodup) (hc : args.command = "replaceininv")
    (ha : AreaOk args.area) (hk : args.item = some item)
    (hw : ¬ endWord <:+ newItemOf args (toBytes item))
    (hv : AllBlocks env.codec t (InvsGood (toBytes item)))
    (h : Completes env args t t' evs) :
    Edited env.codec args.area args.invert t t' fun bp b b' =>
      SameHead b b' ∧ SameNodes b b' ∧ b'.objects = b.objects ∧ b'.timers = b.timers ∧
      ∀ i, if Selected args.area args.invert (posAt bp (i % 4096)) ∧ AmongFirst b (args.nodes.map toBytes) i then
          (metaOf b i = none → metaOf b' i = none) ∧
          ∀ m, metaOf b i = some m →
            ∃ m' n, InvEdit (toBytes item) (newItemOf args (toBytes item)) args.deleteMeta m m' n ∧
              SavedMeta b (some m') (metaOf b' i)
        else SavedMeta b (metaOf b i) (metaOf b' i) := by
  have hb := item_bytes (completes_args h (by rw [hc]; decide)) hk
  exact effect_edited hE hg ha h hc replaceInInv_command (by decide) (replaceInInv_eq env args hk)
    (replaceInInv_effect (Q := fun b => AmongFirst b (args.nodes.map toBytes)) (invCount_counts _)
      (hb 32 (.inr rfl)).1 (hb 10 (.inl rfl)).2 hw hv fun _ _ _ _ _ _ => Iff.rfl)

/-- `replacenodes` counts the nodes with the least ID. -/
theorem C89_replacenodes_count_partial (env : Env) (args : InstArgs) (t t' : Table) (evs : List Event) (old new : String)
    (bs : List (Vec3 × MapBlock)) (hg : GoodTable t) (hc : args.command = "replacenodes") (ha : AreaOk args.area)
    (ho : args.node = some old) (hn : args.newNode = some new)
    (h : Completes env args t t' evs) (hbs : Listed env.codec t bs) :
    Reported evs "{} nodes replaced." (bs.map fun e => countNodes fun i =>
      Selected args.area args.invert (posAt e.1 i) ∧ IsFirst e.2 (some (toBytes old)) i).sum :=
  replaceNodes_tally env args t t' evs old new bs hg hc ha ho hn (fun b => IsFirst b (some (toBytes old)))
    (fun _ _ _ _ _ _ => Iff.rfl) h hbs

/-! ## Nodes that are left out -/

theorem noArea_ok : AreaOk none := by
  intro a h
  cases h

/-- All nodes are air; node 0 has the second of two IDs. -/
def twoIds : MapBlock := namedBlock [(0, ascii "air"), (1, ascii "air")]

theorem twoIds_wf : Wf twoIds :=
  namedBlock_wf ⟨by unfold SMap.Sorted; decide, by unfold NamesFit NameFits; decide⟩

/-- The small map with this block. -/
theorem twoIds_row : (keyOf ⟨0, 0, 0⟩, Toy.data twoIds) ∈ toyMap twoIds ∧
    Represents (Toy.codec id) (Toy.data twoIds) (stored twoIds) :=
  ⟨List.mem_cons_self, Toy.data_rep twoIds_wf⟩

theorem twoIds_air : nodeName (stored twoIds) 0 = some (toBytes "air") := by
  show SMap.get? [(0, ascii "air"), (1, ascii "air")] 1 = _
  decide

theorem twoIds_not : ¬ IsFirst (stored twoIds) (some (toBytes "air")) 0 := by
  intro h
  obtain ⟨id, h1, h2⟩ := h _ rfl
  have h1 : (1 :: List.replicate 4095 0)[0]? = some id := h1
  cases h1
  exact h2.2 0 (by decide) (show SMap.get? [(0, ascii "air"), (1, ascii "air")] 0 = _ by decide)

theorem twoIds_meta : MetaInside (stored twoIds) := metaInside_stored (toy_metaInside 28)

theorem twoIds_timers : TimersInside (stored twoIds) := toy_timersInside 28

/-- The whole map, nodes named `air`. -/
def airArgs (command : String) : InstArgs :=
  { runArgs false command "map" none with node := some "air", param2 := some 7 }

/-- Every node is selected. -/
theorem airArgs_selected (command : String) (p : Vec3) : Selected (airArgs command).area (airArgs command).invert p :=
  trivial

/-- `setparam2` leaves out a node of the name given. -/
theorem C89_setparam2_false : ∃ (env : Env) (args : InstArgs) (t t' : Table) (evs : List Event) (d d' : Bytes)
    (b b' : MapBlock) (i : Nat), EnvOk env ∧ GoodTable t ∧ args.command = "setparam2" ∧ AreaOk args.area ∧
    args.node = some "air" ∧ args.param2 = some 7 ∧ Completes env args t t' evs ∧
    (keyOf ⟨0, 0, 0⟩, d) ∈ t ∧ (keyOf ⟨0, 0, 0⟩, d') ∈ t' ∧ Represents env.codec d b ∧
    Represents env.codec d' b' ∧ i < 4096 ∧ Selected args.area args.invert (posAt ⟨0, 0, 0⟩ i) ∧
    nodeName b i = some (toBytes "air") ∧ b'.nd.param2[i]? ≠ some 7 := by
  obtain ⟨t', evs, h⟩ := C37_setparam2_completes (editEnv (toyMap twoIds)) (airArgs "setparam2") _ 7
    (editEnv_ok _) (fun _ => rfl) (editEnv_file _) ⟨_, rfl⟩ (toyMap_good _)
    (by rw [← verifyArgs_iff]; decide) rfl rfl noArea_ok (.inr (by decide)) rfl nofun
  have hE := C89_setparam2_partial _ _ _ _ _ 7 (editEnv_ok _) (toyMap_good _).nodup rfl rfl noArea_ok h
  obtain ⟨d', b', h1, h2, h3⟩ := hE.good ⟨0, 0, 0⟩ _ _ origin_valid twoIds_row.1 twoIds_row.2
  refine ⟨_, _, _, t', evs, _, d', _, b', 0, editEnv_ok _, toyMap_good _, rfl, noArea_ok, rfl, rfl, h, twoIds_row.1, h1,
    twoIds_row.2, h2, by decide, trivial, twoIds_air, ?_⟩
  rw [h3.2.2.2.2.2.2.2 0 (by decide), if_neg fun hx => twoIds_not hx.2]
  decide +kernel

/-- `deletemeta` leaves the metadata of a node of the name given. -/
theorem C89_deletemeta_false : ∃ (env : Env) (args : InstArgs) (t t' : Table) (evs : List Event) (d d' : Bytes)
    (b b' : MapBlock) (i : Nat), EnvOk env ∧ GoodTable t ∧ args.command = "deletemeta" ∧ AreaOk args.area ∧
    args.node = some "air" ∧ Completes env args t t' evs ∧
    (keyOf ⟨0, 0, 0⟩, d) ∈ t ∧ (keyOf ⟨0, 0, 0⟩, d') ∈ t' ∧ Represents env.codec d b ∧
    Represents env.codec d' b' ∧ i < 4096 ∧ Selected args.area args.invert (posAt ⟨0, 0, 0⟩ i) ∧
    nodeName b i = some (toBytes "air") ∧ metaOf b' i ≠ none := by
  obtain ⟨t', evs, h⟩ := C40_deletemeta_completes (editEnv (toyMap twoIds)) (airArgs "deletemeta") _
    (editEnv_ok _) (fun _ => rfl) (editEnv_file _) ⟨_, rfl⟩ (toyMap_good _)
    (by rw [← verifyArgs_iff]; decide) rfl noArea_ok rfl nofun fun _ => toyMap_all twoIds_wf twoIds_meta
  have hE := C89_deletemeta_partial _ _ _ _ _ (editEnv_ok _) (toyMap_good _).nodup rfl noArea_ok h
  obtain ⟨d', b', h1, h2, h3⟩ := hE.good ⟨0, 0, 0⟩ _ _ origin_valid twoIds_row.1 twoIds_row.2
  refine ⟨_, _, _, t', evs, _, d', _, b', 0, editEnv_ok _, toyMap_good _, rfl, noArea_ok, rfl, h, twoIds_row.1, h1,
    twoIds_row.2, h2, by decide, trivial, twoIds_air, ?_⟩
  have h4 := h3.2.2.2.2 0
  rw [if_neg fun hx => twoIds_not hx.2] at h4
  intro h5
  rw [h5] at h4
  have h6 : metaOf (stored twoIds) 0 ≠ none := by decide
  rcases h4 with h4 | ⟨-, h4⟩
  · exact h6 h4.symm
  · cases hm : metaOf (stored twoIds) 0 with
    | none => exact h6 hm
    | some m => rw [hm] at h4; cases h4

/-- `deletetimers` leaves the timer of a node of the name given. -/
theorem C89_deletetimers_false : ∃ (env : Env) (args : InstArgs) (t t' : Table) (evs : List Event) (d d' : Bytes)
    (b b' : MapBlock) (x : NodeTimer), EnvOk env ∧ GoodTable t ∧ args.command = "deletetimers" ∧ AreaOk args.area ∧
    args.node = some "air" ∧ Completes env args t t' evs ∧
    (keyOf ⟨0, 0, 0⟩, d) ∈ t ∧ (keyOf ⟨0, 0, 0⟩, d') ∈ t' ∧ Represents env.codec d b ∧
    Represents env.codec d' b' ∧ x.pos < 4096 ∧ Selected args.area args.invert (posAt ⟨0, 0, 0⟩ x.pos) ∧
    nodeName b x.pos = some (toBytes "air") ∧ x ∈ b'.timers := by
  obtain ⟨t', evs, h⟩ := C42_deletetimers_completes (editEnv (toyMap twoIds)) (airArgs "deletetimers") _
    (editEnv_ok _) (fun _ => rfl) (editEnv_file _) ⟨_, rfl⟩ (toyMap_good _)
    (by rw [← verifyArgs_iff]; decide) rfl noArea_ok rfl nofun fun _ => toyMap_all twoIds_wf twoIds_timers
  have hE := C89_deletetimers_partial _ _ _ _ _ (editEnv_ok _) (toyMap_good _).nodup rfl noArea_ok h
  obtain ⟨d', b', h1, h2, h3⟩ := hE.good ⟨0, 0, 0⟩ _ _ origin_valid twoIds_row.1 twoIds_row.2
  refine ⟨_, _, _, t', evs, _, d', _, b', ⟨0, 10, 5⟩, editEnv_ok _, toyMap_good _, rfl, noArea_ok, rfl, h, twoIds_row.1, h1,
    twoIds_row.2, h2, by decide, trivial, twoIds_air, ?_⟩
  have h4 := h3.2.2.2.2
  have h5 : (stored twoIds).timers = [⟨0, 10, 5⟩] := rfl
  rw [h5] at h4
  generalize b'.timers = l at h4
  cases h4 with
  | drop hp _ => exact absurd hp.2 twoIds_not
  | keep _ _ => exact List.mem_cons_self

/-- Set variable `k` of all nodes named `air`. -/
def airVarArgs : InstArgs :=
  { runArgs false "setmetavar" "map" none with nodes := ["air"], key := some "k", value := some "new" }

/-- `setmetavar` leaves the variable of a node of the name given. -/
theorem C89_setmetavar_false : ∃ (env : Env) (args : InstArgs) (t t' : Table) (evs : List Event) (d d' : Bytes)
    (b b' : MapBlock) (i : Nat), EnvOk env ∧ GoodTable t ∧ args.command = "setmetavar" ∧ AreaOk args.area ∧
    args.nodes = ["air"] ∧ args.key = some "k" ∧ args.value = some "new" ∧ Completes env args t t' evs ∧
    (keyOf ⟨0, 0, 0⟩, d) ∈ t ∧ (keyOf ⟨0, 0, 0⟩, d') ∈ t' ∧ Represents env.codec d b ∧
    Represents env.codec d' b' ∧ i < 4096 ∧ Selected args.area args.invert (posAt ⟨0, 0, 0⟩ i) ∧
    nodeName b i = some (toBytes "air") ∧
    (∃ m p v, metaOf b i = some m ∧ (toBytes "k", (v, p)) ∈ m.vars) ∧
    ¬ ∃ m p, metaOf b' i = some m ∧ (toBytes "k", (toBytes "new", p)) ∈ m.vars := by
  obtain ⟨t', evs, h⟩ := C41_setmetavar_completes (editEnv (toyMap twoIds)) airVarArgs _ "k"
    (editEnv_ok _) (fun _ => rfl) (editEnv_file _) ⟨_, rfl⟩ (toyMap_good _)
    (by rw [← verifyArgs_iff]; decide)
    (by unfold CommandRefuses; simp [airVarArgs, runArgs]) rfl noArea_ok rfl (by decide) rfl nofun
    fun _ => toyMap_all twoIds_wf twoIds_meta
  have hE := C89_setmetavar_partial _ _ _ _ _ "k" (editEnv_ok _) (toyMap_good _).nodup rfl noArea_ok rfl h
  obtain ⟨d', b', h1, h2, h3⟩ := hE.good ⟨0, 0, 0⟩ _ _ origin_valid twoIds_row.1 twoIds_row.2
  refine ⟨_, _, _, t', evs, _, d', _, b', 0, editEnv_ok _, toyMap_good _, rfl, noArea_ok, rfl, rfl, rfl, h, twoIds_row.1, h1,
    twoIds_row.2, h2, by decide, trivial, twoIds_air, ?_, ?_⟩
  · exact ⟨_, true, ascii "v", rfl, by decide⟩
  · rintro ⟨m, p, h5, h6⟩
    have h4 := h3.2.2.2.2 0
    rw [if_neg fun hx => ?_] at h4
    · rcases h4 with h4 | ⟨h4, -⟩
      · rw [h4] at h5
        have h7 : metaOf (stored twoIds) 0 = some ⟨[(ascii "k", (ascii "v", true)), (ascii "l", (ascii "", false))],
          ascii "List main 1\nEmpty\nEndInventoryList\nEndInventory\n"⟩ := by decide
        rw [h7] at h5
        cases h5
        revert h6
        cases p <;> decide
      · exact absurd h4 (by decide)
    · rcases hx.2 with hx | ⟨n, hn, id, h7, h8⟩
      · cases hx
      · rw [List.mem_singleton.1 hn] at h8
        exact twoIds_not fun m hm => by cases hm; exact ⟨id, h7, h8⟩

/-- Replace all nodes named `air`. -/
def airReplArgs : InstArgs :=
  { runArgs false "replacenodes" "map" none with node := some "air", newNode := some "default:stone" }

/-- `replacenodes` leaves a node of the name given. -/
theorem C89_replacenodes_false : ∃ (env : Env) (args : InstArgs) (t t' : Table) (evs : List Event) (d d' : Bytes)
    (b b' : MapBlock) (i : Nat), EnvOk env ∧ GoodTable t ∧ args.command = "replacenodes" ∧ AreaOk args.area ∧
    args.node = some "air" ∧ args.newNode = some "default:stone" ∧ Completes env args t t' evs ∧
    (keyOf ⟨0, 0, 0⟩, d) ∈ t ∧ (keyOf ⟨0, 0, 0⟩, d') ∈ t' ∧ Represents env.codec d b ∧
    Represents env.codec d' b' ∧ i < 4096 ∧ Selected args.area args.invert (posAt ⟨0, 0, 0⟩ i) ∧
    nodeName b i = some (toBytes "air") ∧ nodeName b' i = some (toBytes "air") := by
  have hkeep : nameKeeps ([toBytes "air"].map string16) (Toy.data twoIds) = true := by
    cases hk : nameKeeps ([toBytes "air"].map string16) (Toy.data twoIds) with
    | true => rfl
    | false =>
      exact absurd twoIds_air
        (skipped_nodeName (Toy.data_rep twoIds_wf) (names := [toBytes "air"]) hk (List.mem_singleton.2 rfl) 0)
  obtain ⟨t', evs, d', h1, h2, h3, h4, h5⟩ := toy_run (bd := .debug) (args := airReplArgs) twoIds_wf rfl noArea_ok
    (by decide) rfl replaceNodes_command (by decide)
    (res := replaceNodesVerify airReplArgs) rfl (by intro e he; cases he) rfl rfl
    (replaceNodes_eq _ airReplArgs (old := "air") (new := "default:stone") rfl rfl)
    ⟨⟨1, 0, 0⟩, by unfold InBlock; decide, trivial⟩ hkeep
    (n := ((stored twoIds).nd.nodes.filter fun id => id == 0).length)
    (b' := { stored twoIds with nimap := [(0, toBytes "default:stone"), (1, ascii "air")] }) rfl
    (by
      have h0 := wf_of_represents twoIds_row.2
      exact ⟨h0.ver, h0.flags, h0.light, h0.light_old, h0.widths, h0.nodes, h0.metas, h0.objs, h0.time,
        ⟨by unfold SMap.Sorted; decide, by unfold NamesFit NameFits; decide⟩, h0.timers⟩)
  refine ⟨_, _, _, t', evs, _, d', _, _, 0, toyEnv_ok _ _, toyMap_good _, rfl, noArea_ok, rfl, rfl,
    h1, h2, h4, h3, h5, by decide, trivial, twoIds_air, ?_⟩
  show SMap.get? [(0, toBytes "default:stone"), (1, ascii "air")] 1 = _
  decide

end MapEditr
