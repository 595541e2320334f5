import Verif.Proof.CrashNodes
import Verif.Props.Runs
import Verif.Proof.Total
import Verif.Props.TwoIds
import Verif.Props.DeleteObjects
/-!
# Property C107: what makes the program crash
-/

namespace MapEditr
open Spec

theorem crash_deletemeta {env : Env} {args : InstArgs} {f : DbFile} (S : AllSet env args f)
    (hc : args.command = "deletemeta") : Crashes env args ↔ SomeBlock env.codec f.table fun bp _ b =>
      (∃ n, args.node = some n ∧ Lists b (toBytes n)) ∧ StrayMeta args.area args.invert bp b := by
  refine crash_iff S hc deleteMeta_command (by decide) (res := deleteMetaVerify args) rfl ?_
    (deleteMetadata_eq env args) ?_ ?_
  · intro e
    unfold deleteMetaVerify
    split <;> simp
  · rintro bp d b hbp - hrep hw ht
    refine ⟨?_, ?_, (deleteMeta_stuck hbp hw).1 ht⟩
    · obtain ⟨-, e, -, -, h⟩ := ht
      exact ⟨_, posAt_inBlock bp (Nat.mod_lt _ (by decide)), h⟩
    · obtain ⟨⟨n, h1, h2⟩, -⟩ := ht
      exact lists_kept hrep hw (by rw [h1]; exact List.mem_singleton.2 rfl) h2
  · intro bp d b hbp _ hrep hw hn _ _
    exact (deleteMeta_stuck hbp hw).2 hn

theorem crash_deletetimers {env : Env} {args : InstArgs} {f : DbFile} (S : AllSet env args f)
    (hc : args.command = "deletetimers") : Crashes env args ↔ SomeBlock env.codec f.table fun bp _ b =>
      (∃ n, args.node = some n ∧ Lists b (toBytes n)) ∧ StrayTimer args.area args.invert bp b := by
  refine crash_iff S hc deleteTimers_command (by decide) (res := .ok) rfl (by simp) (deleteTimers_eq env args) ?_ ?_
  · rintro bp d b hbp - hrep hw ht
    refine ⟨?_, ?_, (deleteTimers_stuck hbp hw).1 ht⟩
    · obtain ⟨-, e, -, -, h⟩ := ht
      exact ⟨_, posAt_inBlock bp (Nat.mod_lt _ (by decide)), h⟩
    · obtain ⟨⟨n, h1, h2⟩, -⟩ := ht
      exact lists_kept hrep hw (by rw [h1]; exact List.mem_singleton.2 rfl) h2
  · intro bp d b hbp _ hrep hw hn _ _
    exact (deleteTimers_stuck hbp hw).2 hn

theorem strays {args : InstArgs} {b : MapBlock} :
    (∃ n ∈ args.nodes, Lists b (toBytes n)) ↔ ∃ n ∈ args.nodes.map toBytes, Lists b n := by
  constructor
  · rintro ⟨n, h1, h2⟩
    exact ⟨_, List.mem_map.2 ⟨n, h1, rfl⟩, h2⟩
  · rintro ⟨n, h1, h2⟩
    obtain ⟨m, h3, rfl⟩ := List.mem_map.1 h1
    exact ⟨m, h3, h2⟩

/-- Both commands that edit metadata. -/
theorem crash_metas {env : Env} {args : InstArgs} {f : DbFile} (S : AllSet env args f) {edit : NodeMeta → NodeMeta × Nat}
    {γ : Type} {add : γ → γ → γ} {g0 : γ} {msg : γ → Msg} {tot : List Nat → γ} {name : String} {cmd : Command}
    (hc : args.command = name) (hcmd : command? name = some cmd) (hv : name ≠ "vacuum") {res : ArgResult}
    (hver : cmd.verify args = .ok res) (hres : ∀ e, res ≠ .error e)
    (heq : cmd.func env args = editCommand env false (args.nodes.map toBytes) args.area args.invert
      (fun k b => (metaEdit args (args.nodes.map toBytes) edit k b).map fun r => (r.1, tot r.2)) add g0 msg)
    (hed : ∀ m, (∀ v ∈ m.vars, v.1.length < 65536 ∧ v.2.1.length < 4294967296) →
      ∀ v ∈ (edit m).1.vars, v.1.length < 65536 ∧ v.2.1.length < 4294967296) :
    Crashes env args ↔ SomeBlock env.codec f.table fun bp _ b =>
      (∃ n ∈ args.nodes, Lists b (toBytes n)) ∧ StrayMeta args.area args.invert bp b := by
  refine crash_iff S hc hcmd hv hver hres heq ?_ ?_
  · rintro bp d b hbp - hrep hw ⟨h1, h2⟩
    have h1 := strays.1 h1
    refine ⟨?_, ?_, ?_⟩
    · obtain ⟨e, -, -, h⟩ := h2
      exact ⟨_, posAt_inBlock bp (Nat.mod_lt _ (by decide)), h⟩
    · obtain ⟨n, h1, h3⟩ := h1
      exact lists_kept hrep hw h1 h3
    · intro r hr
      cases hm : metaEdit args (args.nodes.map toBytes) edit (keyOf bp) b with
      | error x => rw [hm] at hr; cases hr
      | ok r' => exact (metaEdit_stuck hbp hw fun e he => hed _ (hw.short.metas e he)).1 ⟨h1, h2⟩ _ hm
  · intro bp d b hbp _ hrep hw hn _ _
    obtain ⟨ob, n, h1, h2⟩ := (metaEdit_stuck (nodes := args.nodes.map toBytes) (args := args) (edit := edit) hbp hw
      fun e he => hed _ (hw.short.metas e he)).2 fun h => hn ⟨strays.2 h.1, h.2⟩
    exact ⟨ob, _, by rw [h1]; rfl, h2⟩

theorem crash_setmetavar {env : Env} {args : InstArgs} {f : DbFile} (S : AllSet env args f)
    (hc : args.command = "setmetavar") : Crashes env args ↔ SomeBlock env.codec f.table fun bp _ b =>
      (∃ n ∈ args.nodes, Lists b (toBytes n)) ∧ StrayMeta args.area args.invert bp b := by
  obtain ⟨key, hk⟩ := Option.ne_none_iff_exists'.1 (S.one.key hc)
  refine crash_metas S hc setMetaVar_command (by decide) (res := setMetaVarVerify args) rfl ?_ (tot := List.sum)
    (setMetaVar_eq env args hk) ?_
  · intro e he
    unfold setMetaVarVerify at he
    refine S.command (.inr (.inr (.inr (.inr (.inr (.inl ⟨hc, ?_⟩))))))
    split at he
    · next h1 => left; simpa using h1
    · split at he
      · next h2 => right; left; simpa [Option.isSome_iff_ne_none] using h2
      · split at he
        · next h3 => right; right; simpa using h3
        · cases he
  · intro m hm v hv
    have hval : (toBytes (args.value.getD "")).length < 4294967296 := by
      cases h : args.value with
      | none => decide
      | some x => exact S.value x h
    unfold editVar at hv
    split at hv
    · next old hold =>
      split at hv
      · exact hm v (List.filter_sublist.subset hv)
      · rcases SMap.mem_insert hv with hv | hv
        · rw [hv]
          exact ⟨(hm _ (SMap.get?_some_mem hold)).1, hval⟩
        · exact hm v hv
    · exact hm v hv

theorem crash_replaceininv {env : Env} {args : InstArgs} {f : DbFile} (S : AllSet env args f)
    (hc : args.command = "replaceininv") : Crashes env args ↔ SomeBlock env.codec f.table fun bp _ b =>
      (∃ n ∈ args.nodes, Lists b (toBytes n)) ∧ StrayMeta args.area args.invert bp b := by
  obtain ⟨item, hk⟩ := Option.ne_none_iff_exists'.1 (S.one.item hc)
  have heq := replaceInInv_eq env args hk
  refine crash_metas S (edit := editInv (toBytes item) (newItemOf args (toBytes item)) args.deleteMeta)
    (tot := fun l => (l.sum, (l.filter (· > 0)).length)) (add := addPair) (g0 := (0, 0))
    (msg := fun c => Msg.count2 "Replaced {} itemstacks in {} nodes." c.1 c.2)
    hc replaceInInv_command (by decide) (res := replaceInInvVerify args) rfl ?_ ?_ ?_
  · intro e he
    unfold replaceInInvVerify at he
    refine S.command (.inr (.inr (.inr (.inl ⟨hc, ?_⟩))))
    split at he
    · next h1 => left; simpa [and_assoc] using h1
    · split at he
      · next h2 => right; left; simpa [Option.isSome_iff_ne_none] using h2
      · split at he
        · next h3 => right; right; simpa using h3
        · cases he
  · refine heq.trans ?_
    congr 1
  · intro m hm v hv
    exact hm v hv

theorem crash_deleteobjects {env : Env} {args : InstArgs} {f : DbFile} (S : AllSet env args f)
    (hc : args.command = "deleteobjects") : Crashes env args ↔ SomeBlock env.codec f.table fun bp d b =>
      env.build = .debug ∧ args.area ≠ none ∧ (∃ p, InBlock bp p ∧ Selected args.area args.invert p) ∧
      (∀ e, entityFor args = some e → Mentions [e] d) ∧ FarObject b := by
  have hment : ∀ d, nameKeeps ((toSlice (entityFor args)).map string16) d = true ↔
      ∀ e, entityFor args = some e → Mentions [e] d := by
    intro d
    cases entityFor args with
    | none => exact ⟨fun _ => nofun, fun _ => nameKeeps_nil d⟩
    | some e =>
      rw [show toSlice (some e) = [e] from rfl, nameKeeps_iff]
      exact ⟨fun h e' he => by cases he; exact h, fun h => h e rfl⟩
  refine crash_iff S hc deleteObjects_command (by decide) (res := deleteObjectsVerify args) rfl ?_
    (deleteObjects_eq env args) ?_ ?_
  · intro e he
    unfold deleteObjectsVerify at he
    split at he
    · next h1 =>
      refine S.command (.inr (.inl ⟨hc, ?_⟩))
      simpa [Option.isSome_iff_ne_none] using h1
    · cases he
  · rintro bp d b hbp - hrep hw ⟨h1, h2, h3, h4, h5⟩
    exact ⟨h3, (hment d).2 h4, (deleteObjects_stuck hw S.accepted).1 ⟨h1, h2, h5⟩⟩
  · intro bp d b hbp _ hrep hw hn hsel hk
    exact (deleteObjects_stuck hw S.accepted).2 fun h => hn ⟨h.1, h.2.1, hsel, (hment d).1 hk, h.2.2⟩

theorem crash_fill {env : Env} {args : InstArgs} {f : DbFile} (S : AllSet env args f)
    (hc : args.command = "fill") : Crashes env args ↔ SomeBlock env.codec f.table fun bp _ b =>
      ∃ a n, args.area = some a ∧ args.newNode = some n ∧ Split a bp ∧
        FillStuck a args.invert (toBytes n) bp b := by
  obtain ⟨a, ha⟩ := Option.ne_none_iff_exists'.1 (S.one.area hc)
  obtain ⟨n, hn⟩ := Option.ne_none_iff_exists'.1 (S.one.newNode (.inl hc))
  have hv := S.area a ha
  refine crash_iff S hc fill_command (by decide) (res := .ok) rfl (by simp) (fill_eq env args a n ha hn) ?_ ?_
  · rintro bp d b hbp - hrep hw ⟨a', n', h1, h2, h3, h4⟩
    rw [ha] at h1
    rw [hn] at h2
    cases h1
    cases h2
    refine ⟨?_, nameKeeps_nil d, ?_⟩
    · rw [ha]
      obtain ⟨⟨p, p1, p2⟩, q, q1, q2⟩ := h3
      cases args.invert with
      | false => exact ⟨p, p1, by rw [selected_iff]; simpa using p2⟩
      | true => exact ⟨q, q1, by rw [selected_iff]; simpa using q2⟩
    · intro r hr
      rw [fromBlockKey_keyOf bp hbp] at hr
      cases hm : fillBlock env.build a args.invert (toBytes n) bp b with
      | error x => rw [hm] at hr; cases hr
      | ok r' => exact (fill_stuck hv hw (S.name n hn)).1 ⟨h3, h4⟩ _ hm
  · intro bp d b hbp _ hrep hw hno _ _
    obtain ⟨b', k, h1, h2⟩ := (fill_stuck (bd := env.build) (invert := args.invert) (bp := bp) hv hw (S.name n hn)).2
      fun h => hno ⟨a, n, ha, hn, h⟩
    refine ⟨some b', k, ?_, fun _ h => by cases h; exact h2⟩
    rw [fromBlockKey_keyOf bp hbp, h1]
    rfl

theorem crash_replacenodes {env : Env} {args : InstArgs} {f : DbFile} (S : AllSet env args f)
    (hc : args.command = "replacenodes") : Crashes env args ↔ SomeBlock env.codec f.table fun bp _ b =>
      env.build = .debug ∧ ∃ old new, args.node = some old ∧ args.newNode = some new ∧
        ReplaceStuck args.area args.invert (toBytes old) (toBytes new) bp b := by
  obtain ⟨new, hn⟩ := Option.ne_none_iff_exists'.1 (S.one.newNode (.inr hc))
  obtain ⟨old, ho⟩ := Option.ne_none_iff_exists'.1 (S.one.node hc)
  have hne : args.node ≠ args.newNode := fun he => S.command (.inr (.inr (.inl ⟨hc, he⟩)))
  have hne' : toBytes old ≠ toBytes new := by
    intro h
    rw [ho, hn, toBytes_inj h] at hne
    exact hne rfl
  refine crash_iff S hc replaceNodes_command (by decide) (res := replaceNodesVerify args) rfl ?_
    (replaceNodes_eq env args ho hn) ?_ ?_
  · intro e he
    unfold replaceNodesVerify at he
    rw [if_neg (by simpa using hne)] at he
    cases he
  · rintro bp d b hbp - hrep hw ⟨h0, old', new', h1, h2, h3⟩
    rw [ho] at h1
    rw [hn] at h2
    cases h1
    cases h2
    refine ⟨h3.2.1, lists_kept hrep hw (List.mem_singleton.2 rfl) h3.1, ?_⟩
    intro r hr
    obtain ⟨id, hid⟩ := lists_iff.1 h3.1
    unfold replaceEdit at hr
    rw [hid] at hr
    simp only at hr
    cases hm : doReplace env.build b (keyOf bp) id (toBytes new) args.area args.invert with
    | error x => rw [hm] at hr; cases hr
    | ok r' => exact (doReplace_stuck hw hne' (S.name new hn) hid S.area hbp h3.2.1).1 ⟨h0, h3⟩ _ hm
  · intro bp d b hbp _ hrep hw hno hsel _
    unfold replaceEdit
    cases hid : NameIdMap.getId b.nimap (toBytes old) with
    | none => exact ⟨none, 0, rfl, nofun⟩
    | some id =>
      obtain ⟨b', k, h1, h2⟩ := (doReplace_stuck (bd := env.build) hw hne' (S.name new hn) hid S.area hbp hsel).2
        fun h => hno ⟨h.1, old, new, ho, hn, h.2⟩
      refine ⟨some b', k, ?_, fun _ h => by cases h; exact h2⟩
      simp only
      rw [h1]
      rfl

/-- The other commands never do. -/
theorem crash_never {env : Env} {args : InstArgs} {f : DbFile} (S : AllSet env args f)
    (hc : args.command = "deleteblocks" ∨ args.command = "setparam2" ∨ args.command = "vacuum") :
    ¬ Crashes env args := by
  have hin := S.one.one.2.2
  rcases hc with hc | hc | hc
  · obtain ⟨t', evs, h⟩ := C39_deleteblocks_completes env args f S.works S.file S.cols S.accepted hc hin S.confirmed
    exact crashes_not h
  · obtain ⟨v, hv⟩ := Option.ne_none_iff_exists'.1 (S.one.param2 hc)
    obtain ⟨t', evs, h⟩ := C37_setparam2_completes env args f v S.ok S.works S.file S.cols S.good S.accepted hc hv S.area
      (by
        refine Classical.byContradiction fun h => S.command ?_
        simp only [not_or, Classical.not_not] at h
        exact .inr (.inr (.inr (.inr (.inr (.inr ⟨hc, h⟩)))))) hin S.confirmed
    exact crashes_not h
  · rintro ⟨e, w, h⟩
    have := vacuum_completes S.works S.file S.cols S.accepted hc hin S.confirmed
    rw [h] at this
    cases this

theorem someBlock_congr {c : Codec} {t : Table} {T U : Vec3 → Bytes → MapBlock → Prop}
    (h : ∀ bp d b, T bp d b ↔ U bp d b) : SomeBlock c t T ↔ SomeBlock c t U := by
  unfold SomeBlock
  simp only [h]

/-- **Which maps make a command crash.**  `C107_false` below shows that some do. -/
theorem C107_crash_iff_partial (env : Env) (args : InstArgs) (f : DbFile) (S : AllSet env args f) :
    Crashes env args ↔ SomeBlock env.codec f.table (Stuck env.build args) := by
  have hk := S.one.known
  simp only [commandNames, List.mem_cons, List.not_mem_nil, or_false] at hk
  have hno : ∀ h : args.command = "deleteblocks" ∨ args.command = "setparam2" ∨ args.command = "vacuum",
      ¬ SomeBlock env.codec f.table (Stuck env.build args) := by
    rintro h ⟨bp, d, b, -, -, -, hs⟩
    unfold Stuck at hs
    rcases h with h | h | h <;> simp [h] at hs
  rcases hk with h | h | h | h | h | h | h | h | h | h | h | h
  · exact absurd h S.one.one.1
  · exact ⟨fun hc => absurd hc (crash_never S (.inl h)), fun hs => absurd hs (hno (.inl h))⟩
  · rw [crash_deletemeta S h]
    exact someBlock_congr fun bp d b => by unfold Stuck; simp [h]
  · rw [crash_deleteobjects S h]
    exact someBlock_congr fun bp d b => by unfold Stuck; simp [h]
  · rw [crash_deletetimers S h]
    exact someBlock_congr fun bp d b => by unfold Stuck; simp [h]
  · rw [crash_fill S h]
    exact someBlock_congr fun bp d b => by unfold Stuck; simp [h]
  · rw [crash_replacenodes S h]
    exact someBlock_congr fun bp d b => by unfold Stuck; simp [h]
  · rw [crash_replaceininv S h]
    exact someBlock_congr fun bp d b => by unfold Stuck; simp [h]
  · exact absurd h S.one.one.2.1
  · rw [crash_setmetavar S h]
    exact someBlock_congr fun bp d b => by unfold Stuck; simp [h]
  · exact ⟨fun hc => absurd hc (crash_never S (.inr (.inl h))), fun hs => absurd hs (hno (.inr (.inl h)))⟩
  · exact ⟨fun hc => absurd hc (crash_never S (.inr (.inr h))), fun hs => absurd hs (hno (.inr (.inr h)))⟩

/-- No command crashes on blocks as the game writes them. -/
theorem C107_ordinary_partial (env : Env) (args : InstArgs) (f : DbFile) (S : AllSet env args f)
    (ho : AllBlocks env.codec f.table Ordinary) : ¬ Crashes env args := by
  rw [C107_crash_iff_partial env args f S]
  rintro ⟨bp, d, b, hbp, hm, hrep, hs⟩
  have hb := ho _ _ _ hm hrep
  rcases hs with ⟨-, -, e, he, h, -⟩ | ⟨-, -, e, he, h, -⟩ | ⟨-, -, e, he, h, -⟩ | ⟨-, -, -, -, -, o, h1, h2⟩ |
    ⟨-, a, n, -, -, h1, h2⟩ | ⟨-, -, old, new, -, -, -, -, h⟩
  · have := hb.metas e he; omega
  · have := hb.timers e he; omega
  · have := hb.metas e he; omega
  · have := hb.objects o h1; omega
  · have hw := wf_of_deserialize (deserialize_iff.2 hrep)
    rcases h2 with h2 | ⟨e, he, h2⟩ | ⟨-, e, he, h2⟩ | ⟨i, id, -, -, h3, h4, -⟩
    · have hl : b.nd.nodes ≠ [] := by
        intro h
        have := hw.nodes.1
        rw [h] at this
        cases this
      obtain ⟨id, hid⟩ := List.exists_mem_of_ne_nil _ hl
      obtain ⟨e, he, -⟩ := hb.named id hid
      rw [h2] at he
      cases he
    · have := hb.ids e he; omega
    · have := hb.ids e he; omega
    · obtain ⟨e, he, h5⟩ := hb.named id (List.mem_of_getElem? h3)
      have := h4 e he
      omega
  · rcases h with ⟨-, -, e, he, h⟩ | ⟨-, h, -⟩
    · have := hb.ids e he; omega
    · have := hb.ids _ (SMap.get?_some_mem h.1)
      simp only at this
      omega

/-! ## Maps that make it crash -/

theorem allSet_toy (bd : Build) (b : MapBlock) {args : InstArgs} (hp : args.mapPath = "map") (hargs : ¬ BadArgs args)
    (hcmd : ¬ CommandRefuses args) (ha : AreaOk args.area) (ho : OneMap args) (hd : args.doConfirmation = false)
    (hn : ∀ n, args.newNode = some n → (toBytes n).length < 65536)
    (hv : ∀ v, args.value = some v → (toBytes v).length < 4294967296) :
    AllSet (toyEnv bd (toyMap b)) args ⟨toyMap b, [⟨"pos", "INT", 1⟩, ⟨"data", "BLOB", 0⟩]⟩ where
  ok := toyEnv_ok _ _
  works := fun _ => rfl
  file := by rw [hp]; rfl
  cols := ⟨_, rfl⟩
  good := toyMap_good b
  accepted := hargs
  command := hcmd
  area := ha
  one := ho
  confirmed := by rw [hd]; nofun
  name := hn
  value := hv

/-- A block with metadata for a node number that does not exist. -/
def strayBlock : MapBlock := { Toy.block 29 with metas := [(5000, ⟨[(ascii "k", (ascii "v", false))], ascii "EndInventory\n"⟩)] }

theorem strayBlock_wf : Wf strayBlock := by
  refine wf_withMetas (Toy.block_wf 29 (by omega)) ⟨by unfold SMap.Sorted; simp, by decide, ?_, ?_⟩
  · intro e he
    rw [List.mem_singleton] at he
    subst he
    decide
  · intro e he
    rw [List.mem_singleton] at he
    subst he
    refine ⟨by unfold SMap.Sorted; simp, by decide, by decide, ?_⟩
    exact framed_lines (lines := []) (by unfold Lines; decide) (by decide)

theorem deletemeta_set (bd : Build) (b : MapBlock) : AllSet (toyEnv bd (toyMap b)) (airArgs "deletemeta")
    ⟨toyMap b, [⟨"pos", "INT", 1⟩, ⟨"data", "BLOB", 0⟩]⟩ :=
  allSet_toy bd b rfl (by rw [← verifyArgs_iff]; decide) (by unfold CommandRefuses; simp [airArgs, runArgs]) noArea_ok
    ⟨by decide, ⟨by decide, by decide, rfl⟩, by decide, by decide, by decide, by decide, by decide, by decide⟩ rfl nofun nofun

/-- Deleting the metadata of all air crashes, in both builds, if some block has metadata for a node number beyond
the last. -/
theorem C107_false (bd : Build) : ∃ (env : Env) (args : InstArgs) (f : DbFile), env.build = bd ∧
    args.command = "deletemeta" ∧ AllSet env args f ∧ Crashes env args := by
  refine ⟨_, _, _, rfl, rfl, deletemeta_set bd strayBlock, ?_⟩
  rw [C107_crash_iff_partial _ _ _ (deletemeta_set bd strayBlock)]
  refine ⟨⟨0, 0, 0⟩, _, _, origin_valid, List.mem_cons_self, Toy.data_rep strayBlock_wf, .inl ⟨rfl, ⟨"air", rfl, ?_⟩, ?_⟩⟩
  · exact ⟨(0, ascii "air"), List.mem_cons_self, by decide⟩
  · exact ⟨(5000, ⟨[(ascii "k", (ascii "v", false))], ascii "EndInventory\n"⟩), List.mem_cons_self, by decide, trivial⟩

/-- Filling one node crashes, in both builds, if the block has a name for ID 65534 and none of the new node. -/
theorem C107_fill_false (bd : Build) : ∃ (env : Env) (args : InstArgs) (f : DbFile), env.build = bd ∧
    args.command = "fill" ∧ AllSet env args f ∧ Crashes env args := by
  have hwf : NimapWf [(0, ascii "air"), (1, ascii "a"), (65534, ascii "b")] :=
    ⟨by unfold SMap.Sorted; decide, by unfold NamesFit NameFits; decide⟩
  have S := allSet_toy bd (namedBlock [(0, ascii "air"), (1, ascii "a"), (65534, ascii "b")]) (args := fillArgs false) rfl
    (fillArgs_ok false) (by unfold CommandRefuses; simp [fillArgs, runArgs]) (by intro a h; cases h; decide)
    ⟨by decide, ⟨by decide, by decide, rfl⟩, by decide, by decide, by decide, by decide, by decide, by decide⟩ rfl
    (by intro n h; cases h; decide) nofun
  refine ⟨_, _, _, rfl, rfl, S, ?_⟩
  rw [C107_crash_iff_partial _ _ _ S]
  refine ⟨⟨0, 0, 0⟩, _, _, origin_valid, List.mem_cons_self, Toy.data_rep (namedBlock_wf hwf),
    .inr (.inr (.inr (.inr (.inl ⟨rfl, _, _, rfl, rfl, ⟨⟨⟨0, 0, 0⟩, ?_, ?_⟩, ⟨1, 0, 0⟩, ?_, ?_⟩, .inr (.inr (.inl ⟨?_, ?_⟩))⟩))))⟩
  · unfold InBlock; decide
  · unfold InBox; decide
  · unfold InBlock; decide
  · unfold InBox; decide
  · show ¬ ∃ e ∈ [(0, ascii "air"), (1, ascii "a"), (65534, ascii "b")], e.2 = toBytes "default:stone"
    decide
  · exact ⟨(65534, ascii "b"), by decide, rfl⟩

/-- Replacing air by stone at one node crashes, in a debug build, if the block has a name for ID 65535. -/
theorem C107_replacenodes_false : ∃ (env : Env) (args : InstArgs) (f : DbFile), env.build = .debug ∧
    args.command = "replacenodes" ∧ AllSet env args f ∧ Crashes env args := by
  have hwf : NimapWf [(0, ascii "air"), (1, ascii "a"), (65535, ascii "b")] :=
    ⟨by unfold SMap.Sorted; decide, by unfold NamesFit NameFits; decide⟩
  have S := allSet_toy .debug (namedBlock [(0, ascii "air"), (1, ascii "a"), (65535, ascii "b")]) (args := oneArgs) rfl
    (by rw [← verifyArgs_iff]; decide) (by unfold CommandRefuses; simp [oneArgs, runArgs]) (by intro a h; cases h; decide)
    ⟨by decide, ⟨by decide, by decide, rfl⟩, by decide, by decide, by decide, by decide, by decide, by decide⟩ rfl
    (by intro n h; cases h; decide) nofun
  refine ⟨_, _, _, rfl, rfl, S, ?_⟩
  rw [C107_crash_iff_partial _ _ _ S]
  refine ⟨⟨0, 0, 0⟩, _, _, origin_valid, List.mem_cons_self, Toy.data_rep (namedBlock_wf hwf),
    .inr (.inr (.inr (.inr (.inr ⟨rfl, rfl, _, _, rfl, rfl, ⟨(0, ascii "air"), ?_, by decide⟩, ⟨⟨1, 0, 0⟩, ?_, by decide⟩,
      .inl ⟨?_, ⟨⟨0, 0, 0⟩, ?_, by decide⟩, (65535, ascii "b"), ?_, rfl⟩⟩))))⟩
  · exact List.mem_cons_self
  · unfold InBlock; decide
  · show ¬ ∃ e ∈ [(0, ascii "air"), (1, ascii "a"), (65535, ascii "b")], e.2 = toBytes "default:stone"
    decide
  · unfold InBlock; decide
  · show (65535, ascii "b") ∈ [(0, ascii "air"), (1, ascii "a"), (65535, ascii "b")]
    decide

/-- A block with an object at the end of the number range. -/
def farBlock : MapBlock := { Toy.block 29 with objects := [⟨7, ⟨2147483647, 20, 30⟩, ascii "x"⟩] }

theorem farBlock_wf : Wf farBlock := by
  have h0 := Toy.block_wf 29 (by omega)
  refine ⟨h0.ver, h0.flags, h0.light, h0.light_old, h0.widths, h0.nodes, h0.metas, ?_, h0.time, h0.nimap, h0.timers⟩
  refine ⟨by decide, ?_⟩
  intro o ho
  have ho : o ∈ [(⟨7, ⟨2147483647, 20, 30⟩, ascii "x"⟩ : StaticObject)] := ho
  rw [List.mem_singleton] at ho
  subst ho
  unfold ObjFits
  decide

/-- Deleting the objects at one node crashes, in a debug build, if the block has an object at the greatest
coordinate. -/
theorem C107_deleteobjects_false : ∃ (env : Env) (args : InstArgs) (f : DbFile), env.build = .debug ∧
    args.command = "deleteobjects" ∧ AllSet env args f ∧ Crashes env args := by
  have S := allSet_toy .debug farBlock (args := objectArgs) rfl
    (by rw [← verifyArgs_iff]; decide) (by unfold CommandRefuses; simp [objectArgs, runArgs]) (by intro a h; cases h; decide)
    ⟨by decide, ⟨by decide, by decide, rfl⟩, by decide, by decide, by decide, by decide, by decide, by decide⟩ rfl nofun nofun
  refine ⟨_, _, _, rfl, rfl, S, ?_⟩
  rw [C107_crash_iff_partial _ _ _ S]
  refine ⟨⟨0, 0, 0⟩, _, _, origin_valid, List.mem_cons_self, Toy.data_rep farBlock_wf,
    .inr (.inr (.inr (.inl ⟨rfl, rfl, nofun, ⟨⟨0, 0, 0⟩, ?_, by decide⟩, nofun,
      ⟨⟨7, ⟨2147483647, 20, 30⟩, ascii "x"⟩, List.mem_cons_self, .inl (by decide)⟩⟩)))⟩
  unfold InBlock; decide

/-- The sample block is ordinary, and `deletemeta` does not crash on it. -/
example (bd : Build) : AllBlocks (Toy.codec id) (toyMap (Toy.block 29)) Ordinary ∧
    ¬ Crashes (toyEnv bd (toyMap (Toy.block 29))) (airArgs "deletemeta") := by
  have h : AllBlocks (Toy.codec id) (toyMap (Toy.block 29)) Ordinary := by
    refine toyMap_all (Toy.block_wf 29 (by omega)) ⟨?_, ?_, ?_, ?_, ?_⟩
    · exact fun e he => Nat.lt_of_lt_of_le (metaInside_stored (toy_metaInside 29) e he) (by decide)
    · intro t ht
      have ht : t ∈ [(⟨0, 10, 5⟩ : NodeTimer)] := ht
      rw [List.mem_singleton] at ht
      subst ht
      decide
    · intro o ho
      have ho : o ∈ [(⟨7, ⟨-10, 20, 30⟩, ascii "x"⟩ : StaticObject)] := ho
      rw [List.mem_singleton] at ho
      subst ho
      decide
    · intro id hid
      obtain ⟨n, hn⟩ := toy_named 29 id hid
      exact ⟨_, SMap.get?_some_mem hn, rfl⟩
    · exact fun e he => Nat.le_trans (toy_small 29 e he) (by decide)
  exact ⟨h, C107_ordinary_partial _ _ _ (deletemeta_set bd _) h⟩

end MapEditr
