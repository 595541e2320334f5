import Verif.Proof.ReplaceAny
import Verif.Proof.Effect
import Verif.Proof.ToyRun
import Verif.Props.Param2
import Verif.Props.ReplaceInInv
/-!
# Properties C35, C36: `replacenodes`
-/

namespace MapEditr
open Spec

theorem replaceNodes_command : command? "replacenodes" = some ⟨replaceNodes,
    fun a => .ok (replaceNodesVerify a), [.node true, .newNode, .area false, .invert]⟩ := rfl

theorem toBytes_inj {a b : String} (h : toBytes a = toBytes b) : a = b := by
  unfold toBytes at h
  have h1 : a.toUTF8 = b.toUTF8 := ByteArray.ext (Array.toList_inj.1 h)
  exact String.toByteArray_inj.1 h1

/-- `replacenodes` on one block. -/
def replaceEdit (bd : Build) (args : InstArgs) (old new : Bytes) (k : Int) (b : MapBlock) :
    Res (Option MapBlock × Nat) :=
  match NameIdMap.getId b.nimap old with
  | some id => (doReplace bd b k id new args.area args.invert).map fun r => (some r.1, r.2)
  | none => .ok (none, 0)

theorem replaceNodes_eq (env : Env) (args : InstArgs) {old new : String} (ho : args.node = some old)
    (hn : args.newNode = some new) :
    replaceNodes env args = editCommand env true [toBytes old] args.area args.invert
      (replaceEdit env.build args (toBytes old) (toBytes new)) (· + ·) 0 (Msg.count "{} nodes replaced.") := by
  unfold replaceNodes editCommand
  have : replaceStep env args (toBytes old) (toBytes new) =
      editStep env true (replaceEdit env.build args (toBytes old) (toBytes new)) (· + ·) := by
    funext count key
    unfold replaceStep editStep
    have hb : ∀ b : MapBlock, (match NameIdMap.getId b.nimap (toBytes old) with
      | some oldId => (do
        let (block, n) ← Run.lift (doReplace env.build b key oldId (toBytes new) args.area args.invert)
        let newData ← ser env block
        expect (← setBlock env .main key newData)
        incDone
        return count + n : Run Nat)
      | none => (do
        incDone
        return count : Run Nat)) =
      (do
        let r ← Run.lift (replaceEdit env.build args (toBytes old) (toBytes new) key b)
        writeOpt env key r.1
        incIf true
        return count + r.2 : Run Nat) := by
      intro b
      unfold replaceEdit
      cases NameIdMap.getId b.nimap (toBytes old) with
      | none => rfl
      | some id =>
        simp only
        cases doReplace env.build b key id (toBytes new) args.area args.invert with
        | error e => rfl
        | ok r => simp only [Except.map, lift_ok, pure_bind, bind_assoc, writeOpt, incIf, if_true]
    simp only [Bool.not_true]
    rw [show (incIf false : Run Unit) = pure () from rfl]
    simp only [pure_bind]
    congr 1; funext d
    congr 1; funext data
    congr 1; funext ob
    cases ob with
    | none => rfl
    | some b => exact hb b
  rw [← this, ho, hn]
  rfl

/-- What `replacenodes` does to a block: names first, then that its name table stays in order. -/
def ReplacesBlock (area : Option Area) (invert : Bool) (old new : Bytes) (K : Nat) (bp : Vec3)
    (b b' : MapBlock) : Prop :=
  (SameButNodes b b' ∧ ∀ i, i < 4096 → nodeName b' i =
    if Selected area invert (posAt bp i) ∧ nodeName b i = some old then some new else nodeName b i) ∧
  UniqueNames b' ∧ Named b' ∧ ∀ e ∈ b'.nimap, e.1 ≤ K + 1

theorem replaceNodes_change (env : Env) (args : InstArgs) (t : Table) {old new : Bytes} (hne : old ≠ new)
    (hl : new.length < 65536) (ha : AreaOk args.area) {K : Nat} (hK : K ≤ 65533)
    (hb : AllBlocks env.codec t fun b => UniqueNames b ∧ Named b ∧ ∀ e ∈ b.nimap, e.1 ≤ K) :
    Change env.codec [old] args.area args.invert (replaceEdit env.build args old new) t
      (ReplacesBlock args.area args.invert old new K)
      (fun bp b => countNodes fun i => Selected args.area args.invert (posAt bp i) ∧ nodeName b i = some old) 0 := by
  have hself : ∀ (bp : Vec3) (d : Bytes) (b : MapBlock), (keyOf bp, d) ∈ t → Represents env.codec d b →
      (∀ i, i < 4096 → ¬ (Selected args.area args.invert (posAt bp i) ∧ nodeName b i = some old)) →
      ReplacesBlock args.area args.invert old new K bp b b ∧
      (countNodes fun i => Selected args.area args.invert (posAt bp i) ∧ nodeName b i = some old) = 0 := by
    intro bp d b hd hrep hno
    obtain ⟨h1, h2, h3⟩ := hb _ _ _ hd hrep
    refine ⟨⟨⟨⟨⟨rfl, rfl, rfl, rfl⟩, sameMeta_refl b, rfl, rfl, rfl, rfl⟩, fun i hi => ?_⟩, h1, h2,
      fun e he => by have := h3 e he; omega⟩, countNodes_zero hno⟩
    rw [if_neg (hno i hi)]
  constructor
  · intro bp d b hbp hd hrep hwf hsel
    obtain ⟨h1, h2, h3⟩ := hb _ _ _ hd hrep
    unfold replaceEdit
    cases hg : NameIdMap.getId b.nimap old with
    | none =>
      obtain ⟨k1, k2⟩ := hself bp d b hd hrep fun i _ hc => getId_none_node hg i hc.2
      refine ⟨none, ?_, fun _ => k1, by simp⟩
      simp only
      rw [k2]
    | some id =>
      obtain ⟨m, nodes, f1, f2⟩ := doReplace_spec env.build hwf h1 h2 h3 hK hne hl hg ha hbp hsel
      refine ⟨some (withNodes b m nodes), ?_, by simp, ?_⟩
      · simp only
        rw [f1]
        simp only [Except.map]
      · intro b' hb'
        cases hb'
        refine ⟨f2.wf hwf h2, ⟨⟨⟨rfl, rfl, rfl, rfl⟩, sameMeta_stored hwf.metas.sorted rfl rfl, rfl, rfl, rfl, rfl⟩,
          fun i hi => ?_⟩, f2.names.uniq, f2.named hwf h2, f2.names.small⟩
        exact f2.nodeName hi
  · intro bp d b hbp hd hrep hwf hno
    refine hself bp d b hd hrep fun i hi hc => ?_
    rcases hno with h | h
    · exact h _ (posAt_inBlock bp hi) hc.1
    · exact skipped_nodeName hrep (names := [old]) h (by simp) i hc.2

/-- A completed run got different names. -/
theorem replace_differ {env : Env} {args : InstArgs} {t t' : Table} {evs : List Event} {old new : String}
    (hc : args.command = "replacenodes") (ho : args.node = some old) (hn : args.newNode = some new)
    (h : Completes env args t t' evs) : toBytes old ≠ toBytes new := by
  obtain ⟨D⟩ := completes_done h (by rw [hc]; decide)
  have h1 := D.cmd_ok
  rw [hc, replaceNodes_command] at h1
  obtain ⟨r, h2, h3⟩ := D.verify_ok
  rw [← Option.some.inj h1] at h2
  simp only at h2
  have h2 := Except.ok.inj h2
  intro he
  have := toBytes_inj he
  subst this
  have h4 : replaceNodesVerify args = .error "node and new_node must be different." := by
    unfold replaceNodesVerify
    rw [ho, hn, if_pos (by simp)]
  exact h3 _ (h2.symm.trans h4)

/-- Name tables `replacenodes` treats as it should: no name twice, fewer than 65535 names, and in a
release build ID 65535 unused. -/
def GoodIds (bd : Build) (b : MapBlock) : Prop :=
  UniqueNames b ∧ b.nimap.length < 65535 ∧ (bd = .release → ∀ e ∈ b.nimap, e.1 ≠ 65535)

/-- What `replacenodes` does to the nodes of a block, also to those whose ID has no name: such a node
may get the new name if other nodes of the block are replaced. -/
def ReplacesNames (area : Option Area) (invert : Bool) (old new : Bytes) (bp : Vec3) (b b' : MapBlock) : Prop :=
  SameButNodes b b' ∧ ∀ i, i < 4096 →
    (Selected area invert (posAt bp i) ∧ nodeName b i = some old → nodeName b' i = some new) ∧
    (¬ (Selected area invert (posAt bp i) ∧ nodeName b i = some old) →
      ∀ name, nodeName b i = some name → nodeName b' i = some name) ∧
    (nodeName b i = none → nodeName b' i = none ∨ (nodeName b' i = some new ∧
      ∃ j, j < 4096 ∧ Selected area invert (posAt bp j) ∧ nodeName b j = some old))

/-- What is needed of a name table, and kept by a run. -/
def Sound (bd : Build) (new : Bytes) (b : MapBlock) : Prop := UniqueNames b ∧ Room bd new b.nimap

theorem GoodIds.sound {bd : Build} {b : MapBlock} (h : GoodIds bd b) (new : Bytes) : Sound bd new b :=
  ⟨h.1, fun _ => h.2.1, fun hb e he h5 => absurd h5 (h.2.2 hb e he)⟩

theorem replaceNodes_effect (env : Env) (args : InstArgs) (t : Table) {old new : Bytes} (hne : old ≠ new)
    (ha : AreaOk args.area) {br : Build} (hbr : env.build = .release → br = .release)
    (hb : AllBlocks env.codec t (Sound br new)) :
    Effect env [old] args.area args.invert (replaceEdit env.build args old new) t
      (fun bp b b' => ReplacesNames args.area args.invert old new bp b b' ∧ Sound br new b')
      (fun bp b => countNodes fun i => Selected args.area args.invert (posAt bp i) ∧ nodeName b i = some old) 0 := by
  have hself : ∀ (bp : Vec3) (d : Bytes) (b : MapBlock), (keyOf bp, d) ∈ t → Represents env.codec d b →
      (∀ i, i < 4096 → ¬ (Selected args.area args.invert (posAt bp i) ∧ nodeName b i = some old)) →
      (ReplacesNames args.area args.invert old new bp b b ∧ Sound br new b) ∧
      (countNodes fun i => Selected args.area args.invert (posAt bp i) ∧ nodeName b i = some old) = 0 := by
    intro bp d b hd hrep hno
    refine ⟨⟨⟨⟨⟨rfl, rfl, rfl, rfl⟩, sameMeta_refl b, rfl, rfl, rfl, rfl⟩, fun i hi =>
      ⟨fun hc => absurd hc (hno i hi), fun _ _ h => h, .inl⟩⟩, hb _ _ _ hd hrep⟩, countNodes_zero hno⟩
  constructor
  · intro bp d b hbp hd hrep hwf hsel ob n hok hsave
    obtain ⟨h1, h2⟩ := hb _ _ _ hd hrep
    unfold replaceEdit at hok
    cases hg : NameIdMap.getId b.nimap old with
    | none =>
      rw [hg] at hok
      cases hok
      obtain ⟨k1, k2⟩ := hself bp d b hd hrep fun i _ hc => getId_none_node hg i hc.2
      exact ⟨k2.symm, fun _ => k1, nofun⟩
    | some id =>
      rw [hg] at hok
      simp only at hok
      cases hr : doReplace env.build b (keyOf bp) id new args.area args.invert with
      | error e => rw [hr] at hok; cases hok
      | ok r =>
        obtain ⟨b1, n1⟩ := r
        rw [hr] at hok
        cases hok
        obtain ⟨f1, m, nodes, f2, f3⟩ := doReplace_any hwf h1 hne hbr h2 hg ha hbp hsel hr
        refine ⟨f1, nofun, ?_⟩
        intro b' hb'
        cases hb'
        have hsv := (hsave _ rfl).names
        subst f2
        refine ⟨f3.wf hwf hsv, ⟨⟨⟨rfl, rfl, rfl, rfl⟩, sameMeta_stored hwf.metas.sorted rfl rfl, rfl, rfl, rfl, rfl⟩,
          fun i hi => ?_⟩, f3.table.uniq, f3.room⟩
        have hl : i < nodes.length := by rw [f3.len]; exact hi
        have hv := List.getElem?_eq_getElem hl
        have hnn : nodeName (stored (withNodes b m nodes)) i = SMap.get? m nodes[i] := by
          show (match nodes[i]? with | some v => SMap.get? m v | none => none) = _
          rw [hv]
        rw [hnn]
        exact ⟨f3.hit i _ hv, f3.keep i _ hv, f3.none i _ hv⟩
  · intro bp d b hbp hd hrep hwf hno
    refine hself bp d b hd hrep fun i hi hc => ?_
    rcases hno with h | h
    · exact h _ (posAt_inBlock bp hi) hc.1
    · exact skipped_nodeName hrep (names := [old]) h (by simp) i hc.2

theorem replaceNodes_edited (env : Env) (args : InstArgs) (t t' : Table) (evs : List Event) (old new : String)
    (hE : EnvOk env) (hg : (t.map (·.1)).Nodup) (hc : args.command = "replacenodes") (ha : AreaOk args.area)
    (ho : args.node = some old) (hn : args.newNode = some new)
    {br : Build} (hbr : env.build = .release → br = .release)
    (hb : AllBlocks env.codec t (Sound br (toBytes new))) (h : Completes env args t t' evs) :
    Edited env.codec args.area args.invert t t' fun bp b b' =>
      ReplacesNames args.area args.invert (toBytes old) (toBytes new) bp b b' ∧ Sound br (toBytes new) b' :=
  effect_edited hE hg ha h hc replaceNodes_command (by decide) (replaceNodes_eq env args ho hn)
    (replaceNodes_effect env args t (replace_differ hc ho hn h) ha hbr hb)

/-! ## C35 -/

/-- After `replacenodes`, every selected node with the old name has the new name, all others that have a
name keep it, and all else is as it was.  (For what happens to nodes without a name, see `ReplacesNames`.) -/
theorem C35_replacenodes_partial (env : Env) (args : InstArgs) (t t' : Table) (evs : List Event) (old new : String)
    (hE : EnvOk env) (hg : (t.map (·.1)).Nodup) (hc : args.command = "replacenodes") (ha : AreaOk args.area)
    (ho : args.node = some old) (hn : args.newNode = some new)
    (hb : AllBlocks env.codec t (GoodIds env.build)) (h : Completes env args t t' evs) :
    Edited env.codec args.area args.invert t t' (ReplacesNames args.area args.invert (toBytes old) (toBytes new)) :=
  edited_mono (replaceNodes_edited env args t t' evs old new hE hg hc ha ho hn id
    (fun k d b h1 h2 => (hb k d b h1 h2).sound _) h) fun _ _ _ h => h.1

/-- The same where every node has a name: then every node of the result has the name it should have. -/
theorem C35_replacenodes_exact_partial (env : Env) (args : InstArgs) (t t' : Table) (evs : List Event) (old new : String)
    (hE : EnvOk env) (hg : (t.map (·.1)).Nodup) (hc : args.command = "replacenodes") (ha : AreaOk args.area)
    (ho : args.node = some old) (hn : args.newNode = some new)
    (hb : AllBlocks env.codec t (GoodIds env.build)) (h : Completes env args t t' evs) :
    Edited env.codec args.area args.invert t t' fun bp b b' =>
      SameButNodes b b' ∧ (Named b → ∀ i, i < 4096 → nodeName b' i =
        if Selected args.area args.invert (posAt bp i) ∧ nodeName b i = some (toBytes old) then some (toBytes new)
        else nodeName b i) := by
  have h1 := C35_replacenodes_partial env args t t' evs old new hE hg hc ha ho hn hb h
  refine ⟨h1.nodup, h1.keys, h1.bad, h1.outside, fun bp d b k1 k2 k3 => ?_⟩
  obtain ⟨d', b', f1, f2, f3, f4⟩ := h1.good bp d b k1 k2 k3
  refine ⟨d', b', f1, f2, f3, fun hnm i hi => ?_⟩
  obtain ⟨name, hname⟩ := named_node (wf_of_represents k3).nodes.1 hnm hi
  split
  · next hx => exact (f4 i hi).1 hx
  · next hx => rw [(f4 i hi).2.1 hx name hname, hname]

/-- The name tables of the result have no name twice and name every node ID; no block gets more than one
more ID. -/
theorem C35_replacenodes_names (env : Env) (args : InstArgs) (t t' : Table) (evs : List Event) (old new : String)
    (K : Nat) (hE : EnvOk env) (hg : (t.map (·.1)).Nodup) (hc : args.command = "replacenodes") (ha : AreaOk args.area)
    (ho : args.node = some old) (hn : args.newNode = some new) (hl : (toBytes new).length < 65536) (hK : K ≤ 65533)
    (hb : AllBlocks env.codec t fun b => UniqueNames b ∧ Named b ∧ ∀ e ∈ b.nimap, e.1 ≤ K)
    (h : Completes env args t t' evs) :
    Edited env.codec args.area args.invert t t' fun _ _ b' =>
      UniqueNames b' ∧ Named b' ∧ ∀ e ∈ b'.nimap, e.1 ≤ K + 1 := by
  have h1 := change_edited hE hg ha h hc replaceNodes_command (by decide) (replaceNodes_eq env args ho hn)
    (replaceNodes_change env args t (replace_differ hc ho hn h) hl ha hK hb)
  refine ⟨h1.nodup, h1.keys, h1.bad, h1.outside, fun bp d b k1 k2 k3 => ?_⟩
  obtain ⟨d', b', f1, f2, f3⟩ := h1.good bp d b k1 k2 k3
  exact ⟨d', b', f1, f2, f3.2⟩

/-- It completes whenever the database works and the arguments are accepted, if an ID is free in every block. -/
theorem C35_replacenodes_completes (env : Env) (args : InstArgs) (f : DbFile) (old new : String)
    (hE : EnvOk env) (hfail : ∀ n, env.fail n = false) (hfile : mapFile env args.mapPath = some f)
    (hcols : MapColumns f.cols) (hg : GoodTable f.table) (hargs : ¬ BadArgs args)
    (hr : ¬ CommandRefuses args) (hc : args.command = "replacenodes") (ha : AreaOk args.area)
    (ho : args.node = some old) (hn : args.newNode = some new) (hl : (toBytes new).length < 65536)
    (hin : args.inputMapPath = none) (hconf : args.doConfirmation = true → env.answer = some true)
    (hb : AllBlocks env.codec f.table fun b => ∀ e ∈ b.nimap, e.1 ≤ 65533) :
    ∃ t' evs, Completes env args f.table t' evs := by
  have hne : args.node ≠ args.newNode := fun he => hr (.inr (.inr (.inl ⟨hc, he⟩)))
  refine edit_completes hfail hE.ord hfile ((colsOk_iff _).2 hcols) hg ha ((verifyArgs_iff args).2 hargs) hc
    replaceNodes_command (by decide) (res := replaceNodesVerify args) rfl ?_ hin hconf
    (replaceNodes_eq env args ho hn) ?_
  · intro e he
    unfold replaceNodesVerify at he
    rw [if_neg (by simpa using hne)] at he
    cases he
  · intro bp d b hbp hd hrep hwf hsel
    unfold replaceEdit
    cases hg : NameIdMap.getId b.nimap (toBytes old) with
    | none => exact ⟨none, 0, rfl, nofun⟩
    | some id =>
      obtain ⟨b', n, f1, f2⟩ := doReplace_works env.build hwf (hb _ _ _ hd hrep) hl hg ha hbp hsel
      refine ⟨some b', n, ?_, fun _ h => by cases h; exact f2⟩
      simp only
      rw [f1]
      rfl

/-! ## C36 -/

theorem replaceNodes_tally (env : Env) (args : InstArgs) (t t' : Table) (evs : List Event) (old new : String)
    (bs : List (Vec3 × MapBlock)) (hg : GoodTable t) (hc : args.command = "replacenodes") (ha : AreaOk args.area)
    (ho : args.node = some old) (hn : args.newNode = some new)
    (Q : MapBlock → Nat → Prop) [∀ b, DecidablePred (Q b)]
    (hQ : AllBlocks env.codec t fun b => ∀ i, Q b i ↔ IsFirst b (some (toBytes old)) i)
    (h : Completes env args t t' evs) (hbs : Listed env.codec t bs) :
    Reported evs "{} nodes replaced." (bs.map fun e => countNodes fun i =>
      Selected args.area args.invert (posAt e.1 i) ∧ Q e.2 i).sum := by
  obtain ⟨D, g, e, he⟩ := change_edits h hc replaceNodes_command (by decide) hg.nodup (replaceNodes_eq env args ho hn)
  rw [he, reported_iff (by decide), e.sum]
  have key := tally_sum hg ha e (F := fun bp b => countNodes fun i => Selected args.area args.invert (posAt bp i) ∧ Q b i)
    ?_ ?_ (φ := id) rfl (fun _ _ => rfl) hbs
  · simpa only [id] using key
  · intro bp d b hbp hd hrep hwf hsel ob n hok
    unfold replaceEdit at hok
    rcases nodeId_cases hwf (hQ _ _ _ hd hrep) with ⟨-, h2, h3⟩ | ⟨h1, -⟩ | ⟨id, h2, h3⟩
    · have h2 : NameIdMap.getId b.nimap (toBytes old) = none := h2
      rw [h2] at hok
      cases hok
      exact (countNodes_zero fun i _ hi => h3 i hi.2).symm
    · cases h1
    · have h2 : NameIdMap.getId b.nimap (toBytes old) = some id := h2
      rw [h2] at hok
      simp only at hok
      cases hr : doReplace env.build b (keyOf bp) id (toBytes new) args.area args.invert with
      | error e => rw [hr] at hok; cases hok
      | ok r =>
        rw [hr] at hok
        cases hok
        refine (doReplace_count hwf ha hbp hsel hr).trans (countNodes_congr fun i _ => ?_)
        rw [h3 i]
  · intro bp d b hbp hd hrep hwf hno
    refine countNodes_zero fun i hi hx => ?_
    rcases hno with h | h
    · exact h _ (posAt_inBlock bp hi) hx.1
    · exact skipped_nodeName hrep (names := [toBytes old]) h (by simp) i
        (isNode_of_first ((hQ _ _ _ hd hrep i).1 hx.2) _ rfl)

/-- It reports the number of nodes replaced, if no name table has a name twice. -/
theorem C36_replacenodes_count (env : Env) (args : InstArgs) (t t' : Table) (evs : List Event) (old new : String)
    (bs : List (Vec3 × MapBlock)) (hg : GoodTable t) (hc : args.command = "replacenodes") (ha : AreaOk args.area)
    (ho : args.node = some old) (hn : args.newNode = some new)
    (hu : AllBlocks env.codec t UniqueNames)
    (h : Completes env args t t' evs) (hbs : Listed env.codec t bs) :
    Reported evs "{} nodes replaced." (bs.map fun e => countNodes fun i =>
      Selected args.area args.invert (posAt e.1 i) ∧ nodeName e.2 i = some (toBytes old)).sum :=
  replaceNodes_tally env args t t' evs old new bs hg hc ha ho hn (fun b i => nodeName b i = some (toBytes old))
    (fun k d b h1 h2 i => (first_iff (hu k d b h1 h2)).trans
      ⟨fun hx n hn => by cases hn; exact hx, fun hx => hx _ rfl⟩) h hbs

/-! ## Example -/

/-- Replace air outside the area (0,0,0)–(0,0,0). -/
def replArgs : InstArgs :=
  { runArgs false "replacenodes" "map" none with
    area := some ⟨⟨0, 0, 0⟩, ⟨0, 0, 0⟩⟩, invert := true, node := some "air", newNode := some "default:stone" }

/-- The hypotheses are met, and 4095 nodes are replaced. -/
example : ∃ t' evs, Completes (editEnv (toyMap (Toy.block 29))) replArgs (toyMap (Toy.block 29)) t' evs ∧
    GoodTable (toyMap (Toy.block 29)) ∧ AreaOk replArgs.area ∧
    AllBlocks (Toy.codec id) (toyMap (Toy.block 29)) (GoodIds (editEnv (toyMap (Toy.block 29))).build) ∧
    Reported evs "{} nodes replaced." 4095 := by
  have hw := Toy.block_wf 29 (by omega)
  have h0 : AllBlocks (Toy.codec id) (toyMap (Toy.block 29)) (fun b => ∀ e ∈ b.nimap, e.1 ≤ 65533) :=
    toyMap_all hw fun e he => Nat.le_trans (toy_small 29 e he) (by decide)
  have h1 : AllBlocks (Toy.codec id) (toyMap (Toy.block 29)) (GoodIds (editEnv (toyMap (Toy.block 29))).build) :=
    toyMap_all hw ⟨toy_unique 29, by decide, fun _ e he => by
      have := toy_small 29 e he
      omega⟩
  have ha : AreaOk replArgs.area := by intro a h; cases h; decide
  obtain ⟨t', evs, h⟩ := C35_replacenodes_completes (editEnv (toyMap (Toy.block 29))) replArgs _ "air" "default:stone"
    (editEnv_ok _) (fun _ => rfl) (editEnv_file _) ⟨_, rfl⟩ (toyMap_good _)
    (by rw [← verifyArgs_iff]; decide)
    (by unfold CommandRefuses; simp [replArgs, runArgs]) rfl ha rfl rfl (by decide) rfl (by intro h; cases h) h0
  have h3 := C36_replacenodes_count _ _ _ _ _ "air" "default:stone" _ (toyMap_good _) rfl ha rfl rfl
    (fun k d b x y => (h1 k d b x y).1) h (toyMap_listed hw)
  have hs : ∀ n : Nat, [n].sum = n := by simp
  refine ⟨t', evs, h, toyMap_good _, ha, h1, ?_⟩
  have hcnt : (countNodes fun i => Selected replArgs.area replArgs.invert (posAt ⟨0, 0, 0⟩ i) ∧
      nodeName (stored (Toy.block 29)) i = some (toBytes "air")) = 4095 := by
    have := length_eq_count (l := List.range' 1 4095) (P := fun i => Selected replArgs.area replArgs.invert (posAt ⟨0, 0, 0⟩ i) ∧
      nodeName (stored (Toy.block 29)) i = some (toBytes "air")) (List.nodup_range') (by
      intro i
      rw [List.mem_range'_1]
      have hb : toBytes "air" = ascii "air" := by decide
      have hsel : Selected replArgs.area replArgs.invert (posAt ⟨0, 0, 0⟩ i) ↔
          ¬ InBox ⟨0, 0, 0⟩ ⟨0, 0, 0⟩ (posAt ⟨0, 0, 0⟩ i) := by
        show Selected (some ⟨⟨0, 0, 0⟩, ⟨0, 0, 0⟩⟩) true _ ↔ _
        rw [selected_iff]
        simp
      rw [hsel, hb]
      have hnode : ∀ i, i < 4096 → 1 ≤ i → nodeName (stored (Toy.block 29)) i = some (ascii "air") := by
        intro i hi h1
        obtain ⟨j, rfl⟩ : ∃ j, i = j + 1 := ⟨i - 1, by omega⟩
        have : (stored (Toy.block 29)).nd.nodes = 1 :: List.replicate 4095 0 := rfl
        unfold nodeName
        rw [this, List.getElem?_cons_succ, List.getElem?_replicate, if_pos (by omega)]
        rfl
      constructor
      · intro hi
        refine ⟨by omega, ?_, hnode i (by omega) (by omega)⟩
        unfold InBox posAt
        simp only
        omega
      · rintro ⟨h1, h2, h3⟩
        refine ⟨?_, by omega⟩
        unfold InBox posAt at h2
        simp only at h2
        omega)
    rw [← this, List.length_range']
  have h5 : ∀ {n}, Reported evs "{} nodes replaced." n → n = 4095 → Reported evs "{} nodes replaced." 4095 := by
    rintro n h rfl
    exact h
  refine h5 h3 ?_
  refine Eq.trans (hs _) ?_
  exact Eq.trans (countNodes_congr fun i _ => Iff.rfl) hcnt

/-! ## What is needed of the name tables -/

/-- The small block with other names; node 0 has ID 1, all others ID 0. -/
def namedBlock (m : NameIdMap) : MapBlock := { Toy.block 28 with nimap := m }

theorem namedBlock_wf {m : NameIdMap} (h : NimapWf m) : Wf (namedBlock m) := by
  have h0 := Toy.block_wf 28 (by omega)
  exact ⟨h0.ver, h0.flags, h0.light, h0.light_old, h0.widths, h0.nodes, h0.metas, h0.objs, h0.time, h, h0.timers⟩

/-- Replace air at (1,0,0) by stone. -/
def oneArgs : InstArgs :=
  { runArgs false "replacenodes" "map" none with
    area := some ⟨⟨1, 0, 0⟩, ⟨1, 0, 0⟩⟩, node := some "air", newNode := some "default:stone" }

theorem uniqueNames_of_nodup {b : MapBlock} (h : (b.nimap.map (·.2)).Nodup) : UniqueNames b := by
  intro i j n hi hj
  have h1 := SMap.get?_some_mem hi
  have h2 := SMap.get?_some_mem hj
  obtain ⟨p, hp, hp'⟩ := List.mem_iff_getElem.1 h1
  obtain ⟨q, hq, hq'⟩ := List.mem_iff_getElem.1 h2
  have hlt : ∀ p q (hp : p < b.nimap.length) (hq : q < b.nimap.length), p < q → b.nimap[p].2 ≠ b.nimap[q].2 := by
    intro p q hp hq hpq
    have := (List.pairwise_iff_getElem.1 h) p q (by simpa using hp) (by simpa using hq) hpq
    simpa using this
  have : p = q := by
    rcases Nat.lt_trichotomy p q with hpq | hpq | hpq
    · exact absurd (by rw [hp', hq']) (hlt p q hp hq hpq)
    · exact hpq
    · exact absurd (by rw [hp', hq']) (hlt q p hq hp hpq)
  subst this
  rw [hp'] at hq'
  exact congrArg Prod.fst hq'

/-- What is left of the block. -/
theorem oneArgs_do {bd : Build} {m : NameIdMap} {mx newId : Nat}
    (hg : NameIdMap.getId m (toBytes "default:stone") = none) (hmx : NameIdMap.maxId m = some mx)
    (hid : u16 bd (mx + 1) = .ok newId) :
    doReplace bd (stored (namedBlock m)) 0 0 (toBytes "default:stone") oneArgs.area false =
      .ok (withNodes (stored (namedBlock m)) (SMap.insert m newId (toBytes "default:stone"))
        (1 :: newId :: List.replicate 4094 0), 1) := by
  have hn : (stored (namedBlock m)).nd.nodes = 1 :: 0 :: List.replicate 4094 0 := rfl
  have hm : (stored (namedBlock m)).nimap = m := rfl
  have hc : (1 :: newId :: List.replicate 4094 0).contains 0 = true := by
    rw [List.contains_iff_mem]
    exact .tail _ (.tail _ (List.mem_replicate.2 ⟨by decide, rfl⟩))
  unfold doReplace
  simp only
  rw [show (oneArgs.area.filter fun a => partly a (Vec3.fromBlockKey 0)) = some ⟨⟨1, 0, 0⟩, ⟨1, 0, 0⟩⟩ by decide]
  simp only
  rw [show Area.relBlockOverlap ⟨⟨1, 0, 0⟩, ⟨1, 0, 0⟩⟩ (Vec3.fromBlockKey 0) = some ⟨⟨1, 0, 0⟩, ⟨1, 0, 0⟩⟩ by decide]
  simp only [unwrap, res_bind_ok]
  unfold replacePart
  rw [hm, hn, hg]
  simp only [hmx, unwrap, res_bind_ok, hid, res_pure, Bool.false_eq_true, if_false]
  have h1 : (1 :: 0 :: List.replicate 4094 0, 0).1.length = 4096 := by
    show (List.replicate 4094 0).length + 1 + 1 = 4096
    rw [List.length_replicate]
  have h2 : replaceAt 0 newId (1 :: 0 :: List.replicate 4094 0, 0) 1 = .ok (1 :: newId :: List.replicate 4094 0, 1) := by
    unfold replaceAt
    rw [idx_ok (show (1 :: 0 :: List.replicate 4094 0, 0).1[1]? = some 0 from rfl)]
    simp only [res_bind_ok, BEq.rfl, if_true]
    rw [setIdx_ok (by rw [h1]; decide)]
    rfl
  rw [show ((Area.positions ⟨⟨1, 0, 0⟩, ⟨1, 0, 0⟩⟩).map fun p => asUsize (p.x + 16 * (p.y + 16 * p.z))) = [1] by decide]
  simp only [List.foldlM_cons, List.foldlM_nil, h2, res_bind_ok, res_pure, hc, Bool.not_true, Bool.false_eq_true, if_false,
    Bool.true_and, decide_true, show 1 > 0 by decide, if_true]
  rfl

theorem oneArgs_run {bd : Build} {m : NameIdMap} {mx newId : Nat} (hm : NimapWf m)
    (hm' : NimapWf (SMap.insert m newId (toBytes "default:stone")))
    (hair : SMap.get? m 0 = some (toBytes "air")) (hgo : NameIdMap.getId m (toBytes "air") = some 0)
    (hg : NameIdMap.getId m (toBytes "default:stone") = none) (hmx : NameIdMap.maxId m = some mx)
    (hid : u16 bd (mx + 1) = .ok newId) (hlt : newId < 65536) :
    ∃ t' evs d', Completes (toyEnv bd (toyMap (namedBlock m))) oneArgs (toyMap (namedBlock m)) t' evs ∧
      (keyOf ⟨0, 0, 0⟩, Toy.data (namedBlock m)) ∈ toyMap (namedBlock m) ∧
      Represents (Toy.codec id) (Toy.data (namedBlock m)) (stored (namedBlock m)) ∧
      (keyOf ⟨0, 0, 0⟩, d') ∈ t' ∧ Represents (Toy.codec id) d' (stored (withNodes (stored (namedBlock m))
        (SMap.insert m newId (toBytes "default:stone")) (1 :: newId :: List.replicate 4094 0))) := by
  have hw := namedBlock_wf hm
  refine toy_run (n := 1) hw rfl (by intro a h; cases h; decide) (by decide) rfl replaceNodes_command (by decide)
    (res := replaceNodesVerify oneArgs) rfl (by intro e he; cases he) rfl rfl
    (replaceNodes_eq _ oneArgs (old := "air") (new := "default:stone") rfl rfl)
    ⟨⟨1, 0, 0⟩, by unfold InBlock; decide, (selected_iff _ _ _).2 (by unfold InBox; decide)⟩ ?_ ?_
    (wf_withNodes (wf_of_represents (Toy.data_rep hw)) hm' ?_ ?_)
  · cases hk : nameKeeps ([toBytes "air"].map string16) (Toy.data (namedBlock m)) with
    | true => rfl
    | false =>
      have := skipped_nodeName (Toy.data_rep hw) (names := [toBytes "air"]) hk (List.mem_singleton.2 rfl) 1
      exact absurd (show SMap.get? m 0 = _ from hair) this
  · unfold replaceEdit
    rw [show NameIdMap.getId (stored (namedBlock m)).nimap (toBytes "air") = some 0 from hgo]
    simp only
    rw [show keyOf ⟨0, 0, 0⟩ = 0 by decide]
    rw [show (toyEnv bd (toyMap (namedBlock m))).build = bd from rfl, show oneArgs.invert = false from rfl,
      oneArgs_do hg hmx hid]
    rfl
  · show (List.replicate 4094 0).length + 1 + 1 = 4096
    rw [List.length_replicate]
  · intro v hv
    rcases List.mem_cons.1 hv with rfl | hv
    · decide
    · rcases List.mem_cons.1 hv with rfl | hv
      · exact hlt
      · rw [List.eq_of_mem_replicate hv]; decide

theorem oneArgs_not {i : Nat} (h : i ≠ 1) (hi : i < 16) : ¬ Selected oneArgs.area oneArgs.invert (posAt ⟨0, 0, 0⟩ i) := by
  show ¬ Selected (some ⟨⟨1, 0, 0⟩, ⟨1, 0, 0⟩⟩) false _
  rw [selected_iff]
  intro hx
  have : InBox ⟨1, 0, 0⟩ ⟨1, 0, 0⟩ (posAt ⟨0, 0, 0⟩ i) := hx.2 rfl
  unfold InBox posAt at this
  simp only at this
  omega

/-- In a release build, with ID 65535 named: replacing one node renames all air, as the next ID is taken
to be 0. -/
theorem C35_last_id_false : ∃ (env : Env) (args : InstArgs) (t t' : Table) (evs : List Event) (d d' : Bytes)
    (b b' : MapBlock) (i : Nat), EnvOk env ∧ GoodTable t ∧ args.command = "replacenodes" ∧ AreaOk args.area ∧
    args.node = some "air" ∧ args.newNode = some "default:stone" ∧ AllBlocks env.codec t UniqueNames ∧
    Completes env args t t' evs ∧
    (keyOf ⟨0, 0, 0⟩, d) ∈ t ∧ (keyOf ⟨0, 0, 0⟩, d') ∈ t' ∧ Represents env.codec d b ∧
    Represents env.codec d' b' ∧ i < 4096 ∧ ¬ Selected args.area args.invert (posAt ⟨0, 0, 0⟩ i) ∧
    nodeName b i = some (toBytes "air") ∧ nodeName b' i = some (toBytes "default:stone") := by
  have hwf : NimapWf [(0, ascii "air"), (1, ascii "a"), (65535, ascii "b")] :=
    ⟨by unfold SMap.Sorted; decide, by unfold NamesFit NameFits; decide⟩
  obtain ⟨t', evs, d', h1, h2, h3, h4, h5⟩ := oneArgs_run (bd := .release) (mx := 65535) (newId := 0)
    hwf ⟨by unfold SMap.Sorted; decide, by unfold NamesFit NameFits; decide⟩ (by decide) (by decide) (by decide) (by decide)
    (by decide) (by decide)
  refine ⟨_, _, _, t', evs, _, d', _, _, 2, toyEnv_ok _ _, toyMap_good _, rfl, by intro a h; cases h; decide, rfl, rfl,
    ?_, h1, h2, h4, h3, h5, by decide, oneArgs_not (by decide) (by decide), ?_, ?_⟩
  · exact toyMap_all (namedBlock_wf hwf) (uniqueNames_of_nodup (by decide))
  · show SMap.get? [(0, ascii "air"), (1, ascii "a"), (65535, ascii "b")] 0 = _
    decide
  · show SMap.get? (SMap.insert [(0, ascii "air"), (1, ascii "a"), (65535, ascii "b")] 0 (toBytes "default:stone")) 0 = _
    decide

/-- A node whose ID has no name, outside the area, gets the new name if its ID is the next one. -/
theorem C35_unnamed_false : ∃ (env : Env) (args : InstArgs) (t t' : Table) (evs : List Event) (d d' : Bytes)
    (b b' : MapBlock) (i : Nat), EnvOk env ∧ GoodTable t ∧ args.command = "replacenodes" ∧ AreaOk args.area ∧
    args.node = some "air" ∧ args.newNode = some "default:stone" ∧ AllBlocks env.codec t (GoodIds env.build) ∧
    Completes env args t t' evs ∧
    (keyOf ⟨0, 0, 0⟩, d) ∈ t ∧ (keyOf ⟨0, 0, 0⟩, d') ∈ t' ∧ Represents env.codec d b ∧
    Represents env.codec d' b' ∧ i < 4096 ∧ ¬ Selected args.area args.invert (posAt ⟨0, 0, 0⟩ i) ∧
    nodeName b i = none ∧ nodeName b' i = some (toBytes "default:stone") := by
  have hwf : NimapWf [(0, ascii "air")] := ⟨by unfold SMap.Sorted; decide, by unfold NamesFit NameFits; decide⟩
  obtain ⟨t', evs, d', h1, h2, h3, h4, h5⟩ := oneArgs_run (bd := .debug) (mx := 0) (newId := 1)
    hwf ⟨by unfold SMap.Sorted; decide, by unfold NamesFit NameFits; decide⟩ (by decide) (by decide) (by decide) (by decide)
    (by decide) (by decide)
  refine ⟨_, _, _, t', evs, _, d', _, _, 0, toyEnv_ok _ _, toyMap_good _, rfl, by intro a h; cases h; decide, rfl, rfl,
    ?_, h1, h2, h4, h3, h5, by decide, oneArgs_not (by decide) (by decide), ?_, ?_⟩
  · exact toyMap_all (namedBlock_wf hwf) ⟨uniqueNames_of_nodup (by decide), by decide, nofun⟩
  · show SMap.get? [(0, ascii "air")] 1 = _
    decide
  · show SMap.get? (SMap.insert [(0, ascii "air")] 1 (toBytes "default:stone")) 1 = _
    decide

end MapEditr
