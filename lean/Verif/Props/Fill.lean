import Verif.Proof.ToyMap
import Verif.Proof.Effect
import Verif.Proof.CleanAny
import Verif.Props.Block
/-!
# Properties C32, C33, C34: `fill`
-/

namespace MapEditr
open Spec

/-- The command is the common loop with this change of a block. -/
theorem fill_eq (env : Env) (args : InstArgs) (a : Area) (node : String) (ha : args.area = some a)
    (hn : args.newNode = some node) :
    fill env args = editCommand env false [] args.area args.invert
      (fun k b => (fillBlock env.build a args.invert (toBytes node) (Vec3.fromBlockKey k) b).map
        fun r => (some r.1, r.2)) (· + ·) 0 (Msg.count "{} nodes filled.") := by
  unfold fill editCommand
  rw [ha, hn]
  show (do
    let keys ← queryKeys env .main [] (some a) args.invert true
    beginEditing
    let count ← keys.foldlM (fillStep env a args.invert (toBytes node)) 0
    endEditing
    logInfo (.count "{} nodes filled." count) : Run Unit) = _
  have : fillStep env a args.invert (toBytes node) = editStep env false
      (fun k b => (fillBlock env.build a args.invert (toBytes node) (Vec3.fromBlockKey k) b).map
        fun r => (some r.1, r.2)) (· + ·) := by
    funext count key
    refine step_eq fun b => ?_
    cases fillBlock env.build a args.invert (toBytes node) (Vec3.fromBlockKey key) b with
    | error e => rfl
    | ok r => simp only [Except.map, lift_ok, pure_bind, bind_assoc, writeOpt, incIf, Bool.false_eq_true, if_false]
  rw [this]

/-- The number `fill` counts for a block: in partly covered blocks, the nodes in the area, even if
the others are filled. -/
def fillCount (a : Area) (invert : Bool) (bp : Vec3) : Nat :=
  if countNodes (fun i => Selected (some a) invert (posAt bp i)) = 0 then 0
  else if countNodes (fun i => Selected (some a) invert (posAt bp i)) = 4096 then 4096
  else countNodes fun i => InBox a.min a.max (posAt bp i)

/-- What `fill` does to a block, whatever its name table holds. -/
def FillsAny (a : Area) (invert : Bool) (node : Bytes) (bp : Vec3) (b b' : MapBlock) : Prop :=
  SameHead b b' ∧ SameMeta b b' ∧ b'.objects = b.objects ∧ b'.timers = b.timers ∧
  b'.nd.param1 = b.nd.param1 ∧ b'.nd.param2 = b.nd.param2 ∧
  ∀ i, i < 4096 → (Selected (some a) invert (posAt bp i) → nodeName b' i = some node) ∧
    (¬ Selected (some a) invert (posAt bp i) → ∀ name, nodeName b i = some name → nodeName b' i = some name)

theorem partly_count {a : Area} {invert : Bool} {bp : Vec3} (ha : a.isValid = true)
    (hsel : ∃ p, InBlock bp p ∧ Selected (some a) invert p) :
    (if partly a bp then countNodes fun i => InBox a.min a.max (posAt bp i) else 4096) = fillCount a invert bp := by
  unfold fillCount
  obtain ⟨p, hp, hps⟩ := hsel
  obtain ⟨i, hi, rfl⟩ := exists_posAt hp
  rw [if_neg (fun h => countNodes_eq_zero.1 h i hi hps)]
  cases hpa : partly a bp with
  | true =>
    rw [if_pos rfl, if_neg]
    intro hall
    rw [countNodes_eq_all] at hall
    obtain ⟨⟨j, hj, hj'⟩, k, hk, hk'⟩ := partly_split ha hpa
    have h1 := hall j hj
    have h2 := hall k hk
    rw [selected_iff] at h1 h2
    exact hk' (h2.2 (h1.1 hj'))
  | false =>
    rw [if_neg (by simp), if_pos]
    rw [countNodes_eq_all]
    intro j hj
    exact whole_spec ha hpa ⟨_, hp, hps⟩ _ (posAt_inBlock bp hj)

theorem fill_effect (env : Env) (a : Area) (invert : Bool) (node : Bytes) (t : Table) (ha : a.isValid = true) :
    Effect env [] (some a) invert
      (fun k b => (fillBlock env.build a invert node (Vec3.fromBlockKey k) b).map
        fun r => (some r.1, r.2)) t
      (fun bp b b' => FillsAny a invert node bp b b' ∧
        ((∃ i, i < 4096 ∧ Selected (some a) invert (posAt bp i)) →
          b'.nd.nodes.length = 4096 ∧ Named b' ∧ (∀ e ∈ b'.nimap, e.1 ≤ 4095) ∧ Tidy b') ∧
        ((∀ i, i < 4096 → ¬ Selected (some a) invert (posAt bp i)) → b' = b))
      (fun bp _ => fillCount a invert bp) 0 := by
  constructor
  · intro bp d b hbp hd hrep hwf hsel ob n hok hsave
    rw [fromBlockKey_keyOf bp hbp] at hok
    cases hf : fillBlock env.build a invert node bp b with
    | error e => rw [hf] at hok; cases hok
    | ok r =>
      rw [hf] at hok
      cases hok
      obtain ⟨nimap, nodes, f1, f2, f3, f4, f5, f6, f7⟩ :=
        fillBlock_any hwf ha hsel hf (hsave _ rfl).names
      refine ⟨by rw [f7]; exact partly_count ha hsel, nofun, ?_⟩
      intro b' hb'
      cases hb'
      refine ⟨f2, ⟨?_, ?_, ?_, ?_, ?_, ?_, fun i hi => ⟨f5 i hi, f6 i hi⟩⟩, ?_, ?_⟩
      · rw [f1]; exact ⟨rfl, rfl, rfl, rfl⟩
      · rw [f1]; exact sameMeta_stored hwf.metas.sorted rfl rfl
      · rw [f1]; rfl
      · rw [f1]; rfl
      · rw [f1]; rfl
      · rw [f1]; rfl
      · intro _
        exact ⟨f2.nodes.1, f3, f4.1, f4.2.ids, f4.2.names, f4.2.used, f4.2.named⟩
      · intro hno
        obtain ⟨p, hp, hps⟩ := hsel
        obtain ⟨i, hi, rfl⟩ := exists_posAt hp
        exact absurd hps (hno i hi)
  · intro bp d b hbp hd hrep hwf hno
    have hno : ∀ p, InBlock bp p → ¬ Selected (some a) invert p := by
      rcases hno with h | h
      · exact h
      · exact absurd ((nameKeeps_nil d).symm.trans h) (by simp)
    refine ⟨⟨⟨⟨rfl, rfl, rfl, rfl⟩, sameMeta_refl b, rfl, rfl, rfl, rfl, ?_⟩, ?_, fun _ => rfl⟩, ?_⟩
    · intro i hi
      exact ⟨fun hs => absurd hs (hno _ (posAt_inBlock bp hi)), fun _ _ h => h⟩
    · rintro ⟨i, hi, hs⟩
      exact absurd hs (hno _ (posAt_inBlock bp hi))
    · unfold fillCount
      rw [if_pos (countNodes_zero fun i hi => hno _ (posAt_inBlock bp hi))]

theorem fill_change (env : Env) (a : Area) (invert : Bool) (node : Bytes) (t : Table)
    (ha : a.isValid = true) (hl : node.length < 65536)
    (hb : AllBlocks env.codec t fun b => Covered b ∧ ∀ e ∈ b.nimap, e.1 ≤ 65533) :
    Change env.codec [] (some a) invert
      (fun k b => (fillBlock env.build a invert node (Vec3.fromBlockKey k) b).map
        fun r => (some r.1, r.2)) t (FillsAny a invert node) (fun bp _ => fillCount a invert bp) 0 := by
  have he := fill_effect env a invert node t ha
  refine ⟨fun bp d b hbp hd hrep hwf hsel => ?_, fun bp d b h1 h2 h3 h4 h5 => ?_⟩
  · obtain ⟨h1, h2⟩ := hb _ _ _ hd hrep
    obtain ⟨⟨b', n⟩, hr⟩ := fillBlock_works env.build hwf h1 h2 node ha bp invert
    obtain ⟨nimap, nodes, f1, f2, f3, f4, f5, f6, f7⟩ := fillBlock_any hwf ha hsel hr (by
      intro e hm
      rcases fillBlock_names hwf ha hr e hm with h | ⟨e', h3, h4⟩
      · rw [h]; exact hl
      · rw [← h4]; exact (hwf.nimap.fits.2 e' h3).2)
    rw [fromBlockKey_keyOf bp hbp, hr]
    refine ⟨some b', by rw [← partly_count ha hsel, ← f7]; rfl, nofun, ?_⟩
    intro b'' hb''
    cases hb''
    refine ⟨f2, ?_, ?_, ?_, ?_, ?_, ?_, fun i hi => ⟨f5 i hi, f6 i hi⟩⟩
    · rw [f1]; exact ⟨rfl, rfl, rfl, rfl⟩
    · rw [f1]; exact sameMeta_stored hwf.metas.sorted rfl rfl
    · rw [f1]; rfl
    · rw [f1]; rfl
    · rw [f1]; rfl
    · rw [f1]; rfl
  · obtain ⟨⟨h6, -⟩, h7⟩ := he.skip bp d b h1 h2 h3 h4 h5
    exact ⟨h6, h7⟩

theorem fill_command : command? "fill" = some ⟨fill, fun _ => .ok .ok, [.area true, .invert, .newNode]⟩ := rfl

theorem fill_edited (env : Env) (args : InstArgs) (t t' : Table) (evs : List Event) (a : Area)
    (node : String) (hE : EnvOk env) (hg : (t.map (·.1)).Nodup) (hc : args.command = "fill")
    (harea : args.area = some a) (ha : a.isValid = true) (hnode : args.newNode = some node)
    (h : Completes env args t t' evs) :
    Edited env.codec (some a) args.invert t t' fun bp b b' =>
      FillsAny a args.invert (toBytes node) bp b b' ∧
        ((∃ i, i < 4096 ∧ Selected (some a) args.invert (posAt bp i)) →
          b'.nd.nodes.length = 4096 ∧ Named b' ∧ (∀ e ∈ b'.nimap, e.1 ≤ 4095) ∧ Tidy b') ∧
        ((∀ i, i < 4096 → ¬ Selected (some a) args.invert (posAt bp i)) → b' = b) := by
  have h1 := effect_edited hE hg (by rw [harea]; intro a' h; cases h; exact ha) h hc fill_command
    (by decide) (fill_eq env args a node harea hnode)
    (by rw [harea]; exact fill_effect env a args.invert (toBytes node) t ha)
  rw [harea] at h1
  exact h1

/-! ## C32 -/

/-- After `fill`, the selected nodes of every readable block have the new name, all other nodes that have
a name keep it, and everything else is as it was.  Nothing is assumed about the blocks.  (Nodes whose ID
is not in the name table: see `C32_unnamed_false`.) -/
theorem C32_fill (env : Env) (args : InstArgs) (t t' : Table) (evs : List Event) (a : Area)
    (node : String) (hE : EnvOk env) (hg : (t.map (·.1)).Nodup) (hc : args.command = "fill")
    (harea : args.area = some a) (ha : a.isValid = true) (hnode : args.newNode = some node)
    (h : Completes env args t t' evs) :
    Edited env.codec (some a) args.invert t t' fun bp b b' =>
      SameHead b b' ∧ SameMeta b b' ∧ b'.objects = b.objects ∧ b'.timers = b.timers ∧
      b'.nd.param1 = b.nd.param1 ∧ b'.nd.param2 = b.nd.param2 ∧
      ∀ i, i < 4096 →
        (Selected (some a) args.invert (posAt bp i) → nodeName b' i = some (toBytes node)) ∧
        (¬ Selected (some a) args.invert (posAt bp i) → ∀ name, nodeName b i = some name →
          nodeName b' i = some name) :=
  edited_mono (fill_edited env args t t' evs a node hE hg hc harea ha hnode h) fun _ _ _ h => h.1

/-- In blocks that have selected nodes, all nodes have names afterwards. -/
theorem C32_named (env : Env) (args : InstArgs) (t t' : Table) (evs : List Event) (a : Area)
    (node : String) (hE : EnvOk env) (hg : (t.map (·.1)).Nodup) (hc : args.command = "fill")
    (harea : args.area = some a) (ha : a.isValid = true) (hnode : args.newNode = some node)
    (h : Completes env args t t' evs) :
    Edited env.codec (some a) args.invert t t' fun bp _ b' =>
      (∃ i, i < 4096 ∧ Selected (some a) args.invert (posAt bp i)) →
        ∀ i, i < 4096 → ∃ name, nodeName b' i = some name :=
  edited_mono (fill_edited env args t t' evs a node hE hg hc harea ha hnode h) fun _ _ _ h hs _ hi =>
    named_node (h.2.1 hs).1 (h.2.1 hs).2.1 hi

/-- Such runs exist: `fill` completes whenever the database works and the arguments are accepted, unless
some name table leaves no ID free or does not reach the greatest node ID. -/
theorem C32_fill_completes (env : Env) (args : InstArgs) (f : DbFile) (a : Area) (node : String)
    (hE : EnvOk env) (hfail : ∀ n, env.fail n = false) (hfile : mapFile env args.mapPath = some f)
    (hcols : MapColumns f.cols) (hg : GoodTable f.table) (hargs : ¬ BadArgs args)
    (hc : args.command = "fill") (harea : args.area = some a) (ha : a.isValid = true)
    (hnode : args.newNode = some node) (hl : (toBytes node).length < 65536)
    (hin : args.inputMapPath = none) (hconf : args.doConfirmation = true → env.answer = some true)
    (hb : AllBlocks env.codec f.table fun b =>
      (∀ id ∈ b.nd.nodes, ∃ e ∈ b.nimap, id ≤ e.1) ∧ ∀ e ∈ b.nimap, e.1 ≤ 65533) :
    ∃ t' evs, Completes env args f.table t' evs := by
  refine change_completes hfail hE.ord hfile ((colsOk_iff _).2 hcols) hg
    (by rw [harea]; intro a' h; cases h; exact ha) ((verifyArgs_iff args).2 hargs) hc fill_command
    (by decide) (res := .ok) rfl (by simp) hin hconf (fill_eq env args a node harea hnode)
    (R := FillsAny a args.invert (toBytes node)) (F := fun bp _ => fillCount a args.invert bp) ?_
  rw [harea]
  exact fill_change env a args.invert (toBytes node) f.table ha hl hb

/-- Fill the node (0,0,0), or with `invert` all others. -/
def fillArgs (invert : Bool) : InstArgs :=
  { runArgs false "fill" "map" none with
    area := some ⟨⟨0, 0, 0⟩, ⟨0, 0, 0⟩⟩, invert := invert, newNode := some "default:stone" }

theorem fillArgs_ok (invert : Bool) : ¬ BadArgs (fillArgs invert) := by
  rw [← verifyArgs_iff]
  cases invert <;> decide

theorem fill_toy (invert : Bool) (b : MapBlock) (h : Wf b) (hn : Covered (stored b))
    (hs : ∀ e ∈ (stored b).nimap, e.1 ≤ 1) :
    ∃ t' evs, Completes (editEnv (toyMap b)) (fillArgs invert) (toyMap b) t' evs :=
  C32_fill_completes (editEnv (toyMap b)) (fillArgs invert) _ ⟨⟨0, 0, 0⟩, ⟨0, 0, 0⟩⟩ "default:stone"
    (editEnv_ok _) (fun _ => rfl) (editEnv_file _) ⟨_, rfl⟩ (toyMap_good b) (fillArgs_ok invert) rfl rfl
    (by decide) rfl (by decide) rfl (by intro h; cases h)
    (toyMap_all h ⟨hn, fun e he => Nat.le_trans (hs e he) (by decide)⟩)

/-- The hypotheses are met by a map with a readable and an unreadable block. -/
example : ∃ t' evs, Completes (editEnv (toyMap (Toy.block 28))) (fillArgs true) (toyMap (Toy.block 28)) t' evs ∧
    GoodTable (toyMap (Toy.block 28)) ∧ EnvOk (editEnv (toyMap (Toy.block 28))) := by
  have hw := Toy.block_wf 28 (by omega)
  obtain ⟨t', evs, h⟩ := fill_toy true (Toy.block 28) hw (named_covered (toy_named 28)) (toy_small 28)
  exact ⟨t', evs, h, toyMap_good _, editEnv_ok _⟩

/-- A block whose nodes, except the first, have an ID that is not in the name table. -/
def ghostBlock : MapBlock := { Toy.block 28 with nimap := [(1, ascii "a")] }

theorem ghostBlock_wf : Wf ghostBlock := by
  have h := Toy.block_wf 28 (by omega)
  refine ⟨h.ver, h.flags, h.light, h.light_old, h.widths, h.nodes, h.metas, h.objs, h.time,
    ⟨List.pairwise_singleton _ _, by show 1 < 65536; decide, ?_⟩, h.timers⟩
  intro e he
  have he : e ∈ [(1, ascii "a")] := he
  rw [List.mem_singleton] at he
  subst he
  exact ⟨by show 1 < 65536; decide, by decide⟩

theorem ghostBlock_covered : Covered (stored ghostBlock) := by
  intro id hid
  refine ⟨(1, ascii "a"), List.mem_cons_self, ?_⟩
  have hid' : id ∈ 1 :: List.replicate 4095 0 := hid
  rcases List.mem_cons.1 hid' with rfl | h
  · exact Nat.le_refl _
  · rw [List.eq_of_mem_replicate h]
    exact Nat.zero_le _

/-- Nodes whose ID is not in the name table do not stay as they are: here they get a name, though the
area is one other node. -/
theorem C32_unnamed_false : ∃ (env : Env) (args : InstArgs) (t t' : Table) (evs : List Event) (a : Area)
    (d d' : Bytes) (b b' : MapBlock) (i : Nat), EnvOk env ∧ GoodTable t ∧ args.command = "fill" ∧
    args.area = some a ∧ args.newNode = some "default:stone" ∧ Completes env args t t' evs ∧
    (keyOf ⟨0, 0, 0⟩, d) ∈ t ∧ (keyOf ⟨0, 0, 0⟩, d') ∈ t' ∧ Represents env.codec d b ∧
    Represents env.codec d' b' ∧ i < 4096 ∧ ¬ Selected (some a) args.invert (posAt ⟨0, 0, 0⟩ i) ∧
    nodeName b i = none ∧ ∃ name, nodeName b' i = some name := by
  obtain ⟨t', evs, h⟩ := fill_toy false ghostBlock ghostBlock_wf ghostBlock_covered (by
    intro e he
    have he : e ∈ [(1, ascii "a")] := he
    rw [List.mem_singleton] at he
    subst he
    exact Nat.le_refl 1)
  have hE := C32_named _ _ _ t' evs ⟨⟨0, 0, 0⟩, ⟨0, 0, 0⟩⟩ "default:stone" (editEnv_ok _) (toyMap_good _).nodup rfl rfl
      (by decide) rfl h
  have hrep := Toy.data_rep ghostBlock_wf
  have hm : (keyOf ⟨0, 0, 0⟩, Toy.data ghostBlock) ∈ toyMap ghostBlock := List.mem_cons_self
  obtain ⟨d', b', h1, h2, h3⟩ := hE.good ⟨0, 0, 0⟩ _ _ (by unfold ValidBlockPos; decide) hm hrep
  refine ⟨_, _, _, t', evs, ⟨⟨0, 0, 0⟩, ⟨0, 0, 0⟩⟩, _, d', _, b', 1, editEnv_ok _, toyMap_good _, rfl, rfl, rfl, h, hm,
    h1, hrep, h2, by decide, ?_, rfl, ?_⟩
  · rw [selected_iff]
    intro hx
    exact absurd (hx.2 rfl) (by unfold InBox; decide)
  · exact h3 ⟨0, by decide, (selected_iff _ _ _).2 (by unfold InBox; decide)⟩ 1 (by decide)

/-! ## C33 -/

theorem fill_reported (env : Env) (args : InstArgs) (t t' : Table) (evs : List Event) (a : Area)
    (node : String) (bs : List (Vec3 × MapBlock)) (hg : GoodTable t) (hc : args.command = "fill")
    (harea : args.area = some a) (ha : a.isValid = true) (hnode : args.newNode = some node)
    (h : Completes env args t t' evs) (hbs : Listed env.codec t bs) :
    Reported evs "{} nodes filled." (bs.map fun e => fillCount a args.invert e.1).sum := by
  refine effect_reported hg (by rw [harea]; intro a' h; cases h; exact ha) h hc fill_command
    (by decide) (by decide) (fill_eq env args a node harea hnode)
    (F := fun bp _ => fillCount a args.invert bp)
    (by rw [harea]; exact fill_effect env a args.invert (toBytes node) t ha) hbs

/-- What `fill` reports, in general: blocks filled entirely count 4096, but partly filled ones count
the nodes *in* the area, also when the nodes outside are filled. -/
theorem C33_count_partial (env : Env) (args : InstArgs) (t t' : Table) (evs : List Event) (a : Area)
    (node : String) (bs : List (Vec3 × MapBlock)) (hg : GoodTable t) (hc : args.command = "fill")
    (harea : args.area = some a) (ha : a.isValid = true) (hnode : args.newNode = some node)
    (h : Completes env args t t' evs) (hbs : Listed env.codec t bs) :
    Reported evs "{} nodes filled." (bs.map fun e =>
      let filled := countNodes fun i => Selected (some a) args.invert (posAt e.1 i)
      if filled = 0 then 0 else if filled = 4096 then 4096
      else countNodes fun i => InBox a.min a.max (posAt e.1 i)).sum := by
  exact fill_reported env args t t' evs a node bs hg hc harea ha hnode h hbs

/-- Without `invert`, `fill` reports the number of nodes filled in readable blocks.  (With `invert` it
does not, see `C33_false`.) -/
theorem C33_partial (env : Env) (args : InstArgs) (t t' : Table) (evs : List Event) (a : Area)
    (node : String) (bs : List (Vec3 × MapBlock)) (hg : GoodTable t) (hc : args.command = "fill")
    (harea : args.area = some a) (ha : a.isValid = true) (hnode : args.newNode = some node)
    (hinv : args.invert = false)
    (h : Completes env args t t' evs) (hbs : Listed env.codec t bs) :
    Reported evs "{} nodes filled."
      (bs.map fun e => countNodes fun i => Selected (some a) args.invert (posAt e.1 i)).sum := by
  have := C33_count_partial env args t t' evs a node bs hg hc harea ha hnode h hbs
  have he : (bs.map fun e : Vec3 × MapBlock => countNodes fun i => Selected (some a) args.invert (posAt e.1 i)) =
      bs.map fun e =>
        let filled := countNodes fun i => Selected (some a) args.invert (posAt e.1 i)
        if filled = 0 then 0 else if filled = 4096 then 4096
        else countNodes fun i => InBox a.min a.max (posAt e.1 i) := by
    refine List.map_congr_left fun e _ => ?_
    have h1 : countNodes (fun i => Selected (some a) args.invert (posAt e.1 i)) =
        countNodes fun i => InBox a.min a.max (posAt e.1 i) :=
      countNodes_congr fun i _ => by rw [selected_iff, hinv]; simp
    simp only
    split
    · next h => exact h
    · split
      · next h => exact h
      · exact h1
  rw [he]
  exact this

theorem count_one : countNodes (fun i => InBox ⟨0, 0, 0⟩ ⟨0, 0, 0⟩ (posAt ⟨0, 0, 0⟩ i)) = 1 := by
  have := length_eq_count (l := [0]) (P := fun i => InBox ⟨0, 0, 0⟩ ⟨0, 0, 0⟩ (posAt ⟨0, 0, 0⟩ i))
    (by decide) (by
      intro i
      rw [List.mem_singleton]
      unfold InBox posAt
      simp only
      omega)
  rw [← this]
  rfl

/-- The property fails with `invert`: one block, the area is one of its nodes; 4095 nodes are filled
and 1 is reported. -/
theorem C33_false : ∃ (env : Env) (args : InstArgs) (t t' : Table) (evs : List Event) (a : Area)
    (bs : List (Vec3 × MapBlock)), EnvOk env ∧ GoodTable t ∧ args.command = "fill" ∧
    args.area = some a ∧ args.newNode = some "default:stone" ∧ Completes env args t t' evs ∧
    Listed env.codec t bs ∧
    (bs.map fun e => countNodes fun i => Selected (some a) args.invert (posAt e.1 i)).sum = 4095 ∧
    Reported evs "{} nodes filled." 1 := by
  have hw := Toy.block_wf 28 (by omega)
  obtain ⟨t', evs, h⟩ := fill_toy true (Toy.block 28) hw (named_covered (toy_named 28)) (toy_small 28)
  have hb := toyMap_listed hw
  have hsel : countNodes (fun i => Selected (some ⟨⟨0, 0, 0⟩, ⟨0, 0, 0⟩⟩) true (posAt ⟨0, 0, 0⟩ i)) = 4095 := by
    have h1 := countNodes_not fun i => InBox ⟨0, 0, 0⟩ ⟨0, 0, 0⟩ (posAt ⟨0, 0, 0⟩ i)
    rw [count_one] at h1
    have h2 : countNodes (fun i => Selected (some ⟨⟨0, 0, 0⟩, ⟨0, 0, 0⟩⟩) true (posAt ⟨0, 0, 0⟩ i)) =
        countNodes fun i => ¬ InBox ⟨0, 0, 0⟩ ⟨0, 0, 0⟩ (posAt ⟨0, 0, 0⟩ i) :=
      countNodes_congr fun i _ => by rw [selected_iff]; simp
    omega
  refine ⟨_, _, _, t', evs, ⟨⟨0, 0, 0⟩, ⟨0, 0, 0⟩⟩, _, editEnv_ok _, toyMap_good _, rfl, rfl, rfl, h, hb,
    ?_, ?_⟩
  · have h1 : (fillArgs true).invert = true := rfl
    rw [List.map_cons, List.map_nil, List.sum_cons, List.sum_nil, h1, hsel, Nat.add_zero]
  · have := fill_reported _ _ _ t' evs ⟨⟨0, 0, 0⟩, ⟨0, 0, 0⟩⟩ "default:stone" _ (toyMap_good _) rfl rfl
      (by decide) rfl h hb
    have he : fillCount ⟨⟨0, 0, 0⟩, ⟨0, 0, 0⟩⟩ true ⟨0, 0, 0⟩ = 1 := by
      unfold fillCount
      rw [hsel, if_neg (by decide), if_neg (by decide)]
      exact count_one
    have h1 : (fillArgs true).invert = true := rfl
    rw [List.map_cons, List.map_nil, h1, he, List.sum_cons, List.sum_nil] at this
    exact this

/-! ## C34 -/

/-- `fill` adds no block: mapblocks that are not in the database stay away. -/
theorem C34_absent_partial (env : Env) (args : InstArgs) (t t' : Table) (evs : List Event) (a : Area)
    (node : String) (hE : EnvOk env) (hg : GoodTable t) (hc : args.command = "fill")
    (harea : args.area = some a) (ha : a.isValid = true) (hnode : args.newNode = some node)
    (h : Completes env args t t' evs) (k : Int) (hk : k ∉ t.map (·.1)) : k ∉ t'.map (·.1) := by
  have := C32_fill env args t t' evs a node hE hg hc harea ha hnode h
  rw [this.keys]
  exact hk

/-- A block marked as not generated. -/
def rawBlock : MapBlock := { Toy.block 28 with flags := 8 }

theorem rawBlock_wf : Wf rawBlock := by
  have h := Toy.block_wf 28 (by omega)
  exact ⟨h.ver, (by show 8 < 256; omega), h.light, h.light_old, h.widths, h.nodes, h.metas, h.objs, h.time,
    h.nimap, h.timers⟩

/-- The property fails: a stored block marked as not generated is filled. -/
theorem C34_false : ∃ (env : Env) (args : InstArgs) (t t' : Table) (evs : List Event) (k : Int)
    (d d' : Bytes) (b b' : MapBlock), EnvOk env ∧ GoodTable t ∧ args.command = "fill" ∧
    Completes env args t t' evs ∧ (k, d) ∈ t ∧ (k, d') ∈ t' ∧ Represents env.codec d b ∧
    Represents env.codec d' b' ∧ b.flags.testBit 3 = true ∧ isValidGenerated env.codec d = false ∧
    nodeName b 0 = some (ascii "a") ∧ nodeName b' 0 = some (toBytes "default:stone") := by
  have hn : Named (stored rawBlock) := toy_named 28
  have hs : ∀ e ∈ (stored rawBlock).nimap, e.1 ≤ 1 := toy_small 28
  obtain ⟨t', evs, h⟩ := fill_toy false rawBlock rawBlock_wf (named_covered hn) hs
  have hE := C32_fill _ _ _ t' evs ⟨⟨0, 0, 0⟩, ⟨0, 0, 0⟩⟩ "default:stone" (editEnv_ok _) (toyMap_good _).nodup rfl rfl
      (by decide) rfl h
  have hrep := Toy.data_rep rawBlock_wf
  have hm : (keyOf ⟨0, 0, 0⟩, Toy.data rawBlock) ∈ toyMap rawBlock := List.mem_cons_self
  obtain ⟨d', b', h1, h2, h3⟩ := hE.good ⟨0, 0, 0⟩ _ _ (by unfold ValidBlockPos; decide) hm hrep
  have hbit : (stored rawBlock).flags.testBit 3 = true := by
    show (8 : Nat).testBit 3 = true
    decide
  refine ⟨_, _, _, t', evs, _, _, d', _, b', editEnv_ok _, toyMap_good _, rfl, h, hm, h1, hrep, h2, hbit,
    ?_, rfl, ?_⟩
  · cases hv : isValidGenerated (editEnv (toyMap rawBlock)).codec (Toy.data rawBlock) with
    | false => rfl
    | true =>
      rw [(C25_generated_check _ (Toy.lawful id) _ _ (deserialize_iff.2 hrep)).1 hv] at hbit
      cases hbit
  · exact (h3.2.2.2.2.2.2 0 (by decide)).1 ((selected_iff _ _ _).2 (by unfold InBox; decide))

end MapEditr
