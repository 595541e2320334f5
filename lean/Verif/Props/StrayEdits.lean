import Verif.Proof.Stray
import Verif.Props.DeleteMeta
import Verif.Props.DeleteObjects
import Verif.Props.Fill
import Verif.Props.Param2
import Verif.Props.ReplaceInInv
import Verif.Props.ReplaceNodes
import Verif.Props.SetMetaVar
import Verif.Props.Stray
/-!
# C116: what editing commands do to rows whose key belongs to no block

They are edited as if they were the blocks they are taken for.
-/

namespace MapEditr
open Spec

theorem absPos_key {k k' : Int} (h : Vec3.fromBlockKey k = Vec3.fromBlockKey k') : absPos k = absPos k' := by
  funext i
  unfold absPos
  rw [h]

theorem metaToDelete_key {k k' : Int} (h : Vec3.fromBlockKey k = Vec3.fromBlockKey k') (args : InstArgs)
    (nodeId : Option Nat) (nodes : List Nat) (l : MetaList) :
    metaToDelete args nodeId k nodes l = metaToDelete args nodeId k' nodes l := by
  induction l with
  | nil => rfl
  | cons e l ih =>
    obtain ⟨i, m⟩ := e
    unfold metaToDelete
    rw [absPos_key h, ih]

theorem editMetas_key {k k' : Int} (h : Vec3.fromBlockKey k = Vec3.fromBlockKey k') (args : InstArgs) (ids nodes : List Nat)
    (edit : NodeMeta → NodeMeta × Nat) (l : MetaList) : editMetas args ids k nodes edit l = editMetas args ids k' nodes edit l := by
  induction l with
  | nil => rfl
  | cons e l ih =>
    obtain ⟨i, m⟩ := e
    unfold editMetas
    rw [absPos_key h, ih]

theorem taken_key (k : Int) (bp : Vec3) (h : TakenFor k bp) : Vec3.fromBlockKey k = bp := (C116_taken k bp).2 h

section
variable (env : Env) (args : InstArgs) (t t' : Table) (evs : List Event) (hE : EnvOk env) (hg : (t.map (·.1)).Nodup)
  (ha : AreaOk args.area) (h : Completes env args t t' evs)
include hE hg ha h

/-- C116: `fill`. -/
theorem C116_fill (a : Area) (node : String) (hc : args.command = "fill") (harea : args.area = some a)
    (hnode : args.newNode = some node) :
    EditedAs env.codec (some a) args.invert t t' fun bp b b' =>
      SameHead b b' ∧ SameMeta b b' ∧ b'.objects = b.objects ∧ b'.timers = b.timers ∧
      b'.nd.param1 = b.nd.param1 ∧ b'.nd.param2 = b.nd.param2 ∧
      ∀ i, i < 4096 →
        (Selected (some a) args.invert (posAt bp i) → nodeName b' i = some (toBytes node)) ∧
        (¬ Selected (some a) args.invert (posAt bp i) → ∀ name, nodeName b i = some name →
          nodeName b' i = some name) := by
  have h1 := edited_as taken_key hE hg ha h hc fill_command (by decide) (fill_eq env args a node harea hnode)
    (by intro k k' b e; simp only [e])
    (fun k d k' _ => by rw [harea]; exact fill_effect env a args.invert (toBytes node) [(k', d)] (ha a harea))
  rw [harea] at h1
  exact ⟨h1.outside, fun k bp d b k1 k2 k3 k4 => by
    obtain ⟨d', b', f1, f2, f3⟩ := h1.good k bp d b k1 k2 k3 k4
    exact ⟨d', b', f1, f2, f3.1⟩⟩

/-- C116: `replacenodes`, with the condition of `C35_replacenodes_partial` on the blocks. -/
theorem C116_replacenodes (old new : String) (hc : args.command = "replacenodes") (ho : args.node = some old)
    (hn : args.newNode = some new) (hb : AllBlocks env.codec t (GoodIds env.build)) :
    EditedAs env.codec args.area args.invert t t' (ReplacesNames args.area args.invert (toBytes old) (toBytes new)) := by
  have h1 := edited_as taken_key hE hg ha h hc replaceNodes_command (by decide) (replaceNodes_eq env args ho hn)
    (by intro k k' b e; unfold replaceEdit doReplace; simp only [e])
    (fun k d k' hd => replaceNodes_effect env args [(k', d)] (replace_differ hc ho hn h) ha id
      (fun j e b h1 h2 => (allBlocks_one hb hd k' j e b h1 h2).sound _))
  exact ⟨h1.outside, fun k bp d b k1 k2 k3 k4 => by
    obtain ⟨d', b', f1, f2, f3⟩ := h1.good k bp d b k1 k2 k3 k4
    exact ⟨d', b', f1, f2, f3.1⟩⟩

/-- C116: `setparam2`. -/
theorem C116_setparam2 (val : UInt8) (hc : args.command = "setparam2") (hv : args.param2 = some val)
    (hu : args.node ≠ none → AllBlocks env.codec t UniqueNames) :
    EditedAs env.codec args.area args.invert t t' fun bp b b' =>
      SameHead b b' ∧ SameMeta b b' ∧ b'.objects = b.objects ∧ b'.timers = b.timers ∧
      b'.nimap = b.nimap ∧ b'.nd.nodes = b.nd.nodes ∧ b'.nd.param1 = b.nd.param1 ∧
      ∀ i, i < 4096 → b'.nd.param2[i]? =
        if Selected args.area args.invert (posAt bp i) ∧ IsNode b (args.node.map toBytes) i then some val
        else b.nd.param2[i]? :=
  edited_as taken_key hE hg ha h hc setParam2_command (by decide) (setParam2_eq env args val hv)
    (by intro k k' b e; unfold param2Edit; simp only [e])
    (fun _ d k' hd => (setParam2_change env args val [(k', d)] ha (fun b => IsNode b (args.node.map toBytes))
      (names_first fun hn => allBlocks_one (hu hn) hd k')).effect)

/-- C116: `deletemeta`. -/
theorem C116_deletemeta (hc : args.command = "deletemeta") (hu : args.node ≠ none → AllBlocks env.codec t UniqueNames) :
    EditedAs env.codec args.area args.invert t t' fun bp b b' =>
      SameHead b b' ∧ SameNodes b b' ∧ b'.objects = b.objects ∧ b'.timers = b.timers ∧
      ∀ i, SavedMeta b
        (if Selected args.area args.invert (posAt bp (i % 4096)) ∧ IsNode b (args.node.map toBytes) i then none
          else metaOf b i) (metaOf b' i) :=
  edited_as taken_key hE hg ha h hc deleteMeta_command (by decide) (deleteMetadata_eq env args)
    (by intro k k' b e; unfold deleteMetaEdit; simp only [metaToDelete_key e])
    (fun _ d k' hd => deleteMeta_effect env args [(k', d)] (fun b => IsNode b (args.node.map toBytes))
      (names_first fun hn => allBlocks_one (hu hn) hd k'))

/-- C116: `deletetimers`. -/
theorem C116_deletetimers (hc : args.command = "deletetimers")
    (hu : args.node ≠ none → AllBlocks env.codec t UniqueNames) :
    EditedAs env.codec args.area args.invert t t' fun bp b b' =>
      SameHead b b' ∧ SameNodes b b' ∧ SameMeta b b' ∧ b'.objects = b.objects ∧
      Without (fun t => Selected args.area args.invert (posAt bp (t.pos % 4096)) ∧
        IsNode b (args.node.map toBytes) t.pos) b.timers b'.timers :=
  edited_as taken_key hE hg ha h hc deleteTimers_command (by decide) (deleteTimers_eq env args)
    (by
      intro k k' b e
      have e' : ∀ nodeId nodes, timerHit args nodeId k nodes = timerHit args nodeId k' nodes := by
        intro nodeId nodes
        funext x
        unfold timerHit
        rw [absPos_key e]
      unfold deleteTimersEdit
      simp only [e'])
    (fun _ d k' hd => deleteTimers_effect env args [(k', d)] (fun b => IsNode b (args.node.map toBytes))
      (names_first fun hn => allBlocks_one (hu hn) hd k'))

/-- C116: `deleteobjects`. -/
theorem C116_deleteobjects (hc : args.command = "deleteobjects") :
    EditedAs env.codec args.area args.invert t t' fun bp b b' =>
      SameHead b b' ∧ SameNodes b b' ∧ SameMeta b b' ∧ b'.timers = b.timers ∧
      Without (ObjectGoes args bp) b.objects b'.objects :=
  edited_as taken_key hE hg ha h hc deleteObjects_command (by decide) (deleteObjects_eq env args) (fun _ _ _ _ => rfl)
    (fun _ d k' _ => deleteObjects_effect env args [(k', d)] (completes_args h (by rw [hc]; decide)))

/-- C116: `setmetavar`. -/
theorem C116_setmetavar (key : String) (hc : args.command = "setmetavar") (hk : args.key = some key)
    (hu : args.nodes ≠ [] → AllBlocks env.codec t UniqueNames) :
    EditedAs env.codec args.area args.invert t t' fun bp b b' =>
      SameHead b b' ∧ SameNodes b b' ∧ b'.objects = b.objects ∧ b'.timers = b.timers ∧
      ∀ i, SavedMeta b
        (if Selected args.area args.invert (posAt bp (i % 4096)) ∧ AmongNodes b (args.nodes.map toBytes) i then
          visible ((metaOf b i).map (varEdit (toBytes key)
            (if args.delete then none else some (toBytes (args.value.getD "")))))
          else metaOf b i) (metaOf b' i) :=
  edited_as taken_key hE hg ha h hc setMetaVar_command (by decide) (setMetaVar_eq env args hk)
    (by intro k k' b e; unfold setMetaVarEdit metaEdit; simp only [editMetas_key e])
    (fun _ _ k' hd => setMetaVar_effect (Q := fun b => AmongNodes b (args.nodes.map toBytes)) hE
      (lists_first fun hn => allBlocks_one (hu hn) hd k'))

/-- C116: `replaceininv`, with the conditions of `C46_replaceininv_partial`. -/
theorem C116_replaceininv (item : String) (hc : args.command = "replaceininv") (hk : args.item = some item)
    (hw : ¬ endWord <:+ newItemOf args (toBytes item))
    (hu : args.nodes ≠ [] → AllBlocks env.codec t UniqueNames)
    (hv : AllBlocks env.codec t (InvsGood (toBytes item))) :
    EditedAs env.codec args.area args.invert t t' fun bp b b' =>
      SameHead b b' ∧ SameNodes b b' ∧ b'.objects = b.objects ∧ b'.timers = b.timers ∧
      ∀ i, if Selected args.area args.invert (posAt bp (i % 4096)) ∧ AmongNodes b (args.nodes.map toBytes) i then
          (metaOf b i = none → metaOf b' i = none) ∧
          ∀ m, metaOf b i = some m →
            ∃ m' n, InvEdit (toBytes item) (newItemOf args (toBytes item)) args.deleteMeta m m' n ∧
              SavedMeta b (some m') (metaOf b' i)
        else SavedMeta b (metaOf b i) (metaOf b' i) := by
  have hb := item_bytes (completes_args h (by rw [hc]; decide)) hk
  exact edited_as taken_key hE hg ha h hc replaceInInv_command (by decide) (replaceInInv_eq env args hk)
    (by intro k k' b e; unfold replaceInInvEdit metaEdit; simp only [editMetas_key e])
    (fun _ _ k' hd => replaceInInv_effect (Q := fun b => AmongNodes b (args.nodes.map toBytes)) (invCount_counts _)
      (hb 32 (.inr rfl)).1 (hb 10 (.inl rfl)).2 hw (allBlocks_one hv hd k')
      (lists_first fun hn => allBlocks_one (hu hn) hd k'))

end

/-- Such runs exist: the same conditions as for blocks of the map (`C32_fill_completes`) are enough. -/
theorem C116_fill_completes (env : Env) (args : InstArgs) (f : DbFile) (a : Area) (node : String)
    (hE : EnvOk env) (hfail : ∀ n, env.fail n = false) (hfile : mapFile env args.mapPath = some f)
    (hcols : MapColumns f.cols) (hn : (f.table.map (·.1)).Nodup)
    (hpos : ∀ r ∈ f.table, ∃ bp, ValidBlockPos bp ∧ TakenFor r.1 bp) (hargs : ¬ BadArgs args)
    (hc : args.command = "fill") (harea : args.area = some a) (ha : a.isValid = true)
    (hnode : args.newNode = some node) (hl : (toBytes node).length < 65536)
    (hin : args.inputMapPath = none) (hconf : args.doConfirmation = true → env.answer = some true)
    (hb : AllBlocks env.codec f.table fun b =>
      (∀ id ∈ b.nd.nodes, ∃ e ∈ b.nimap, id ≤ e.1) ∧ ∀ e ∈ b.nimap, e.1 ≤ 65533) :
    ∃ t' evs, Completes env args f.table t' evs := by
  refine completes_as taken_key hfail hE.ord hfile ((colsOk_iff _).2 hcols) hn hpos
    (by rw [harea]; intro a' h; cases h; exact ha) ((verifyArgs_iff args).2 hargs) hc fill_command
    (by decide) (res := .ok) rfl (by simp) hin hconf (fill_eq env args a node harea hnode)
    (R := FillsAny a args.invert (toBytes node)) (F := fun bp _ => fillCount a args.invert bp)
    (by intro k k' b e; simp only [e]) fun k d k' hd => ?_
  rw [harea]
  exact fill_change env a args.invert (toBytes node) [(k', d)] ha hl (allBlocks_one hb hd k')

/-- The same block twice, once under a key that is taken for the block. -/
def twinMap (b : MapBlock) : Table := [(0, Toy.data b), (72057594037927936, Toy.data b)]

theorem twinMap_all {b : MapBlock} (h : Wf b) {P : MapBlock → Prop} (hP : P (stored b)) :
    AllBlocks (Toy.codec id) (twinMap b) P := by
  intro k d b' hk hrep
  unfold twinMap at hk
  simp only [List.mem_cons, List.not_mem_nil, or_false, Prod.mk.injEq] at hk
  rcases hk with ⟨rfl, rfl⟩ | ⟨rfl, rfl⟩ <;>
  · rw [represents_unique hrep (Toy.data_rep h)]
    exact hP

/-- The hypotheses can be met: `fill` changes the node (0,0,0) of both rows. -/
example : ∃ t' evs, Completes (editEnv (twinMap (Toy.block 28))) (fillArgs false) (twinMap (Toy.block 28)) t' evs ∧
    ((twinMap (Toy.block 28)).map (·.1)).Nodup ∧ EnvOk (editEnv (twinMap (Toy.block 28))) ∧
    ¬ ValidKey 72057594037927936 ∧ ∃ d' b', (72057594037927936, d') ∈ t' ∧ Represents (Toy.codec id) d' b' ∧
      nodeName b' 0 = some (toBytes "default:stone") := by
  have hw := Toy.block_wf 28 (by omega)
  have hn : ((twinMap (Toy.block 28)).map (·.1)).Nodup := by show [(0 : Int), 72057594037927936].Nodup; decide
  have hpos : ∀ r ∈ twinMap (Toy.block 28), TakenFor r.1 ⟨0, 0, 0⟩ := by
    intro r hr
    unfold twinMap at hr
    simp only [List.mem_cons, List.not_mem_nil, or_false] at hr
    rcases hr with rfl | rfl
    · exact (C116_taken 0 _).1 (by decide)
    · exact (C116_taken 72057594037927936 _).1 (by decide)
  have hv : ValidBlockPos ⟨0, 0, 0⟩ := by unfold ValidBlockPos; decide
  have ha : AreaOk (fillArgs false).area := by rintro _ ⟨⟩; decide
  obtain ⟨t', evs, h⟩ := C116_fill_completes (editEnv (twinMap (Toy.block 28))) (fillArgs false) _
    ⟨⟨0, 0, 0⟩, ⟨0, 0, 0⟩⟩ "default:stone" (editEnv_ok _) (fun _ => rfl) (editEnv_file _) ⟨_, rfl⟩ hn
    (fun r hr => ⟨_, hv, hpos r hr⟩) (fillArgs_ok false) rfl rfl (by decide) rfl (by decide) rfl (by intro h; cases h)
    (twinMap_all hw ⟨named_covered (toy_named 28), fun e he => Nat.le_trans (toy_small 28 e he) (by decide)⟩)
  have E := C116_fill _ _ _ _ _ (editEnv_ok _) hn ha h ⟨⟨0, 0, 0⟩, ⟨0, 0, 0⟩⟩ "default:stone" rfl rfl rfl
  have hm : (72057594037927936, Toy.data (Toy.block 28)) ∈ twinMap (Toy.block 28) :=
    List.mem_cons_of_mem _ List.mem_cons_self
  obtain ⟨d', b', f1, f2, f3⟩ := E.good 72057594037927936 ⟨0, 0, 0⟩ _ _ hv (hpos _ hm) hm (Toy.data_rep hw)
  exact ⟨t', evs, h, hn, editEnv_ok _, by decide, d', b', f1, f2, (f3.2.2.2.2.2.2 0 (by decide)).1 (by
    refine (selected_iff _ _ _).2 ?_
    decide)⟩

end MapEditr
