import Verif.Proof.Rest
import Verif.Props.Every
/-!
# Property C97: what every command means for what is beside the nodes
-/

namespace MapEditr
open Spec

/-- Whatever the command is, if a run ends normally, objects, flags and the like are what it means. -/
theorem C97_run (c : Codec) (args : InstArgs) (s t t' : Table) (K : Nat) (hg : GoodTable t)
    (hb : AllBlocks c t (Usual K)) (hp : args.command = "replaceininv" → AllBlocks c t PlainInvs)
    (hs : args.command = "overlay" → Source c K s) (hK : 4095 ≤ K) (hK' : K ≤ 7280)
    (ha : AnyArgs args) (h : Ran c args s t t') :
    restsOf c t' = restMeaning args (restsOf c s) (restsOf c t) :=
  rest_every hg hb hp hs hK hK' ha h

/-- Nodes and what is beside them belong to the same blocks. -/
theorem C97_blocks (c : Codec) (t : Table) (hg : GoodTable t) (p : Vec3) :
    (nodesOf c t p).isSome ↔ (restsOf c t (blockOf p)).isSome := by
  obtain ⟨bp, i, hi, rfl⟩ := exists_at p
  rw [blockOf_posAt bp hi]
  by_cases hx : ∃ b, HasBlock c t bp b
  · obtain ⟨b, hb⟩ := hx
    rw [nodesOf_block hg hb hi, restsOf_block hg hb]
    exact ⟨fun _ => rfl, fun _ => rfl⟩
  · rw [nodesOf_noBlock (fun b hb => hx ⟨b, hb⟩) hi, restsOf_none fun b hb => hx ⟨b, hb⟩]
    exact ⟨fun h => h, fun h => h⟩

/-- Any number of runs, of whatever commands: the whole contents of the map, nodes and all. -/
theorem C97_session (c : Codec) (l : List (InstArgs × Table)) (t t' : Table) (K : Nat) (hg : GoodTable t)
    (hb : AllBlocks c t (Usual K)) (hp : AllBlocks c t PlainInvs)
    (ha : ∀ x ∈ l, AnyArgs x.1 ∧ (x.1.command = "overlay" → Source c K x.2 ∧ AllBlocks c x.2 PlainInvs))
    (hK : 4095 ≤ K) (hK' : K + l.length ≤ 7281) (h : RanAll c l t t') :
    nodesOf c t' = l.foldl (fun W x => meaning x.1 (nodesOf c x.2) W) (nodesOf c t) ∧
    restsOf c t' = l.foldl (fun W x => restMeaning x.1 (restsOf c x.2) W) (restsOf c t) := by
  refine ⟨C96_session c l t t' K hg hb hp ha hK hK' h, ?_⟩
  induction h generalizing K with
  | nil => rfl
  | @cons args s t t1 l t' hrun _ ih =>
    rw [List.length_cons] at hK'
    obtain ⟨a1, a2⟩ := ha _ List.mem_cons_self
    obtain ⟨k, kp⟩ := means_every hg hb hp a2 hK (by omega) a1 hrun
    rw [ih (K + 1) k.good k.usual kp
      (fun x hx => ⟨(ha x (List.mem_cons_of_mem _ hx)).1, fun e =>
        ⟨source_mono (by omega) ((ha x (List.mem_cons_of_mem _ hx)).2 e).1,
          ((ha x (List.mem_cons_of_mem _ hx)).2 e).2⟩⟩) (by omega) (by omega),
      rest_every hg hb (fun _ => hp) (fun e => (a2 e).1) hK (by omega) a1 hrun]
    rfl

/-- Two maps with the same contents, however stored, have the same contents after the same session. -/
theorem C97_same (c1 c2 : Codec) (l1 l2 : List (InstArgs × Table)) (t1 t2 t1' t2' : Table) (K : Nat)
    (hg1 : GoodTable t1) (hg2 : GoodTable t2) (hb1 : AllBlocks c1 t1 (Usual K)) (hb2 : AllBlocks c2 t2 (Usual K))
    (hp1 : AllBlocks c1 t1 PlainInvs) (hp2 : AllBlocks c2 t2 PlainInvs)
    (ha1 : ∀ x ∈ l1, AnyArgs x.1 ∧ (x.1.command = "overlay" → Source c1 K x.2 ∧ AllBlocks c1 x.2 PlainInvs))
    (ha2 : ∀ x ∈ l2, AnyArgs x.1 ∧ (x.1.command = "overlay" → Source c2 K x.2 ∧ AllBlocks c2 x.2 PlainInvs))
    (hK : 4095 ≤ K) (hK1 : K + l1.length ≤ 7281)
    (hl : l1.map (fun x => (x.1, nodesOf c1 x.2, restsOf c1 x.2)) = l2.map fun x => (x.1, nodesOf c2 x.2, restsOf c2 x.2))
    (h1 : RanAll c1 l1 t1 t1') (h2 : RanAll c2 l2 t2 t2')
    (hn : nodesOf c1 t1 = nodesOf c2 t2) (hr : restsOf c1 t1 = restsOf c2 t2) :
    nodesOf c1 t1' = nodesOf c2 t2' ∧ restsOf c1 t1' = restsOf c2 t2' := by
  have hlen : l1.length = l2.length := by
    have := congrArg List.length hl
    rwa [List.length_map, List.length_map] at this
  obtain ⟨e1, f1⟩ := C97_session c1 l1 t1 t1' K hg1 hb1 hp1 ha1 hK hK1 h1
  obtain ⟨e2, f2⟩ := C97_session c2 l2 t2 t2' K hg2 hb2 hp2 ha2 hK (hlen ▸ hK1) h2
  rw [e1, e2, f1, f2, hn, hr]
  have en : ∀ (c : Codec) (l : List (InstArgs × Table)) (W : Nodes),
      l.foldl (fun W x => meaning x.1 (nodesOf c x.2) W) W =
        (l.map fun x => (x.1, nodesOf c x.2, restsOf c x.2)).foldl (fun W x => meaning x.1 x.2.1 W) W := by
    intro c l W
    rw [List.foldl_map]
  have er : ∀ (c : Codec) (l : List (InstArgs × Table)) (W : Rests),
      l.foldl (fun W x => restMeaning x.1 (restsOf c x.2) W) W =
        (l.map fun x => (x.1, nodesOf c x.2, restsOf c x.2)).foldl (fun W x => restMeaning x.1 x.2.2 W) W := by
    intro c l W
    rw [List.foldl_map]
  rw [en, en, er, er, hl]
  exact ⟨rfl, rfl⟩

/-! ## What follows -/

/-- One step without `overlay` never changes the numbers of a block, and only removes objects. -/
theorem restMeaning_less {args : InstArgs} (hc : args.command ≠ "overlay") (S W : Rests) {bp : Vec3} {r' : BlockRest}
    (h : restMeaning args S W bp = some r') : ∃ r, W bp = some r ∧ r'.version = r.version ∧ r'.flags = r.flags ∧
      r'.lighting = r.lighting ∧ r'.timestamp = r.timestamp ∧ r'.objects.Sublist r.objects := by
  unfold restMeaning at h
  split at h
  · obtain ⟨r, h1, rfl⟩ := Option.map_eq_some_iff.1 h
    exact ⟨r, h1, rfl, rfl, rfl, rfl, List.filter_sublist⟩
  · split at h
    · cases h
    · exact ⟨r', h, rfl, rfl, rfl, rfl, List.Sublist.refl _⟩
  · rename_i e
    exact absurd e hc
  · exact ⟨r', h, rfl, rfl, rfl, rfl, List.Sublist.refl _⟩

/-- Over a whole session without `overlay`: no block is new, version, flags, lighting and timestamp of a block stay
as they are, and no object is new or moves to another block. -/
theorem C97_kept (c : Codec) (l : List (InstArgs × Table)) (t t' : Table) (K : Nat) (hg : GoodTable t)
    (hb : AllBlocks c t (Usual K)) (hp : AllBlocks c t PlainInvs) (ha : ∀ x ∈ l, AnyArgs x.1 ∧ x.1.command ≠ "overlay")
    (hK : 4095 ≤ K) (hK' : K + l.length ≤ 7281) (h : RanAll c l t t') (bp : Vec3) (r' : BlockRest)
    (hr : restsOf c t' bp = some r') : ∃ r, restsOf c t bp = some r ∧ r'.version = r.version ∧ r'.flags = r.flags ∧
      r'.lighting = r.lighting ∧ r'.timestamp = r.timestamp ∧ r'.objects.Sublist r.objects := by
  rw [(C97_session c l t t' K hg hb hp (fun x hx => ⟨(ha x hx).1, fun e => absurd e (ha x hx).2⟩) hK hK' h).2] at hr
  generalize restsOf c t = W at hr ⊢
  have hl : ∀ x ∈ l, x.1.command ≠ "overlay" := fun x hx => (ha x hx).2
  clear ha h hK'
  induction l generalizing W with
  | nil => exact ⟨r', hr, rfl, rfl, rfl, rfl, List.Sublist.refl _⟩
  | cons x l ih =>
    obtain ⟨r1, h1, e1, e2, e3, e4, e5⟩ := ih _ hr (fun y hy => hl y (List.mem_cons_of_mem _ hy))
    obtain ⟨r, h2, g1, g2, g3, g4, g5⟩ := restMeaning_less (hl x List.mem_cons_self) _ _ h1
    exact ⟨r, h2, e1.trans g1, e2.trans g2, e3.trans g3, e4.trans g4, e5.trans g5⟩

/-- After `deleteobjects` no selected object is left in blocks with selected nodes. -/
theorem C97_gone (c : Codec) (args : InstArgs) (s t t' : Table) (K : Nat) (hg : GoodTable t)
    (hb : AllBlocks c t (Usual K)) (hK : 4095 ≤ K) (hK' : K ≤ 7280) (ha : AnyArgs args)
    (hc : args.command = "deleteobjects") (h : Ran c args s t t') (bp : Vec3) (r : BlockRest)
    (hr : restsOf c t' bp = some r) : ∀ o ∈ r.objects, ¬ ObjectGoes args bp o := by
  rw [C97_run c args s t t' K hg hb (fun e => by rw [hc] at e; exact absurd e (by decide))
    (fun e => by rw [hc] at e; exact absurd e (by decide)) hK hK' ha h] at hr
  unfold restMeaning at hr
  rw [hc] at hr
  obtain ⟨r0, -, rfl⟩ := Option.map_eq_some_iff.1 hr
  intro o ho
  have := (List.mem_filter.1 ho).2
  simpa using this

/-- Laying a map over another without area leaves what is in the first, and of the other the blocks it alone has. -/
theorem C97_overlay_all (c : Codec) (args : InstArgs) (s t t' : Table) (K : Nat) (hg : GoodTable t)
    (hb : AllBlocks c t (Usual K)) (hs : Source c K s) (hK : 4095 ≤ K) (hK' : K ≤ 7280) (ha : AnyArgs args)
    (hc : args.command = "overlay") (ho : args.offset = none) (harea : args.area = none)
    (h : Ran c args s t t') (bp : Vec3) :
    restsOf c t' bp = (restsOf c s bp).or (restsOf c t bp) := by
  rw [C97_run c args s t t' K hg hb (fun e => by rw [hc] at e; exact absurd e (by decide)) (fun _ => hs) hK hK' ha h]
  unfold restMeaning
  rw [hc, ho, harea]
  have hw : Whole none args.invert bp := fun p _ => trivial
  simp only [Option.getD_none, ne_eq, not_true_eq_false, if_false, if_pos hw]
  cases restsOf c s bp <;> rfl

/-! ## An example

An object is deleted, and comes back when the old map is laid over the new one. -/

theorem toy_plain : PlainInvs (stored (Toy.block 28)) := by
  intro e he
  have he : e ∈ [(0, (⟨[(ascii "k", (ascii "v", true)), (ascii "l", (ascii "", false))],
      ascii "List main 1\nEmpty\nEndInventoryList\nEndInventory\n"⟩ : NodeMeta))] := he
  rw [List.mem_singleton] at he
  subst he
  refine ⟨[ascii "List main 1", ascii "Empty", ascii "EndInventoryList"], ⟨rfl, by unfold Lines; decide, by decide⟩, ?_⟩
  intro l hl hi
  have h : ∀ l ∈ [ascii "List main 1", ascii "Empty", ascii "EndInventoryList"],
      (ascii "Item ").isPrefixOf l = true → l.length < 12 := by decide
  exact short_endWord (h l hl (List.isPrefixOf_iff_prefix.2 hi))

/-- Lay the other map over everything. -/
def wholeArgs : InstArgs := runArgs false "overlay" "map" (some "other")

theorem objectArgs_any : AnyArgs objectArgs :=
  ⟨trivial, (by intro x hx; cases hx; decide), (by intro n hn; cases hn), fun e => absurd e (by decide)⟩

theorem wholeArgs_any : AnyArgs wholeArgs :=
  ⟨rfl, (by intro x hx; cases hx), (by intro n hn; cases hn), fun e => absurd e (by decide)⟩

example : ∃ t' t'', RanAll (Toy.codec id) [(objectArgs, [])] (oneMap (Toy.block 28)) t' ∧
    RanAll (Toy.codec id) [(objectArgs, []), (wholeArgs, oneMap (Toy.block 28))] (oneMap (Toy.block 28)) t'' ∧
    GoodTable (oneMap (Toy.block 28)) ∧ Source (Toy.codec id) 4095 (oneMap (Toy.block 28)) ∧
    AllBlocks (Toy.codec id) (oneMap (Toy.block 28)) PlainInvs ∧ AnyArgs objectArgs ∧ AnyArgs wholeArgs ∧
    (restsOf (Toy.codec id) (oneMap (Toy.block 28)) ⟨0, 0, 0⟩).map (·.objects) = some [⟨7, ⟨-10, 20, 30⟩, ascii "x"⟩] ∧
    (restsOf (Toy.codec id) t' ⟨0, 0, 0⟩).map (·.objects) = some [] ∧
    restsOf (Toy.codec id) t'' ⟨0, 0, 0⟩ = restsOf (Toy.codec id) (oneMap (Toy.block 28)) ⟨0, 0, 0⟩ := by
  have hw := Toy.block_wf 28 (by omega)
  have hg := oneMap_good (Toy.block 28)
  have hb := oneMap_all hw (P := Usual 4095) toy_usual
  have hp := oneMap_all hw (P := PlainInvs) toy_plain
  have hS : Source (Toy.codec id) 4095 (oneMap (Toy.block 28)) := ⟨hg, hb, oneMap_readable hw⟩
  obtain ⟨t', evs, h1⟩ := C43_deleteobjects_completes (editEnv (oneMap (Toy.block 28))) objectArgs _
    (editEnv_ok _) (fun _ => rfl) (editEnv_file _) ⟨_, rfl⟩ hg
    (by rw [← verifyArgs_iff]; decide) rfl objectArgs_any.area (.inl rfl) rfl (by intro h; cases h)
    (fun _ _ => oneMap_all hw (toy_objectsNear 28))
  have r1 : Ran (Toy.codec id) objectArgs [] (oneMap (Toy.block 28)) t' :=
    ⟨_, evs, editEnv_ok _, rfl, h1, fun e => absurd e (by decide), fun e => absurd e (by decide)⟩
  obtain ⟨k, kp⟩ := means_every hg hb hp (fun e => absurd e (by decide)) (by omega) (by omega) objectArgs_any r1
  obtain ⟨t'', evs2, h2⟩ := C49_overlay_completes (twoEnv t' (oneMap (Toy.block 28))) wholeArgs _ _ "other"
    (fun _ => rfl) rfl ⟨_, rfl⟩ rfl rfl ⟨_, rfl⟩ hg.nodup (by rw [← verifyArgs_iff]; decide) rfl rfl (.inl rfl)
    (by intro h; cases h)
  have r2 : Ran (Toy.codec id) wholeArgs (oneMap (Toy.block 28)) t' t'' :=
    ⟨_, evs2, twoEnv_ok _ _, rfl, h2, fun _ _ _ => rfl, fun _ => ⟨_, _, rfl, rfl, rfl⟩⟩
  have hB : HasBlock (Toy.codec id) (oneMap (Toy.block 28)) ⟨0, 0, 0⟩ (stored (Toy.block 28)) :=
    ⟨by unfold ValidBlockPos; decide, _, List.mem_cons_self, Toy.data_rep hw⟩
  have e0 := restsOf_block hg hB
  refine ⟨t', t'', .cons r1 .nil, .cons r1 (.cons r2 .nil), hg, hS, hp, objectArgs_any, wholeArgs_any, ?_, ?_, ?_⟩
  · rw [e0]
    rfl
  · have e1 := C97_run _ _ _ _ _ 4095 hg hb (fun e => absurd e (by decide)) (fun e => absurd e (by decide)) (by omega)
      (by omega) objectArgs_any r1
    have e2 : restsOf (Toy.codec id) t' ⟨0, 0, 0⟩ = _ := congrFun e1 ⟨0, 0, 0⟩
    cases hr : restsOf (Toy.codec id) t' ⟨0, 0, 0⟩ with
    | none =>
      rw [e2] at hr
      unfold restMeaning at hr
      have hr : Option.map _ (restsOf (Toy.codec id) (oneMap (Toy.block 28)) ⟨0, 0, 0⟩) = none := hr
      rw [e0] at hr
      cases hr
    | some r =>
      have hgone := C97_gone _ _ _ _ _ 4095 hg hb (by omega) (by omega) objectArgs_any rfl r1 _ _ hr
      obtain ⟨r0, g1, -, -, -, -, g2⟩ := C97_kept _ [(objectArgs, [])] _ _ 4095 hg hb hp (by
        intro x hx
        rw [List.mem_singleton] at hx
        subst hx
        exact ⟨objectArgs_any, by decide⟩) (by omega) (by decide) (.cons r1 .nil) _ _ hr
      rw [e0] at g1
      cases g1
      have h4 : ObjectGoes objectArgs ⟨0, 0, 0⟩ ⟨7, ⟨-10, 20, 30⟩, ascii "x"⟩ := by
        refine ⟨⟨⟨0, 0, 0⟩, by unfold InBlock; decide, by decide⟩, ⟨⟨0, 0, 0⟩, by unfold AtNode; decide, by decide⟩, ?_⟩
        intro name hname
        cases hname
      have g3 : r.objects.Sublist [⟨7, ⟨-10, 20, 30⟩, ascii "x"⟩] := g2
      rw [Option.map_some]
      refine congrArg some ?_
      cases hro : r.objects with
      | nil => rfl
      | cons o l =>
        have ho : o ∈ r.objects := by rw [hro]; exact List.mem_cons_self
        have h5 := g3.subset ho
        rw [List.mem_singleton] at h5
        subst h5
        exact absurd h4 (hgone _ ho)
  · rw [C97_overlay_all _ wholeArgs (oneMap (Toy.block 28)) t' t'' (4095 + 1) k.good k.usual (source_mono (by omega) hS)
      (by omega) (by omega) wholeArgs_any rfl rfl rfl r2, e0]
    rfl

end MapEditr
