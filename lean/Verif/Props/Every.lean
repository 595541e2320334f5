import Verif.Proof.Every
import Verif.Props.Exec
/-!
# Property C96: what every command means, `replaceininv` included
-/

namespace MapEditr
open Spec

/-- Whatever the command is, if a run ends normally, the nodes are those it means. -/
theorem C96_run (c : Codec) (args : InstArgs) (s t t' : Table) (K : Nat) (hg : GoodTable t)
    (hb : AllBlocks c t (Usual K)) (hp : AllBlocks c t PlainInvs)
    (hs : args.command = "overlay" → Source c K s ∧ AllBlocks c s PlainInvs) (hK : 4095 ≤ K) (hK' : K ≤ 7280)
    (ha : AnyArgs args) (h : Ran c args s t t') :
    nodesOf c t' = meaning args (nodesOf c s) (nodesOf c t) :=
  (means_every hg hb hp hs hK hK' ha h).1.nodes

theorem every_all {c : Codec} {l : List (InstArgs × Table)} {t t' : Table} (h : RanAll c l t t') :
    ∀ {K : Nat}, GoodTable t → AllBlocks c t (Usual K) → AllBlocks c t PlainInvs →
      (∀ x ∈ l, AnyArgs x.1 ∧ (x.1.command = "overlay" → Source c K x.2 ∧ AllBlocks c x.2 PlainInvs)) →
      4095 ≤ K → K + l.length ≤ 7281 →
      GoodTable t' ∧ AllBlocks c t' (Usual (K + l.length)) ∧ AllBlocks c t' PlainInvs ∧
        nodesOf c t' = l.foldl (fun W x => meaning x.1 (nodesOf c x.2) W) (nodesOf c t) := by
  induction h with
  | nil => exact fun hg hb hp _ _ _ => ⟨hg, hb, hp, rfl⟩
  | @cons args s t t1 l t' hrun _ ih =>
    intro K hg hb hp ha hK hK'
    rw [List.length_cons] at hK'
    obtain ⟨a1, a2⟩ := ha _ List.mem_cons_self
    obtain ⟨k, kp⟩ := means_every hg hb hp a2 hK (by omega) a1 hrun
    obtain ⟨g1, g2, g3, g4⟩ := ih k.good k.usual kp
      (fun x hx => ⟨(ha x (List.mem_cons_of_mem _ hx)).1, fun e =>
        ⟨source_mono (by omega) ((ha x (List.mem_cons_of_mem _ hx)).2 e).1,
          ((ha x (List.mem_cons_of_mem _ hx)).2 e).2⟩⟩) (by omega) (by omega)
    refine ⟨g1, ?_, g3, ?_⟩
    · rw [List.length_cons, show K + (l.length + 1) = K + 1 + l.length by omega]
      exact g2
    · rw [g4, k.nodes]
      rfl

/-- Any number of runs, of whatever commands. -/
theorem C96_session (c : Codec) (l : List (InstArgs × Table)) (t t' : Table) (K : Nat) (hg : GoodTable t)
    (hb : AllBlocks c t (Usual K)) (hp : AllBlocks c t PlainInvs)
    (ha : ∀ x ∈ l, AnyArgs x.1 ∧ (x.1.command = "overlay" → Source c K x.2 ∧ AllBlocks c x.2 PlainInvs))
    (hK : 4095 ≤ K) (hK' : K + l.length ≤ 7281) (h : RanAll c l t t') :
    nodesOf c t' = l.foldl (fun W x => meaning x.1 (nodesOf c x.2) W) (nodesOf c t) :=
  (every_all h hg hb hp ha hK hK').2.2.2

/-- The map stays as Minetest writes it, inventories included. -/
theorem C96_usual (c : Codec) (l : List (InstArgs × Table)) (t t' : Table) (K : Nat) (hg : GoodTable t)
    (hb : AllBlocks c t (Usual K)) (hp : AllBlocks c t PlainInvs)
    (ha : ∀ x ∈ l, AnyArgs x.1 ∧ (x.1.command = "overlay" → Source c K x.2 ∧ AllBlocks c x.2 PlainInvs))
    (hK : 4095 ≤ K) (hK' : K + l.length ≤ 7281) (h : RanAll c l t t') :
    GoodTable t' ∧ AllBlocks c t' (Usual (K + l.length)) ∧ AllBlocks c t' PlainInvs :=
  have k := every_all h hg hb hp ha hK hK'
  ⟨k.1, k.2.1, k.2.2.1⟩

/-- Two maps with the same nodes, however stored, have the same nodes after the same session. -/
theorem C96_same (c1 c2 : Codec) (l1 l2 : List (InstArgs × Table)) (t1 t2 t1' t2' : Table) (K : Nat)
    (hg1 : GoodTable t1) (hg2 : GoodTable t2) (hb1 : AllBlocks c1 t1 (Usual K)) (hb2 : AllBlocks c2 t2 (Usual K))
    (hp1 : AllBlocks c1 t1 PlainInvs) (hp2 : AllBlocks c2 t2 PlainInvs)
    (ha1 : ∀ x ∈ l1, AnyArgs x.1 ∧ (x.1.command = "overlay" → Source c1 K x.2 ∧ AllBlocks c1 x.2 PlainInvs))
    (ha2 : ∀ x ∈ l2, AnyArgs x.1 ∧ (x.1.command = "overlay" → Source c2 K x.2 ∧ AllBlocks c2 x.2 PlainInvs))
    (hK : 4095 ≤ K) (hK1 : K + l1.length ≤ 7281)
    (hl : l1.map (fun x => (x.1, nodesOf c1 x.2)) = l2.map fun x => (x.1, nodesOf c2 x.2))
    (h1 : RanAll c1 l1 t1 t1') (h2 : RanAll c2 l2 t2 t2')
    (h : nodesOf c1 t1 = nodesOf c2 t2) : nodesOf c1 t1' = nodesOf c2 t2' := by
  have hlen : l1.length = l2.length := by
    have := congrArg List.length hl
    rwa [List.length_map, List.length_map] at this
  rw [C96_session c1 l1 t1 t1' K hg1 hb1 hp1 ha1 hK hK1 h1,
    C96_session c2 l2 t2 t2' K hg2 hb2 hp2 ha2 hK (hlen ▸ hK1) h2, h]
  have e : ∀ (c : Codec) (l : List (InstArgs × Table)) (W : Nodes),
      l.foldl (fun W x => meaning x.1 (nodesOf c x.2) W) W =
        (l.map fun x => (x.1, nodesOf c x.2)).foldl (fun W x => meaning x.1 x.2 W) W := by
    intro c l W
    rw [List.foldl_map]
  rw [e, e, hl]

/-! ## What follows for inventories -/

theorem nodes_plain {c : Codec} {t : Table} (hg : GoodTable t) (hp : AllBlocks c t PlainInvs) {p : Vec3} {v : NodeView}
    {m : NodeMeta} (hv : nodesOf c t p = some v) (hm : v.md = some m) : PlainInv m.inv := by
  obtain ⟨bp, d, b, i, -, h2, h3, -, -, rfl⟩ := (nodesOf_some hg).1 hv
  unfold viewAt at hm
  simp only at hm
  split at hm
  · obtain ⟨y, h1, rfl⟩ := Option.map_eq_some_iff.1 hm
    exact plain_meta (m := y) (hp _ _ _ h2 h3) h1
  · exact plain_meta (hp _ _ _ h2 h3) hm

theorem stack_unique {a b t l : Bytes} (ha : (32 : UInt8) ∉ a) (hb : (32 : UInt8) ∉ b) (ht : Tail t)
    (h : l = ascii "Item " ++ b ++ t) (hs : IsStack a l) : a = b := by
  obtain ⟨t', ht', h'⟩ := isStack_iff.1 hs
  rw [h, List.append_assoc, List.append_assoc] at h'
  have h' := List.append_cancel_left h'
  have key : ∀ (x y r : Bytes), (32 : UInt8) ∉ x → (32 : UInt8) ∉ y → x ++ 32 :: r = y → False := by
    intro x y r _ hy e
    exact hy (by rw [← e]; simp)
  rcases ht with rfl | ⟨r, rfl⟩ <;> rcases ht' with rfl | ⟨r', rfl⟩
  · rw [List.append_nil, List.append_nil] at h'
    exact h'.symm
  · rw [List.append_nil] at h'
    exact (key a b r' ha hb h'.symm).elim
  · rw [List.append_nil] at h'
    exact (key b a r hb ha h').elim
  · have e1 := (takeWhile_words (r := r) hb).1
    have e2 := (takeWhile_words (r := r') ha).1
    rw [h', e2] at e1
    exact e1

theorem tail_of {item l : Bytes} (h : IsStack item l) : ItemLine item (l.drop (5 + item.length)) l := by
  obtain ⟨t, ht⟩ := isStack_iff.1 h
  rw [← itemLine_tail ht]
  exact ht

theorem tail_shortTail (t : Bytes) : Tail (shortTail t) := by
  cases t with
  | nil => exact .inl rfl
  | cons x r =>
    unfold shortTail
    simp only
    split
    · split
      · exact .inl rfl
      · exact .inr ⟨_, rfl⟩
    · exact .inr ⟨_, rfl⟩

theorem shortTail_sub (t : Bytes) : ∀ x ∈ shortTail t, x = 32 ∨ x ∈ t := by
  cases t with
  | nil => nofun
  | cons y r =>
    intro x hx
    have h1 : ∀ x ∈ r.takeWhile (· ≠ 32), x ∈ r := fun x h => (List.takeWhile_sublist _).subset h
    have h2 : ∀ x ∈ ((r.dropWhile (· ≠ 32)).drop 1).takeWhile (· ≠ 32), x ∈ r := fun x h =>
      (List.dropWhile_sublist _).subset (List.mem_of_mem_drop ((List.takeWhile_sublist _).subset h))
    unfold shortTail at hx
    simp only at hx
    split at hx
    · split at hx
      · cases hx
      · rcases List.mem_cons.1 hx with h | h
        · exact .inl h
        · exact .inr (List.mem_cons_of_mem _ (h1 x h))
    · rcases List.mem_append.1 hx with h | h
      · rcases List.mem_cons.1 h with h | h
        · exact .inl h
        · exact .inr (List.mem_cons_of_mem _ (h1 x h))
      · rcases List.mem_cons.1 h with h | h
        · exact .inl h
        · exact .inr (List.mem_cons_of_mem _ (h2 x h))

/-- Edited lines are lines. -/
theorem lineEdit_newline {item newItem l : Bytes} {delMeta : Bool} (hn : (10 : UInt8) ∉ newItem) (hl : (10 : UInt8) ∉ l) :
    (10 : UInt8) ∉ lineEdit item newItem delMeta l := by
  unfold lineEdit
  split
  · simp only
    have h3 : (10 : UInt8) ∉ l.drop (5 + item.length) := fun e => hl (List.mem_of_mem_drop e)
    split
    · decide
    · intro e
      rcases List.mem_append.1 e with e | e
      · rcases List.mem_append.1 e with e | e
        · revert e
          decide
        · exact hn e
      · split at e
        · rcases shortTail_sub _ _ e with e | e
          · exact absurd e (by decide)
          · exact h3 e
        · exact h3 e
  · exact hl

theorem stacksEdit_lines {item newItem : Bytes} {delMeta : Bool} {m : NodeMeta} {ls : List Bytes}
    (hn : (10 : UInt8) ∉ newItem) (h : InvLines m.inv ls) :
    textLines (stacksEdit item newItem delMeta m).inv = (ls ++ [endWord]).map (lineEdit item newItem delMeta) := by
  unfold stacksEdit
  simp only
  rw [h.1, invText_lines, textLines_text (lines_end h.2.1), textLines_text]
  intro l hl
  obtain ⟨l0, h1, rfl⟩ := List.mem_map.1 hl
  exact lineEdit_newline hn (lines_end h.2.1 l0 h1)

/-- No stack of the item is left. -/
theorem lineEdit_gone {item newItem : Bytes} {delMeta : Bool} (hi : (32 : UInt8) ∉ item) (hn : (32 : UInt8) ∉ newItem)
    (hne : newItem ≠ item) (l : Bytes) : ¬ IsStack item (lineEdit item newItem delMeta l) := by
  unfold lineEdit
  by_cases hs : IsStack item l
  · rw [if_pos hs]
    simp only
    split
    · rintro (h | ⟨r, h⟩)
      · have e : ascii "Empty" = 69 :: ascii "mpty" := by decide
        have e' : ascii "Item " = 73 :: ascii "tem " := by decide
        rw [e, e'] at h
        simp at h
      · have e : ascii "Empty" = 69 :: ascii "mpty" := by decide
        have e' : ascii "Item " = 73 :: ascii "tem " := by decide
        rw [e, e'] at h
        simp at h
    · intro h
      refine hne (stack_unique hi hn ?_ rfl h).symm
      split
      · exact tail_shortTail _
      · exact (tail_of hs).1
  · rw [if_neg hs]
    exact hs

theorem meaning_stacks {args : InstArgs} (hc : args.command = "replaceininv") (S W : Nodes) (p : Vec3) :
    meaning args S W p = (W p).map (edit args p) := by
  unfold meaning
  rw [hc]
  rfl

/-- After `replaceininv`, no stack of the item is left in the inventories of the nodes that were selected. -/
theorem C96_gone (c : Codec) (args : InstArgs) (s t t' : Table) (K : Nat) (item : String) (hg : GoodTable t)
    (hb : AllBlocks c t (Usual K)) (hp : AllBlocks c t PlainInvs) (hK : 4095 ≤ K) (hK' : K ≤ 7280)
    (ha : AnyArgs args) (hc : args.command = "replaceininv") (hi : args.item = some item)
    (hne : newItemOf args (toBytes item) ≠ toBytes item) (h : Ran c args s t t') (p : Vec3) (v : NodeView) (m : NodeMeta)
    (hsel : Selected args.area args.invert p) (hv : nodesOf c t' p = some v) (hk : v.OfKinds args.nodes)
    (hm : v.md = some m) : ∀ l ∈ textLines m.inv, ¬ IsStack (toBytes item) l := by
  have hargs : ¬ BadArgs args := by
    obtain ⟨env, evs, -, -, hrun, -⟩ := h
    exact completes_args hrun (by rw [hc]; decide)
  obtain ⟨b1, b2⟩ := item_bytes hargs hi 32 (.inr rfl)
  obtain ⟨-, b3⟩ := item_bytes hargs hi 10 (.inl rfl)
  rw [C96_run c args s t t' K hg hb hp (fun e => by rw [hc] at e; exact absurd e (by decide)) hK hK' ha h] at hv
  rw [meaning_stacks hc] at hv
  obtain ⟨u, hu, rfl⟩ := Option.map_eq_some_iff.1 hv
  rw [edit_hit hsel, hc] at hk hm
  simp only [hi, Option.getD_some] at hk hm
  have hk' : u.OfKinds args.nodes := by
    by_cases h : u.OfKinds args.nodes
    · exact h
    · rw [if_neg h] at hk
      exact hk
  rw [if_pos hk'] at hm
  simp only at hm
  obtain ⟨m0, h0, rfl⟩ := Option.map_eq_some_iff.1 hm
  obtain ⟨ls, ⟨g1, g2, g3⟩, -⟩ := nodes_plain hg hp hu h0
  rw [stacksEdit_lines b3 (And.intro g1 ⟨g2, g3⟩)]
  intro l hl
  obtain ⟨l0, -, rfl⟩ := List.mem_map.1 hl
  exact lineEdit_gone b1 b2 hne l0

theorem lineEdit_back {a b l : Bytes} (ha : a ≠ []) (hb : b ≠ []) (hl : ¬ IsStack b l) :
    lineEdit b a false (lineEdit a b false l) = l := by
  by_cases hs : IsStack a l
  · have ht := tail_of hs
    have e : lineEdit a b false l = ascii "Item " ++ b ++ l.drop (5 + a.length) := by
      unfold lineEdit
      rw [if_pos hs]
      simp only
      rw [if_neg hb]
      rfl
    have hi : ItemLine b (l.drop (5 + a.length)) (lineEdit a b false l) := ⟨ht.1, e⟩
    have e2 := itemLine_tail hi
    generalize lineEdit a b false l = l' at hi e2 ⊢
    unfold lineEdit
    rw [if_pos (isStack_iff.2 ⟨_, hi⟩)]
    simp only
    rw [if_neg ha, ← e2]
    exact ht.2.symm
  · have e : lineEdit a b false l = l := by
      unfold lineEdit
      rw [if_neg hs]
    rw [e]
    unfold lineEdit
    rw [if_neg hl]

theorem name_nonempty {n : String} (h : NameForm n) : toBytes n ≠ [] := by
  intro e
  have : n = "" := toBytes_inj e
  subst this
  rcases h with h | h | ⟨m, i, h, -⟩
  · exact absurd h (by decide)
  · exact absurd h (by decide)
  · rw [show "".toList = [] from rfl] at h
    exact List.append_ne_nil_of_right_ne_nil m (List.cons_ne_nil _ _) h.symm

/-- Replacing an item by another and then back again changes nothing, if no inventory had the other item before. -/
theorem C96_back (c : Codec) (args args' : InstArgs) (s s' t t' t'' : Table) (K : Nat) (a b : String) (hg : GoodTable t)
    (hb : AllBlocks c t (Usual K)) (hp : AllBlocks c t PlainInvs) (hK : 4095 ≤ K) (hK' : K ≤ 7279)
    (ha : AnyArgs args) (ha' : AnyArgs args') (hc : args.command = "replaceininv") (hc' : args'.command = "replaceininv")
    (hi : args.item = some a) (hn : args.newItem = some b) (hi' : args'.item = some b) (hn' : args'.newItem = some a)
    (hd : args.deleteMeta = false) (hd' : args'.deleteMeta = false)
    (harea : args'.area = args.area) (hinv : args'.invert = args.invert) (hnodes : args'.nodes = args.nodes)
    (hno : ∀ p v m, Selected args.area args.invert p → nodesOf c t p = some v → v.OfKinds args.nodes → v.md = some m →
      ∀ l ∈ textLines m.inv, ¬ IsStack (toBytes b) l)
    (h : Ran c args s t t') (h' : Ran c args' s' t' t'') : nodesOf c t'' = nodesOf c t := by
  have hargs : ¬ BadArgs args := by
    obtain ⟨env, evs, -, -, hrun, -⟩ := h
    exact completes_args hrun (by rw [hc]; decide)
  have hform : ∀ n ∈ allNames args, NameForm n := fun n hn =>
    Classical.byContradiction fun hf => hargs (.inr (.inr (.inr ⟨n, hn, hf⟩)))
  have hna : toBytes a ≠ [] := name_nonempty (hform a (by unfold allNames; simp [hi]))
  have hnb : toBytes b ≠ [] := name_nonempty (hform b (by unfold allNames; simp [hn]))
  have e1 : newItemOf args (toBytes a) = toBytes b := by unfold newItemOf; rw [hn]; rfl
  have e2 : newItemOf args' (toBytes b) = toBytes a := by unfold newItemOf; rw [hn']; rfl
  have hb10 := (item_bytes hargs hi 10 (.inl rfl)).2
  rw [e1] at hb10
  obtain ⟨k, kp⟩ := means_every hg hb hp (fun e => by rw [hc] at e; exact absurd e (by decide)) hK (by omega) ha h
  rw [C96_run c args' s' t' t'' (K + 1) k.good k.usual kp (fun e => by rw [hc'] at e; exact absurd e (by decide))
    (by omega) (by omega) ha' h', k.nodes]
  funext p
  rw [meaning_stacks hc', meaning_stacks hc]
  cases hv : nodesOf c t p with
  | none => rfl
  | some v =>
    rw [Option.map_some, Option.map_some]
    refine congrArg some ?_
    by_cases hsel : Selected args.area args.invert p
    · have hsel' : Selected args'.area args'.invert p := by rw [harea, hinv]; exact hsel
      rw [edit_hit hsel, edit_hit hsel', hc, hc']
      simp only [hi, hi', hd, hd', Option.getD_some, e1, e2, hnodes]
      by_cases hk : v.OfKinds args.nodes
      · rw [if_pos hk]
        rw [if_pos (by exact hk)]
        obtain ⟨name, p1, p2, md, tm⟩ := v
        simp only
        cases hm : md with
        | none => rfl
        | some m =>
          simp only [Option.map_some]
          refine congrArg (fun x => NodeView.mk name p1 p2 (some x) tm) ?_
          obtain ⟨ls, g, -⟩ := nodes_plain hg hp hv (m := m) hm
          have hl := hno p _ m hsel hv hk hm
          rw [g.1, invText_lines, textLines_text (lines_end g.2.1)] at hl
          have e := stacksEdit_lines (item := toBytes a) (delMeta := false) hb10 g
          obtain ⟨vars, inv⟩ := m
          refine congrArg (NodeMeta.mk vars) ?_
          show linesText ((textLines (stacksEdit (toBytes a) (toBytes b) false _).inv).map _) = inv
          rw [e, List.map_map]
          have : (ls ++ [endWord]).map (lineEdit (toBytes b) (toBytes a) false ∘ lineEdit (toBytes a) (toBytes b) false) =
              (ls ++ [endWord]).map id := List.map_congr_left fun l hx => lineEdit_back hna hnb (hl l hx)
          rw [this, List.map_id, ← invText_lines]
          exact g.1.symm
      · rw [if_neg hk, if_neg hk]
    · have hsel' : ¬ Selected args'.area args'.invert p := by rw [harea, hinv]; exact hsel
      rw [edit_skip hsel, edit_skip hsel']

/-! ## An example

A stack is replaced by another, and then back again. -/

theorem short_endWord {l : Bytes} (h : l.length < 12) : ¬ endWord <:+: l := by
  intro e
  have := e.length_le
  rw [show endWord.length = 12 from rfl] at this
  omega

theorem sample_plain : PlainInv (invText sampleLines) := by
  refine ⟨sampleLines, sampleLines_inv, ?_⟩
  intro l hl hi
  have h : ∀ l ∈ sampleLines, (ascii "Item ").isPrefixOf l = true → l.length < 12 := by decide
  exact short_endWord (h l hl (List.isPrefixOf_iff_prefix.2 hi))

theorem invBlock_plain : PlainInvs invBlock := by
  intro e he
  have he : e ∈ [(0, (⟨[], invText sampleLines⟩ : NodeMeta))] := he
  rw [List.mem_singleton] at he
  subst he
  exact sample_plain

theorem invBlock_usual : Usual 4095 invBlock := by
  have h := toy_fine 29
  exact ⟨⟨h.unique, h.named, h.small⟩, toy_generated 29, by decide, fun e he => by
    have := invBlock_inside e he
    omega⟩

/-- Replace `a` by `b` in the node at (0,0,0). -/
def swapArgs (a b : String) : InstArgs := { metaArgs "replaceininv" with item := some a, newItem := some b }

theorem swapArgs_any {a b : String} (h : ¬ endWord <:+: toBytes b) : AnyArgs (swapArgs a b) :=
  ⟨rfl, (by intro x hx; cases hx; decide), (by intro n hn; cases hn), fun _ => h⟩

theorem swap_runs (a b : String) (hv : verifyArgs (swapArgs a b) = none) (hne : a ≠ b) (h : ¬ endWord <:+: toBytes b)
    (t : Table) (hg : GoodTable t) (hp : AllBlocks (Toy.codec id) t PlainInvs) :
    ∃ t', Ran (Toy.codec id) (swapArgs a b) [] t t' := by
  obtain ⟨t', evs, h⟩ := C46_replaceininv_completes (editEnv t) (swapArgs a b) _ a
    (editEnv_ok _) (fun _ => rfl) (editEnv_file _) ⟨_, rfl⟩ hg ((verifyArgs_iff _).1 hv)
    (by unfold CommandRefuses; simp [swapArgs, metaArgs, runArgs, hne]) rfl (swapArgs_any (a := a) h).area rfl
    (endWord_suffix h) rfl (by intro h; cases h)
    (fun h => absurd rfl h) (Spec.AllBlocks.mono hp fun b h => plain_invsGood h)
  exact ⟨t', _, evs, editEnv_ok _, rfl, h, fun e => absurd (show "replaceininv" = "clone" ∨ "replaceininv" = "overlay" from e) (by decide),
    fun e => absurd (show "replaceininv" = "overlay" from e) (by decide)⟩

/-- All assumptions are met, the stack is first `a:c`, and then `a:b` again. -/
example : ∃ t' t'', Ran (Toy.codec id) (swapArgs "a:b" "a:c") [] (oneMap invBlock) t' ∧
    Ran (Toy.codec id) (swapArgs "a:c" "a:b") [] t' t'' ∧
    AnyArgs (swapArgs "a:b" "a:c") ∧ AnyArgs (swapArgs "a:c" "a:b") ∧ GoodTable (oneMap invBlock) ∧
    AllBlocks (Toy.codec id) (oneMap invBlock) (Usual 4095) ∧ AllBlocks (Toy.codec id) (oneMap invBlock) PlainInvs ∧
    (∃ v, nodesOf (Toy.codec id) t' ⟨0, 0, 0⟩ = some v ∧
      v.md = some ⟨[], invText [ascii "List main 1", ascii "Item a:c", ascii "EndInventoryList"]⟩) ∧
    nodesOf (Toy.codec id) t'' = nodesOf (Toy.codec id) (oneMap invBlock) := by
  have hw := invBlock_wf
  have hg := oneMap_good invBlock
  have hb : AllBlocks (Toy.codec id) (oneMap invBlock) (Usual 4095) := oneMap_all hw (by rw [invBlock_stored]; exact invBlock_usual)
  have hp : AllBlocks (Toy.codec id) (oneMap invBlock) PlainInvs := oneMap_all hw (by rw [invBlock_stored]; exact invBlock_plain)
  have w1 : ¬ endWord <:+: toBytes "a:c" := short_endWord (by decide)
  have w2 : ¬ endWord <:+: toBytes "a:b" := short_endWord (by decide)
  obtain ⟨t', h1⟩ := swap_runs "a:b" "a:c" (by decide) (by decide) w1 _ hg hp
  have a1 := swapArgs_any (a := "a:b") w1
  have a2 := swapArgs_any (a := "a:c") w2
  obtain ⟨k, kp⟩ := means_every hg hb hp (fun e => absurd e (by decide)) (by omega) (by omega) a1 h1
  obtain ⟨t'', h2⟩ := swap_runs "a:c" "a:b" (by decide) (by decide) w2 _ k.good kp
  have hrep := Toy.data_rep hw
  rw [invBlock_stored] at hrep
  have hnode : nodesOf (Toy.codec id) (oneMap invBlock) ⟨0, 0, 0⟩ = some (viewAt invBlock 0) :=
    (nodesOf_some hg).2 ⟨⟨0, 0, 0⟩, _, _, 0, by unfold ValidBlockPos; decide, List.mem_cons_self, hrep, by omega, rfl, rfl⟩
  refine ⟨t', t'', h1, h2, a1, a2, hg, hb, hp, ?_, ?_⟩
  · rw [C96_run _ _ _ _ _ 4095 hg hb hp (fun e => absurd e (by decide)) (by omega) (by omega) a1 h1, meaning_stacks rfl, hnode]
    refine ⟨_, rfl, ?_⟩
    rw [edit_hit (by decide)]
    decide
  · refine C96_back _ _ _ _ _ _ _ _ 4095 "a:b" "a:c" hg hb hp (by omega) (by omega) a1 a2 rfl rfl rfl rfl rfl rfl rfl rfl
      rfl rfl rfl ?_ h1 h2
    intro p v m hs hv _ hm
    have : p = ⟨0, 0, 0⟩ := by
      have e : InBox ⟨0, 0, 0⟩ ⟨0, 0, 0⟩ p := hs.2 rfl
      obtain ⟨x, y, z⟩ := p
      unfold InBox at e
      simp only at e
      simp only [Vec3.mk.injEq]
      omega
    subst this
    rw [hnode] at hv
    cases hv
    have hm' : some (⟨[], invText sampleLines⟩ : NodeMeta) = some m := hm
    cases hm'
    decide

end MapEditr
