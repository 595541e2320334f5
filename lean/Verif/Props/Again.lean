import Verif.Props.Twice
import Verif.Props.TwoIds
import Verif.Props.DeleteObjects
import Verif.Props.Overlay
import Verif.Props.Items
/-!
# Property C90: running further commands a second time changes nothing further

`deleteobjects`, `setparam2`, `setmetavar`, `replaceininv`, and `overlay` without an area.  As in C65 the second run
happens in another environment.
-/

namespace MapEditr
open Spec

theorem deleteObjectsEdit_zero {bd : Build} {args : InstArgs} {k : Int} {b : MapBlock} {ob : Option MapBlock}
    (h : deleteObjectsEdit bd args k b = .ok (ob, 0)) : ob = none := by
  unfold deleteObjectsEdit at h
  cases hd : removeRev (canDelete bd args.area args.invert (entityFor args) (itemsFor args)) b.objects with
  | error e => rw [hd] at h; cases h
  | ok r =>
    rw [hd] at h
    simp only [Except.map] at h
    split at h
    · next hp =>
      have := congrArg Prod.snd (Except.ok.inj h)
      simp only at this
      omega
    · cases h; rfl

open Classical in
/-- `deleteobjects`: the second run leaves every row as it is. -/
theorem C90_deleteobjects (env env2 : Env) (args : InstArgs) (t t' t'' : Table) (evs evs2 : List Event)
    (hE : EnvOk env) (hcodec : env2.codec = env.codec) (hg : GoodTable t) (hc : args.command = "deleteobjects")
    (ha : AreaOk args.area) (h : Completes env args t t' evs) (h2 : Completes env2 args t' t'' evs2)
    (r : Int × Bytes) : r ∈ t'' ↔ r ∈ t' := by
  have hargs := completes_args h (by rw [hc]; decide)
  obtain ⟨D, g, e, -⟩ := change_edits h hc deleteObjects_command (by decide) hg.nodup (deleteObjects_eq env args)
  obtain ⟨D2, g2, e2, -⟩ := change_edits h2 hc deleteObjects_command (by decide) e.nodup (deleteObjects_eq env2 args)
  have hsel : ∀ r ∈ hits (toSlice (entityFor args)) args.area args.invert t, ∃ bp,
      ∃ p, InBlock bp p ∧ Selected args.area args.invert p := by
    intro r hr
    obtain ⟨hrt, hra, -⟩ := mem_hits.1 hr
    obtain ⟨bp, hbp, hkey, -⟩ := row_pos hg hrt
    rw [← hkey, areaKeeps_iff ha args.invert true hbp] at hra
    exact ⟨bp, hra⟩
  have hno : ∀ {bp : Vec3} {k : Int} {b : MapBlock} {ob : Option MapBlock} {n : Nat}, Wf b →
      (∃ p, InBlock bp p ∧ Selected args.area args.invert p) → (∀ o ∈ b.objects, ¬ ObjectGoes args bp o) →
      deleteObjectsEdit env2.build args k b = .ok (ob, n) → ob = none := by
    intro bp k b ob n hwf hs hall hed
    obtain ⟨ob', h1, -⟩ := deleteObjects_edit hwf hargs hs (.inl ⟨_, hed⟩)
    rw [filter_none hall, hed] at h1
    have hn := congrArg Prod.snd (Except.ok.inj h1)
    simp only [List.length_nil] at hn
    subst hn
    exact deleteObjectsEdit_zero hed
  refine mem_iff_of_get? e.nodup e2.nodup (edits_twice' hE hcodec e e2 ?_ ?_) r
  · intro r hr b b1 n hrep hedit
    obtain ⟨bp, hs⟩ := hsel r hr
    have hwf := wf_of_represents hrep
    obtain ⟨ob, f1, -, f3⟩ := deleteObjects_edit hwf hargs hs (.inl ⟨_, hedit⟩)
    rw [hedit] at f1
    have hob := congrArg Prod.fst (Except.ok.inj f1)
    simp only at hob
    cases f3 b1 hob.symm
    have hsub : (b.objects.filter fun o => ¬ ObjectGoes args bp o).Sublist b.objects := List.filter_sublist
    have hw1 : Wf { b with objects := b.objects.filter fun o => ¬ ObjectGoes args bp o } :=
      ⟨hwf.ver, hwf.flags, hwf.light, hwf.light_old, hwf.widths, hwf.nodes, hwf.metas,
        ⟨Nat.lt_of_le_of_lt hsub.length_le hwf.objs.1, fun o ho => hwf.objs.2 o (hsub.subset ho)⟩, hwf.time,
        hwf.nimap, hwf.timers⟩
    obtain ⟨s, s1, s2⟩ := serialize_spec hE.codec hE.full (hE.ord 0) hw1
    refine ⟨hw1, fun ob2 n2 hedit2 => hno (wf_of_represents s2) hs (fun o ho => ?_) hedit2⟩
    have ho : o ∈ b.objects.filter fun o => ¬ ObjectGoes args bp o := ho
    simpa using (List.mem_filter.1 ho).2
  · intro r hr b n hrep hedit ob n' hedit2
    obtain ⟨bp, hs⟩ := hsel r hr
    have hwf := wf_of_represents hrep
    obtain ⟨ob', f1, f2, -⟩ := deleteObjects_edit hwf hargs hs (.inl ⟨_, hedit⟩)
    rw [hedit] at f1
    have hob := congrArg Prod.fst (Except.ok.inj f1)
    simp only at hob
    exact hno hwf hs (f2 hob.symm) hedit2

/-- `setparam2`: the second run leaves every block's contents as they are. -/
theorem C90_setparam2 (env env2 : Env) (args : InstArgs) (t t' t'' : Table) (evs evs2 : List Event) (val : UInt8)
    (hE : EnvOk env) (hE2 : EnvOk env2) (hcodec : env2.codec = env.codec) (hg : GoodTable t)
    (hc : args.command = "setparam2") (hv : args.param2 = some val) (ha : AreaOk args.area)
    (h : Completes env args t t' evs) (h2 : Completes env2 args t' t'' evs2) :
    Edited env.codec args.area args.invert t' t'' fun _ b' b'' =>
      SameHead b' b'' ∧ SameMeta b' b'' ∧ b''.objects = b'.objects ∧ b''.timers = b'.timers ∧
      b''.nimap = b'.nimap ∧ b''.nd.nodes = b'.nd.nodes ∧ b''.nd.param1 = b'.nd.param1 ∧
      ∀ i, i < 4096 → b''.nd.param2[i]? = b'.nd.param2[i]? := by
  have k1 := C89_setparam2_partial env args t t' evs val hE hg hc hv ha h
  have k2 := C89_setparam2_partial env2 args t' t'' evs2 val hE2 (goodTable_of_edited hg k1) hc hv ha h2
  rw [hcodec] at k2
  refine edited_second k1 k2 ?_
  rintro bp b b' b'' ⟨-, -, -, -, r1, r2, -, r3⟩ ⟨s1, s2, s3, s4, s5, s6, s7, s8⟩
  refine ⟨s1, s2, s3, s4, s5, s6, s7, fun i hi => ?_⟩
  have hf : IsFirst b' (args.node.map toBytes) i ↔ IsFirst b (args.node.map toBytes) i := by
    unfold IsFirst FirstId
    rw [r1, r2]
  rw [s8 i hi, r3 i hi]
  split
  · next hx => rw [if_pos ⟨hx.1, hf.1 hx.2⟩]
  · rfl

theorem publish_varEdit (key : Bytes) (v : Option Bytes) (m : NodeMeta) :
    varEdit key v (publish m) = publish (varEdit key v m) := by
  unfold varEdit publish
  congr 1
  cases v with
  | none =>
    simp only [List.filter_map]
    rfl
  | some v =>
    simp only [List.map_map]
    refine List.map_congr_left fun e _ => ?_
    simp only [Function.comp]
    split <;> rfl

theorem varEdit_twice (key : Bytes) (v : Option Bytes) (m : NodeMeta) :
    varEdit key v (varEdit key v m) = varEdit key v m := by
  unfold varEdit
  congr 1
  cases v with
  | none =>
    simp only [List.filter_filter, Bool.and_self]
  | some v =>
    simp only [List.map_map]
    refine List.map_congr_left fun e _ => ?_
    simp only [Function.comp]
    split
    · simp
    · simp

/-- `setmetavar`: the second run leaves every block's contents as they are. -/
theorem C90_setmetavar (env env2 : Env) (args : InstArgs) (t t' t'' : Table) (evs evs2 : List Event) (key : String)
    (hE : EnvOk env) (hE2 : EnvOk env2) (hcodec : env2.codec = env.codec) (hg : GoodTable t)
    (hc : args.command = "setmetavar") (ha : AreaOk args.area) (hk : args.key = some key)
    (h : Completes env args t t' evs) (h2 : Completes env2 args t' t'' evs2) :
    Edited env.codec args.area args.invert t' t'' fun _ b' b'' =>
      SameHead b' b'' ∧ SameNodes b' b'' ∧ SameMeta b' b'' ∧ b''.objects = b'.objects ∧
      b''.timers = b'.timers := by
  have k1 := C89_setmetavar_partial env args t t' evs key hE hg hc ha hk h
  have k2 := C89_setmetavar_partial env2 args t' t'' evs2 key hE2 (goodTable_of_edited hg k1) hc ha hk h2
  rw [hcodec] at k2
  refine edited_second k1 k2 ?_
  rintro bp b b' b'' ⟨-, r1, -, -, r2⟩ ⟨s1, s2, s3, s4, s5⟩
  refine ⟨s1, s2, fun i => ?_, s3, s4⟩
  have hf : AmongFirst b' (args.nodes.map toBytes) i ↔ AmongFirst b (args.nodes.map toBytes) i := by
    unfold AmongFirst FirstId
    rw [r1.1, r1.2]
  have h5 := s5 i
  have h2 := r2 i
  split at h5
  · next hx =>
    rw [if_pos ⟨hx.1, hf.1 hx.2⟩] at h2
    generalize (if args.delete = true then none else some (toBytes (args.value.getD ""))) = v at h2 h5
    have hfix : visible ((metaOf b' i).map (varEdit (toBytes key) v)) = metaOf b' i := by
      rcases h2 with h2 | ⟨-, h2⟩
      · rw [h2]
        cases metaOf b i with
        | none => rfl
        | some m =>
          by_cases hv : MetaVoid (varEdit (toBytes key) v m) <;> simp [visible, Option.filter, hv, varEdit_twice]
      · rw [h2]
        cases metaOf b i with
        | none => rfl
        | some m =>
          by_cases hv : MetaVoid (varEdit (toBytes key) v m) <;>
            simp [visible, Option.filter, hv, varEdit_twice, publish_varEdit, publish_void]
    rw [hfix] at h5
    exact h5
  · exact h5

/-! ## `replaceininv` -/

theorem shortTail_prefix {t s : Bytes} (h : ShortTail t s) : s <+: t := by
  cases h with
  | none => exact List.prefix_rfl
  | count c hc =>
    split
    · exact List.nil_prefix
    · exact List.prefix_rfl
  | wear c w rest h1 h2 h3 =>
    split
    · split
      · exact List.nil_prefix
      · exact ⟨32 :: w ++ rest, by simp⟩
    · exact ⟨rest, rfl⟩

theorem shortTail_tail {t s : Bytes} (h : ShortTail t s) : Tail s := by
  cases h with
  | none => exact .inl rfl
  | count c hc =>
    split
    · exact .inl rfl
    · exact .inr ⟨_, rfl⟩
  | wear c w rest h1 h2 h3 =>
    split
    · split
      · exact .inl rfl
      · exact .inr ⟨_, rfl⟩
    · exact .inr ⟨_, rfl⟩

theorem shortTail_twice {t s s' : Bytes} (h : ShortTail t s) (h' : ShortTail s s') : s' = s := by
  have one : ∀ c, 32 ∉ c → ShortTail (if c = ascii "1" then [] else 32 :: c) (if c = ascii "1" then [] else 32 :: c) := by
    intro c hc
    by_cases h1 : c = ascii "1"
    · rw [if_pos h1]
      exact .none
    · have := ShortTail.count c hc
      rw [if_neg h1] at this ⊢
      exact this
  refine shortTail_det h' ?_
  cases h with
  | none => exact .none
  | count c hc => exact one c hc
  | wear c w rest h1 h2 h3 =>
    by_cases hw : w = ascii "0"
    · rw [if_pos hw]
      exact one c h1
    · have := ShortTail.wear c w [] h1 h2 (.inl rfl)
      rw [if_neg hw, List.append_nil] at this
      rw [if_neg hw]
      exact this

/-- What kind of item line a new line may be. -/
theorem newLine_item {item new : Bytes} {dm : Bool} {tail tail2 l' : Bytes} (hi : 32 ∉ item) (hn : 32 ∉ new)
    (ht : Tail tail) (h : NewLine new dm tail l') (h2 : ItemLine item tail2 l') :
    new = item ∧ new ≠ [] ∧ tail2 <+: tail ∧ ((dm = false ∧ tail2 = tail) ∨ (dm = true ∧ ShortTail tail tail2)) := by
  obtain ⟨ht2, h2⟩ := h2
  have hcancel : ∀ s, Tail s → ascii "Item " ++ new ++ s = ascii "Item " ++ item ++ tail2 → new = item ∧ s = tail2 := by
    intro s hs he
    rw [List.append_assoc, List.append_assoc] at he
    exact words_eq hn hi hs ht2 (List.append_cancel_left he)
  rcases h with ⟨-, h⟩ | ⟨h0, hd, h⟩ | ⟨h0, hd, s, hs, h⟩
  · rw [h2] at h
    have hh := congrArg List.head? h
    rw [List.append_assoc] at hh
    exact absurd hh (by simp [ascii])
  · obtain ⟨rfl, rfl⟩ := hcancel tail ht (h.symm.trans h2)
    exact ⟨rfl, h0, List.prefix_rfl, .inl ⟨hd, rfl⟩⟩
  · obtain ⟨rfl, rfl⟩ := hcancel s (shortTail_tail hs) (h.symm.trans h2)
    exact ⟨rfl, h0, shortTail_prefix hs, .inr ⟨hd, hs⟩⟩

/-- The second edit of the lines changes nothing. -/
theorem linesEdit_twice {item new : Bytes} {dm : Bool} {ls ls' ls'' : List Bytes} {n n' : Nat} (hi : 32 ∉ item)
    (hn : 32 ∉ new) (h : LinesEdit item new dm ls ls' n) (h' : LinesEdit item new dm ls' ls'' n') : ls'' = ls' := by
  induction h generalizing ls'' n' with
  | nil => cases h'; rfl
  | item tail l l' h1 h2 _ ih =>
    cases h' with
    | item tail2 _ l'' h3 h4 h5 =>
      rw [ih h5]
      obtain ⟨rfl, h0, -, hs⟩ := newLine_item hi hn h1.1 h2 h3
      congr 1
      rcases h4 with ⟨h4, -⟩ | ⟨-, hd, h4⟩ | ⟨-, hd, s, h4, h6⟩
      · exact absurd h4 h0
      · rw [h4, h3.2]
      · rcases hs with ⟨hs, -⟩ | ⟨-, hs⟩
        · rw [hd] at hs; cases hs
        · rw [h6, h3.2, shortTail_twice hs h4]
    | other _ h3 h4 => rw [ih h4]
  | other l h1 _ ih =>
    cases h' with
    | item tail2 _ l'' h3 h4 h5 => exact absurd ⟨_, h3⟩ h1
    | other _ h3 h4 => rw [ih h4]

theorem linesEdit_tails {item new : Bytes} {dm : Bool} {ls ls' : List Bytes} {n : Nat} (hi : 32 ∉ item) (hn : 32 ∉ new)
    (h : LinesEdit item new dm ls ls' n) (ht : ∀ l ∈ ls, ∀ tail, ItemLine item tail l → ¬ endWord <:+: tail) :
    ∀ l ∈ ls', ∀ tail, ItemLine item tail l → ¬ endWord <:+: tail := by
  induction h with
  | nil => exact ht
  | item tail l l' h1 h2 _ ih =>
    intro x hx tail2 hx2
    rcases List.mem_cons.1 hx with rfl | hx
    · obtain ⟨-, -, hp, -⟩ := newLine_item hi hn h1.1 h2 hx2
      exact fun hc => ht l List.mem_cons_self tail h1 (hc.trans hp.isInfix)
    · exact ih (fun y hy => ht y (List.mem_cons_of_mem _ hy)) x hx tail2 hx2
  | other l h1 _ ih =>
    intro x hx tail2 hx2
    rcases List.mem_cons.1 hx with rfl | hx
    · exact ht _ List.mem_cons_self _ hx2
    · exact ih (fun y hy => ht y (List.mem_cons_of_mem _ hy)) x hx tail2 hx2

/-- The lines of an inventory are determined by its text. -/
theorem invLines_det {inv : Bytes} {ls1 ls2 : List Bytes} (h1 : InvLines inv ls1) (h2 : InvLines inv ls2) : ls1 = ls2 := by
  have key : ∀ {ls1 ls2 : List Bytes}, Lines ls1 → Lines ls2 →
      ls1.flatMap (fun l => l ++ [10]) = ls2.flatMap (fun l => l ++ [10]) → ls1 = ls2 := by
    intro ls1
    induction ls1 with
    | nil =>
      intro ls2 _ _ h
      cases ls2 with
      | nil => rfl
      | cons a t => simp at h
    | cons a t ih =>
      intro ls2 k1 k2 h
      cases ls2 with
      | nil => simp at h
      | cons a2 t2 =>
        simp only [List.flatMap_cons, List.append_assoc, List.singleton_append] at h
        have ha := k1 a List.mem_cons_self
        have ha2 := k2 a2 List.mem_cons_self
        rcases List.append_eq_append_iff.1 h with ⟨c, e1, e2⟩ | ⟨c, e1, e2⟩
        · cases c with
          | nil =>
            simp at e1 e2
            rw [e1, ih (fun l hl => k1 l (List.mem_cons_of_mem _ hl)) (fun l hl => k2 l (List.mem_cons_of_mem _ hl)) e2]
          | cons x c =>
            simp at e2
            exact absurd (by rw [e1, e2.1]; simp) ha2
        · cases c with
          | nil =>
            simp at e1 e2
            rw [e1, ih (fun l hl => k1 l (List.mem_cons_of_mem _ hl)) (fun l hl => k2 l (List.mem_cons_of_mem _ hl))
              e2.symm]
          | cons x c =>
            simp at e2
            exact absurd (by rw [e1, e2.1]; simp) ha
  exact key h1.2.1 h2.2.1 (List.append_cancel_right (h1.1.symm.trans h2.1))

/-- `replaceininv`: the second run leaves every block's contents as they are. -/
theorem C90_replaceininv_partial (env env2 : Env) (args : InstArgs) (t t' t'' : Table) (evs evs2 : List Event)
    (item : String) (hE : EnvOk env) (hE2 : EnvOk env2) (hcodec : env2.codec = env.codec) (hg : GoodTable t)
    (hc : args.command = "replaceininv") (ha : AreaOk args.area) (hk : args.item = some item)
    (hw : ¬ endWord <:+ newItemOf args (toBytes item))
    (hv : AllBlocks env.codec t (InvsGood (toBytes item)))
    (h : Completes env args t t' evs) (h2 : Completes env2 args t' t'' evs2) :
    Edited env.codec args.area args.invert t' t'' fun _ b' b'' =>
      SameHead b' b'' ∧ SameNodes b' b'' ∧ SameMeta b' b'' ∧ b''.objects = b'.objects ∧
      b''.timers = b'.timers := by
  obtain ⟨hi, hn⟩ := item_bytes (completes_args h (by rw [hc]; decide)) hk 32 (.inr rfl)
  have k1 := C89_replaceininv_partial env args t t' evs item hE hg hc ha hk hw hv h
  have hg' := goodTable_of_edited hg k1
  -- the lines of an inventory after the first run
  have hmeta : ∀ {b : MapBlock} {i : Nat} {m : NodeMeta}, InvsGood (toBytes item) b → metaOf b i = some m →
      ∃ lines, InvLines m.inv lines ∧ ∀ l ∈ lines, ∀ tail, ItemLine (toBytes item) tail l → ¬ endWord <:+: tail := by
    intro b i m hb hm
    unfold metaOf at hm
    rw [Option.filter_eq_some_iff] at hm
    exact hb _ (SMap.get?_some_mem hm.1)
  have hv' : AllBlocks env2.codec t' (InvsGood (toBytes item)) := by
    rw [hcodec]
    intro k d' b' hd' hr'
    obtain ⟨bp, hbp, hkey, -⟩ := row_pos hg' hd'
    simp only at hkey
    subst hkey
    obtain ⟨d, b, f1, f2, -, -, -, -, f3⟩ := edited_back k1 hbp hd' hr'
    have hb := hv _ _ _ f1 f2
    intro e he
    have hget := SMap.get?_of_mem (wf_of_represents hr').metas.sorted (k := e.1) (v := e.2) he
    by_cases hvoid : MetaVoid e.2
    · refine ⟨[], ⟨hvoid.2, nofun, nofun⟩, nofun⟩
    · have hm' : metaOf b' e.1 = some e.2 := by
        unfold metaOf
        rw [hget]
        simp [Option.filter, hvoid]
      have f4 := f3 e.1
      split at f4
      · cases hm : metaOf b e.1 with
        | none => rw [f4.1 hm] at hm'; cases hm'
        | some m =>
          obtain ⟨m', n, ⟨-, ls, ls', g1, g2, g3⟩, g4⟩ := f4.2 m hm
          obtain ⟨ls0, g5, g6⟩ := hmeta hb hm
          have := invLines_det g1 g5
          subst this
          rw [hm'] at g4
          refine ⟨ls', ?_, linesEdit_tails hi hn g3 g6⟩
          have hinv : e.2.inv = m'.inv := by
            rcases g4 with g4 | ⟨-, g4⟩ <;> rw [Option.some.inj g4] <;> rfl
          rw [hinv]
          exact g2
      · rw [hm'] at f4
        rcases f4 with f4 | ⟨-, f4⟩
        · exact hmeta hb f4.symm
        · cases hm : metaOf b e.1 with
          | none => rw [hm] at f4; cases f4
          | some m =>
            rw [hm] at f4
            have := Option.some.inj f4
            rw [this]
            exact hmeta (m := m) hb hm
  have k2 := C89_replaceininv_partial env2 args t' t'' evs2 item hE2 hg' hc ha hk hw hv' h2
  rw [hcodec] at k2
  refine edited_second k1 k2 ?_
  rintro bp b b' b'' ⟨-, r1, -, -, r2⟩ ⟨s1, s2, s3, s4, s5⟩
  refine ⟨s1, s2, fun i => ?_, s3, s4⟩
  have hf : AmongFirst b' (args.nodes.map toBytes) i ↔ AmongFirst b (args.nodes.map toBytes) i := by
    unfold AmongFirst FirstId
    rw [r1.1, r1.2]
  have h5 := s5 i
  have h2 := r2 i
  split at h5
  · next hx =>
    rw [if_pos ⟨hx.1, hf.1 hx.2⟩] at h2
    cases hm' : metaOf b' i with
    | none => exact .inl (h5.1 hm')
    | some m2 =>
      obtain ⟨m3, n3, ⟨g1, ls, ls', g2, g3, g4⟩, g5⟩ := h5.2 m2 hm'
      cases hm : metaOf b i with
      | none => rw [h2.1 hm] at hm'; cases hm'
      | some m =>
        obtain ⟨m1, n1, ⟨f1, ls0, ls1, f2, f3, f4⟩, f5⟩ := h2.2 m hm
        have hinv : m2.inv = m1.inv := by
          rw [hm'] at f5
          rcases f5 with f5 | ⟨-, f5⟩ <;> cases f5 <;> rfl
        rw [← hinv] at f3
        have := invLines_det f3 g2
        subst this
        have := linesEdit_twice hi hn f4 g4
        subst this
        have : m3 = m2 := by
          cases m3
          cases m2
          simp only at g1 g2 g3
          rw [g1, g3.1, g2.1]
        rw [← this]
        exact g5
  · exact h5

/-! ## `overlay` -/

/-- `overlay` without an area: the second run leaves every row as it is. -/
theorem C90_overlay (env env2 : Env) (args : InstArgs) (t t' t'' : Table) (evs evs2 : List Event) (p : String)
    (g : DbFile) (hcodec : env2.codec = env.codec) (hn : (t.map (·.1)).Nodup) (hns : (g.table.map (·.1)).Nodup)
    (hc : args.command = "overlay") (hp : args.inputMapPath = some p) (hgf : mapFile env p = some g)
    (hgf2 : mapFile env2 p = some g)
    (harea : args.area = none) (hoff : args.offset = none ∨ args.offset = some ⟨0, 0, 0⟩)
    (h : Completes env args t t' evs) (h2 : Completes env2 args t' t'' evs2) (r : Int × Bytes) :
    r ∈ t'' ↔ r ∈ t' := by
  obtain ⟨h3, h4⟩ := C49_overlay_all env args t t' evs p g hn hns hc hp hgf harea hoff h
  obtain ⟨h5, h6⟩ := C49_overlay_all env2 args t' t'' evs2 p g h3 hns hc hp hgf2 harea hoff h2
  obtain ⟨k, d⟩ := r
  rw [hcodec] at h6
  rw [h6, h4]
  constructor
  · rintro (h | ⟨h, -⟩)
    · exact .inl h
    · exact h
  · rintro (h | ⟨h, h'⟩)
    · exact .inl h
    · exact .inr ⟨.inr ⟨h, h'⟩, h'⟩

/-! ## Such runs exist -/

/-- Objects are deleted twice. -/
example : ∃ t' t'' evs evs2,
    Completes (editEnv (toyMap (Toy.block 29))) objectArgs (toyMap (Toy.block 29)) t' evs ∧
    Completes (editEnv t') objectArgs t' t'' evs2 ∧ GoodTable (toyMap (Toy.block 29)) := by
  have hw := Toy.block_wf 29 (by omega)
  have h2 := toyMap_all hw (toy_objectsNear 29)
  have ha : AreaOk objectArgs.area := by intro a h; cases h; decide
  have hdone : ∀ t, GoodTable t → AllBlocks (Toy.codec id) t ObjectsNear →
      ∃ t' evs, Completes (editEnv t) objectArgs t t' evs := fun t hg hb =>
    C43_deleteobjects_completes (editEnv t) objectArgs _ (editEnv_ok _) (fun _ => rfl) (editEnv_file _) ⟨_, rfl⟩ hg
      (by rw [← verifyArgs_iff]; decide) rfl ha (.inl rfl) rfl (by intro h; cases h) (fun _ _ => hb)
  obtain ⟨t', evs, h⟩ := hdone _ (toyMap_good _) h2
  have k1 := C43_deleteobjects _ _ _ _ _ (editEnv_ok _) (toyMap_good _).nodup rfl ha h
  obtain ⟨t'', evs2, h3⟩ := hdone t' (goodTable_of_edited (toyMap_good _) k1)
    (edited_all (toyMap_good _) k1 h2 fun bp b b' hb hr o ho => hb o (without_sub hr.2.2.2.2 o ho))
  exact ⟨t', t'', evs, evs2, h, h3, toyMap_good _⟩

end MapEditr
