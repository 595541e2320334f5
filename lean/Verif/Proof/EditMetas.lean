import Verif.Proof.Metas
import Verif.Props.Items
import Verif.Spec.Metas
import Verif.Spec.Runs
/-! # Lemmas: edits of metadata -/

namespace MapEditr
open Spec
set_option linter.unusedSimpArgs false
set_option linter.unusedVariables false

/-- The loop over metadata entries. -/
theorem editMetas_eq {args : InstArgs} {ids : List Nat} {bkey : Int} {nodes : List Nat}
    {edit : NodeMeta → NodeMeta × Nat} {P : Nat → Prop} [DecidablePred P] {l : MetaList}
    (h : ∀ e ∈ l, (if inSel args.area args.invert (absPos bkey e.1) then nodeAmong nodes ids e.1
      else (.ok false : Res Bool)) = .ok (decide (P e.1))) :
    editMetas args ids bkey nodes edit l =
      .ok (l.map fun e => (e.1, if P e.1 then (edit e.2).1 else e.2),
        (l.filter fun e => P e.1).map fun e => (edit e.2).2) := by
  induction l with
  | nil => rfl
  | cons e t ih =>
    obtain ⟨i, m⟩ := e
    have h1 := h (i, m) List.mem_cons_self
    simp only at h1
    unfold editMetas
    have hih := ih fun e he => h e (List.mem_cons_of_mem _ he)
    cases hs : inSel args.area args.invert (absPos bkey i) with
    | true =>
      rw [hs, if_pos rfl] at h1
      simp only [if_true, h1, hih, res_bind_ok, res_pure, List.filter_cons, List.map_cons]
      by_cases hp : P i <;> simp [hp]
    | false =>
      rw [hs, if_neg (by simp)] at h1
      have hp : ¬ P i := by
        have h2 : (false = decide (P i)) := Except.ok.inj h1
        exact of_decide_eq_false h2.symm
      simp only [Bool.false_eq_true, if_false, hih, res_bind_ok, res_pure, List.filter_cons, List.map_cons]
      simp [hp]

/-- The list is well-formed again if every entry is. -/
theorem metasWf_map {l : MetaList} (h : MetasWf l) {f : Nat → NodeMeta → NodeMeta}
    (hf : ∀ e ∈ l, MetaWf (f e.1 e.2)) : MetasWf (l.map fun e => (e.1, f e.1 e.2)) := by
  refine ⟨SMap.sorted_mapVal h.sorted f, by rw [List.length_map]; exact h.count, ?_, ?_⟩
  · intro e he
    obtain ⟨e', h1, rfl⟩ := List.mem_map.1 he
    exact h.keys e' h1
  · intro e he
    obtain ⟨e', h1, rfl⟩ := List.mem_map.1 he
    exact hf e' h1

/-! ## Editing the metadata of selected nodes -/

/-- The change of one block, common to `setmetavar` and `replaceininv`. -/
def metaEdit (args : InstArgs) (nodes : List Bytes) (edit : NodeMeta → NodeMeta × Nat) (k : Int)
    (b : MapBlock) : Res (Option MapBlock × List Nat) :=
  let ids := nodes.filterMap fun n => NameIdMap.getId b.nimap n
  if !nodes.isEmpty && ids.isEmpty then .ok (none, [])
  else (editMetas args ids k b.nd.nodes edit b.metas).map fun r =>
    (if r.2.any (· > 0) then some (withMetas b r.1) else none, r.2)

/-- Every entry of `b` is changed by `f`, given its number, and saved. -/
def EditedBy (f : Nat → NodeMeta → NodeMeta) (b b' : MapBlock) : Prop :=
  SameHead b b' ∧ SameNodes b b' ∧ b'.objects = b.objects ∧ b'.timers = b.timers ∧
  ∀ i, SavedMeta b (visible ((SMap.get? b.metas i).map (f i))) (metaOf b' i)

theorem editedBy_stored {f : Nat → NodeMeta → NodeMeta} {b : MapBlock} (hs : SMap.Sorted b.metas) :
    EditedBy f b (stored (withMetas b (b.metas.map fun e => (e.1, f e.1 e.2)))) := by
  refine ⟨⟨rfl, rfl, rfl, rfl⟩, ⟨rfl, rfl⟩, rfl, rfl, fun i => ?_⟩
  have hs' : SMap.Sorted (withMetas b (b.metas.map fun e => (e.1, f e.1 e.2))).metas := SMap.sorted_mapVal hs f
  have h1 := savedMeta_stored hs' i
  have h2 : metaOf (withMetas b (b.metas.map fun e => (e.1, f e.1 e.2))) i =
      visible ((SMap.get? b.metas i).map (f i)) := by
    unfold metaOf visible withMetas
    simp only
    rw [SMap.get?_mapVal]
  rw [h2] at h1
  exact h1

theorem editedBy_self {f : Nat → NodeMeta → NodeMeta} {b : MapBlock}
    (h : ∀ i m, SMap.get? b.metas i = some m → f i m = m) : EditedBy f b b := by
  refine ⟨⟨rfl, rfl, rfl, rfl⟩, ⟨rfl, rfl⟩, rfl, rfl, fun i => .inl ?_⟩
  unfold metaOf visible
  cases hg : SMap.get? b.metas i with
  | none => rfl
  | some m => rw [Option.map_some, h i m hg]

/-- The nodes chosen by `setmetavar` and `replaceininv` where `Q` are chosen by name. -/
def hitBy (args : InstArgs) (Q : MapBlock → Nat → Prop) (bp : Vec3) (b : MapBlock) (i : Nat) : Prop :=
  Selected args.area args.invert (posAt bp (i % 4096)) ∧ Q b i

instance (args : InstArgs) (Q : MapBlock → Nat → Prop) [∀ b, DecidablePred (Q b)] (bp : Vec3) (b : MapBlock) :
    DecidablePred (hitBy args Q bp b) := fun _ => by unfold hitBy; infer_instance

theorem editMetas_cons (args : InstArgs) (ids : List Nat) (bkey : Int) (nodes : List Nat)
    (edit : NodeMeta → NodeMeta × Nat) (i : Nat) (m : NodeMeta) (t : MetaList) :
    editMetas args ids bkey nodes edit ((i, m) :: t) =
      (if inSel args.area args.invert (absPos bkey i) then nodeAmong nodes ids i else (.ok false : Res Bool)) >>=
        fun hit => editMetas args ids bkey nodes edit t >>= fun r =>
          if hit then pure ((i, (edit m).1) :: r.1, (edit m).2 :: r.2) else pure ((i, m) :: r.1, r.2) := by
  rw [editMetas]
  split <;> rfl

/-- Where the loop succeeds, all its tests do. -/
theorem editMetas_ok {args : InstArgs} {ids : List Nat} {bkey : Int} {nodes : List Nat}
    {edit : NodeMeta → NodeMeta × Nat} {l : MetaList} {r : MetaList × List Nat}
    (h : editMetas args ids bkey nodes edit l = .ok r) :
    ∀ e ∈ l, ∃ hit, (if inSel args.area args.invert (absPos bkey e.1) then nodeAmong nodes ids e.1
      else (.ok false : Res Bool)) = .ok hit := by
  induction l generalizing r with
  | nil => intro e he; cases he
  | cons e t ih =>
    obtain ⟨i, m⟩ := e
    rw [editMetas_cons] at h
    cases h1 : (if inSel args.area args.invert (absPos bkey i) then nodeAmong nodes ids i
      else (.ok false : Res Bool)) with
    | error x => rw [h1] at h; cases h
    | ok hit =>
      rw [h1, res_bind_ok] at h
      cases h2 : editMetas args ids bkey nodes edit t with
      | error x => rw [h2] at h; cases h
      | ok r' =>
        intro e he
        rcases List.mem_cons.1 he with rfl | he
        · exact ⟨hit, h1⟩
        · exact ih h2 e he

/-- The change of one block, if the tests of all entries succeed. -/
theorem metaEdit_spec {args : InstArgs} {nodes : List Bytes} {edit : NodeMeta → NodeMeta × Nat} {bp : Vec3}
    {b : MapBlock} (hbp : ValidBlockPos bp) (hw : Wf b) {Q : MapBlock → Nat → Prop} [∀ b, DecidablePred (Q b)]
    (hQ : ∀ i, Q b i ↔ AmongFirst b nodes i)
    (hok : (nodes ≠ [] → MetaInside b) ∨ ∃ r, metaEdit args nodes edit (keyOf bp) b = .ok r)
    (hzero : ∀ e ∈ b.metas, (edit e.2).2 = 0 → (edit e.2).1 = e.2) :
    ∃ ob, metaEdit args nodes edit (keyOf bp) b =
        .ok (ob, (b.metas.filter fun e => hitBy args Q bp b e.1).map fun e => (edit e.2).2) ∧
      (ob = none → EditedBy (fun i m => if hitBy args Q bp b i then (edit m).1 else m) b b) ∧
      ∀ b', ob = some b' → b' = withMetas b (b.metas.map fun e =>
          (e.1, if hitBy args Q bp b e.1 then (edit e.2).1 else e.2)) ∧
        EditedBy (fun i m => if hitBy args Q bp b i then (edit m).1 else m) b (stored b') := by
  unfold metaEdit at hok ⊢
  simp only at hok ⊢
  rcases ids_hit hw hQ with ⟨h1, h2⟩ | ⟨h1, h2⟩
  · rw [h1, if_pos rfl]
    have hno : ∀ e ∈ b.metas, ¬ hitBy args Q bp b e.1 := fun e he hc => h2 e.1 hc.2
    rw [filter_none hno]
    refine ⟨none, rfl, fun _ => editedBy_self fun i m hg => ?_, by simp⟩
    rw [if_neg (hno _ (SMap.get?_some_mem hg))]
  · rw [h1, if_neg (by simp)] at hok ⊢
    have hed := editMetas_eq (args := args) (bkey := keyOf bp) (nodes := b.nd.nodes) (edit := edit)
      (ids := nodes.filterMap fun n => NameIdMap.getId b.nimap n) (P := hitBy args Q bp b) (l := b.metas) (by
        intro e he
        refine (hit_eq hbp (h2 e.1) ?_).trans ?_
        · rcases hok with hok | ⟨r, hok⟩
          · exact .inl fun hn => hok hn e he
          · right
            cases hr : editMetas args (nodes.filterMap fun n => NameIdMap.getId b.nimap n) (keyOf bp) b.nd.nodes
                edit b.metas with
            | error x => rw [hr] at hok; cases hok
            | ok del => exact editMetas_ok hr e he
        · congr 1)
    rw [hed]
    simp only [Except.map]
    split
    · refine ⟨_, rfl, by simp, ?_⟩
      intro b' hb'
      cases hb'
      exact ⟨rfl, editedBy_stored (f := fun i m => if hitBy args Q bp b i then (edit m).1 else m) hw.metas.sorted⟩
    · next hany =>
      refine ⟨none, rfl, fun _ => editedBy_self fun i m hg => ?_, by simp⟩
      have hm := SMap.get?_some_mem hg
      split
      · next hh =>
        refine hzero _ hm ?_
        simp only [List.any_eq_true, List.mem_map, List.mem_filter, not_exists, not_and,
          decide_eq_true_iff] at hany
        have := hany _ ⟨(i, m), ⟨hm, hh⟩, rfl⟩
        omega
      · rfl

/-- The new block is well-formed if the changed entries are. -/
theorem metaEdit_wf {args : InstArgs} {edit : NodeMeta → NodeMeta × Nat} {bp : Vec3} {b : MapBlock} (hw : Wf b)
    {Q : MapBlock → Nat → Prop} [∀ b, DecidablePred (Q b)]
    (hwf : ∀ e ∈ b.metas, hitBy args Q bp b e.1 → MetaWf (edit e.2).1) :
    Wf (withMetas b (b.metas.map fun e => (e.1, if hitBy args Q bp b e.1 then (edit e.2).1 else e.2))) := by
  refine wf_withMetas hw (metasWf_map hw.metas (f := fun i m => if hitBy args Q bp b i then (edit m).1 else m) ?_)
  intro e he
  split
  · next hh => exact hwf e he hh
  · exact hw.metas.metas e he

/-- Nothing is changed in blocks without chosen nodes. -/
theorem editedBy_skip {args : InstArgs} {nodes : List Bytes} {edit : NodeMeta → NodeMeta × Nat} {bp : Vec3}
    {b : MapBlock} {Q : MapBlock → Nat → Prop} [∀ b, DecidablePred (Q b)]
    (hQ : ∀ i, Q b i ↔ AmongFirst b nodes i) {c : Codec} {d : Bytes} (hrep : Represents c d b)
    (hno : (∀ p, InBlock bp p → ¬ Selected args.area args.invert p) ∨
      nameKeeps (nodes.map string16) d = false) :
    EditedBy (fun i m => if hitBy args Q bp b i then (edit m).1 else m) b b ∧
    (b.metas.filter fun e => hitBy args Q bp b e.1) = [] := by
  have h : ∀ e ∈ b.metas, ¬ hitBy args Q bp b e.1 := by
    rintro e he ⟨h1, h2⟩
    rcases hno with h | h
    · exact h _ (posAt_inBlock bp (Nat.mod_lt e.1 (by decide))) h1
    · exact skipped_among hrep h _ (among_of_first ((hQ _).1 h2))
  refine ⟨editedBy_self fun i m hg => ?_, filter_none h⟩
  rw [if_neg (h _ (SMap.get?_some_mem hg))]

/-! ## Variables -/

theorem editVar_eq (key value : Bytes) (delete : Bool) {m : NodeMeta} (hs : SMap.Sorted m.vars) :
    editVar key value delete m =
      (varEdit key (if delete then none else some value) m, if HasVar key m then 1 else 0) := by
  unfold editVar
  cases hg : SMap.get? m.vars key with
  | none =>
    have hno : ¬ HasVar key m := by
      rintro ⟨⟨k, v⟩, he, rfl⟩
      rw [SMap.get?_of_mem hs he] at hg
      cases hg
    have hne : ∀ e ∈ m.vars, e.1 ≠ key := fun e he hk => hno ⟨e, he, hk⟩
    simp only [hno, if_false]
    congr 1
    unfold varEdit
    cases delete with
    | true =>
      simp only [if_true]
      rw [List.filter_eq_self.2 fun e he => by simpa using hne e he]
    | false =>
      simp only [Bool.false_eq_true, if_false]
      have : (m.vars.map fun e => if e.1 = key then (e.1, (value, e.2.2)) else e) = m.vars := by
        conv => rhs; rw [← List.map_id m.vars]
        refine List.map_congr_left fun e he => ?_
        rw [if_neg (hne e he)]
        rfl
      rw [this]
  | some old =>
    have hyes : HasVar key m := ⟨_, SMap.get?_some_mem hg, rfl⟩
    simp only [hyes, if_true]
    unfold varEdit
    cases delete with
    | true =>
      simp only [if_true]
      congr 2
      unfold SMap.erase
      refine List.filter_congr fun e he => ?_
      rw [Bool.eq_iff_iff]
      simp
    | false =>
      simp only [Bool.false_eq_true, if_false]
      congr 2
      have hmap : (m.vars.map fun e => if e.1 = key then (e.1, (value, e.2.2)) else e) =
          m.vars.map fun e => (e.1, if e.1 = key then (value, e.2.2) else e.2) := by
        refine List.map_congr_left fun e he => ?_
        split <;> rfl
      rw [hmap]
      refine SMap.ext (SMap.sorted_insert hs _ _)
        (SMap.sorted_mapVal hs fun k v => if k = key then (value, v.2) else v) fun q => ?_
      rw [SMap.get?_insert, SMap.get?_mapVal m.vars (fun k v => if k = key then (value, v.2) else v)]
      by_cases hq : key = q
      · subst hq
        rw [hg]
        simp
      · have hq' : ¬ q = key := fun h => hq h.symm
        have hid : (fun v : Bytes × Bool => if q = key then (value, v.2) else v) = id := by
          funext v; rw [if_neg hq']; rfl
        rw [if_neg (by simpa using hq), hid, Option.map_id]
        rfl

theorem metaWf_varEdit {key : Bytes} {value : Option Bytes} {m : NodeMeta} (h : MetaWf m)
    (hv : ∀ v, value = some v → v.length < 4294967296) : MetaWf (varEdit key value m) := by
  unfold varEdit
  cases value with
  | none =>
    have hsub : (m.vars.filter fun e => e.1 ≠ key).Sublist m.vars := List.filter_sublist
    exact ⟨h.sorted.sublist hsub, Nat.lt_of_le_of_lt hsub.length_le h.count,
      fun e he => h.names e (hsub.subset he), h.inv⟩
  | some v =>
    simp only
    have hmap : (m.vars.map fun e => if e.1 = key then (e.1, (v, e.2.2)) else e) =
        m.vars.map fun e => (e.1, if e.1 = key then (v, e.2.2) else e.2) := by
      refine List.map_congr_left fun e he => ?_
      split <;> rfl
    rw [hmap]
    refine ⟨SMap.sorted_mapVal h.sorted fun k x => if k = key then (v, x.2) else x,
      by simp only [List.length_map]; exact h.count, ?_, h.inv⟩
    intro e he
    obtain ⟨e', h1, rfl⟩ := List.mem_map.1 he
    have h2 := h.names e' h1
    refine ⟨h2.1, ?_⟩
    simp only
    split
    · exact hv v rfl
    · exact h2.2

/-! ## Names as bytes -/

theorem toBytes_eq (s : String) : toBytes s = s.toList.flatMap String.utf8EncodeChar := by
  unfold toBytes
  have h := String.utf8Encode_toList (b := s)
  have h2 : s.toUTF8 = (List.flatMap String.utf8EncodeChar s.toList).toByteArray := h.symm
  rw [h2]
  simp

theorem nameForm_bytes {n : String} (h : NameForm n) (c : UInt8) (hc : c = 10 ∨ c = 32) : c ∉ toBytes n := by
  have key : ∀ x ∈ n.toList, c ∉ String.utf8EncodeChar x := by
    have hmod : ∀ x ∈ "abcdefghijklmnopqrstuvwxyz0123456789_".toList, (10 : UInt8) ∉ String.utf8EncodeChar x ∧
      (32 : UInt8) ∉ String.utf8EncodeChar x := by decide
    have hitem : ∀ x ∈ "abcdefghijklmnopqrstuvwxyzABCDEFGHIJKLMNOPQRSTUVWXYZ0123456789_".toList,
      (10 : UInt8) ∉ String.utf8EncodeChar x ∧ (32 : UInt8) ∉ String.utf8EncodeChar x := by decide
    have hcol : (10 : UInt8) ∉ String.utf8EncodeChar ':' ∧ (32 : UInt8) ∉ String.utf8EncodeChar ':' := by decide
    intro x hx
    have : (10 : UInt8) ∉ String.utf8EncodeChar x ∧ (32 : UInt8) ∉ String.utf8EncodeChar x := by
      rcases h with rfl | rfl | ⟨m, i, hn, h1, h2⟩
      · exact hmod x (by revert x; decide)
      · exact hmod x (by revert x; decide)
      · rw [hn] at hx
        rcases List.mem_append.1 hx with hx | hx
        · exact hmod x (h1 x hx)
        · rcases List.mem_cons.1 hx with rfl | hx
          · exact hcol
          · exact hitem x (h2 x hx)
    rcases hc with rfl | rfl
    · exact this.1
    · exact this.2
  rw [toBytes_eq, List.mem_flatMap]
  rintro ⟨x, h1, h2⟩
  exact key x h1 h2

/-! ## Framing of inventories -/

theorem endInv_word : endInv = endWord ++ [10] := by decide
theorem endWord_newline : (10 : UInt8) ∉ endWord := by decide

/-- The first newline. -/
theorem first_newline {a b r s : Bytes} (ha : (10 : UInt8) ∉ a) (hb : (10 : UInt8) ∉ b)
    (h : a ++ 10 :: r = b ++ 10 :: s) : a = b ∧ r = s := by
  induction a generalizing b with
  | nil =>
    cases b with
    | nil => simpa using h
    | cons x b =>
      simp only [List.nil_append, List.cons_append, List.cons.injEq] at h
      exact absurd (by rw [h.1]; exact List.mem_cons_self) hb
  | cons x a ih =>
    cases b with
    | nil =>
      simp only [List.nil_append, List.cons_append, List.cons.injEq] at h
      exact absurd (by rw [← h.1]; exact List.mem_cons_self) ha
    | cons y b =>
      simp only [List.cons_append, List.cons.injEq] at h
      obtain ⟨h1, h2⟩ := ih (fun hx => ha (List.mem_cons_of_mem _ hx)) (fun hx => hb (List.mem_cons_of_mem _ hx)) h.2
      exact ⟨by rw [h.1, h1], h2⟩

theorem endInv_prefix_line {l rest : Bytes} (hl : (10 : UInt8) ∉ l) :
    endInv <+: l ++ 10 :: rest ↔ endWord = l := by
  rw [endInv_word]
  constructor
  · rintro ⟨t, h⟩
    rw [List.append_assoc] at h
    exact (first_newline endWord_newline hl h).1
  · rintro rfl
    exact ⟨rest, by simp⟩

theorem framed_cons {l rest : Bytes} (hl : (10 : UInt8) ∉ l) (he : ¬ endWord <:+ l) (hr : Framed rest) :
    Framed (l ++ 10 :: rest) := by
  obtain ⟨pre, rfl, h⟩ := hr
  refine ⟨l ++ 10 :: pre, by simp, fun i hi hp => ?_⟩
  rcases Nat.lt_or_ge l.length i with hlt | hge
  · refine h (i - l.length - 1) (by simp at hi; omega) ?_
    rw [List.drop_append, List.drop_of_length_le (by omega), List.nil_append,
      show i - l.length = (i - l.length - 1) + 1 by omega, List.drop_succ_cons] at hp
    exact hp
  · rw [List.drop_append_of_le_length hge,
      endInv_prefix_line fun hx => hl (List.mem_of_mem_drop hx)] at hp
    exact he (by rw [hp]; exact List.drop_suffix _ _)

theorem framed_lines {lines : List Bytes} (hl : Lines lines) (he : ∀ l ∈ lines, ¬ endWord <:+ l) :
    Framed (invText lines) := by
  induction lines with
  | nil => exact ⟨[], rfl, by simp⟩
  | cons l t ih =>
    have := framed_cons (hl l List.mem_cons_self) (he l List.mem_cons_self)
      (ih (fun x hx => hl x (List.mem_cons_of_mem _ hx)) fun x hx => he x (List.mem_cons_of_mem _ hx))
    unfold invText at this ⊢
    simpa using this

theorem lines_framed {lines : List Bytes} (hl : Lines lines) (h : Framed (invText lines)) :
    ∀ l ∈ lines, ¬ endWord <:+ l := by
  induction lines with
  | nil => intro l h; cases h
  | cons l t ih =>
    obtain ⟨pre, h1, h2⟩ := h
    have htext : invText (l :: t) = l ++ 10 :: invText t := by unfold invText; simp
    have hpre : pre = l ++ 10 :: t.flatMap (fun l => l ++ [10]) := by
      have : invText (l :: t) = (l ++ 10 :: t.flatMap fun l => l ++ [10]) ++ endInv := by
        rw [htext]; unfold invText; simp
      rw [this] at h1
      exact (List.append_cancel_right h1).symm
    intro x hx
    rcases List.mem_cons.1 hx with rfl | hx
    · rintro ⟨p, hp⟩
      refine h2 p.length (by rw [hpre, ← hp]; simp; omega) ?_
      rw [htext, ← hp, List.append_assoc, List.drop_left]
      rw [endInv_word]
      exact ⟨invText t, by simp⟩
    · refine ih (fun x hx => hl x (List.mem_cons_of_mem _ hx)) ?_ x hx
      refine ⟨t.flatMap (fun l => l ++ [10]), rfl, fun i hi hp => ?_⟩
      refine h2 (i + l.length + 1) (by rw [hpre, List.length_append, List.length_cons]; omega) ?_
      rw [htext, List.drop_append, List.drop_of_length_le (by omega), List.nil_append,
        show i + l.length + 1 - l.length = i + 1 by omega, List.drop_succ_cons]
      exact hp

theorem suffix_space {a r : Bytes} (h : endWord <:+ a ++ 32 :: r) : endWord <:+ r := by
  have hsp : (32 : UInt8) ∉ endWord := by decide
  obtain ⟨p, h⟩ := h
  rcases List.append_eq_append_iff.1 h with ⟨c, h1, h2⟩ | ⟨c, h1, h2⟩
  · exact absurd (by rw [h2]; simp) hsp
  · cases c with
    | nil =>
      rw [List.nil_append] at h2
      exact absurd (by rw [← h2]; simp) hsp
    | cons x c =>
      simp only [List.cons_append, List.cons.injEq] at h2
      exact ⟨c, h2.2.symm⟩

/-- The parts of a shortened tail are parts of the tail. -/
theorem shortTail_mem {t s : Bytes} (h : ShortTail t s) : ∀ c ∈ s, c ∈ t := by
  cases h with
  | none => simp
  | count c hc => intro x hx; split at hx <;> simp_all
  | wear c w rest h1 h2 h3 =>
    intro x hx
    split at hx
    · split at hx
      · simp at hx
      · simp at hx ⊢; rcases hx with rfl | hx <;> simp [*]
    · simp at hx ⊢; rcases hx with rfl | hx | rfl | hx <;> simp [*]

theorem shortTail_end {t s : Bytes} (h : ShortTail t s) (ht : ¬ endWord <:+: t) :
    s = [] ∨ ∃ a r, s = a ++ 32 :: r ∧ ¬ endWord <:+ r := by
  cases h with
  | none => exact .inl rfl
  | count c hc =>
    split
    · exact .inl rfl
    · refine .inr ⟨[], c, rfl, fun h => ht ?_⟩
      exact h.isInfix.trans ⟨[32], [], by simp⟩
  | wear c w rest h1 h2 h3 =>
    have hc : ¬ endWord <:+ c := fun h => ht (h.isInfix.trans ⟨[32], 32 :: w ++ rest, by simp⟩)
    have hw : ¬ endWord <:+ w := fun h => ht (h.isInfix.trans ⟨32 :: c ++ [32], rest, by simp⟩)
    split
    · split
      · exact .inl rfl
      · exact .inr ⟨[], c, rfl, hc⟩
    · exact .inr ⟨32 :: c, w, by simp, hw⟩

/-- Edited lines are lines of an inventory again. -/
theorem linesEdit_keeps {item newItem : Bytes} {delMeta : Bool} {ls ls' : List Bytes} {n : Nat}
    (h : LinesEdit item newItem delMeta ls ls' n) (hl : Lines ls) (hne : ∀ l ∈ ls, l ≠ [])
    (he : ∀ l ∈ ls, ¬ endWord <:+ l) (hn : (10 : UInt8) ∉ newItem) (hw : ¬ endWord <:+ newItem)
    (ht : ∀ l ∈ ls, ∀ tail, ItemLine item tail l → ¬ endWord <:+: tail) :
    Lines ls' ∧ (∀ l ∈ ls', l ≠ []) ∧ ∀ l ∈ ls', ¬ endWord <:+ l := by
  induction h with
  | nil => exact ⟨hl, hne, he⟩
  | @item ls ls' n tail l l' h1 h2 _ ih =>
    obtain ⟨i1, i2, i3⟩ := ih (fun x hx => hl x (List.mem_cons_of_mem _ hx))
      (fun x hx => hne x (List.mem_cons_of_mem _ hx)) (fun x hx => he x (List.mem_cons_of_mem _ hx))
      fun x hx => ht x (List.mem_cons_of_mem _ hx)
    have hl0 := hl l List.mem_cons_self
    have ht0 := ht l List.mem_cons_self tail h1
    obtain ⟨htail, rfl⟩ := h1
    have hi : (10 : UInt8) ∉ ascii "Item " := by decide
    have hend : ∀ s, (s = [] ∨ ∃ a r, s = a ++ 32 :: r ∧ ¬ endWord <:+ r) →
        ¬ endWord <:+ ascii "Item " ++ newItem ++ s := by
      rintro s (rfl | ⟨a, r, rfl, hr⟩) hc
      · rw [List.append_nil, itemWord, List.append_assoc] at hc
        exact hw (suffix_space hc)
      · rw [← List.append_assoc] at hc
        exact hr (suffix_space hc)
    have key : (10 : UInt8) ∉ l' ∧ l' ≠ [] ∧ ¬ endWord <:+ l' := by
      rcases h2 with ⟨-, rfl⟩ | ⟨-, -, rfl⟩ | ⟨-, -, s, hs, rfl⟩
      · decide
      · refine ⟨?_, by simp [ascii], hend _ ?_⟩
        · simp only [List.mem_append, not_or] at hl0 ⊢
          exact ⟨⟨hi, hn⟩, hl0.2⟩
        · rcases htail with rfl | ⟨r, rfl⟩
          · exact .inl rfl
          · exact .inr ⟨[], r, rfl, fun h => ht0 (h.isInfix.trans ⟨[32], [], by simp⟩)⟩
      · refine ⟨?_, by simp [ascii], hend _ (shortTail_end hs ht0)⟩
        simp only [List.mem_append, not_or] at hl0 ⊢
        exact ⟨⟨hi, hn⟩, fun h => hl0.2 (shortTail_mem hs _ h)⟩
    refine ⟨?_, ?_, ?_⟩
    · intro x hx; rcases List.mem_cons.1 hx with rfl | hx
      · exact key.1
      · exact i1 x hx
    · intro x hx; rcases List.mem_cons.1 hx with rfl | hx
      · exact key.2.1
      · exact i2 x hx
    · intro x hx; rcases List.mem_cons.1 hx with rfl | hx
      · exact key.2.2
      · exact i3 x hx
  | @other ls ls' n l h1 _ ih =>
    obtain ⟨i1, i2, i3⟩ := ih (fun x hx => hl x (List.mem_cons_of_mem _ hx))
      (fun x hx => hne x (List.mem_cons_of_mem _ hx)) (fun x hx => he x (List.mem_cons_of_mem _ hx))
      fun x hx => ht x (List.mem_cons_of_mem _ hx)
    refine ⟨?_, ?_, ?_⟩
    · intro x hx; rcases List.mem_cons.1 hx with rfl | hx
      · exact hl x List.mem_cons_self
      · exact i1 x hx
    · intro x hx; rcases List.mem_cons.1 hx with rfl | hx
      · exact hne x List.mem_cons_self
      · exact i2 x hx
    · intro x hx; rcases List.mem_cons.1 hx with rfl | hx
      · exact he x List.mem_cons_self
      · exact i3 x hx

theorem linesEdit_last {item newItem : Bytes} {delMeta : Bool} {ls X : List Bytes} {n : Nat}
    (h : LinesEdit item newItem delMeta (ls ++ [endWord]) X n) :
    ∃ ls', X = ls' ++ [endWord] ∧ LinesEdit item newItem delMeta ls ls' n := by
  have hno : ¬ ∃ tail, ItemLine item tail endWord := by
    rintro ⟨tail, -, he⟩
    have h1 : endWord.head? = (ascii "Item " ++ item ++ tail).head? := by rw [he]
    rw [show endWord.head? = some 69 by decide] at h1
    have h2 : ascii "Item " = 73 :: ascii "tem " := by decide
    rw [h2] at h1
    simp at h1
  induction ls generalizing X n with
  | nil =>
    cases h with
    | item tail _ _ h1 => exact absurd ⟨tail, h1⟩ hno
    | other _ _ h2 => cases h2; exact ⟨[], rfl, .nil⟩
  | cons l t ih =>
    cases h with
    | item tail _ l' h1 h2 h3 =>
      obtain ⟨ls', rfl, h4⟩ := ih h3
      exact ⟨l' :: ls', rfl, .item tail l l' h1 h2 h4⟩
    | other _ h1 h3 =>
      obtain ⟨ls', rfl, h4⟩ := ih h3
      exact ⟨l :: ls', rfl, .other l h1 h4⟩

theorem isStack_iff {item l : Bytes} : IsStack item l ↔ ∃ tail, ItemLine item tail l := by
  unfold IsStack ItemLine Tail
  constructor
  · rintro (rfl | ⟨r, rfl⟩)
    · exact ⟨[], .inl rfl, by simp⟩
    · exact ⟨32 :: r, .inr ⟨r, rfl⟩, by simp⟩
  · rintro ⟨tail, rfl | ⟨r, rfl⟩, rfl⟩
    · exact .inl (by simp)
    · exact .inr ⟨r, by simp⟩

theorem linesEdit_count {item newItem : Bytes} {delMeta : Bool} {ls ls' : List Bytes} {n : Nat}
    (h : LinesEdit item newItem delMeta ls ls' n) : n = (ls.filter fun l => IsStack item l).length := by
  induction h with
  | nil => rfl
  | item tail l l' h1 _ _ ih =>
    rw [List.filter_cons, if_pos (by simpa using isStack_iff.2 ⟨tail, h1⟩), List.length_cons, ih]
  | other l h1 _ ih =>
    rw [List.filter_cons, if_neg (by simpa using fun h => h1 (isStack_iff.1 h)), ih]

/-- Replacing in an inventory. -/
theorem editInv_spec {item newItem : Bytes} (delMeta : Bool) (hi : 32 ∉ item)
    (hn : (10 : UInt8) ∉ newItem) (hw : ¬ endWord <:+ newItem) {m : NodeMeta} (hm : MetaWf m)
    {lines : List Bytes} (hL : InvLines m.inv lines)
    (ht : ∀ l ∈ lines, ∀ tail, ItemLine item tail l → ¬ endWord <:+: tail) :
    MetaWf (editInv item newItem delMeta m).1 ∧
    InvEdit item newItem delMeta m (editInv item newItem delMeta m).1
      (lines.filter fun l => IsStack item l).length ∧
    (editInv item newItem delMeta m).2 = (lines.filter fun l => IsStack item l).length ∧
    ((lines.filter fun l => IsStack item l).length = 0 → (editInv item newItem delMeta m).1 = m) := by
  obtain ⟨h1, h2, h3⟩ := hL
  have htext : invText lines = linesText (lines ++ [endWord]) := by
    unfold invText linesText
    rw [List.flatMap_append, endInv_word]
    simp
  obtain ⟨X, n, e1, e2, e3⟩ := C45_lines_partial item newItem delMeta hi (lines ++ [endWord])
    (by
      intro l hl
      rcases List.mem_append.1 hl with hl | hl
      · exact h2 l hl
      · rw [List.mem_singleton.1 hl]; decide)
    (by
      intro l hl
      rcases List.mem_append.1 hl with hl | hl
      · exact h3 l hl
      · rw [List.mem_singleton.1 hl]; decide)
  obtain ⟨ls', rfl, e4⟩ := linesEdit_last e1
  have hcount := linesEdit_count e4
  have hfr := hm.inv
  rw [h1] at hfr
  obtain ⟨k1, k2, k3⟩ := linesEdit_keeps e4 h2 h3 (lines_framed h2 hfr) hn hw ht
  have htext' : linesText (ls' ++ [endWord]) = invText ls' := by
    unfold invText linesText
    rw [List.flatMap_append, endInv_word]
    simp
  have hr : editInv item newItem delMeta m = ({ m with inv := invText ls' }, n) := by
    unfold editInv
    rw [h1, htext, e2, htext']
  rw [hr]
  refine ⟨⟨hm.sorted, hm.count, hm.names, framed_lines k1 k3⟩, ⟨rfl, lines, ls', ⟨h1, h2, h3⟩, ⟨rfl, k1, k2⟩, ?_⟩,
    hcount, ?_⟩
  · rw [← hcount]; exact e4
  · intro h0
    have := List.append_cancel_right (e3 (by rw [hcount]; exact h0))
    rw [this, ← h1]

end MapEditr
