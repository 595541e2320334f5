import Verif.Proof.Crash
/-! # Lemmas: entries that belong to no node -/

namespace MapEditr
open Spec
set_option linter.unusedSimpArgs false
set_option linter.unusedVariables false

theorem lists_iff {b : MapBlock} {n : Bytes} : Lists b n ↔ ∃ id, NameIdMap.getId b.nimap n = some id := by
  cases h : NameIdMap.getId b.nimap n with
  | none =>
    refine ⟨fun ⟨e, h1, h2⟩ => absurd h2 (getId_none.1 h e h1), ?_⟩
    rintro ⟨id, hid⟩
    cases hid
  | some id => exact ⟨fun _ => ⟨id, rfl⟩, fun _ => ⟨_, getId_some h, rfl⟩⟩

/-- The search finds all blocks with a name that is searched. -/
theorem lists_kept {c : Codec} {d : Bytes} {b : MapBlock} (hrep : Represents c d b) (hw : Wf b) {names : List Bytes}
    {n : Bytes} (hn : n ∈ names) (hl : Lists b n) : nameKeeps (names.map string16) d = true := by
  cases h : nameKeeps (names.map string16) d with
  | true => rfl
  | false =>
    obtain ⟨id, hid⟩ := lists_iff.1 hl
    exact absurd (SMap.get?_of_mem hw.nimap.sorted (getId_some hid)) (skipped_node hrep h hn id)

theorem idx_out {l : List Nat} {i : Nat} (h : l.length ≤ i) : ∀ r, idx l i ≠ .ok r := by
  intro r hr
  unfold idx at hr
  rw [List.getElem?_eq_none h] at hr
  cases hr

theorem nodeIs_out {nodes : List Nat} {id i : Nat} (h : nodes.length ≤ i) : ∀ r, nodeIs nodes (some id) i ≠ .ok r := by
  intro r hr
  obtain ⟨v, h1, -⟩ := bind_ok_iff.1 hr
  exact idx_out h v h1

theorem nodeIs_in {nodes : List Nat} {o : Option Nat} {i : Nat} (h : i < nodes.length) :
    ∃ r, nodeIs nodes o i = .ok r := by
  unfold nodeIs
  cases o with
  | none => exact ⟨_, rfl⟩
  | some id =>
    rw [idx_ok (List.getElem?_eq_getElem h)]
    exact ⟨_, rfl⟩

theorem nodeAmong_out {nodes ids : List Nat} {i : Nat} (hne : ids ≠ []) (h : nodes.length ≤ i) :
    ∀ r, nodeAmong nodes ids i ≠ .ok r := by
  intro r hr
  unfold nodeAmong at hr
  rw [if_neg (by rw [List.isEmpty_iff]; exact hne)] at hr
  obtain ⟨v, h1, -⟩ := bind_ok_iff.1 hr
  exact idx_out h v h1

theorem nodeAmong_in {nodes ids : List Nat} {i : Nat} (h : i < nodes.length) :
    ∃ r, nodeAmong nodes ids i = .ok r := by
  unfold nodeAmong
  split
  · exact ⟨_, rfl⟩
  · rw [idx_ok (List.getElem?_eq_getElem h)]
    exact ⟨_, rfl⟩

theorem metaToDelete_works {args : InstArgs} {nodeId : Option Nat} {key : Int} {nodes : List Nat} {l : MetaList}
    (h : ∀ e ∈ l, ∃ hit, (if inSel args.area args.invert (absPos key e.1) then nodeIs nodes nodeId e.1
      else (.ok false : Res Bool)) = .ok hit) : ∃ r, metaToDelete args nodeId key nodes l = .ok r := by
  induction l with
  | nil => exact ⟨_, rfl⟩
  | cons e t ih =>
    obtain ⟨i, m⟩ := e
    obtain ⟨hit, h1⟩ := h (i, m) List.mem_cons_self
    obtain ⟨r, h2⟩ := ih fun e he => h e (List.mem_cons_of_mem _ he)
    rw [metaToDelete_cons, h1, res_bind_ok, h2, res_bind_ok]
    exact ⟨_, rfl⟩

theorem removeRev_works {del : α → Res Bool} {l : List α} (h : ∀ a ∈ l, ∃ hit, del a = .ok hit) :
    ∃ r, removeRev del l = .ok r := by
  induction l with
  | nil => exact ⟨_, rfl⟩
  | cons a t ih =>
    obtain ⟨hit, h1⟩ := h a List.mem_cons_self
    obtain ⟨r, h2⟩ := ih fun e he => h e (List.mem_cons_of_mem _ he)
    unfold removeRev
    rw [h2, res_bind_ok]
    obtain ⟨r1, r2⟩ := r
    simp only
    rw [h1, res_bind_ok]
    exact ⟨_, rfl⟩

theorem removeRev_mem {del : α → Res Bool} {l : List α} {r : List α × Nat} (h : removeRev del l = .ok r) :
    ∀ a ∈ r.1, a ∈ l := by
  induction l generalizing r with
  | nil => cases h; intro a ha; cases ha
  | cons a t ih =>
    unfold removeRev at h
    obtain ⟨⟨r1, r2⟩, h1, h2⟩ := bind_ok_iff.1 h
    simp only at h2
    obtain ⟨d, h3, h4⟩ := bind_ok_iff.1 h2
    have := ih h1
    cases d with
    | true => cases h4; exact fun x hx => List.mem_cons_of_mem _ (this x hx)
    | false =>
      cases h4
      intro x hx
      rcases List.mem_cons.1 hx with rfl | hx
      · exact List.mem_cons_self
      · exact List.mem_cons_of_mem _ (this x hx)

theorem editMetas_works {args : InstArgs} {ids : List Nat} {bkey : Int} {nodes : List Nat}
    {edit : NodeMeta → NodeMeta × Nat} {l : MetaList}
    (h : ∀ e ∈ l, ∃ hit, (if inSel args.area args.invert (absPos bkey e.1) then nodeAmong nodes ids e.1
      else (.ok false : Res Bool)) = .ok hit) : ∃ r, editMetas args ids bkey nodes edit l = .ok r := by
  induction l with
  | nil => exact ⟨_, rfl⟩
  | cons e t ih =>
    obtain ⟨i, m⟩ := e
    obtain ⟨hit, h1⟩ := h (i, m) List.mem_cons_self
    obtain ⟨r, h2⟩ := ih fun e he => h e (List.mem_cons_of_mem _ he)
    rw [editMetas_cons, h1, res_bind_ok, h2, res_bind_ok]
    cases hit <;> exact ⟨_, rfl⟩

theorem editMetas_mem {args : InstArgs} {ids : List Nat} {bkey : Int} {nodes : List Nat}
    {edit : NodeMeta → NodeMeta × Nat} {l : MetaList} {r : MetaList × List Nat}
    (h : editMetas args ids bkey nodes edit l = .ok r) :
    ∀ e ∈ r.1, ∃ m, (e.1, m) ∈ l ∧ (e.2 = m ∨ e.2 = (edit m).1) := by
  induction l generalizing r with
  | nil => cases h; intro e he; cases he
  | cons e t ih =>
    obtain ⟨i, m⟩ := e
    rw [editMetas_cons] at h
    obtain ⟨hit, h1, h2⟩ := bind_ok_iff.1 h
    obtain ⟨r', h3, h4⟩ := bind_ok_iff.1 h2
    have hi := ih h3
    cases hit with
    | true =>
      cases h4
      intro e he
      rcases List.mem_cons.1 he with rfl | he
      · exact ⟨m, List.mem_cons_self, .inr rfl⟩
      · obtain ⟨m', a, b⟩ := hi e he
        exact ⟨m', List.mem_cons_of_mem _ a, b⟩
    | false =>
      cases h4
      intro e he
      rcases List.mem_cons.1 he with rfl | he
      · exact ⟨m, List.mem_cons_self, .inl rfl⟩
      · obtain ⟨m', a, b⟩ := hi e he
        exact ⟨m', List.mem_cons_of_mem _ a, b⟩

/-- The test of an entry fails if its number is that of no node, its place is selected, and nodes are chosen by
name. -/
theorem test_cases {area : Option Area} {invert : Bool} {bp : Vec3} (hbp : ValidBlockPos bp) {i : Nat}
    {test : Res Bool} {A : Prop} (h1 : i < 4096 → ∃ r, test = .ok r) (h2 : ¬ A → ∃ r, test = .ok r)
    (h3 : A → 4096 ≤ i → ∀ r, test ≠ .ok r) :
    (∃ hit, (if inSel area invert (absPos (keyOf bp) i) then test else (.ok false : Res Bool)) = .ok hit) ↔
      ¬ (A ∧ 4096 ≤ i ∧ Selected area invert (posAt bp (i % 4096))) := by
  rw [inSel_eq hbp i]
  by_cases hs : Selected area invert (posAt bp (i % 4096))
  · simp only [hs, decide_true, if_true, and_true]
    constructor
    · rintro ⟨r, hr⟩ ⟨a, b⟩
      exact h3 a b r hr
    · intro h
      by_cases a : A
      · exact h1 (by have : ¬ 4096 ≤ i := fun x => h ⟨a, x⟩; omega)
      · exact h2 a
  · simp [hs]

theorem deleteMeta_stuck {args : InstArgs} {bp : Vec3} {b : MapBlock} (hbp : ValidBlockPos bp) (hw : Wf b) :
    (((∃ n, args.node = some n ∧ Lists b (toBytes n)) ∧ StrayMeta args.area args.invert bp b) →
      ∀ r, deleteMetaEdit args (keyOf bp) b ≠ .ok r) ∧
    (¬ ((∃ n, args.node = some n ∧ Lists b (toBytes n)) ∧ StrayMeta args.area args.invert bp b) →
      ∃ ob n, deleteMetaEdit args (keyOf bp) b = .ok (ob, n) ∧ ∀ b', ob = some b' → Short b') := by
  have hlen : ∀ {i : Nat}, 4096 ≤ i → b.nd.nodes.length ≤ i := by intro i hi; rw [hw.nodes.1]; exact hi
  have hin : ∀ {i : Nat}, i < 4096 → i < b.nd.nodes.length := by intro i hi; rw [hw.nodes.1]; exact hi
  unfold deleteMetaEdit
  simp only
  constructor
  · rintro ⟨⟨n, h1, h2⟩, e, he, h3, h4⟩ r hr
    obtain ⟨id, hid⟩ := lists_iff.1 h2
    rw [h1] at hr
    simp only [Option.map_some, Option.bind_some, hid, Option.isSome_some, Option.isNone_some, Bool.and_false,
      Bool.false_eq_true, if_false] at hr
    cases hd : metaToDelete args (some id) (keyOf bp) b.nd.nodes b.metas with
    | error x => rw [hd] at hr; cases hr
    | ok del =>
      obtain ⟨hit, hh⟩ := metaToDelete_ok hd e he
      refine (test_cases (A := True) hbp (fun hi => nodeIs_in (hin hi)) (fun h => absurd trivial h)
        (fun _ hi => nodeIs_out (hlen hi))).1 ⟨hit, hh⟩ ⟨trivial, h3, h4⟩
  · intro hno
    split
    · exact ⟨none, 0, rfl, nofun⟩
    · next hsk =>
      obtain ⟨del, hd⟩ : ∃ del, metaToDelete args ((args.node.map toBytes).bind fun n => NameIdMap.getId b.nimap n)
          (keyOf bp) b.nd.nodes b.metas = .ok del := by
        refine metaToDelete_works fun e he => ?_
        refine (test_cases (A := ∃ n, args.node = some n) hbp (fun hi => nodeIs_in (hin hi)) ?_ ?_).2 ?_
        · intro h
          cases hn : args.node with
          | none => exact ⟨_, rfl⟩
          | some n => exact absurd ⟨n, hn⟩ h
        · rintro ⟨n, hn⟩ hi
          rw [hn] at hsk ⊢
          cases hg : NameIdMap.getId b.nimap (toBytes n) with
          | none => simp [hg] at hsk
          | some id =>
            simp only [Option.map_some, Option.bind_some, hg]
            exact nodeIs_out (hlen hi)
        · rintro ⟨⟨n, hn⟩, hi, hs⟩
          refine hno ⟨⟨n, hn, ?_⟩, e, he, hi, hs⟩
          rw [hn] at hsk
          cases hg : NameIdMap.getId b.nimap (toBytes n) with
          | none => simp [hg] at hsk
          | some id => exact lists_iff.2 ⟨id, hg⟩
      rw [hd]
      simp only [Except.map]
      split
      · refine ⟨_, _, rfl, ?_⟩
        intro b' hb'
        cases hb'
        have h := hw.short
        exact ⟨h.ver, h.nodes, fun e he => h.metas e ((foldl_erase_sublist del b.metas).subset he), h.objs, h.names⟩
      · exact ⟨none, 0, rfl, nofun⟩

theorem deleteTimers_stuck {args : InstArgs} {bp : Vec3} {b : MapBlock} (hbp : ValidBlockPos bp) (hw : Wf b) :
    (((∃ n, args.node = some n ∧ Lists b (toBytes n)) ∧ StrayTimer args.area args.invert bp b) →
      ∀ r, deleteTimersEdit args (keyOf bp) b ≠ .ok r) ∧
    (¬ ((∃ n, args.node = some n ∧ Lists b (toBytes n)) ∧ StrayTimer args.area args.invert bp b) →
      ∃ ob n, deleteTimersEdit args (keyOf bp) b = .ok (ob, n) ∧ ∀ b', ob = some b' → Short b') := by
  have hlen : ∀ {i : Nat}, 4096 ≤ i → b.nd.nodes.length ≤ i := by intro i hi; rw [hw.nodes.1]; exact hi
  have hin : ∀ {i : Nat}, i < 4096 → i < b.nd.nodes.length := by intro i hi; rw [hw.nodes.1]; exact hi
  unfold deleteTimersEdit
  simp only
  constructor
  · rintro ⟨⟨n, h1, h2⟩, e, he, h3, h4⟩ r hr
    obtain ⟨id, hid⟩ := lists_iff.1 h2
    rw [h1] at hr
    simp only [Option.map_some, Option.bind_some, hid, Option.isSome_some, Option.isNone_some, Bool.and_false,
      Bool.false_eq_true, if_false] at hr
    cases hd : removeRev (timerHit args (some id) (keyOf bp) b.nd.nodes) b.timers with
    | error x => rw [hd] at hr; cases hr
    | ok del =>
      obtain ⟨hit, hh⟩ := removeRev_ok hd e he
      refine (test_cases (A := True) hbp (fun hi => nodeIs_in (hin hi)) (fun h => absurd trivial h)
        (fun _ hi => nodeIs_out (hlen hi))).1 ⟨hit, hh⟩ ⟨trivial, h3, h4⟩
  · intro hno
    split
    · exact ⟨none, 0, rfl, nofun⟩
    · next hsk =>
      obtain ⟨del, hd⟩ : ∃ del, removeRev (timerHit args ((args.node.map toBytes).bind fun n =>
          NameIdMap.getId b.nimap n) (keyOf bp) b.nd.nodes) b.timers = .ok del := by
        refine removeRev_works fun e he => ?_
        refine (test_cases (A := ∃ n, args.node = some n) hbp (fun hi => nodeIs_in (hin hi)) ?_ ?_).2 ?_
        · intro h
          cases hn : args.node with
          | none => exact ⟨_, rfl⟩
          | some n => exact absurd ⟨n, hn⟩ h
        · rintro ⟨n, hn⟩ hi
          rw [hn] at hsk ⊢
          cases hg : NameIdMap.getId b.nimap (toBytes n) with
          | none => simp [hg] at hsk
          | some id =>
            simp only [Option.map_some, Option.bind_some, hg]
            exact nodeIs_out (hlen hi)
        · rintro ⟨⟨n, hn⟩, hi, hs⟩
          refine hno ⟨⟨n, hn, ?_⟩, e, he, hi, hs⟩
          rw [hn] at hsk
          cases hg : NameIdMap.getId b.nimap (toBytes n) with
          | none => simp [hg] at hsk
          | some id => exact lists_iff.2 ⟨id, hg⟩
      rw [hd]
      simp only [Except.map]
      split
      · refine ⟨_, _, rfl, ?_⟩
        intro b' hb'
        cases hb'
        have h := hw.short
        exact ⟨h.ver, h.nodes, h.metas, h.objs, h.names⟩
      · exact ⟨none, 0, rfl, nofun⟩

theorem metaEdit_stuck {args : InstArgs} {nodes : List Bytes} {edit : NodeMeta → NodeMeta × Nat} {bp : Vec3}
    {b : MapBlock} (hbp : ValidBlockPos bp) (hw : Wf b)
    (hed : ∀ e ∈ b.metas, ∀ v ∈ (edit e.2).1.vars, v.1.length < 65536 ∧ v.2.1.length < 4294967296) :
    (((∃ n ∈ nodes, Lists b n) ∧ StrayMeta args.area args.invert bp b) →
      ∀ r, metaEdit args nodes edit (keyOf bp) b ≠ .ok r) ∧
    (¬ ((∃ n ∈ nodes, Lists b n) ∧ StrayMeta args.area args.invert bp b) →
      ∃ ob n, metaEdit args nodes edit (keyOf bp) b = .ok (ob, n) ∧ ∀ b', ob = some b' → Short b') := by
  have hlen : ∀ {i : Nat}, 4096 ≤ i → b.nd.nodes.length ≤ i := by intro i hi; rw [hw.nodes.1]; exact hi
  have hin : ∀ {i : Nat}, i < 4096 → i < b.nd.nodes.length := by intro i hi; rw [hw.nodes.1]; exact hi
  have hids : (∃ n ∈ nodes, Lists b n) ↔ (nodes.filterMap fun n => NameIdMap.getId b.nimap n) ≠ [] := by
    constructor
    · rintro ⟨n, h1, h2⟩ h
      obtain ⟨id, hid⟩ := lists_iff.1 h2
      have : id ∈ nodes.filterMap fun n => NameIdMap.getId b.nimap n := List.mem_filterMap.2 ⟨n, h1, hid⟩
      rw [h] at this
      cases this
    · intro h
      obtain ⟨id, hid⟩ := List.exists_mem_of_ne_nil _ h
      obtain ⟨n, h1, h2⟩ := List.mem_filterMap.1 hid
      exact ⟨n, h1, lists_iff.2 ⟨id, h2⟩⟩
  unfold metaEdit
  simp only
  generalize hi : (nodes.filterMap fun n => NameIdMap.getId b.nimap n) = ids at hids
  constructor
  · rintro ⟨h2, e, he, h3, h4⟩ r hr
    have hne := hids.1 h2
    rw [if_neg (by
      have : ids.isEmpty = false := by rw [List.isEmpty_eq_false_iff]; exact hne
      simp [this])] at hr
    cases hd : editMetas args ids (keyOf bp) b.nd.nodes edit b.metas with
    | error x => rw [hd] at hr; cases hr
    | ok del =>
      obtain ⟨hit, hh⟩ := editMetas_ok hd e he
      refine (test_cases (A := True) hbp (fun hi => nodeAmong_in (hin hi)) (fun h => absurd trivial h)
        (fun _ hi => nodeAmong_out hne (hlen hi))).1 ⟨hit, hh⟩ ⟨trivial, h3, h4⟩
  · intro hno
    split
    · exact ⟨none, _, rfl, nofun⟩
    · next hsk =>
      obtain ⟨r, hd⟩ : ∃ r, editMetas args ids (keyOf bp) b.nd.nodes edit b.metas = .ok r := by
        refine editMetas_works fun e he => ?_
        refine (test_cases (A := ids ≠ []) hbp (fun hi => nodeAmong_in (hin hi)) ?_ ?_).2 ?_
        · intro h
          have : ids = [] := Classical.byContradiction h
          rw [this]
          exact ⟨_, rfl⟩
        · intro h hi
          exact nodeAmong_out h (hlen hi)
        · rintro ⟨h, hi, hs⟩
          exact hno ⟨hids.2 h, e, he, hi, hs⟩
      rw [hd]
      simp only [Except.map]
      refine ⟨_, _, rfl, ?_⟩
      intro b' hb'
      split at hb'
      · cases hb'
        have h := hw.short
        refine ⟨h.ver, h.nodes, ?_, h.objs, h.names⟩
        intro e he
        obtain ⟨m, h1, h2 | h2⟩ := editMetas_mem hd e he
        · rw [h2]; exact h.metas _ h1
        · rw [h2]; exact hed _ h1
      · cases hb'

theorem deleteObjects_stuck {bd : Build} {args : InstArgs} {k : Int} {b : MapBlock} (hw : Wf b)
    (hargs : ¬ BadArgs args) :
    ((bd = .debug ∧ args.area ≠ none ∧ FarObject b) → ∀ r, deleteObjectsEdit bd args k b ≠ .ok r) ∧
    (¬ (bd = .debug ∧ args.area ≠ none ∧ FarObject b) →
      ∃ ob n, deleteObjectsEdit bd args k b = .ok (ob, n) ∧ ∀ b', ob = some b' → Short b') := by
  have ha : ∀ a, args.area = some a → Within 31000 a.min ∧ Within 31000 a.max := by
    intro a h
    refine Classical.byContradiction fun hc => hargs (.inr (.inl ⟨a, h, hc⟩))
  unfold deleteObjectsEdit
  constructor
  · rintro ⟨rfl, h2, o, ho, h3⟩ r hr
    cases hd : removeRev (canDelete .debug args.area args.invert (entityFor args) (itemsFor args)) b.objects with
    | error x => rw [hd] at hr; cases hr
    | ok del =>
      obtain ⟨hit, hh⟩ := removeRev_ok hd o ho
      have far : ∀ v : Int, 2147478647 < v → ∀ r, roundPos .debug v ≠ .ok r := by
        intro v hv r hr
        unfold roundPos i32 at hr
        split at hr
        · omega
        · cases hr
      cases hA : args.area with
      | none => exact h2 hA
      | some a =>
        rw [hA] at hh
        rw [canDelete_split] at hh
        obtain ⟨ina, q, -⟩ := bind_ok_iff.1 hh
        obtain ⟨x, q1, q⟩ := bind_ok_iff.1 q
        obtain ⟨y, q2, q⟩ := bind_ok_iff.1 q
        obtain ⟨z, q3, q⟩ := bind_ok_iff.1 q
        rcases h3 with h3 | h3 | h3
        · exact far _ h3 _ q1
        · exact far _ h3 _ q2
        · exact far _ h3 _ q3
  · intro hno
    obtain ⟨r, hr⟩ : ∃ r, removeRev (canDelete bd args.area args.invert (entityFor args) (itemsFor args)) b.objects
        = .ok r := by
      refine removeRev_works fun o ho => ⟨_, canDelete_works (hw.objs.2 o ho) ha fun h1 h2 => ?_⟩
      have : ¬ (2147478647 < o.fPos.x ∨ 2147478647 < o.fPos.y ∨ 2147478647 < o.fPos.z) :=
        fun h3 => hno ⟨h1, h2, o, ho, h3⟩
      omega
    have hm := removeRev_mem hr
    rw [hr]
    simp only [Except.map]
    split
    · refine ⟨_, _, rfl, ?_⟩
      intro b' hb'
      cases hb'
      have h := hw.short
      exact ⟨h.ver, h.nodes, h.metas, fun o ho => h.objs o (hm o ho), h.names⟩
    · exact ⟨none, 0, rfl, nofun⟩

end MapEditr
