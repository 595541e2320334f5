import Verif.Spec.Skips
import Verif.Proof.AllCommands
import Verif.Proof.OverlayPlain
/-! # Lemmas: rows looked at, skipped rows, progress -/

namespace MapEditr
open Spec

theorem nameKeeps_iff (names : List Bytes) (d : Bytes) :
    nameKeeps (names.map string16) d = true ↔ Mentions names d := by
  constructor
  · intro h
    unfold nameKeeps at h
    cases d with
    | nil => exact .inr (.inl (by intro v hv; cases hv))
    | cons v t =>
      simp only at h
      by_cases hv : v.toNat ≤ 28
      · by_cases hn : names = []
        · exact .inl hn
        · refine .inr (.inr ?_)
          have hne : (names.map string16).isEmpty = false := by cases names <;> simp_all
          simp only [hv, decide_true, Bool.true_and, hne, Bool.not_false, Bool.not_not, List.any_eq_true] at h
          obtain ⟨x, hx, h1⟩ := h
          obtain ⟨n, hn1, rfl⟩ := List.mem_map.1 hx
          refine ⟨n, hn1, ?_⟩
          rw [← string16_eq]
          exact (isSome_searchIn_iff (string16_ne n)).1 h1
      · refine .inr (.inl ?_)
        intro v' hv'
        simp only [List.head?_cons, Option.some.injEq] at hv'
        subst hv'
        omega
  · rintro (rfl | h | ⟨n, h1, h2⟩)
    · exact nameKeeps_nil d
    · unfold nameKeeps
      cases d with
      | nil => rfl
      | cons v t =>
        have := h v rfl
        have hd : decide (v.toNat ≤ 28) = false := by
          rw [decide_eq_false_iff_not]
          omega
        simp only [hd, Bool.false_and, Bool.not_false]
    · exact nameKeeps_of_infix h1 (by rw [string16_eq]; exact h2)

theorem areaKeeps_row {area : Option Area} (ha : AreaOk area) (invert : Bool) {t : Table} (hg : GoodTable t)
    {r : Int × Bytes} (hr : r ∈ t) : areaKeeps area invert true r.1 = true ↔ RowTouched area invert r := by
  obtain ⟨bp, h1, h2, -⟩ := row_pos hg hr
  rw [← h2, areaKeeps_iff ha invert true h1]
  constructor
  · rintro ⟨p, h3, h4⟩
    exact ⟨bp, h1, h2, p, h3, h4⟩
  · rintro ⟨bp', h3, h4, p, h5, h6⟩
    have : bp' = bp := by
      rw [← fromBlockKey_keyOf bp' h3, ← fromBlockKey_keyOf bp h1, h2, h4]
    subst this
    exact ⟨p, h5, h6⟩

theorem hits_rows {names : List Bytes} {area : Option Area} (ha : AreaOk area) {invert : Bool} {t : Table}
    (hg : GoodTable t) :
    TheRows t (fun r => RowTouched area invert r ∧ Mentions names r.2) (hits names area invert t) := by
  refine ⟨?_, fun r => ?_⟩
  · unfold hits
    rw [queryHits_eq]
    exact List.filter_sublist
  · rw [mem_hits]
    constructor
    · rintro ⟨h1, h2, h3⟩
      exact ⟨h1, (areaKeeps_row ha invert hg h1).1 h2, (nameKeeps_iff _ _).1 h3⟩
    · rintro ⟨h1, h2, h3⟩
      exact ⟨h1, (areaKeeps_row ha invert hg h1).2 h2, (nameKeeps_iff _ _).2 h3⟩

theorem touched_rows {area : Option Area} (ha : AreaOk area) {invert : Bool} {t : Table} (hg : GoodTable t) :
    TheRows t (RowTouched area invert) (queryHits [] area invert true t) := by
  have h := hits_rows (names := []) ha (invert := invert) hg
  exact ⟨h.1, fun r => (h.2 r).trans ⟨fun x => ⟨x.1, x.2.1⟩, fun x => ⟨x.1, x.2, .inl rfl⟩⟩⟩

theorem theRows_length {t : Table} (hn : (t.map (·.1)).Nodup) {P : Int × Bytes → Prop} {r1 r2 : Table}
    (h1 : TheRows t P r1) (h2 : TheRows t P r2) : r1.length = r2.length := by
  have hnt : t.Nodup := List.Pairwise.of_map (·.1) (fun a b h e => h (by rw [e])) hn
  have p : r1.Perm r2 := by
    refine (List.perm_ext_iff_of_nodup (h1.1.nodup hnt) (h2.1.nodup hnt)).2 fun r => ?_
    rw [h1.2, h2.2]
  exact p.length_eq

theorem theRows_filter {t : Table} {P Q : Int × Bytes → Prop} {rows : Table} (h : TheRows t P rows)
    {q : Int × Bytes → Bool} (hq : ∀ r ∈ rows, q r = true ↔ Q r) :
    TheRows t (fun r => P r ∧ Q r) (rows.filter q) := by
  refine ⟨List.filter_sublist.trans h.1, fun r => ?_⟩
  rw [List.mem_filter]
  constructor
  · rintro ⟨h1, h2⟩
    obtain ⟨h3, h4⟩ := (h.2 r).1 h1
    exact ⟨h3, h4, (hq r h1).1 h2⟩
  · rintro ⟨h1, h2, h3⟩
    have := (h.2 r).2 ⟨h1, h2⟩
    exact ⟨this, (hq r this).2 h3⟩

theorem skipReport_all {args : InstArgs} {wn : Option String} {m : Msg} {n : Nat}
    (hm : ∀ k, m ≠ .count "Skipped {} invalid/unsupported mapblocks." k) :
    SkipReport (allEvents args wn m n) n := by
  intro k
  unfold allEvents cmdEvents
  simp only [List.mem_append]
  constructor
  · rintro (((h | h) | h) | h)
    · exact absurd h preEvents_not_info
    · simp only [List.mem_cons, List.not_mem_nil, or_false] at h
      rcases h with h | h | h | h | h <;> cases h
      exact absurd rfl (hm k)
    · unfold skipEvents at h
      split at h
      · next hn =>
        simp only [List.mem_singleton] at h
        cases h
        exact ⟨rfl, hn⟩
      · cases h
    · simp only [List.mem_cons, List.not_mem_nil, or_false] at h
      rcases h with h | h <;> cases h
  · rintro ⟨rfl, hn⟩
    refine .inl (.inr ?_)
    unfold skipEvents
    rw [if_pos hn]
    simp

/-! ## Counting in copying commands -/

/-- If it ends normally, `m` advances the progress by `n`. -/
def Counts (n : Nat) (m : Run α) : Prop :=
  ∀ w a w', m w = (.ok a, w') → w'.status.done = w.status.done + n ∧ w'.status.total = w.status.total

theorem counts_bind {m : Run α} {f : α → Run β} {i j : Nat} (hm : Counts i m) (hf : ∀ a, Counts j (f a)) :
    Counts (i + j) (m >>= f) := by
  intro w a w' h
  obtain ⟨x, w1, h1, h2⟩ := run_bind_iff.1 h
  obtain ⟨a1, a2⟩ := hm _ _ _ h1
  obtain ⟨b1, b2⟩ := hf x _ _ _ h2
  exact ⟨by omega, by omega⟩

theorem counts_bind0 {m : Run α} {f : α → Run β} {n : Nat} (hm : Counts 0 m) (hf : ∀ a, Counts n (f a)) :
    Counts n (m >>= f) := by
  have := counts_bind hm hf
  rwa [Nat.zero_add] at this

theorem counts_pure (a : α) : Counts 0 (pure a : Run α) := by
  intro w b w' h
  cases h
  exact ⟨rfl, rfl⟩

theorem counts_lift (r : Res α) : Counts 0 (Run.lift r) := by
  intro w b w' h
  obtain ⟨-, rfl⟩ := run_lift_iff.1 h
  exact ⟨rfl, rfl⟩

theorem counts_unwrap (o : Option α) : Counts 0 (Run.unwrap o) := counts_lift _

theorem counts_expect (o : Except DbErr α) : Counts 0 (expect o) := counts_unwrap _

theorem counts_same {m : Run α} (h : ∀ w, (m w).2.status = w.status) : Counts 0 m := by
  intro w a w' hw
  have := h w
  rw [hw] at this
  simp only at this
  rw [this]
  exact ⟨rfl, rfl⟩

theorem counts_ite (c : Prop) [Decidable c] {n : Nat} {m m' : Run α} (h : Counts n m) (h' : Counts n m') :
    Counts n (if c then m else m') := by split <;> assumption

theorem counts_foldlM {n : Nat} {f : β → α → Run β} (h : ∀ b a, Counts n (f b a)) (l : List α) (b : β) :
    Counts (l.length * n) (l.foldlM f b) := by
  induction l generalizing b with
  | nil =>
    rw [List.length_nil, Nat.zero_mul]
    exact counts_pure b
  | cons a t ih =>
    rw [List.foldlM_cons, List.length_cons, Nat.add_mul, Nat.one_mul, Nat.add_comm]
    exact counts_bind (h b a) fun _ => ih _

theorem counts_foldlM0 {f : β → α → Run β} (h : ∀ b a, Counts 0 (f b a)) (l : List α) (b : β) :
    Counts 0 (l.foldlM f b) := counts_foldlM h l b

theorem exec_status (env : Env) (i : DbId) (s : Sql) (w : World) : (exec env i s w).2.status = w.status := by
  unfold exec
  split
  · rfl
  · split
    · rfl
    · split
      · exact failed_status _ _ _ _
      · rfl

theorem counts_exec (env : Env) (i : DbId) (s : Sql) : Counts 0 (exec env i s) :=
  counts_same (exec_status env i s)

theorem counts_theDb (i : DbId) : Counts 0 (theDb i) := counts_same fun w => by
  unfold theDb; split <;> rfl

theorem counts_begin (env : Env) (i : DbId) : Counts 0 (beginIfNeeded env i) :=
  counts_bind0 (counts_theDb i) fun _ => counts_ite _ (counts_exec _ _ _) (counts_pure _)

theorem counts_getBlock (env : Env) (i : DbId) (k : Int) : Counts 0 (getBlock env i k) := by
  refine counts_bind0 (counts_begin env i) fun _ => counts_ite _ (counts_bind0 (counts_exec _ _ _) fun _ =>
    counts_ite _ (counts_bind0 (counts_theDb i) fun m => ?_) (counts_pure _)) (counts_pure _)
  split <;> exact counts_pure _

theorem counts_setBlock (env : Env) (i : DbId) (k : Int) (d : Bytes) : Counts 0 (setBlock env i k d) :=
  counts_bind0 (counts_begin env i) fun _ => counts_ite _ (counts_bind0 (counts_exec _ _ _) fun _ =>
    counts_ite _ (counts_pure _) (counts_pure _)) (counts_pure _)

theorem counts_ser (env : Env) (b : MapBlock) : Counts 0 (ser env b) := counts_same fun _ => rfl

theorem counts_deser (env : Env) (d : Bytes) : Counts 0 (deser env d) := by
  unfold deser
  split
  · exact counts_pure _
  · exact counts_pure _
  · exact counts_lift _

theorem counts_getGenerated (env : Env) (i : DbId) (k : Int) : Counts 0 (getGenerated env i k) := by
  refine counts_bind0 (counts_getBlock env i k) fun r => ?_
  split <;> exact counts_pure _

theorem counts_incDone : Counts 1 incDone := by
  intro w a w' h
  rw [incDone_run] at h
  cases h
  exact ⟨rfl, rfl⟩

theorem counts_incFailed : Counts 0 incFailed := by
  intro w a w' h
  rw [incFailed_run] at h
  cases h
  exact ⟨rfl, rfl⟩

theorem counts_setState (s : InstState) : Counts 0 (setState s) := by
  intro w a w' h
  rw [setState_run] at h
  cases h
  exact ⟨rfl, rfl⟩

theorem counts_save (env : Env) (b : MapBlock) (k : Int) {f : Unit → Run α} (hf : Counts 0 (f ())) :
    Counts 0 (ser env b >>= fun s => setBlock env .main k s >>= fun r => expect r >>= f) :=
  counts_bind0 (counts_ser env b) fun _ => counts_bind0 (counts_setBlock _ _ _ _) fun _ =>
    counts_bind0 (counts_expect _) fun _ => hf

theorem counts_cloneCached (env : Env) (cache : CacheMap BlockResult) (key : Int) :
    Counts 0 (cloneCached env cache key) := by
  unfold cloneCached
  split
  · exact counts_pure _
  · refine counts_bind0 (counts_getGenerated _ _ _) fun o => ?_
    cases o with
    | none => exact counts_pure _
    | some d => exact counts_bind0 (counts_deser _ _) fun _ => counts_pure _

theorem counts_overlayCached (env : Env) (cache : CacheMap (Option MapBlock)) (key : Int) :
    Counts 0 (overlayCached env cache key) := by
  unfold overlayCached
  split
  · exact counts_pure _
  · refine counts_bind0 (counts_getGenerated _ _ _) fun o => ?_
    cases o with
    | none => exact counts_pure _
    | some d => exact counts_bind0 (counts_deser _ _) fun _ => counts_pure _

theorem counts_cloneStep (env : Env) (a : Area) (o : Vec3) (cache : CacheMap BlockResult) (k : Int) :
    Counts 1 (cloneStep env a o cache k) := by
  refine counts_bind (j := 0) counts_incDone fun _ => counts_bind0 (counts_cloneCached _ _ _) fun ⟨r, cache⟩ => ?_
  simp only
  split
  · exact counts_pure _
  · exact counts_bind0 counts_incFailed fun _ => counts_pure _
  · refine counts_bind0 (counts_unwrap _) fun part => counts_bind0 (counts_foldlM0 (fun st pos => ?_) _ _) fun st =>
      counts_bind0 (counts_lift _) fun b => counts_save _ _ _ (counts_pure _)
    unfold cloneSrc
    refine counts_ite _ (counts_pure _) (counts_bind0 (counts_lift _) fun k =>
      counts_bind0 (counts_cloneCached _ _ _) fun ⟨r, cache⟩ => ?_)
    simp only
    split
    · exact counts_bind0 (counts_lift _) fun _ => counts_pure _
    · exact counts_pure _

theorem counts_copyWhole (env : Env) (k : Int) : Counts 0 (copyWhole env k) :=
  counts_bind0 (counts_getBlock _ _ _) fun _ => counts_bind0 (counts_expect _) fun _ =>
    counts_ite _ (counts_bind0 (counts_setBlock _ _ _ _) fun _ => counts_expect _) (counts_pure _)

theorem counts_overlayStep (env : Env) (area : Option Area) (invert : Bool) (k : Int) :
    Counts 1 (overlayStep env area invert k) := by
  refine counts_bind (j := 0) counts_incDone fun _ => ?_
  cases area with
  | none => exact counts_copyWhole env k
  | some a =>
    refine counts_ite _ (counts_copyWhole env k) ?_
    unfold copyPart
    refine counts_bind0 (counts_getGenerated _ _ _) fun o => ?_
    cases o with
    | none => exact counts_pure _
    | some d =>
      refine counts_bind0 (counts_getBlock _ _ _) fun _ => counts_bind0 (counts_expect _) fun _ =>
        counts_bind0 (counts_deser _ _) fun r => ?_
      cases r with
      | error e => exact counts_incFailed
      | ok src =>
        refine counts_bind0 (counts_deser _ _) fun r => ?_
        cases r with
        | error e => exact counts_incFailed
        | ok dst =>
          refine counts_bind0 (counts_unwrap _) fun part => ?_
          exact counts_bind0 (counts_lift _) fun b => counts_bind0 (counts_lift _) fun m =>
            counts_bind0 (counts_lift _) fun b => counts_bind0 (counts_ser env _) fun _ =>
            counts_bind0 (counts_setBlock _ _ _ _) fun _ => counts_expect _

theorem counts_overlayOffsetStep (env : Env) (area : Option Area) (o : Vec3)
    (cache : CacheMap (Option MapBlock)) (k : Int) : Counts 1 (overlayOffsetStep env area o cache k) := by
  refine counts_bind (j := 0) counts_incDone fun _ => counts_bind0 (counts_getGenerated _ _ _) fun r => ?_
  cases r with
  | none => exact counts_pure _
  | some d =>
    refine counts_bind0 (counts_deser _ _) fun r => ?_
    cases r with
    | error e => exact counts_bind0 counts_incFailed fun _ => counts_pure _
    | ok dst =>
      have hrest : ∀ part : Area, Counts 0 (do
          let (dst, cache) ← (part.sub o).toTouchingBlockArea.positions.foldlM
            (overlaySrc env (part.sub o) o (Vec3.fromBlockKey k)) (dst, cache)
          let dst ← Run.lift (cleanNimap env.build dst)
          expect (← setBlock env .main k (← ser env dst))
          return cache : Run (CacheMap (Option MapBlock))) := by
        intro part
        refine counts_bind0 (counts_foldlM0 (fun st pos => ?_) _ _) fun st =>
          counts_bind0 (counts_lift _) fun b => counts_save _ _ _ (counts_pure _)
        unfold overlaySrc
        refine counts_ite _ (counts_pure _) (counts_bind0 (counts_lift _) fun k =>
          counts_bind0 (counts_overlayCached _ _ _) fun ⟨r, cache⟩ => ?_)
        simp only
        split
        · exact counts_bind0 (counts_lift _) fun _ => counts_pure _
        · exact counts_pure _
      simp only
      split
      · exact counts_bind0 (counts_pure _) hrest
      · exact counts_bind0 (counts_unwrap _) hrest

/-- Query, then a loop over the blocks found. -/
theorem counts_loop {env : Env} {i : DbId} {names : List Bytes} {area : Option Area} {invert partial_ : Bool}
    {w w' : World} {dur cur : Table} {cols : List Col} (ho : OpenAt w i dur cur cols) (hs : w.status = {})
    {loop : List Int → Run β} (hl : ∀ ks, Counts ks.length (loop ks)) {k : β → Run Unit} (hk : ∀ b, Counts 0 (k b))
    (h : (queryKeys env i names area invert partial_ >>= fun ks => loop ks >>= k : Run Unit) w = (.ok (), w')) :
    w'.status.total = (queryHits names area invert partial_ cur).length ∧
    w'.status.done = (queryHits names area invert partial_ cur).length := by
  obtain ⟨ks, w1, h1, h⟩ := run_bind_iff.1 h
  obtain ⟨rfl, q⟩ := queryKeys_iff ho h1
  have h2 := counts_bind (hl ((queryHits names area invert partial_ cur).map (·.1))) hk _ _ _ h
  rw [q.status, hs] at h2
  simp only [List.length_map, Nat.add_zero, Nat.zero_add] at h2
  exact ⟨h2.2, h2.1⟩

theorem mapM_length {f : α → Res β} {l : List α} {l' : List β} (h : l.mapM f = .ok l') : l'.length = l.length := by
  induction l generalizing l' with
  | nil =>
    cases h
    rfl
  | cons a t ih =>
    rw [List.mapM_cons] at h
    cases h1 : f a with
    | error e => rw [h1] at h; cases h
    | ok b =>
      cases h2 : t.mapM f with
      | error e => rw [h1, h2] at h; cases h
      | ok bs =>
        rw [h1, h2] at h
        cases h
        simp [ih h2]

theorem sortKeys_length {o : Vec3} {ks ks' : List Int} (h : sortKeys o ks = .ok ks') : ks'.length = ks.length := by
  unfold sortKeys at h
  split at h
  · cases h
    rfl
  · cases h1 : (ks.mapM fun k => do
      let s ← sortKey o k
      pure (s, k) : Res _) with
    | error e => rw [h1] at h; cases h
    | ok l =>
      rw [h1] at h
      cases h
      simp [mapM_length h1]

end MapEditr
