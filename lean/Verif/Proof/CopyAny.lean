import Verif.Proof.OverlayPlain
/-! # Lemmas: runs of the copying commands that finish

`F` says whether reads from the database may have failed. -/

namespace MapEditr
open Spec
set_option linter.unusedSimpArgs false
set_option linter.unusedVariables false

/-- Failing statements never undo the transaction. -/
class Calm (env : Env) : Prop where
  undo : ∀ n, env.fail n = true → env.undo n = false

/-! ## Reading -/

section
variable {F : Prop}

theorem getGenerated_any {env : Env} [Calm env] (hF : ∀ n, env.fail n = true → F) {i : DbId} {w : World}
    {dur cur : Table} {cols : List Col} (ho : OpenAt w i dur cur cols) (k : Int) :
    ∃ r w', getGenerated env i k w = (.ok r, w') ∧ Quiet w w' ∧
      ((F ∧ r = none) ∨ r = genRow env.codec cur k) := by
  unfold getGenerated
  cases hf : env.fail w.trace.length with
  | true =>
    refine ⟨none, w.did i (.select k) false, ?_, ⟨rfl, rfl, rfl⟩, .inl ⟨hF _ hf, rfl⟩⟩
    rw [run_bind, getBlock_open ho, hf]
    simp only [if_true]
    rw [failed_plain (Calm.undo _ hf)]
    rfl
  | false =>
    refine ⟨_, w.did i (.select k) true, ?_, ⟨rfl, rfl, rfl⟩, .inr rfl⟩
    rw [run_bind, getBlock_open ho, hf]
    simp only [Bool.false_eq_true, if_false]
    unfold genRow
    cases cur.get? k with
    | none => rfl
    | some d => simp only [Option.filter]; rfl

/-- What the cache holds is true, or nothing if reads may fail. -/
def CacheSub (F : Prop) (f : Int → Option β) (cache : CacheMap (Option β)) : Prop :=
  ∀ e ∈ cache.map, (F ∧ e.2 = none) ∨ e.2 = f e.1

theorem cacheSub_empty (f : Int → Option β) (cap : Nat) : CacheSub F f (CacheMap.withCapacity cap) := by
  intro e he
  cases he

theorem cacheSub_insert {f : Int → Option β} {cache : CacheMap (Option β)} (h : CacheSub F f cache) (k : Int)
    {r : Option β} (hr : (F ∧ r = none) ∨ r = f k) : CacheSub F f (cache.insert k r) := by
  have key : ∀ m : List (Int × Option β), (∀ e ∈ m, e ∈ cache.map) →
      ∀ e ∈ (k, r) :: CacheMap.remove m k, (F ∧ e.2 = none) ∨ e.2 = f e.1 := by
    intro m hm e he
    rcases List.mem_cons.1 he with rfl | he
    · exact hr
    · exact h e (hm e (mem_remove.1 he).1)
  unfold CacheMap.insert
  split
  rename_i q m he
  refine key m ?_
  split at he
  · split at he
    · cases he
      intro e he
      exact (mem_remove.1 he).1
    · cases he
      exact fun e he => he
  · cases he
    exact fun e he => he

theorem cloneCached_any {env : Env} [Calm env] (hF : ∀ n, env.fail n = true → F) {w : World} {t dur cur : Table}
    {cols : List Col} (ho : OpenAt w .main dur cur cols) {cache : CacheMap BlockResult}
    (hc : CacheSub F (orig env.codec t) cache) {k : Int} (hk : cur.get? k = t.get? k) :
    ∃ r cache' w', cloneCached env cache k w = (.ok (r, cache'), w') ∧
      ((F ∧ r = none) ∨ r = orig env.codec t k) ∧ CacheSub F (orig env.codec t) cache' ∧ Quiet w w' := by
  unfold cloneCached
  cases hg : cache.get k with
  | some r => exact ⟨r, cache, w, rfl, hc _ (cache_get_mem hg), hc, .refl w⟩
  | none =>
    obtain ⟨r, w1, h1, q, hr⟩ := getGenerated_any (env := env) hF ho k
    simp only
    rw [run_bind_ok h1]
    have he : genRow env.codec cur k = genRow env.codec t k := by unfold genRow; rw [hk]
    rw [he] at hr
    cases r with
    | none =>
      have hr : (F ∧ (none : BlockResult) = none) ∨ none = orig env.codec t k := by
        rcases hr with hr | hr
        · exact .inl ⟨hr.1, rfl⟩
        · exact .inr (orig_none hr.symm).symm
      exact ⟨none, _, w1, rfl, hr, cacheSub_insert hc k hr, q⟩
    | some d =>
      have hr : genRow env.codec t k = some d := by
        rcases hr with hr | hr
        · cases hr.2
        · exact hr.symm
      simp only
      obtain ⟨r, d1, d2, d3⟩ := deser_run (env := env) d w1
      rw [run_bind_ok d1]
      have := (orig_some hr d2 d3).symm
      exact ⟨some r, _, w1, rfl, .inr this, cacheSub_insert hc k (.inr this), q⟩

theorem overlayCached_any {env : Env} [Calm env] (hF : ∀ n, env.fail n = true → F) {w : World} {dur src : Table}
    {cols : List Col} (ho : OpenAt w .input dur src cols) {cache : CacheMap (Option MapBlock)}
    (hc : CacheSub F (origOk env.codec src) cache) (k : Int) :
    ∃ r cache' w', overlayCached env cache k w = (.ok (r, cache'), w') ∧
      ((F ∧ r = none) ∨ r = origOk env.codec src k) ∧ CacheSub F (origOk env.codec src) cache' ∧ Quiet w w' := by
  unfold overlayCached
  cases hg : cache.get k with
  | some r => exact ⟨r, cache, w, rfl, hc _ (cache_get_mem hg), hc, .refl w⟩
  | none =>
    obtain ⟨r, w1, h1, q, hr⟩ := getGenerated_any (env := env) hF ho k
    simp only
    rw [run_bind_ok h1]
    cases r with
    | none =>
      have hr : (F ∧ (none : Option MapBlock) = none) ∨ none = origOk env.codec src k := by
        rcases hr with hr | hr
        · exact .inl ⟨hr.1, rfl⟩
        · refine .inr ?_
          unfold origOk
          rw [orig_none hr.symm]
      exact ⟨none, _, w1, rfl, hr, cacheSub_insert hc k hr, q⟩
    | some d =>
      have hr : genRow env.codec src k = some d := by
        rcases hr with hr | hr
        · cases hr.2
        · exact hr.symm
      simp only
      obtain ⟨r, d1, d2, d3⟩ := deser_run (env := env) d w1
      rw [run_bind_ok d1]
      have : r.toOption = origOk env.codec src k := by
        unfold origOk
        rw [orig_some hr d2 d3]
        cases r <;> rfl
      exact ⟨r.toOption, _, w1, rfl, .inr this, cacheSub_insert hc k (.inr this), q⟩

/-! ## The loop over source blocks -/

/-- One source block: what `find` says was merged; nothing, if reads may fail. -/
def MergedOne (F : Prop) (bd : Build) (sp : Area) (o dp : Vec3) (find : Vec3 → Option MapBlock) (b : MapBlock)
    (q : Vec3) (b1 : MapBlock) : Prop :=
  (b1 = b ∧ (F ∨ find q = none)) ∨ ∃ src, find q = some src ∧ mergeFrag bd sp o dp q src b = .ok b1

theorem cloneSrc_any {env : Env} [Calm env] (hF : ∀ n, env.fail n = true → F) {w w' : World} {t dur cur : Table} {cols : List Col}
    (ho : OpenAt w .main dur cur cols) {cache cache' : CacheMap BlockResult}
    (hc : CacheSub F (orig env.codec t) cache) {sp : Area} {o dp q : Vec3}
    (hp : Within 1937 q → cur.get? (keyOf q) = t.get? (keyOf q)) {b b1 : MapBlock}
    (h : cloneSrc env sp o dp (b, cache) q w = (.ok (b1, cache'), w')) :
    CacheSub F (orig env.codec t) cache' ∧ Quiet w w' ∧
      MergedOne F env.build sp o dp (findIn env.codec t) b q b1 := by
  unfold cloneSrc at h
  by_cases hv : Within 1937 q
  · rw [isValidBlockPos_iff.2 hv, toBlockKey_valid _ (within_valid hv)] at h
    obtain ⟨r, c1, w1, h1, h2, h3, h4⟩ := cloneCached_any (env := env) hF ho hc (hp hv)
    simp only [Bool.not_true, Bool.false_eq_true, if_false] at h
    rw [lift_ok, run_pure_bind, run_bind_ok h1] at h
    simp only at h
    match r, h2, h with
    | none, h2, h =>
      cases h
      refine ⟨h3, h4, .inl ⟨rfl, h2.imp And.left fun h2 => ?_⟩⟩
      unfold findIn
      rw [if_pos hv, ← h2]
    | some (.error e), h2, h =>
      cases h
      refine ⟨h3, h4, .inl ⟨rfl, h2.imp And.left fun h2 => ?_⟩⟩
      unfold findIn
      rw [if_pos hv, ← h2]
    | some (.ok sb), h2, h =>
      simp only at h
      obtain ⟨b2, w2, e1, e2⟩ := run_bind_iff.1 h
      obtain ⟨e1', rfl⟩ := run_lift_iff.1 e1
      cases e2
      refine ⟨h3, h4, .inr ⟨sb, ?_, e1'⟩⟩
      rcases h2 with h2 | h2
      · cases h2.2
      · unfold findIn
        rw [if_pos hv, ← h2]
  · have hi : ¬ q.isValidBlockPos = true := fun h => hv (isValidBlockPos_iff.1 h)
    rw [Bool.eq_false_iff.2 hi] at h
    cases h
    exact ⟨hc, .refl w, .inl ⟨rfl, .inr (if_neg hv)⟩⟩

theorem overlaySrc_any {env : Env} [Calm env] (hF : ∀ n, env.fail n = true → F) {w w' : World} {dur src : Table} {cols : List Col}
    (ho : OpenAt w .input dur src cols) {cache cache' : CacheMap (Option MapBlock)}
    (hc : CacheSub F (origOk env.codec src) cache) {sp : Area} {o dp q : Vec3} {b b1 : MapBlock}
    (h : overlaySrc env sp o dp (b, cache) q w = (.ok (b1, cache'), w')) :
    CacheSub F (origOk env.codec src) cache' ∧ Quiet w w' ∧
      MergedOne F env.build sp o dp (findIn env.codec src) b q b1 := by
  unfold overlaySrc at h
  by_cases hv : Within 1937 q
  · rw [isValidBlockPos_iff.2 hv, toBlockKey_valid _ (within_valid hv)] at h
    obtain ⟨r, c1, w1, h1, h2, h3, h4⟩ := overlayCached_any (env := env) hF ho hc (keyOf q)
    simp only [Bool.not_true, Bool.false_eq_true, if_false] at h
    rw [lift_ok, run_pure_bind, run_bind_ok h1] at h
    simp only at h
    match r, h2, h with
    | none, h2, h =>
      cases h
      refine ⟨h3, h4, .inl ⟨rfl, h2.imp And.left fun h2 => ?_⟩⟩
      rw [findIn_eq, if_pos hv, ← h2]
    | some sb, h2, h =>
      simp only at h
      obtain ⟨b2, w2, e1, e2⟩ := run_bind_iff.1 h
      obtain ⟨e1', rfl⟩ := run_lift_iff.1 e1
      cases e2
      refine ⟨h3, h4, .inr ⟨sb, ?_, e1'⟩⟩
      rcases h2 with h2 | h2
      · cases h2.2
      · rw [findIn_eq, if_pos hv, ← h2]
  · have hi : ¬ q.isValidBlockPos = true := fun h => hv (isValidBlockPos_iff.1 h)
    rw [Bool.eq_false_iff.2 hi] at h
    cases h
    exact ⟨hc, .refl w, .inl ⟨rfl, .inr (if_neg hv)⟩⟩

/-- `find'` knows nothing but what `find` says, and all of it unless reads may fail. -/
structure Knows (F : Prop) (find find' : Vec3 → Option MapBlock) : Prop where
  sub : ∀ q src, find' q = some src → find q = some src
  all : F ∨ find' = find

/-- The loop is a fold over what was found. -/
theorem srcLoop_any {σ : Type} {I : σ → Prop} {J : World → Prop} {bd : Build} {sp : Area} {o dp : Vec3}
    {find : Vec3 → Option MapBlock} {f : MapBlock × σ → Vec3 → Run (MapBlock × σ)} {ps : List Vec3}
    (hstep : ∀ q ∈ ps, ∀ b b1 s s1 w w1, I s → J w → f (b, s) q w = (.ok (b1, s1), w1) →
      I s1 ∧ Quiet w w1 ∧ MergedOne F bd sp o dp find b q b1)
    (hJ : ∀ w w1, Quiet w w1 → J w → J w1) (hnd : ps.Nodup) {b b1 : MapBlock} {s s1 : σ} {w w1 : World}
    (hI : I s) (hw : J w) (h : ps.foldlM f (b, s) w = (.ok (b1, s1), w1)) :
    I s1 ∧ Quiet w w1 ∧ ∃ find', Knows F find find' ∧ srcFold bd sp o dp find' b ps = .ok b1 := by
  induction ps generalizing b s w with
  | nil =>
    cases h
    exact ⟨hI, .refl _, find, ⟨fun _ _ h => h, .inr rfl⟩, rfl⟩
  | cons q ps ih =>
    rw [List.nodup_cons] at hnd
    rw [List.foldlM_cons] at h
    obtain ⟨⟨b2, s2⟩, w2, h1, h2⟩ := run_bind_iff.1 h
    obtain ⟨g1, g2, g3⟩ := hstep q List.mem_cons_self _ _ _ _ _ _ hI hw h1
    obtain ⟨i1, i2, find', i3, i4⟩ := ih (fun r hr => hstep r (List.mem_cons_of_mem _ hr)) hnd.2 g1
      (hJ _ _ g2 hw) h2
    refine ⟨i1, g2.trans i2, ?_⟩
    have hcongr : ∀ g : Vec3 → Option MapBlock, (∀ r, r ≠ q → g r = find' r) → ∀ b,
        srcFold bd sp o dp g b ps = srcFold bd sp o dp find' b ps := by
      intro g hg b
      unfold srcFold
      clear ih h h2 i4 hstep
      induction ps generalizing b with
      | nil => rfl
      | cons r ps ih' =>
        rw [List.mem_cons, not_or] at hnd
        rw [List.foldlM_cons, List.foldlM_cons, hg r (Ne.symm hnd.1.1)]
        have : ∀ x : Res MapBlock, (x >>= fun b => ps.foldlM (fun b q => match g q with
            | some src => mergeFrag bd sp o dp q src b
            | none => .ok b) b) = (x >>= fun b => ps.foldlM (fun b q => match find' q with
            | some src => mergeFrag bd sp o dp q src b
            | none => .ok b) b) := by
          intro x
          cases x with
          | error e => rfl
          | ok b => exact ih' ⟨hnd.1.2, (List.nodup_cons.1 hnd.2).2⟩ b
        exact this _
    rcases g3 with ⟨rfl, hf⟩ | ⟨src, e1, e2⟩
    · refine ⟨fun r => if r = q then none else find' r, ⟨?_, ?_⟩, ?_⟩
      · intro r sb hr
        split at hr
        · cases hr
        · exact i3.sub r sb hr
      · rcases hf with hf | hf
        · exact .inl hf
        · refine i3.all.imp id fun hall => ?_
          funext r
          split
          · next e => rw [e, hf]
          · rw [hall]
      · have := hcongr (fun r => if r = q then none else find' r) (fun r hr => if_neg hr) b2
        rw [i4] at this
        unfold srcFold at this ⊢
        rw [List.foldlM_cons]
        simp only [if_true]
        exact this
    · refine ⟨fun r => if r = q then some src else find' r, ⟨?_, ?_⟩, ?_⟩
      · intro r sb hr
        split at hr
        · next e =>
          cases hr
          rw [e]
          exact e1
        · exact i3.sub r sb hr
      · refine i3.all.imp id fun hall => ?_
        funext r
        split
        · next e => rw [e, e1]
        · rw [hall]
      · have := hcongr (fun r => if r = q then some src else find' r) (fun r hr => if_neg hr) b2
        rw [i4] at this
        unfold srcFold at this ⊢
        rw [List.foldlM_cons]
        simp only [if_true]
        rw [e2]
        exact this

/-! ## Writing -/

/-- `d` is the data of the tidied block. -/
def Made (env : Env) (b : MapBlock) (d : Bytes) : Prop :=
  ∃ b2 n, cleanNimap env.build b = .ok b2 ∧ serialize env.codec (env.ord n) b2 = .ok d

theorem write_raw {env : Env} {w w' : World} {dur cur : Table} {cols : List Col}
    (ho : OpenAt w .main dur cur cols) {b : MapBlock} (k : Int) {a a' : α}
    (hr : (do
        let dst ← Run.lift (cleanNimap env.build b)
        expect (← setBlock env .main k (← ser env dst))
        return a : Run α) w = (.ok a', w')) :
    a' = a ∧ ∃ d', Made env b d' ∧ OpenAt w' .main dur (cur.put k d') cols ∧
      w'.dbs .input = w.dbs .input ∧ w'.events = w.events ∧ w'.status = w.status := by
  obtain ⟨b2, w1, e0, hr⟩ := run_bind_iff.1 hr
  obtain ⟨h1, hw1⟩ := run_lift_iff.1 e0
  rw [hw1] at hr
  change (do let s ← ser env b2; let r ← setBlock env .main k s; expect r; return a : Run α) w = _ at hr
  obtain ⟨s, w2, e3, hr⟩ := run_bind_iff.1 hr
  obtain ⟨h3, hw2⟩ := ser_iff.1 e3
  rw [hw2, ← run_bind_assoc] at hr
  obtain ⟨u, w1, e1, e2⟩ := run_bind_iff.1 hr
  obtain ⟨-, rfl⟩ := (setBlock_expect_iff ho k s).1 e1
  cases e2
  refine ⟨rfl, s, ⟨b2, _, h1, h3⟩, ?_, ?_, rfl, rfl⟩
  · unfold OpenAt
    rw [did_dbs, setDb_self]
  · rw [did_dbs, setDb_other _ (by decide)]

theorem Made.saved {env : Env} (hE : EnvOk env) {b0 b : MapBlock} {G : Nat → MapBlock × Nat} (w0 : Wf b0)
    (h : CopyState b0 b G) {d : Bytes} (hm : Made env b d) :
    ∃ b', Represents env.codec d b' ∧ Remade b0 b' G := by
  obtain ⟨b2, n, h1, h2⟩ := hm
  obtain ⟨s, b', h3, h4, h5⟩ := copyState_saved hE.codec hE.full w0 h h1 (env.ord n) (hE.ord _)
  rw [h2] at h3
  cases h3
  exact ⟨b', h4, h5⟩

/-! ## Loops that change at most the row they are at -/

/-- One step. -/
structure AnyStep (F : Prop) (Row : Int → Option Bytes → Prop) (bad : Int → Bool) (k : Int) (dur cur : Table)
    (cols : List Col) (w : World) (cur' : Table) (w' : World) : Prop where
  isOpen : OpenAt w' .main dur cur' cols
  nodup : (cur.map (·.1)).Nodup → (cur'.map (·.1)).Nodup
  off : ∀ q, q ≠ k → cur'.get? q = cur.get? q
  row : Row k (cur'.get? k)
  input : w'.dbs .input = w.dbs .input
  events : w'.events = w.events
  total : w'.status.total = w.status.total
  done : w'.status.done = w.status.done + 1
  failed : F ∨ w'.status.failed = w.status.failed + if bad k then 1 else 0

/-- The whole loop. -/
structure AnyLoop (F : Prop) (Row : Int → Option Bytes → Prop) (bad : Int → Bool) (ks : List Int) (dur cur : Table)
    (cols : List Col) (w : World) (cur' : Table) (w' : World) : Prop where
  isOpen : OpenAt w' .main dur cur' cols
  nodup : (cur.map (·.1)).Nodup → (cur'.map (·.1)).Nodup
  off : ∀ q, q ∉ ks → cur'.get? q = cur.get? q
  row : ∀ k ∈ ks, Row k (cur'.get? k)
  input : w'.dbs .input = w.dbs .input
  events : w'.events = w.events
  total : w'.status.total = w.status.total
  done : w'.status.done = w.status.done + ks.length
  failed : F ∨ w'.status.failed = w.status.failed + (ks.filter bad).length

/-- `N k q`: the step for `k` looks at row `q`. -/
theorem anyLoop {σ : Type} {Row : Int → Option Bytes → Prop} {bad : Int → Bool} {N : Int → Int → Prop} {I : σ → Prop}
    {step : σ → Int → Run σ} {dur t : Table} {cols : List Col} {indb : Option MapDb} {ks : List Int}
    (hpw : ks.Pairwise fun a b => a ≠ b ∧ ¬ N b a)
    (hstep : ∀ k ∈ ks, ∀ s s' w w' cur, I s → OpenAt w .main dur cur cols → w.dbs .input = indb →
      (∀ q, N k q → cur.get? q = t.get? q) → step s k w = (.ok s', w') →
      I s' ∧ ∃ cur', AnyStep F Row bad k dur cur cols w cur' w')
    {s s' : σ} {w w' : World} {cur : Table} (hI : I s) (ho : OpenAt w .main dur cur cols)
    (hi : w.dbs .input = indb) (hN : ∀ k ∈ ks, ∀ q, N k q → cur.get? q = t.get? q)
    (h : ks.foldlM step s w = (.ok s', w')) : ∃ cur', AnyLoop F Row bad ks dur cur cols w cur' w' := by
  induction ks generalizing s w cur with
  | nil =>
    cases h
    exact ⟨cur, ho, id, fun _ _ => rfl, by simp, rfl, rfl, rfl, rfl, .inr rfl⟩
  | cons k ks ih =>
    rw [List.pairwise_cons] at hpw
    rw [List.foldlM_cons] at h
    obtain ⟨s1, w1, h1, h2⟩ := run_bind_iff.1 h
    obtain ⟨g1, cur1, g2⟩ := hstep k List.mem_cons_self _ _ _ _ _ hI ho hi (hN k List.mem_cons_self) h1
    obtain ⟨cur2, l⟩ := ih hpw.2 (fun q hq => hstep q (List.mem_cons_of_mem _ hq)) g1 g2.isOpen
      (g2.input.trans hi) (fun q hq r hr => by
        have hne : r ≠ k := fun e => (hpw.1 q hq).2 (e ▸ hr)
        rw [g2.off r hne]
        exact hN q (List.mem_cons_of_mem _ hq) r hr) h2
    refine ⟨cur2, l.isOpen, fun h => l.nodup (g2.nodup h), ?_, ?_, l.input.trans g2.input,
      l.events.trans g2.events, l.total.trans g2.total, ?_, ?_⟩
    · intro q hq
      rw [List.mem_cons, not_or] at hq
      rw [l.off q hq.2, g2.off q hq.1]
    · intro q hq
      rcases List.mem_cons.1 hq with rfl | hq
      · rw [l.off q fun hm => (hpw.1 q hm).1 rfl]
        exact g2.row
      · exact l.row q hq
    · rw [l.done, g2.done, List.length_cons]
      omega
    · rcases g2.failed with hf | hf
      · exact .inl hf
      · refine l.failed.imp id fun hl => ?_
        rw [hl, hf, List.filter_cons]
        cases bad k <;> simp <;> omega

/-! ## `clone` and `overlay` with an offset -/

/-- The row of block `k` afterwards: as before, or what merging the blocks that were found gives. -/
def RawRow (F : Prop) (env : Env) (src t : Table) (part : Int → Area) (o : Vec3) (k : Int)
    (r : Option Bytes) : Prop :=
  (r = t.get? k ∧ (F ∨ ∀ b, orig env.codec t k ≠ some (.ok b))) ∨
  ∃ b find b1 d', orig env.codec t k = some (.ok b) ∧ Knows F (findIn env.codec src) find ∧
    srcFold env.build ((part k).sub o) o (Vec3.fromBlockKey k) find b
      ((part k).sub o).toTouchingBlockArea.positions = .ok b1 ∧ Made env b1 d' ∧ r = some d'

/-- The row of block `k` afterwards: as before, or with nodes copied from blocks that were found. -/
def SomeRow (F : Prop) (c : Codec) (src t : Table) (part : Int → Area) (o : Vec3) (k : Int) (r : Option Bytes) : Prop :=
  (r = t.get? k ∧ (F ∨ ∀ b, orig c t k ≠ some (.ok b))) ∨
  ∃ b find d' b', orig c t k = some (.ok b) ∧ Knows F (findIn c src) find ∧ r = some d' ∧
    Represents c d' b' ∧ Remade b b' fun i =>
      fromSrc (fun q => InBox ((part k).sub o).min ((part k).sub o).max q) find
        (srcAt (Vec3.fromBlockKey k) o i) (b, i)

theorem anyStep_same {Row : Int → Option Bytes → Prop} {bad : Int → Bool} {k : Int} {dur cur : Table}
    {cols : List Col} {w w1 : World} (ho : OpenAt w .main dur cur cols)
    (q : Quiet (w.setStatus fun s => { s with done := s.done + 1 }) w1) (hr : Row k (cur.get? k))
    (hb : F ∨ bad k = false) : AnyStep F Row bad k dur cur cols w cur w1 :=
  ⟨q.open (w := w.setStatus fun s => { s with done := s.done + 1 }) ho, id, fun _ _ => rfl, hr, by rw [q.dbs],
    q.events, by rw [q.status], by rw [q.status], hb.imp id fun h => by rw [q.status, h]; rfl⟩

theorem anyStep_fail {Row : Int → Option Bytes → Prop} {bad : Int → Bool} {k : Int} {dur cur : Table}
    {cols : List Col} {w w1 : World} (ho : OpenAt w .main dur cur cols)
    (q : Quiet (w.setStatus fun s => { s with done := s.done + 1 }) w1) (hr : Row k (cur.get? k))
    (hb : F ∨ bad k = true) :
    AnyStep F Row bad k dur cur cols w cur (w1.setStatus fun s => { s with failed := s.failed + 1 }) :=
  ⟨q.open (w := w.setStatus fun s => { s with done := s.done + 1 }) ho, id, fun _ _ => rfl, hr,
    by show w1.dbs .input = _; rw [q.dbs], q.events, by show w1.status.total = _; rw [q.status],
    by show w1.status.done = _; rw [q.status],
    hb.imp id fun h => by show w1.status.failed + 1 = _; rw [q.status, h]; rfl⟩

theorem anyStep_put {Row : Int → Option Bytes → Prop} {bad : Int → Bool} {k : Int} {dur cur : Table}
    {cols : List Col} {w w1 w2 : World} {d : Bytes}
    (q : Quiet (w.setStatus fun s => { s with done := s.done + 1 }) w1)
    (ho : OpenAt w2 .main dur (cur.put k d) cols) (hr : Row k (some d))
    (hd : w2.dbs .input = w1.dbs .input) (he : w2.events = w1.events) (hs : w2.status = w1.status)
    (hb : F ∨ bad k = false) : AnyStep F Row bad k dur cur cols w (cur.put k d) w2 :=
  ⟨ho, fun h => Table.nodup_put h _ _, fun q hq => by rw [Table.get?_put, if_neg hq],
    by rw [Table.get?_put, if_pos rfl]; exact hr, by rw [hd, q.dbs], he.trans q.events,
    by rw [hs, q.status], by rw [hs, q.status], hb.imp id fun h => by rw [hs, q.status, h]; rfl⟩

theorem Knows.fine {c : Codec} (hc : c.Lawful) {t : Table} {find : Vec3 → Option MapBlock}
    (h : Knows F (findIn c t) find) {P : MapBlock → Prop} (ha : AllBlocks c t P)
    (q : Vec3) (src : MapBlock) (hq : find q = some src) : Wf src ∧ P src :=
  findIn_fine hc ha q src (h.sub q src hq)

theorem RawRow.row {env : Env} (hE : EnvOk env) {src t : Table} (ha : AllBlocks env.codec t (Mild env.build))
    (has : AllBlocks env.codec src (Mild env.build)) {part : Int → Area} {o : Vec3} {k : Int}
    (h1 : ((part k).sub o).isValid = true)
    (h2 : ∀ p, InBox ((part k).sub o).min ((part k).sub o).max p → InBlock (Vec3.fromBlockKey k) (shift p o))
    {r : Option Bytes} (h : RawRow F env src t part o k r) : SomeRow F env.codec src t part o k r := by
  rcases h with h | ⟨b, find, b1, d', hr, kn, hs, hm, rfl⟩
  · exact .inl h
  · obtain ⟨d0, e1, e2, -⟩ := (orig_ok hE.codec).1 hr
    have wf0 := wf_of_deserialize (deserialize_iff.2 e2)
    have s0 := ha _ _ _ (Table.get?_some_mem e1) e2
    have f2 := srcFold_all wf0 s0.room
      (fun q src hq => (kn.fine hE.codec has q src hq).imp_right Mild.room) h1 h2
      (fun hb => ⟨s0.small hb, fun q src hq => (kn.fine hE.codec has q src hq).2.small hb⟩) hs
    obtain ⟨b', g1, g2⟩ := hm.saved hE wf0 f2
    exact .inr ⟨b, find, d', b', hr, kn, rfl, g1, g2⟩

/-- The rows `clone` looks at for block `k`. -/
def CloneReads (part : Int → Area) (o : Vec3) (k q : Int) : Prop :=
  q = k ∨ ∃ p ∈ ((part k).sub o).toTouchingBlockArea.positions, Within 1937 p ∧ q = keyOf p

theorem cloneStep_raw {env : Env} [Calm env] (hF : ∀ n, env.fail n = true → F) {w w' : World}
    {t dur cur : Table} {cols : List Col} (ho : OpenAt w .main dur cur cols)
    {cache cache' : CacheMap BlockResult} (hc : CacheSub F (orig env.codec t) cache) {area : Area} {o : Vec3}
    {part : Int → Area} {k : Int} (hN : ∀ q, CloneReads part o k q → cur.get? q = t.get? q)
    (hp : area.absBlockOverlap (Vec3.fromBlockKey k) = some (part k))
    (h : cloneStep env area o cache k w = (.ok cache', w')) :
    CacheSub F (orig env.codec t) cache' ∧
      ∃ cur', AnyStep F (RawRow F env t t part o) (isBad env.codec t) k dur cur cols w cur' w' := by
  have hk := hN k (.inl rfl)
  unfold cloneStep at h
  rw [run_bind_ok (incDone_run w)] at h
  obtain ⟨r, c1, w1, h1, h2, h3, q⟩ := cloneCached_any (env := env) hF
    (w := w.setStatus fun s => { s with done := s.done + 1 }) ho hc hk
  rw [run_bind_ok h1] at h
  match r, h2, h with
  | none, h2, h =>
    cases h
    refine ⟨h3, cur, anyStep_same ho q (.inl ⟨hk, h2.imp And.left fun h2 b => ?_⟩)
      (h2.imp And.left fun h2 => ?_)⟩
    · rw [← h2]
      nofun
    · unfold isBad
      rw [← h2]
  | some (.error e), h2, h =>
    cases h
    refine ⟨h3, cur, anyStep_fail ho q (.inl ⟨hk, h2.imp And.left fun h2 b => ?_⟩)
      (h2.imp And.left fun h2 => ?_)⟩
    · rw [← h2]
      nofun
    · unfold isBad
      rw [← h2]
  | some (.ok b0), h2, h =>
    have hr : orig env.codec t k = some (.ok b0) := by
      rcases h2 with h2 | h2
      · cases h2.2
      · exact h2.symm
    obtain ⟨p1, p2, -⟩ := absOverlap_part (o := o) hp
    simp only at h
    rw [hp] at h
    change (do
      let (dst, cache) ← ((part k).sub o).toTouchingBlockArea.positions.foldlM
        (cloneSrc env ((part k).sub o) o (Vec3.fromBlockKey k)) (b0, c1)
      _ : Run _) w1 = _ at h
    obtain ⟨⟨b1, c2⟩, w2, g1, h⟩ := run_bind_iff.1 h
    obtain ⟨i1, i2, find, i3, i4⟩ := srcLoop_any (I := CacheSub F (orig env.codec t))
      (J := fun w => OpenAt w .main dur cur cols) (bd := env.build) (find := findIn env.codec t)
      (fun p hp b b1 s s1 w w1 hI hJ hh => cloneSrc_any hF hJ hI (fun hv => hN _ (.inr ⟨p, hp, hv, rfl⟩)) hh)
      (fun _ _ q ho => q.open ho) (C04_each_once _ (touching_le p1 p2).1).1 h3 (q.open ho) g1
    obtain ⟨rfl, d', k1, k3, k4, k5, k6⟩ := write_raw (i2.open (q.open ho)) k h
    refine ⟨i1, _, anyStep_put (q.trans i2) k3 (.inr ⟨b0, find, b1, d', hr, i3, i4, k1, rfl⟩) k4 k5 k6 (.inr ?_)⟩
    unfold isBad
    rw [hr]

theorem overlayOffsetStep_raw {env : Env} [Calm env] (hF : ∀ n, env.fail n = true → F) {w w' : World}
    {t src dur cur idur : Table} {cols icols : List Col} (ho : OpenAt w .main dur cur cols)
    (hi : OpenAt w .input idur src icols)
    {cache cache' : CacheMap (Option MapBlock)} (hc : CacheSub F (origOk env.codec src) cache)
    {area : Option Area} {o : Vec3} {k : Int} (hk : cur.get? k = t.get? k)
    (hp : ∀ a, area = some a → a.absBlockOverlap (Vec3.fromBlockKey k) = some (partIn a k))
    {Sel : Vec3 → Prop} (hpo : PartOk Sel (partOf area k) (Vec3.fromBlockKey k) o)
    (h : overlayOffsetStep env area o cache k w = (.ok cache', w')) :
    CacheSub F (origOk env.codec src) cache' ∧
      ∃ cur', AnyStep F (RawRow F env src t (partOf area) o) (isBad env.codec t) k dur cur cols w cur' w' := by
  unfold overlayOffsetStep at h
  rw [run_bind_ok (incDone_run w)] at h
  obtain ⟨r, w1, h1, q, hr⟩ := getGenerated_any (env := env) hF
    (w := w.setStatus fun s => { s with done := s.done + 1 }) ho k
  simp only at h
  rw [run_bind_ok h1] at h
  have he : genRow env.codec cur k = genRow env.codec t k := by unfold genRow; rw [hk]
  rw [he] at hr
  cases r with
  | none =>
    cases h
    refine ⟨hc, cur, anyStep_same ho q (.inl ⟨hk, hr.imp And.left fun hr b => ?_⟩)
      (hr.imp And.left fun hr => ?_)⟩
    · rw [orig_none hr.symm]
      nofun
    · unfold isBad
      rw [orig_none hr.symm]
  | some d0 =>
    have hr : genRow env.codec t k = some d0 := by
      rcases hr with hr | hr
      · cases hr.2
      · exact hr.symm
    simp only at h
    obtain ⟨r, r1, r2, r3⟩ := deser_run (env := env) d0 w1
    rw [run_bind_ok r1] at h
    have hor := orig_some hr r2 r3
    cases r with
    | error e =>
      cases h
      refine ⟨hc, cur, anyStep_fail ho q (.inl ⟨hk, .inr fun b => ?_⟩) (.inr ?_)⟩
      · rw [hor]
        nofun
      · unfold isBad
        rw [hor]
    | ok b0 =>
      simp only at h
      have h : (do
          let (dst, cache) ← ((partOf area k).sub o).toTouchingBlockArea.positions.foldlM
            (overlaySrc env ((partOf area k).sub o) o (Vec3.fromBlockKey k)) (b0, cache)
          let dst ← Run.lift (cleanNimap env.build dst)
          expect (← setBlock env .main k (← ser env dst))
          return cache : Run _) w1 = (.ok cache', w') := by
        cases area with
        | none => exact h
        | some a =>
          simp only [hp a rfl] at h
          exact h
      obtain ⟨⟨b1, c2⟩, w2, g1, h⟩ := run_bind_iff.1 h
      obtain ⟨i1, i2, find, i3, i4⟩ := srcLoop_any (I := CacheSub F (origOk env.codec src))
        (J := fun w => OpenAt w .input idur src icols) (bd := env.build) (find := findIn env.codec src)
        (fun p hp b b1 s s1 w w1 hI hJ hh => overlaySrc_any hF hJ hI hh)
        (fun _ _ q ho => q.open ho) (C04_each_once _ (touching_le hpo.valid hpo.inside).1).1 hc (q.open hi) g1
      obtain ⟨rfl, d', k1, k3, k4, k5, k6⟩ := write_raw (i2.open (q.open ho)) k h
      refine ⟨i1, _, anyStep_put (q.trans i2) k3 (.inr ⟨b0, find, b1, d', hor, i3, i4, k1, rfl⟩) k4 k5 k6
        (.inr ?_)⟩
      unfold isBad
      rw [hor]

/-- The tables before and after, and what was said and counted. -/
structure RowsDone (F : Prop) (Row : Int → Option Bytes → Prop) (bad : Int → Bool) (ks : List Int)
    (t : Table) (w : World) (t' : Table) (w' : World) : Prop where
  nodup : (t.map (·.1)).Nodup → (t'.map (·.1)).Nodup
  off : ∀ k, k ∉ ks → t'.get? k = t.get? k
  on : ∀ k ∈ ks, Row k (t'.get? k)
  events : w'.events = w.events ++
    [.newState .querying, .newState .ignore, .newState .editing, .newState .ignore]
  input : w'.dbs .input = w.dbs .input
  total : w'.status.total = ks.length
  done : w'.status.done = w.status.done + ks.length
  failed : F ∨ w'.status.failed = w.status.failed + (ks.filter bad).length

theorem RowsDone.mono {Row Row' : Int → Option Bytes → Prop} {bad : Int → Bool} {ks : List Int}
    {t : Table} {w : World} {t' : Table} {w' : World} (h : RowsDone F Row bad ks t w t' w')
    (hr : ∀ k ∈ ks, ∀ r, Row k r → Row' k r) : RowsDone F Row' bad ks t w t' w' :=
  ⟨h.nodup, h.off, fun k hk => hr k hk _ (h.on k hk), h.events, h.input, h.total, h.done, h.failed⟩

/-- The same for copying with an offset. -/
abbrev SomeDone (F : Prop) (c : Codec) (src : Table) (part : Int → Area) (o : Vec3) (ks : List Int)
    (t : Table) (w : World) (t' : Table) (w' : World) : Prop :=
  RowsDone F (SomeRow F c src t part o) (isBad c t) ks t w t' w'

/-- The end of a loop, as the world looks after the command. -/
theorem AnyLoop.ended {Row : Int → Option Bytes → Prop} {bad : Int → Bool} {ks : List Int}
    {dur cur : Table} {cols : List Col} {w1 w3 : World} {cur' : Table} {i : DbId} {n : Nat} {w : World}
    (l : AnyLoop F Row bad ks dur cur cols (w1.inState .editing) cur' w3) (q : QueryWorld i n w w1) :
    (w3.inState .ignore).events = w.events ++
      [.newState .querying, .newState .ignore, .newState .editing, .newState .ignore] ∧
    (w3.inState .ignore).dbs .input = w.dbs .input ∧
    (w3.inState .ignore).status.total = n ∧
    (w3.inState .ignore).status.done = w.status.done + ks.length ∧
    (F ∨ (w3.inState .ignore).status.failed = w.status.failed + (ks.filter bad).length) := by
  refine ⟨?_, ?_, ?_, ?_, l.failed.imp id fun hl => ?_⟩
  · show w3.events ++ _ = _
    rw [l.events]
    show (w1.events ++ _) ++ _ = _
    rw [q.events]
    simp
  · show w3.dbs .input = _
    rw [l.input]
    show w1.dbs .input = _
    rw [q.dbs]
  · show w3.status.total = _
    rw [l.total]
    show w1.status.total = _
    rw [q.status]
  · show w3.status.done = _
    rw [l.done]
    show w1.status.done + _ = _
    rw [q.status]
  · show w3.status.failed = _
    rw [hl]
    show w1.status.failed + _ = _
    rw [q.status]

/-- If no read failed, the command did all it should. -/
theorem SomeDone.copyDone {c : Codec} {src : Table} {part : Int → Area} {o : Vec3} {ks : List Int}
    {dur t : Table} {cols : List Col} {w : World} {t' : Table} {w' : World}
    (h : SomeDone F c src part o ks t w t' w') (hF : ¬ F) (ho : OpenAt w' .main dur t' cols)
    (hn : (t.map (·.1)).Nodup) (hk : ∀ k ∈ ks, ∃ d, t.get? k = some d) :
    CopyDone c (findIn c src) part o ks dur t cols w t' w' := by
  refine ⟨ho, h.nodup hn, h.off, ?_, h.events, h.input, h.total, h.done, h.failed.resolve_left hF⟩
  intro k hm
  obtain ⟨d, hd⟩ := hk k hm
  rcases h.on k hm with ⟨e, hn⟩ | ⟨b, find, d', b', e, kn, er, rp, rm⟩
  · refine ⟨d, e.trans hd, ?_, ?_⟩
    · intro d1 h1 _
      rw [hd] at h1
      exact Option.some.inj h1
    · intro b hb
      exact absurd hb (hn.resolve_left hF b)
  · refine ⟨d', er, ?_, ?_⟩
    · intro d1 h1 hn
      exact absurd e (hn b)
    · intro b1 hb
      rw [e] at hb
      cases hb
      have := kn.all.resolve_left hF
      subst this
      exact ⟨b', rp, rm⟩

theorem clone_raw {env : Env} [Calm env] (hF : ∀ n, env.fail n = true → F) {w w' : World}
    {t dur : Table} {cols : List Col} (ho : OpenAt w .main dur t cols) (hg : GoodTable t) {cap : Nat} {args : InstArgs} {a : Area}
    {o : Vec3} (hA : args.area = some a) (hO : args.offset = some o) (hv : a.isValid = true)
    (h : clone env cap args w = (.ok (), w')) :
    ∃ t' ks, ks.Perm (dests (some (a.add o)) false t) ∧ OpenAt w' .main dur t' cols ∧
      RowsDone F (RawRow F env t t (partIn (a.add o)) o) (isBad env.codec t) ks t w t' w' := by
  unfold clone at h
  rw [hA, hO] at h
  change (do
    let keys ← queryKeys env .main [] (some (a.add o)) false true
    let keys ← Run.lift (sortKeys o keys)
    beginEditing
    let _ ← keys.foldlM (cloneStep env (a.add o) o) (CacheMap.withCapacity cap)
    endEditing : Run Unit) w = _ at h
  obtain ⟨keys, w1, h1, h⟩ := run_bind_iff.1 h
  obtain ⟨hkeys, q⟩ := queryKeys_iff ho h1
  have hd : keys = dests (some (a.add o)) false t := hkeys
  subst hd
  obtain ⟨ks, k1, k2, k3⟩ := sortKeys_run (o := o) (keys := dests (some (a.add o)) false t)
    (fun k hk => (dests_row hg hk).1)
  rw [k1, lift_ok, run_pure_bind] at h
  obtain ⟨u, w2, h2, h⟩ := run_bind_iff.1 h
  cases h2
  obtain ⟨c, w3, h3, h⟩ := run_bind_iff.1 h
  cases h
  have hmem : ∀ k, k ∈ ks ↔ k ∈ dests (some (a.add o)) false t := fun k => k2.mem_iff
  have hval : ∀ k ∈ ks, ValidKey k := fun k hk => (dests_row hg ((hmem k).1 hk)).1
  have hpart := fun k hk => partIn_some (addArea_valid (o := o) hv) hg ((hmem k).1 hk)
  obtain ⟨t', l⟩ := anyLoop (Row := RawRow F env t t (partIn (a.add o)) o) (bad := isBad env.codec t)
    (N := CloneReads (partIn (a.add o)) o) (I := CacheSub F (orig env.codec t)) (t := t) (dur := dur)
    (cols := cols) (indb := w.dbs .input) (ks := ks)
    ((k3.and (k2.nodup_iff.2 (dests_nodup hg))).imp_of_mem fun {x y} hx hy ⟨hb, hne⟩ => ⟨hne, by
      rintro (e | ⟨p, hp, hw, e⟩)
      · exact hne e
      · exact not_source (hval x hx) (hval y hy) hne hb (hpart y hy) hp hw e.symm⟩)
    (fun k hk s s' w w' cur hI ho _ hN hh => cloneStep_raw hF ho hI hN (hpart k hk) hh)
    (cacheSub_empty _ cap) (w := w1.inState .editing) (cur := t)
    (show w1.dbs .main = _ by rw [q.dbs]; exact ho) (show w1.dbs .input = _ by rw [q.dbs])
    (fun _ _ _ _ => rfl) h3
  obtain ⟨e1, e2, e3, e4, e5⟩ := l.ended q
  exact ⟨t', ks, k2, l.isOpen, l.nodup, l.off, l.row, e1, e2, e3.trans k2.length_eq.symm, e4, e5⟩

theorem clone_any {env : Env} [Calm env] (hF : ∀ n, env.fail n = true → F) (hE : EnvOk env) {w w' : World}
    {t dur : Table} {cols : List Col} (ho : OpenAt w .main dur t cols) (hg : GoodTable t)
    (ha : AllBlocks env.codec t (Mild env.build)) {cap : Nat} {args : InstArgs} {a : Area}
    {o : Vec3} (hA : args.area = some a) (hO : args.offset = some o) (hv : a.isValid = true)
    (h : clone env cap args w = (.ok (), w')) :
    ∃ t' ks, ks.Perm (dests (some (a.add o)) false t) ∧ OpenAt w' .main dur t' cols ∧
      SomeDone F env.codec t (partIn (a.add o)) o ks t w t' w' := by
  obtain ⟨t', ks, h1, h2, h3⟩ := clone_raw hF ho hg hA hO hv h
  refine ⟨t', ks, h1, h2, h3.mono fun k hk r hr => ?_⟩
  obtain ⟨p1, p2, -⟩ := absOverlap_part (o := o) (partIn_some (addArea_valid (o := o) hv) hg (h1.mem_iff.1 hk))
  exact hr.row hE ha ha p1 p2

theorem overlayOffset_raw {env : Env} [Calm env] (hF : ∀ n, env.fail n = true → F) {w w' : World}
    {t src dur idur : Table} {cols icols : List Col} (ho : OpenAt w .main dur t cols)
    (hi : OpenAt w .input idur src icols) (hg : GoodTable t) {cap : Nat} {args : InstArgs}
    {o : Vec3} (hO : args.offset = some o) (hinv : args.invert = false) (hv : AreaOk args.area)
    (h : overlayWithOffset env cap args w = (.ok (), w')) :
    ∃ t', OpenAt w' .main dur t' cols ∧ RowsDone F (RawRow F env src t (partOf (shiftArea args.area o)) o)
      (isBad env.codec t) (dests (shiftArea args.area o) false t) t w t' w' := by
  unfold overlayWithOffset at h
  rw [hO, hinv] at h
  change (do
    let keys ← queryKeys env .main [] (shiftArea args.area o) false true
    beginEditing
    let _ ← keys.foldlM (overlayOffsetStep env (shiftArea args.area o) o) (CacheMap.withCapacity cap)
    endEditing : Run Unit) w = _ at h
  have hv' := shiftArea_ok hv o
  generalize shiftArea args.area o = area at *
  obtain ⟨keys, w1, h1, h⟩ := run_bind_iff.1 h
  obtain ⟨hkeys, q⟩ := queryKeys_iff ho h1
  have hd : keys = dests area false t := hkeys
  subst hd
  obtain ⟨u, w2, h2, h⟩ := run_bind_iff.1 h
  cases h2
  obtain ⟨c, w3, h3, h⟩ := run_bind_iff.1 h
  cases h
  obtain ⟨t', l⟩ := anyLoop (Row := RawRow F env src t (partOf area) o) (bad := isBad env.codec t)
    (N := fun k q => q = k) (I := CacheSub F (origOk env.codec src)) (t := t) (dur := dur)
    (cols := cols) (indb := w.dbs .input) (ks := dests area false t)
    ((dests_nodup hg).imp fun hne => ⟨hne, hne⟩)
    (fun k hk s s' w w' cur hI ho hi' hN hh => overlayOffsetStep_raw hF ho (hi'.trans hi) hI
      (hN k rfl) (fun a h => by subst h; exact partIn_some (hv' a rfl) hg hk) (partOf_ok hv' hg o hk) hh)
    (cacheSub_empty _ cap) (w := w1.inState .editing) (cur := t)
    (show w1.dbs .main = _ by rw [q.dbs]; exact ho) (show w1.dbs .input = _ by rw [q.dbs])
    (fun _ _ _ _ => rfl) h3
  obtain ⟨e1, e2, e3, e4, e5⟩ := l.ended q
  exact ⟨t', l.isOpen, l.nodup, l.off, l.row, e1, e2, e3, e4, e5⟩

theorem overlayOffset_any {env : Env} [Calm env] (hF : ∀ n, env.fail n = true → F) (hE : EnvOk env) {w w' : World}
    {t src dur idur : Table} {cols icols : List Col} (ho : OpenAt w .main dur t cols)
    (hi : OpenAt w .input idur src icols) (hg : GoodTable t) (ha : AllBlocks env.codec t (Mild env.build))
    (has : AllBlocks env.codec src (Mild env.build)) {cap : Nat} {args : InstArgs}
    {o : Vec3} (hO : args.offset = some o) (hinv : args.invert = false) (hv : AreaOk args.area)
    (h : overlayWithOffset env cap args w = (.ok (), w')) :
    ∃ t', OpenAt w' .main dur t' cols ∧ SomeDone F env.codec src (partOf (shiftArea args.area o)) o
      (dests (shiftArea args.area o) false t) t w t' w' := by
  obtain ⟨t', h2, h3⟩ := overlayOffset_raw hF ho hi hg hO hinv hv h
  refine ⟨t', h2, h3.mono fun k hk r hr => ?_⟩
  have hpo := partOf_ok (shiftArea_ok hv o) hg o hk
  exact hr.row hE ha has hpo.valid hpo.inside

/-! ## `overlay` without offset -/

/-- The row of a block of which a part is copied: what merging gives, or as before. -/
def RawPart (env : Env) (src t : Table) (a : Area) (invert : Bool) (k : Int) (r : Option Bytes) : Prop :=
  ∃ sd, src.get? k = some sd ∧
  (∀ sb b, deserialize env.codec sd = .ok sb → orig env.codec t k = some (.ok b) →
    ∃ part b1 metas d', (a.relBlockOverlap (Vec3.fromBlockKey k)) = some part ∧
      mergeBlocks env.build (if invert then b else sb) (if invert then sb else b) part part = .ok b1 ∧
      mergeMetadata (if invert then b else sb).metas b1.metas part part = .ok metas ∧
      Made env { b1 with metas } d' ∧ r = some d') ∧
  ((∀ sb b, ¬ (deserialize env.codec sd = .ok sb ∧ orig env.codec t k = some (.ok b))) → r = t.get? k)

/-- The row of a visited block afterwards. -/
def RawLaid (F : Prop) (env : Env) (src t : Table) (area : Option Area) (invert : Bool) (k : Int)
    (r : Option Bytes) : Prop :=
  match area with
  | none => WholeRow env.codec src t k r
  | some a =>
    if copiesWhole a invert (Vec3.fromBlockKey k) then WholeRow env.codec src t k r
    else (F ∧ r = t.get? k) ∨ RawPart env src t a invert k r

/-- The row of a visited block afterwards. -/
def SomeLaid (F : Prop) (c : Codec) (src t : Table) (area : Option Area) (invert : Bool) (k : Int) (r : Option Bytes) : Prop :=
  match area with
  | none => WholeRow c src t k r
  | some a =>
    if copiesWhole a invert (Vec3.fromBlockKey k) then WholeRow c src t k r
    else (F ∧ r = t.get? k) ∨ PartRow c src t a invert k r

theorem RowStep.any {Row : Int → Option Bytes → Prop} {bad : Int → Bool} {k : Int}
    {dur cur : Table} {cols : List Col} {w : World} {cur' : Table} {w' : World}
    (h : RowStep Row bad k dur cur cols w cur' w') {Row' : Int → Option Bytes → Prop} {bad' : Int → Bool}
    (hr : ∀ r, Row k r → Row' k r) (hb : bad' k = bad k) : AnyStep F Row' bad' k dur cur cols w cur' w' :=
  ⟨h.isOpen, h.nodup, h.off, hr _ h.row, h.input, h.events, h.total, h.done, .inr (by rw [h.failed, hb])⟩

theorem copyPart_raw {env : Env} [Calm env] (hF : ∀ n, env.fail n = true → F) {w w' : World}
    {t dur cur idur src : Table} {cols icols : List Col} (ho : OpenAt w .main dur cur cols)
    (hi : OpenAt w .input idur src icols) {a : Area}
    {invert : Bool} {k : Int} (hk : cur.get? k = t.get? k) (hsk : ∃ sd, src.get? k = some sd)
    (h : (do incDone; copyPart env a invert k : Run Unit) w = (.ok (), w')) :
    ∃ cur', AnyStep F (fun k r => (F ∧ r = t.get? k) ∨ RawPart env src t a invert k r)
      (partBad env.codec src t) k dur cur cols w cur' w' := by
  rw [run_bind_ok (incDone_run w)] at h
  unfold copyPart at h
  obtain ⟨r, w1, h1, q, hr⟩ := getGenerated_any (env := env) hF
    (w := w.setStatus fun s => { s with done := s.done + 1 }) ho k
  simp only at h
  rw [run_bind_ok h1] at h
  have he : genRow env.codec cur k = genRow env.codec t k := by unfold genRow; rw [hk]
  rw [he] at hr
  cases r with
  | none =>
    cases h
    obtain ⟨sd, hs⟩ := hsk
    refine ⟨cur, anyStep_same ho q (hr.imp (fun hr => ⟨hr.1, hk⟩) fun hr => ⟨sd, hs, ?_, fun _ => hk⟩)
      (hr.imp And.left fun hr => ?_)⟩
    · intro sb b _ e
      rw [orig_none hr.symm] at e
      cases e
    · unfold partBad
      rw [← hr]
  | some d0 =>
    have hr : genRow env.codec t k = some d0 := by
      rcases hr with hr | hr
      · cases hr.2
      · exact hr.symm
    simp only at h
    rw [← run_bind_assoc] at h
    obtain ⟨sd, w2, g1, h⟩ := run_bind_iff.1 h
    obtain ⟨-, hs, hw2⟩ := (getBlock_expect_iff (env := env) (q.open hi) k sd).1 g1
    have q2 : Quiet w1 w2 := by rw [hw2]; exact ⟨rfl, rfl, rfl⟩
    have q3 := q.trans q2
    obtain ⟨rs, s1, s2, s3⟩ := deser_run (env := env) sd w2
    rw [run_bind_ok s1] at h
    cases rs with
    | error e =>
      cases h
      have hne : ∀ x, deserialize env.codec sd ≠ .ok x := fun x hx => by
        have := (s2 x).2 hx
        cases this
      refine ⟨cur, anyStep_fail ho q3 (.inr ⟨sd, hs, fun x _ h => absurd h (hne x), fun _ => hk⟩) (.inr ?_)⟩
      unfold partBad
      rw [hr, hs]
      simp only
      cases hx : deserialize env.codec sd with
      | ok x => exact absurd hx (hne x)
      | error e => simp [Except.isOk, Except.toBool]
    | ok sb =>
      have hsb := (s2 sb).1 rfl
      simp only at h
      obtain ⟨rd, d1, d2, d3⟩ := deser_run (env := env) d0 w2
      rw [run_bind_ok d1] at h
      have hor := orig_some hr d2 d3
      cases rd with
      | error e =>
        cases h
        have hne : ∀ x, deserialize env.codec d0 ≠ .ok x := fun x hx => by
          have := (d2 x).2 hx
          cases this
        refine ⟨cur, anyStep_fail ho q3 (.inr ⟨sd, hs, fun x b _ h => ?_, fun _ => hk⟩) (.inr ?_)⟩
        · rw [hor] at h
          cases h
        · unfold partBad
          rw [hr, hs]
          simp only
          cases hx : deserialize env.codec d0 with
          | ok x => exact absurd hx (hne x)
          | error e => simp [Except.isOk, Except.toBool]
      | ok b =>
        have hdb := (d2 b).1 rfl
        simp only at h
        obtain ⟨part, w3, e0, h⟩ := run_bind_iff.1 h
        obtain ⟨p1, hw3⟩ := run_unwrap_iff.1 e0
        rw [hw3] at h
        have hbad : F ∨ partBad env.codec src t k = false := by
          refine .inr ?_
          unfold partBad
          rw [hr, hs]
          simp only
          rw [hsb, hdb]
          rfl
        have key : ∀ from_ to : MapBlock,
            (do
              let b ← Run.lift (mergeBlocks env.build from_ to part part)
              let metas ← Run.lift (mergeMetadata from_.metas b.metas part part)
              let b ← Run.lift (cleanNimap env.build { b with metas })
              expect (← setBlock env .main k (← ser env b)) : Run Unit) w2 = (.ok (), w') →
            ∃ b1 metas d', mergeBlocks env.build from_ to part part = .ok b1 ∧
            mergeMetadata from_.metas b1.metas part part = .ok metas ∧ Made env { b1 with metas } d' ∧
            OpenAt w' .main dur (cur.put k d') cols ∧ w'.dbs .input = w2.dbs .input ∧
            w'.events = w2.events ∧ w'.status = w2.status := by
          intro from_ to h
          obtain ⟨b1, w3, e0, h⟩ := run_bind_iff.1 h
          obtain ⟨m1, hw3⟩ := run_lift_iff.1 e0
          rw [hw3] at h
          obtain ⟨metas, w3, e0, h⟩ := run_bind_iff.1 h
          obtain ⟨m2, hw3⟩ := run_lift_iff.1 e0
          rw [hw3] at h
          obtain ⟨-, d', k1⟩ := write_raw (q3.open ho) k (a := ()) (a' := ())
            (by simp only [bind_pure_unit]; exact h)
          exact ⟨b1, metas, d', m1, m2, k1⟩
        have key : ∃ b1 metas d', mergeBlocks env.build (if invert then b else sb) (if invert then sb else b)
              part part = .ok b1 ∧
            mergeMetadata (if invert then b else sb).metas b1.metas part part = .ok metas ∧
            Made env { b1 with metas } d' ∧
            OpenAt w' .main dur (cur.put k d') cols ∧ w'.dbs .input = w2.dbs .input ∧
            w'.events = w2.events ∧ w'.status = w2.status := by
          cases invert
          · exact key sb b h
          · exact key b sb h
        obtain ⟨b1, metas, d', g1, g2, g3, g4, g7, g8, g9⟩ := key
        refine ⟨_, anyStep_put q3 g4 (.inr ⟨sd, hs, ?_, ?_⟩) g7 g8 g9 hbad⟩
        · intro sb' b0 e1 e2
          rw [hsb] at e1
          rw [hor] at e2
          cases e1
          cases e2
          exact ⟨part, b1, metas, d', p1, g1, g2, g3, rfl⟩
        · intro hno
          exact absurd ⟨hsb, hor⟩ (hno sb b)

theorem RawPart.row {env : Env} (hE : EnvOk env) {src t : Table} (ha : AllBlocks env.codec t (Mild env.build))
    (has : AllBlocks env.codec src (Mild env.build)) {a : Area} (hv : a.isValid = true) {invert : Bool} {k : Int}
    (hp : partly a (Vec3.fromBlockKey k) = true) {r : Option Bytes} (h : RawPart env src t a invert k r) :
    PartRow env.codec src t a invert k r := by
  obtain ⟨sd, hs, h1, h2⟩ := h
  refine ⟨sd, hs, ?_, h2⟩
  intro sb b hsb hor
  obtain ⟨part, b1, metas, d', q1, m1, m2, m3, rfl⟩ := h1 sb b hsb hor
  obtain ⟨part', p1, p2, p3⟩ := part_spec hv hp
  rw [p1] at q1
  cases q1
  obtain ⟨d0, e1, e2, -⟩ := (orig_ok hE.codec).1 hor
  have wb := wf_of_deserialize (deserialize_iff.2 e2)
  have ws := wf_of_deserialize hsb
  have fb := ha _ _ _ (Table.get?_some_mem e1) e2
  have fs := has _ _ _ (Table.get?_some_mem hs) (deserialize_iff.1 hsb)
  have hout : ∀ i, i < 4096 → (InBox part.min part.max (Vec3.fromU16Key i) ↔
      InBox a.min a.max (posAt (Vec3.fromBlockKey k) i)) := by
    intro i hi
    rw [← p3 i hi, ← Bool.not_eq_true, outIdx_iff, Classical.not_not, fromU16Key_eq]
    unfold InBox
    simp only [and_assoc]
  have key : ∀ from_ to : MapBlock, Wf from_ → Wf to → Mild env.build from_ → Mild env.build to →
      mergeBlocks env.build from_ to part part = .ok b1 →
      mergeMetadata from_.metas b1.metas part part = .ok metas →
      ∃ b', Represents env.codec d' b' ∧
      (Remade to b' fun i => (if InBox part.min part.max (Vec3.fromU16Key i) then from_ else to, i)) := by
    intro from_ to wf1 wf2 f1 f2 m1 m2
    obtain ⟨metas', n2, n3⟩ := copyState_part wf2 wf1 f2.room f1.room p2
      (fun hb => ⟨f2.small hb, f1.small hb⟩) m1
    rw [m2] at n2
    cases n2
    exact m3.saved hE wf2 n3
  cases invert with
  | false =>
    obtain ⟨b', g2, g3⟩ := key sb b ws wb fs fb m1 m2
    refine ⟨d', b', rfl, g2, ⟨g3.rest, ?_, g3.tidy, g3.room, g3.pub, g3.written⟩⟩
    intro i hi
    have := g3.nodes i hi
    simp only [hout i hi] at this
    simp only [selected_iff, iff_true]
    exact this
  | true =>
    obtain ⟨b', g2, g3⟩ := key b sb wb ws fb fs m1 m2
    refine ⟨d', b', rfl, g2, ⟨g3.rest, ?_, g3.tidy, g3.room, g3.pub, g3.written⟩⟩
    intro i hi
    have := g3.nodes i hi
    simp only [hout i hi] at this
    simp only [selected_iff]
    by_cases hx : InBox a.min a.max (posAt (Vec3.fromBlockKey k) i)
    · simp only [hx, if_true, true_iff, Bool.true_eq_false, if_false] at this ⊢
      exact this
    · simp only [hx, if_false, false_iff, Bool.true_eq_false, not_false_eq_true, if_true] at this ⊢
      exact this

theorem RawLaid.row {env : Env} (hE : EnvOk env) {src t : Table} (ha : AllBlocks env.codec t (Mild env.build))
    (has : AllBlocks env.codec src (Mild env.build)) {area : Option Area} (hv : AreaOk area) {invert : Bool}
    {k : Int} (hsel : ∃ p, InBlock (Vec3.fromBlockKey k) p ∧ Selected area invert p)
    {r : Option Bytes} (h : RawLaid F env src t area invert k r) :
    SomeLaid F env.codec src t area invert k r := by
  unfold RawLaid at h
  unfold SomeLaid
  cases area with
  | none => exact h
  | some a =>
    simp only at h ⊢
    split
    · next hc => rwa [if_pos hc] at h
    · next hc =>
      rw [if_neg hc] at h
      obtain ⟨p, hp, hps⟩ := hsel
      exact h.imp_right fun h => h.row hE ha has (hv a rfl)
        (not_whole_partly (hv a rfl) hp hps (by simpa using hc))

theorem overlayStep_raw {env : Env} [Calm env] (hF : ∀ n, env.fail n = true → F) {w w' : World}
    {t dur cur idur src : Table} {cols icols : List Col} (ho : OpenAt w .main dur cur cols)
    (hi : OpenAt w .input idur src icols) {area : Option Area}
    {invert : Bool} {k : Int} (hk : cur.get? k = t.get? k) (hsk : ∃ sd, src.get? k = some sd)
    (h : overlayStep env area invert k w = (.ok (), w')) :
    ∃ cur', AnyStep F (RawLaid F env src t area invert) (laidBad env.codec src t area invert) k dur cur cols w cur' w' := by
  cases area with
  | none =>
    obtain ⟨cur', s⟩ := copyWhole_step (t := t) (bad := fun _ => false) ho hi rfl hk h
    exact ⟨cur', s.any (fun r hr => hr) rfl⟩
  | some a =>
    unfold overlayStep at h
    cases hc : copiesWhole a invert (Vec3.fromBlockKey k) with
    | true =>
      have hc' := hc
      unfold copiesWhole at hc'
      simp only [hc', if_true] at h
      obtain ⟨cur', s⟩ := copyWhole_step (t := t) (bad := fun _ => false) ho hi rfl hk h
      refine ⟨cur', s.any (fun r hr => ?_) ?_⟩
      · unfold RawLaid
        simp only [hc, if_true]
        exact hr
      · unfold laidBad
        simp only [hc]
        rfl
    | false =>
      have hc' := hc
      unfold copiesWhole at hc'
      simp only [hc', Bool.false_eq_true, if_false] at h
      obtain ⟨cur', s⟩ := copyPart_raw hF ho hi hk hsk h
      refine ⟨cur', s.isOpen, s.nodup, s.off, ?_, s.input, s.events, s.total, s.done, ?_⟩
      · unfold RawLaid
        simp only [hc, Bool.false_eq_true, if_false]
        exact s.row
      · have := s.failed
        unfold laidBad
        simp only [hc]
        exact this

/-- The tables before and after `overlay` without offset. -/
abbrev SomePlain (F : Prop) (c : Codec) (src : Table) (area : Option Area) (invert : Bool) (t : Table)
    (w : World) (t' : Table) (w' : World) : Prop :=
  RowsDone F (SomeLaid F c src t area invert) (laidBad c src t area invert) (dests area invert src) t w t' w'

theorem SomePlain.plainDone {c : Codec} {src : Table} {area : Option Area} {invert : Bool} {dur t : Table}
    {cols : List Col} {w : World} {t' : Table} {w' : World}
    (h : SomePlain F c src area invert t w t' w') (hF : ¬ F) (ho : OpenAt w' .main dur t' cols) :
    PlainDone c src area invert dur t cols w t' w' := by
  refine ⟨ho, h.nodup, h.off, ?_, h.events, h.total, h.done, h.failed.resolve_left hF⟩
  intro k hk
  have := h.on k hk
  unfold SomeLaid at this
  unfold LaidRow
  cases area with
  | none => exact this
  | some a =>
    simp only at this ⊢
    split
    · next hc => rwa [if_pos hc] at this
    · next hc =>
      rw [if_neg hc] at this
      exact this.resolve_left fun h => hF h.1

theorem plain_raw {env : Env} [Calm env] (hF : ∀ n, env.fail n = true → F) {w w' : World}
    {t dur idur src : Table} {cols icols : List Col}
    (ho : OpenAt w .main dur t cols) (hi : OpenAt w .input idur src icols)
    (hgs : GoodTable src) {args : InstArgs}
    (h : overlayNoOffset env args w = (.ok (), w')) :
    ∃ t', OpenAt w' .main dur t' cols ∧ RowsDone F (RawLaid F env src t args.area args.invert)
      (laidBad env.codec src t args.area args.invert) (dests args.area args.invert src) t w t' w' := by
  unfold overlayNoOffset at h
  obtain ⟨keys, w1, h1, h⟩ := run_bind_iff.1 h
  obtain ⟨hkeys, q⟩ := queryKeys_iff hi h1
  have hd : keys = dests args.area args.invert src := hkeys
  subst hd
  obtain ⟨u, w2, h2, h⟩ := run_bind_iff.1 h
  cases h2
  obtain ⟨u, w3, h3, h⟩ := run_bind_iff.1 h
  cases h
  obtain ⟨t', l⟩ := anyLoop (Row := RawLaid F env src t args.area args.invert)
    (bad := laidBad env.codec src t args.area args.invert)
    (N := fun k q => q = k) (I := fun _ : Unit => True) (t := t) (dur := dur)
    (cols := cols) (indb := w.dbs .input) (ks := dests args.area args.invert src)
    ((dests_nodup hgs).imp fun hne => ⟨hne, hne⟩)
    (fun k hk s s' w w' cur _ ho hi' hN hh => ⟨trivial, by
      exact overlayStep_raw hF ho (hi'.trans hi) (hN k rfl) (dests_row hgs hk).2 hh⟩)
    trivial (w := w1.inState .editing) (cur := t)
    (show w1.dbs .main = _ by rw [q.dbs]; exact ho) (show w1.dbs .input = _ by rw [q.dbs])
    (fun _ _ _ _ => rfl) h3
  obtain ⟨e1, e2, e3, e4, e5⟩ := l.ended q
  exact ⟨t', l.isOpen, l.nodup, l.off, l.row, e1, e2, e3, e4, e5⟩

theorem plain_any {env : Env} [Calm env] (hF : ∀ n, env.fail n = true → F) (hE : EnvOk env) {w w' : World}
    {t dur idur src : Table} {cols icols : List Col}
    (ho : OpenAt w .main dur t cols) (hi : OpenAt w .input idur src icols)
    (hgs : GoodTable src) (ha : AllBlocks env.codec t (Mild env.build))
    (has : AllBlocks env.codec src (Mild env.build)) {args : InstArgs} (hv : AreaOk args.area)
    (h : overlayNoOffset env args w = (.ok (), w')) :
    ∃ t', OpenAt w' .main dur t' cols ∧ SomePlain F env.codec src args.area args.invert t w t' w' := by
  obtain ⟨t', h2, h3⟩ := plain_raw hF ho hi hgs h
  refine ⟨t', h2, h3.mono fun k hk r hr => hr.row hE ha has hv ?_⟩
  obtain ⟨v, e⟩ := keyOf_fromBlockKey k (dests_row hgs hk).1
  rw [← e] at hk
  exact ((mem_dests hgs hv v).1 hk).2

end

/-! ## Runs in which nothing fails -/

theorem calm_of {env : Env} (hf : ∀ n, env.fail n = false) : Calm env :=
  ⟨fun n h => by rw [hf n] at h; cases h⟩

theorem clone_given {env : Env} (hE : EnvOk env) (hf : ∀ n, env.fail n = false) {w w' : World}
    {t dur : Table} {cols : List Col} (ho : OpenAt w .main dur t cols) (hg : GoodTable t)
    (ha : AllBlocks env.codec t (Mild env.build)) {cap : Nat} {args : InstArgs} {a : Area}
    {o : Vec3} (hA : args.area = some a) (hO : args.offset = some o) (hv : a.isValid = true)
    (h : clone env cap args w = (.ok (), w')) :
    ∃ t' ks, ks.Perm (dests (some (a.add o)) false t) ∧
      CopyDone env.codec (findIn env.codec t) (partIn (a.add o)) o ks dur t cols w t' w' := by
  haveI := calm_of hf
  obtain ⟨t', ks, h1, h2, h3⟩ := clone_any (F := False) (fun n h => by rw [hf n] at h; cases h) hE ho hg ha
    hA hO hv h
  exact ⟨t', ks, h1, h3.copyDone id h2 hg.nodup fun k hk => (dests_row hg (h1.mem_iff.1 hk)).2⟩

theorem overlayOffset_given {env : Env} (hE : EnvOk env) (hf : ∀ n, env.fail n = false) {w w' : World}
    {t src dur idur : Table} {cols icols : List Col} (ho : OpenAt w .main dur t cols)
    (hi : OpenAt w .input idur src icols) (hg : GoodTable t) (ha : AllBlocks env.codec t (Mild env.build))
    (has : AllBlocks env.codec src (Mild env.build)) {cap : Nat} {args : InstArgs}
    {o : Vec3} (hO : args.offset = some o) (hinv : args.invert = false) (hv : AreaOk args.area)
    (h : overlayWithOffset env cap args w = (.ok (), w')) :
    ∃ t', CopyDone env.codec (findIn env.codec src) (partOf (shiftArea args.area o)) o
      (dests (shiftArea args.area o) false t) dur t cols w t' w' := by
  haveI := calm_of hf
  obtain ⟨t', h2, h3⟩ := overlayOffset_any (F := False) (fun n h => by rw [hf n] at h; cases h) hE ho hi hg ha
    has hO hinv hv h
  exact ⟨t', h3.copyDone id h2 hg.nodup fun k hk => (dests_row hg hk).2⟩

theorem plain_given {env : Env} (hE : EnvOk env) (hf : ∀ n, env.fail n = false) {w w' : World}
    {t dur idur src : Table} {cols icols : List Col}
    (ho : OpenAt w .main dur t cols) (hi : OpenAt w .input idur src icols) (hgs : GoodTable src)
    (ha : AllBlocks env.codec t (Mild env.build)) (has : AllBlocks env.codec src (Mild env.build))
    {args : InstArgs} (hv : AreaOk args.area) (h : overlayNoOffset env args w = (.ok (), w')) :
    ∃ t', PlainDone env.codec src args.area args.invert dur t cols w t' w' := by
  haveI := calm_of hf
  obtain ⟨t', h2, h3⟩ := plain_any (F := False) (fun n h => by rw [hf n] at h; cases h) hE ho hi hgs ha
    has hv h
  exact ⟨t', h3.plainDone id h2⟩

end MapEditr
