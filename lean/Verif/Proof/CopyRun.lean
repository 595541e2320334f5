import Verif.Proof.CopyBlock
import Verif.Props.Helpers
import Verif.Props.Block
/-! # Lemmas: reading through the block cache -/

namespace MapEditr
open Spec
set_option linter.unusedSimpArgs false
set_option linter.unusedVariables false

/-- Nothing but the record of statements differs. -/
structure Quiet (w w' : World) : Prop where
  dbs : w'.dbs = w.dbs
  status : w'.status = w.status
  events : w'.events = w.events

theorem Quiet.refl (w : World) : Quiet w w := ⟨rfl, rfl, rfl⟩

theorem Quiet.trans {w w1 w2 : World} (h : Quiet w w1) (h' : Quiet w1 w2) : Quiet w w2 :=
  ⟨h'.dbs.trans h.dbs, h'.status.trans h.status, h'.events.trans h.events⟩

theorem Quiet.open {w w' : World} (h : Quiet w w') {i : DbId} {dur cur : Table} {cols : List Col}
    (ho : OpenAt w i dur cur cols) : OpenAt w' i dur cur cols := by
  unfold OpenAt at ho ⊢
  rw [h.dbs]
  exact ho

/-- The data of a row that `is_valid_generated`. -/
def genRow (c : Codec) (t : Table) (k : Int) : Option Bytes := (t.get? k).filter (isValidGenerated c)

theorem getGenerated_run {env : Env} (hf : ∀ n, env.fail n = false) {i : DbId} {w : World}
    {dur cur : Table} {cols : List Col} (ho : OpenAt w i dur cur cols) (k : Int) :
    ∃ w', getGenerated env i k w = (.ok (genRow env.codec cur k), w') ∧ Quiet w w' := by
  unfold getGenerated
  refine ⟨w.did i (.select k) true, ?_, ⟨rfl, rfl, rfl⟩⟩
  rw [run_bind, getBlock_open ho, hf]
  simp only [Bool.false_eq_true, if_false]
  unfold genRow
  cases cur.get? k with
  | none => rfl
  | some d => simp only [Option.filter]; rfl

/-- What `clone` remembers of a row. -/
def orig (c : Codec) (t : Table) (k : Int) : BlockResult :=
  match genRow c t k with
  | none => none
  | some d => match deserialize c d with
    | .ok b => some (.ok b)
    | .error (.err e) => some (.error e)
    | .error (.panic _) => none

theorem deser_run {env : Env} (d : Bytes) (w : World) :
    ∃ r, deser env d w = (.ok r, w) ∧ (∀ b, r = .ok b ↔ deserialize env.codec d = .ok b) ∧
      (∀ e, r = .error e ↔ deserialize env.codec d = .error (.err e)) := by
  unfold deser
  have hnp := np_deserialize env.codec d
  cases h : deserialize env.codec d with
  | ok b => exact ⟨.ok b, rfl, by simp, by simp⟩
  | error e =>
    cases e with
    | err e => exact ⟨.error e, rfl, by simp, by simp⟩
    | panic s => rw [h] at hnp; exact absurd rfl (hnp s)

theorem orig_some {c : Codec} {t : Table} {k : Int} {d : Bytes} (h : genRow c t k = some d)
    {r : Except MbErr MapBlock} (h1 : ∀ b, r = .ok b ↔ deserialize c d = .ok b)
    (h2 : ∀ e, r = .error e ↔ deserialize c d = .error (.err e)) : orig c t k = some r := by
  unfold orig
  rw [h]
  cases r with
  | ok b => simp only [(h1 b).1 rfl]
  | error e => simp only [(h2 e).1 rfl]

theorem orig_none {c : Codec} {t : Table} {k : Int} (h : genRow c t k = none) : orig c t k = none := by
  unfold orig
  rw [h]

theorem orig_congr {c : Codec} {t t' : Table} {k : Int} (h : t'.get? k = t.get? k) :
    orig c t' k = orig c t k := by
  unfold orig genRow
  rw [h]

/-- All the cache holds is true of `t`. -/
def CacheOk (f : Int → β) (cache : CacheMap β) : Prop := ∀ e ∈ cache.map, e.2 = f e.1

theorem cacheOk_insert {f : Int → β} {cache : CacheMap β} (h : CacheOk f cache) (k : Int) :
    CacheOk f (cache.insert k (f k)) := by
  have key : ∀ m : List (Int × β), (∀ e ∈ m, e ∈ cache.map) →
      ∀ e ∈ (k, f k) :: CacheMap.remove m k, e.2 = f e.1 := by
    intro m hm e he
    rcases List.mem_cons.1 he with rfl | he
    · rfl
    · exact h e (hm e (mem_remove.1 he).1)
  unfold CacheMap.insert
  split
  rename_i q m he
  refine key m ?_
  split at he
  · split at he
    · cases he
      intro e he
      exact (mem_remove.1 he).1
    · cases he
      exact fun e he => he
  · cases he
    exact fun e he => he

theorem cacheOk_empty (f : Int → β) (cap : Nat) : CacheOk f (CacheMap.withCapacity cap) := by
  intro e he
  cases he

theorem cloneCached_run {env : Env} (hf : ∀ n, env.fail n = false) {w : World} {t dur cur : Table}
    {cols : List Col} (ho : OpenAt w .main dur cur cols) {cache : CacheMap BlockResult}
    (hc : CacheOk (orig env.codec t) cache) {k : Int} (hk : cur.get? k = t.get? k) :
    ∃ cache' w', cloneCached env cache k w = (.ok (orig env.codec t k, cache'), w') ∧
      CacheOk (orig env.codec t) cache' ∧ Quiet w w' := by
  unfold cloneCached
  cases hg : cache.get k with
  | some r =>
    have := hc _ (cache_get_mem hg)
    simp only at this
    subst this
    exact ⟨cache, w, rfl, hc, .refl w⟩
  | none =>
    obtain ⟨w1, h1, q⟩ := getGenerated_run hf ho k
    simp only
    rw [run_bind_ok h1]
    have he : genRow env.codec cur k = genRow env.codec t k := by unfold genRow; rw [hk]
    rw [he]
    cases hr : genRow env.codec t k with
    | none =>
      have := orig_none hr
      have hi := cacheOk_insert hc k
      rw [this] at hi ⊢
      exact ⟨_, w1, rfl, hi, q⟩
    | some d =>
      simp only
      obtain ⟨r, d1, d2, d3⟩ := deser_run (env := env) d w1
      rw [run_bind_ok d1]
      have := orig_some hr d2 d3
      have hi := cacheOk_insert hc k
      rw [this] at hi ⊢
      exact ⟨_, w1, rfl, hi, q⟩

theorem isValidBlockPos_iff {q : Vec3} : q.isValidBlockPos = true ↔ Within 1937 q := by
  unfold Vec3.isValidBlockPos Within MAP_LIMIT
  simp only [decide_eq_true_eq]
  rw [show (31000 : Int).tdiv 16 = 1937 from rfl]
  omega

theorem within_valid {q : Vec3} (h : Within 1937 q) : ValidBlockPos q := by
  unfold Within at h
  unfold ValidBlockPos
  omega

instance (n : Int) (p : Vec3) : Decidable (Within n p) := inferInstanceAs (Decidable (_ ∧ _))

/-- The source block at `q`. -/
def findIn (c : Codec) (t : Table) (q : Vec3) : Option MapBlock :=
  if Within 1937 q then
    match orig c t (keyOf q) with
    | some (.ok b) => some b
    | _ => none
  else none

theorem cloneSrc_run {env : Env} (hf : ∀ n, env.fail n = false) {w : World} {t dur cur : Table}
    {cols : List Col} (ho : OpenAt w .main dur cur cols) {cache : CacheMap BlockResult}
    (hc : CacheOk (orig env.codec t) cache) {sp : Area} {o dp : Vec3} {ps : List Vec3}
    (hp : ∀ q ∈ ps, Within 1937 q → cur.get? (keyOf q) = t.get? (keyOf q)) {b b1 : MapBlock}
    (hb : srcFold env.build sp o dp (findIn env.codec t) b ps = .ok b1) :
    ∃ cache' w', ps.foldlM (cloneSrc env sp o dp) (b, cache) w = (.ok (b1, cache'), w') ∧
      CacheOk (orig env.codec t) cache' ∧ Quiet w w' := by
  unfold srcFold at hb
  induction ps generalizing b cache w with
  | nil =>
    cases hb
    exact ⟨cache, w, rfl, hc, .refl w⟩
  | cons q ps ih =>
    rw [List.foldlM_cons] at hb ⊢
    have hp' : ∀ q ∈ ps, Within 1937 q → cur.get? (keyOf q) = t.get? (keyOf q) :=
      fun r hr => hp r (List.mem_cons_of_mem _ hr)
    by_cases hv : Within 1937 q
    · have e1 : cloneSrc env sp o dp (b, cache) q = (do
          let srcKey ← Run.lift q.toBlockKey
          let (r, cache) ← cloneCached env cache srcKey
          match r with
          | some (.ok src) =>
            let dst ← Run.lift (mergeFrag env.build sp o dp q src b)
            return (dst, cache)
          | _ => return (b, cache)) := by
        unfold cloneSrc
        rw [isValidBlockPos_iff.2 hv]
        rfl
      rw [toBlockKey_valid _ (within_valid hv)] at e1
      obtain ⟨c1, w1, h1, h2, h3⟩ := cloneCached_run hf ho hc (hp q List.mem_cons_self hv)
      have hfind : findIn env.codec t q = match orig env.codec t (keyOf q) with
          | some (.ok b) => some b
          | _ => none := by unfold findIn; rw [if_pos hv]
      have e2 : cloneSrc env sp o dp (b, cache) q w = (match orig env.codec t (keyOf q) with
          | some (.ok src) => (do
            let dst ← Run.lift (mergeFrag env.build sp o dp q src b)
            return (dst, c1) : Run _)
          | _ => return (b, c1)) w1 := by
        rw [e1]
        show (do let (r, cache) ← cloneCached env cache (keyOf q); _ : Run _) w = _
        rw [run_bind_ok h1]
      rw [hfind] at hb
      cases ho' : orig env.codec t (keyOf q) with
      | none =>
        rw [ho'] at hb e2
        rw [run_bind_ok e2]
        obtain ⟨c2, w2, g1, g2, g3⟩ := ih (h3.open ho) h2 hp' hb
        exact ⟨c2, w2, g1, g2, h3.trans g3⟩
      | some r =>
        cases r with
        | error e =>
          rw [ho'] at hb e2
          rw [run_bind_ok e2]
          obtain ⟨c2, w2, g1, g2, g3⟩ := ih (h3.open ho) h2 hp' hb
          exact ⟨c2, w2, g1, g2, h3.trans g3⟩
        | ok src =>
          rw [ho'] at hb e2
          simp only at hb e2
          obtain ⟨b2, k1, k2⟩ := bind_ok_iff.1 hb
          rw [k1] at e2
          rw [run_bind_ok (show cloneSrc env sp o dp (b, cache) q w = (.ok (b2, c1), w1) from e2)]
          obtain ⟨c2, w2, g1, g2, g3⟩ := ih (h3.open ho) h2 hp' k2
          exact ⟨c2, w2, g1, g2, h3.trans g3⟩
    · have hi : ¬ q.isValidBlockPos = true := fun h => hv (isValidBlockPos_iff.1 h)
      have e2 : cloneSrc env sp o dp (b, cache) q w = (.ok (b, cache), w) := by
        unfold cloneSrc
        rw [Bool.eq_false_iff.2 hi]
        rfl
      rw [run_bind_ok e2]
      have hfind : findIn env.codec t q = none := by unfold findIn; rw [if_neg hv]
      rw [hfind] at hb
      exact ih ho hc hp' hb

theorem genRow_some {c : Codec} {t : Table} {k : Int} {d : Bytes} :
    genRow c t k = some d ↔ t.get? k = some d ∧ isValidGenerated c d = true := by
  unfold genRow
  rw [Option.filter_eq_some_iff]

theorem orig_ok {c : Codec} (hc : c.Lawful) {t : Table} {k : Int} {b : MapBlock} :
    orig c t k = some (.ok b) ↔ ∃ d, t.get? k = some d ∧ Represents c d b ∧ Generated b := by
  constructor
  · intro h
    unfold orig at h
    split at h
    · cases h
    · next d hd =>
      split at h
      · next b' hb' =>
        cases h
        obtain ⟨h1, h2⟩ := genRow_some.1 hd
        exact ⟨d, h1, deserialize_iff.1 hb', (C25_generated_check c hc d _ hb').1 h2⟩
      · cases h
      · cases h
  · rintro ⟨d, h1, h2, h3⟩
    have hb := deserialize_iff.2 h2
    have := genRow_some.2 ⟨h1, (C25_generated_check c hc d _ hb).2 h3⟩
    unfold orig
    rw [this]
    simp only [hb]

theorem findIn_iff {c : Codec} (hc : c.Lawful) {t : Table} (hn : (t.map (·.1)).Nodup) {q : Vec3}
    {b : MapBlock} : findIn c t (blockOf q) = some b ↔ Within 1937 (blockOf q) ∧ Shows c t q b := by
  unfold findIn Shows
  split
  · next hw =>
    have h1 : (match orig c t (keyOf (blockOf q)) with
        | some (.ok b) => some b
        | _ => none) = some b ↔ orig c t (keyOf (blockOf q)) = some (.ok b) := by
      cases orig c t (keyOf (blockOf q)) with
      | none => simp
      | some r => cases r <;> simp
    rw [h1, orig_ok hc]
    constructor
    · rintro ⟨d, h1, h2, h3⟩
      exact ⟨hw, within_valid hw, h3, d, Table.get?_some_mem h1, h2⟩
    · rintro ⟨-, -, h3, d, h1, h2⟩
      exact ⟨d, Table.get?_of_mem hn h1, h2, h3⟩
  · next hw =>
    constructor
    · intro h; cases h
    · intro h; exact absurd h.1 hw

theorem findIn_fine {c : Codec} (hc : c.Lawful) {t : Table} {P : MapBlock → Prop} (ha : AllBlocks c t P)
    (q : Vec3) (src : MapBlock) (h : findIn c t q = some src) : Wf src ∧ P src := by
  unfold findIn at h
  split at h
  · split at h
    · next b hb =>
      cases h
      obtain ⟨d, h1, h2, -⟩ := (orig_ok hc).1 hb
      exact ⟨wf_of_deserialize (deserialize_iff.2 h2), ha _ d _ (Table.get?_some_mem h1) h2⟩
    · cases h
  · cases h

/-- What the row of destination block `k` holds afterwards: `sp` is the part of the source that goes
there. -/
def DestRow (c : Codec) (t : Table) (find : Vec3 → Option MapBlock) (sp : Area) (o : Vec3) (k : Int)
    (d' : Bytes) : Prop :=
  (∀ d, t.get? k = some d → (∀ b, orig c t k ≠ some (.ok b)) → d' = d) ∧
  (∀ b, orig c t k = some (.ok b) → ∃ b', Represents c d' b' ∧ Remade b b' fun i =>
    fromSrc (fun q => InBox sp.min sp.max q) find (srcAt (Vec3.fromBlockKey k) o i) (b, i))

/-- Tidying, serializing and writing the finished block. -/
theorem write_run {env : Env} (hE : EnvOk env) (hf : ∀ n, env.fail n = false) {w : World}
    {dur cur : Table} {cols : List Col} (ho : OpenAt w .main dur cur cols) {b0 b : MapBlock}
    {F : Nat → MapBlock × Nat} (w0 : Wf b0) (j : Joinable 65528 b) (h : CopyState b0 b F) (k : Int) (a : α) :
    ∃ d' b' w', (do
        let dst ← Run.lift (cleanNimap env.build b)
        expect (← setBlock env .main k (← ser env dst))
        return a : Run α) w = (.ok a, w') ∧ Represents env.codec d' b' ∧ Remade b0 b' F ∧
      OpenAt w' .main dur (cur.put k d') cols ∧ w'.events = w.events ∧ w'.status = w.status ∧
      w'.dbs .input = w.dbs .input := by
  obtain ⟨b2, h1⟩ := clean_works env.build j.sorted (fun e he => by have := j.ids e he; omega) j.covered j.ne
  obtain ⟨s, b', h3, h4, h5⟩ := copyState_saved hE.codec hE.full w0 h h1 (env.ord w.trace.length) (hE.ord _)
  refine ⟨s, b', (w.setDb .main ⟨⟨dur, cur.put k s, true, cols⟩, true⟩).did .main (.put k s) true,
    ?_, h4, h5, ?_, rfl, rfl, ?_⟩
  · rw [h1]
    show (do let s ← ser env b2; let r ← setBlock env .main k s; expect r; return a : Run α) w = _
    rw [run_bind_ok (ser_iff.2 ⟨h3, rfl⟩)]
    rw [← run_bind_assoc, run_bind_ok ((setBlock_expect_iff ho k s).2 ⟨hf _, rfl⟩)]
    rfl
  · unfold OpenAt
    rw [did_dbs, setDb_self]
  · rw [did_dbs, setDb_other _ (by decide)]

/-- The result of a step of the copying loops. -/
structure Stepped (c : Codec) (t : Table) (find : Vec3 → Option MapBlock) (sp : Area) (o : Vec3)
    (k : Int) (dur cur : Table) (cols : List Col) (w : World) (cur' : Table) (d' : Bytes) (w' : World) :
    Prop where
  isOpen : OpenAt w' .main dur cur' cols
  get : ∀ q, cur'.get? q = if q = k then some d' else cur.get? q
  nodup : (cur.map (·.1)).Nodup → (cur'.map (·.1)).Nodup
  row : DestRow c t find sp o k d'
  events : w'.events = w.events
  input : w'.dbs .input = w.dbs .input
  total : w'.status.total = w.status.total
  done : w'.status.done = w.status.done + 1
  failed : w'.status.failed = w.status.failed +
    match orig c t k with
    | some (.error _) => 1
    | _ => 0

theorem absOverlap_part {a part : Area} {bp o : Vec3} (h : a.absBlockOverlap bp = some part) :
    (part.sub o).isValid = true ∧
      (∀ p, InBox (part.sub o).min (part.sub o).max p → InBlock bp (shift p o)) ∧
      (∀ p, InBlock bp p → (InBox (part.sub o).min (part.sub o).max (unshift p o) ↔ InBox a.min a.max p)) := by
  obtain ⟨h1, h2⟩ := (C07_abs_overlap a bp).1 part h
  rw [isValid_iff] at h1
  refine ⟨?_, ?_, ?_⟩
  · rw [isValid_iff]
    unfold Area.sub Vec3.sub
    simp only
    omega
  · intro p hp
    refine ((h2 (shift p o)).1 ?_).1
    unfold InBox Area.sub Vec3.sub at hp
    unfold InBox shift
    simp only at hp ⊢
    omega
  · intro p hp
    have h3 := h2 p
    have : InBox (part.sub o).min (part.sub o).max (unshift p o) ↔ InBox part.min part.max p := by
      unfold InBox unshift Area.sub Vec3.sub
      simp only
      omega
    rw [this, h3]
    exact ⟨fun h => h.2, fun h => ⟨hp, h⟩⟩

theorem cloneStep_run {env : Env} (hE : EnvOk env) (hf : ∀ n, env.fail n = false) {w : World}
    {t dur cur : Table} {cols : List Col} (ho : OpenAt w .main dur cur cols)
    (ha : AllBlocks env.codec t Tame)
    {cache : CacheMap BlockResult} (hc : CacheOk (orig env.codec t) cache) {area part : Area} {o : Vec3}
    {k : Int} {d : Bytes} (hk : cur.get? k = t.get? k) (hd : t.get? k = some d)
    (hp : area.absBlockOverlap (Vec3.fromBlockKey k) = some part)
    (hs : ∀ q ∈ (part.sub o).toTouchingBlockArea.positions, Within 1937 q →
      cur.get? (keyOf q) = t.get? (keyOf q)) :
    ∃ cache' w' cur' d', cloneStep env area o cache k w = (.ok cache', w') ∧
      CacheOk (orig env.codec t) cache' ∧
      Stepped env.codec t (findIn env.codec t) (part.sub o) o k dur cur cols w cur' d' w' := by
  unfold cloneStep
  rw [run_bind_ok (incDone_run w)]
  obtain ⟨c1, w1, h1, h2, q⟩ := cloneCached_run (w := w.setStatus fun s => { s with done := s.done + 1 })
    hf ho hc hk
  rw [run_bind_ok h1]
  have hget : ∀ q, cur.get? q = if q = k then some d else cur.get? q := by
    intro q
    split
    · next e => rw [e, hk, hd]
    · rfl
  cases hr : orig env.codec t k with
  | none =>
    refine ⟨c1, w1, cur, d, rfl, h2, q.open ho, hget, id, ⟨?_, ?_⟩, q.events, by rw [q.dbs], ?_, ?_, ?_⟩
    · intro d2 hd2 _
      rw [hd] at hd2; cases hd2; rfl
    · intro b hb; rw [hr] at hb; cases hb
    · rw [q.status]
    · rw [q.status]
    · rw [q.status]; simp only [hr]; rfl
  | some r =>
    cases r with
    | error e =>
      refine ⟨c1, w1.setStatus fun s => { s with failed := s.failed + 1 }, cur, d, rfl,
        h2, q.open ho, hget, id, ⟨?_, ?_⟩, q.events, by show w1.dbs .input = _; rw [q.dbs], ?_, ?_, ?_⟩
      · intro d2 hd2 _
        rw [hd] at hd2; cases hd2; rfl
      · intro b hb; rw [hr] at hb; cases hb
      · show w1.status.total = _; rw [q.status]
      · show w1.status.done = _; rw [q.status]
      · show w1.status.failed + 1 = _; rw [q.status]; simp only [hr]
    | ok b0 =>
      simp only
      obtain ⟨d0, e1, e2, -⟩ := (orig_ok hE.codec).1 hr
      have wf0 := wf_of_deserialize (deserialize_iff.2 e2)
      have s0 := ha _ _ _ (Table.get?_some_mem e1) e2
      obtain ⟨p1, p2, -⟩ := absOverlap_part (o := o) hp
      obtain ⟨b1, f1, f0, f2⟩ := srcFold_ok env.build wf0 s0 (findIn_fine hE.codec ha) p1 p2
      obtain ⟨c2, w2, g1, g2, g3⟩ := cloneSrc_run hf (q.open ho) h2 hs f1
      obtain ⟨d', b', w3, k1, k2, k3, k4, k5, k6, k7⟩ := write_run hE hf (g3.open (q.open ho)) wf0 f0 f2 k c2
      refine ⟨c2, w3, _, d', ?_, g2, k4, fun q => Table.get?_put _ _ _ _, fun h => Table.nodup_put h _ _,
        ⟨?_, ?_⟩, ?_, ?_, ?_, ?_, ?_⟩
      · rw [hp]
        show (do
          let (dst, cache) ← (part.sub o).toTouchingBlockArea.positions.foldlM
            (cloneSrc env (part.sub o) o (Vec3.fromBlockKey k)) (b0, c1)
          _ : Run _) w1 = _
        rw [run_bind_ok g1]
        exact k1
      · intro d2 hd2 hno
        exact absurd hr (hno b0)
      · intro b hb
        rw [hr] at hb
        cases hb
        exact ⟨b', k2, k3⟩
      · rw [k5, g3.events, q.events]
      · rw [k7, g3.dbs, q.dbs]
      · rw [k6, g3.status, q.status]
      · rw [k6, g3.status, q.status]
      · rw [k6, g3.status, q.status]; simp only [hr]; rfl

end MapEditr
