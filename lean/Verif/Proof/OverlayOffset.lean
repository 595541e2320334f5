import Verif.Proof.Copied
/-! # Lemmas: `overlay` with an offset -/

namespace MapEditr
open Spec
set_option linter.unusedSimpArgs false
set_option linter.unusedVariables false

/-- What `overlay` remembers of a row. -/
def origOk (c : Codec) (t : Table) (k : Int) : Option MapBlock :=
  match orig c t k with
  | some (.ok b) => some b
  | _ => none

theorem findIn_eq (c : Codec) (t : Table) (q : Vec3) :
    findIn c t q = if Within 1937 q then origOk c t (keyOf q) else none := rfl

theorem overlayCached_run {env : Env} (hf : ∀ n, env.fail n = false) {w : World} {dur src : Table}
    {cols : List Col} (ho : OpenAt w .input dur src cols) {cache : CacheMap (Option MapBlock)}
    (hc : CacheOk (origOk env.codec src) cache) (k : Int) :
    ∃ cache' w', overlayCached env cache k w = (.ok (origOk env.codec src k, cache'), w') ∧
      CacheOk (origOk env.codec src) cache' ∧ Quiet w w' := by
  unfold overlayCached
  cases hg : cache.get k with
  | some r =>
    have := hc _ (cache_get_mem hg)
    simp only at this
    subst this
    exact ⟨cache, w, rfl, hc, .refl w⟩
  | none =>
    obtain ⟨w1, h1, q⟩ := getGenerated_run hf ho k
    simp only
    rw [run_bind_ok h1]
    have hi := cacheOk_insert hc k
    cases hr : genRow env.codec src k with
    | none =>
      have : origOk env.codec src k = none := by unfold origOk; rw [orig_none hr]
      rw [this] at hi ⊢
      exact ⟨_, w1, rfl, hi, q⟩
    | some d =>
      simp only
      obtain ⟨r, d1, d2, d3⟩ := deser_run (env := env) d w1
      rw [run_bind_ok d1]
      have : origOk env.codec src k = r.toOption := by
        unfold origOk
        rw [orig_some hr d2 d3]
        cases r <;> rfl
      rw [this] at hi ⊢
      exact ⟨_, w1, rfl, hi, q⟩

theorem overlaySrc_run {env : Env} (hf : ∀ n, env.fail n = false) {w : World} {dur src : Table}
    {cols : List Col} (ho : OpenAt w .input dur src cols) {cache : CacheMap (Option MapBlock)}
    (hc : CacheOk (origOk env.codec src) cache) {sp : Area} {o dp : Vec3} {ps : List Vec3}
    {b b1 : MapBlock} (hb : srcFold env.build sp o dp (findIn env.codec src) b ps = .ok b1) :
    ∃ cache' w', ps.foldlM (overlaySrc env sp o dp) (b, cache) w = (.ok (b1, cache'), w') ∧
      CacheOk (origOk env.codec src) cache' ∧ Quiet w w' := by
  unfold srcFold at hb
  induction ps generalizing b cache w with
  | nil =>
    cases hb
    exact ⟨cache, w, rfl, hc, .refl w⟩
  | cons q ps ih =>
    rw [List.foldlM_cons] at hb ⊢
    by_cases hv : Within 1937 q
    · have e1 : overlaySrc env sp o dp (b, cache) q = (do
          let srcKey ← Run.lift q.toBlockKey
          let (r, cache) ← overlayCached env cache srcKey
          match r with
          | some src =>
            let dst ← Run.lift (mergeFrag env.build sp o dp q src b)
            return (dst, cache)
          | none => return (b, cache)) := by
        unfold overlaySrc
        rw [isValidBlockPos_iff.2 hv]
        rfl
      rw [toBlockKey_valid _ (within_valid hv)] at e1
      obtain ⟨c1, w1, h1, h2, h3⟩ := overlayCached_run hf ho hc (keyOf q)
      rw [findIn_eq, if_pos hv] at hb
      have e2 : overlaySrc env sp o dp (b, cache) q w = (match origOk env.codec src (keyOf q) with
          | some src => (do
            let dst ← Run.lift (mergeFrag env.build sp o dp q src b)
            return (dst, c1) : Run _)
          | none => return (b, c1)) w1 := by
        rw [e1]
        show (do let (r, cache) ← overlayCached env cache (keyOf q); _ : Run _) w = _
        rw [run_bind_ok h1]
      cases ho' : origOk env.codec src (keyOf q) with
      | none =>
        rw [ho'] at hb e2
        rw [run_bind_ok e2]
        obtain ⟨c2, w2, g1, g2, g3⟩ := ih (h3.open ho) h2 hb
        exact ⟨c2, w2, g1, g2, h3.trans g3⟩
      | some sb =>
        rw [ho'] at hb e2
        simp only at hb e2
        obtain ⟨b2, k1, k2⟩ := bind_ok_iff.1 hb
        rw [k1] at e2
        rw [run_bind_ok (show overlaySrc env sp o dp (b, cache) q w = (.ok (b2, c1), w1) from e2)]
        obtain ⟨c2, w2, g1, g2, g3⟩ := ih (h3.open ho) h2 k2
        exact ⟨c2, w2, g1, g2, h3.trans g3⟩
    · have hi : ¬ q.isValidBlockPos = true := fun h => hv (isValidBlockPos_iff.1 h)
      have e2 : overlaySrc env sp o dp (b, cache) q w = (.ok (b, cache), w) := by
        unfold overlaySrc
        rw [Bool.eq_false_iff.2 hi]
        rfl
      rw [run_bind_ok e2]
      rw [findIn_eq, if_neg hv] at hb
      exact ih ho hc hb

/-- The part of block `k` that is copied to. -/
def partOf (area : Option Area) (k : Int) : Area :=
  match area with
  | none => ⟨(Vec3.fromBlockKey k).mulS 16, ((Vec3.fromBlockKey k).mulS 16).addS 15⟩
  | some a => partIn a k

/-- The facts about a part that matter. -/
structure PartOk (Sel : Vec3 → Prop) (part : Area) (bp o : Vec3) : Prop where
  valid : (part.sub o).isValid = true
  inside : ∀ p, InBox (part.sub o).min (part.sub o).max p → InBlock bp (shift p o)
  iff : ∀ p, InBlock bp p → (InBox (part.sub o).min (part.sub o).max (unshift p o) ↔ Sel p)

theorem partOf_ok {area : Option Area} (ha : AreaOk area) {t : Table} (hg : GoodTable t) {k : Int} (o : Vec3)
    (hk : k ∈ dests area false t) :
    PartOk (Selected area false) (partOf area k) (Vec3.fromBlockKey k) o := by
  cases area with
  | none =>
    unfold partOf
    refine ⟨?_, ?_, ?_⟩
    · rw [isValid_iff]
      unfold Area.sub Vec3.sub Vec3.mulS Vec3.addS
      simp only [Vec3.map]
      omega
    · intro p
      unfold InBox InBlock shift Area.sub Vec3.sub Vec3.mulS Vec3.addS
      simp only [Vec3.map]
      omega
    · intro p hp
      simp only [Selected, iff_true]
      revert hp
      unfold InBox InBlock unshift Area.sub Vec3.sub Vec3.mulS Vec3.addS
      simp only [Vec3.map]
      omega
  | some a =>
    have hp := partIn_some (ha a rfl) hg hk
    obtain ⟨h1, h2, h3⟩ := absOverlap_part (o := o) hp
    refine ⟨h1, h2, ?_⟩
    intro p hp
    show InBox ((partIn a k).sub o).min ((partIn a k).sub o).max _ ↔ _
    rw [h3 p hp, selected_iff]
    simp

theorem overlayOffsetStep_run {env : Env} (hE : EnvOk env) (hf : ∀ n, env.fail n = false) {w : World}
    {t src dur cur idur : Table} {cols icols : List Col} (ho : OpenAt w .main dur cur cols)
    (hi : OpenAt w .input idur src icols)
    (ha : AllBlocks env.codec t Tame)
    (has : AllBlocks env.codec src Tame)
    {cache : CacheMap (Option MapBlock)} (hc : CacheOk (origOk env.codec src) cache)
    {area : Option Area} {o : Vec3} {k : Int} {d : Bytes} (hk : cur.get? k = t.get? k)
    (hd : t.get? k = some d)
    (hp : ∀ a, area = some a → a.absBlockOverlap (Vec3.fromBlockKey k) = some (partIn a k))
    {Sel : Vec3 → Prop} (hpo : PartOk Sel (partOf area k) (Vec3.fromBlockKey k) o) :
    ∃ cache' w' cur' d', overlayOffsetStep env area o cache k w = (.ok cache', w') ∧
      CacheOk (origOk env.codec src) cache' ∧
      Stepped env.codec t (findIn env.codec src) ((partOf area k).sub o) o k dur cur cols w cur' d' w' := by
  unfold overlayOffsetStep
  rw [run_bind_ok (incDone_run w)]
  obtain ⟨w1, h1, q⟩ := getGenerated_run (w := w.setStatus fun s => { s with done := s.done + 1 })
    hf ho k
  simp only
  rw [run_bind_ok h1]
  have he : genRow env.codec cur k = genRow env.codec t k := by unfold genRow; rw [hk]
  rw [he]
  have hget : ∀ q, cur.get? q = if q = k then some d else cur.get? q := by
    intro q
    split
    · next e => rw [e, hk, hd]
    · rfl
  cases hr : genRow env.codec t k with
  | none =>
    have hor := orig_none hr
    refine ⟨cache, w1, cur, d, rfl, hc, q.open ho, hget, id, ⟨?_, ?_⟩, q.events, by rw [q.dbs], ?_, ?_, ?_⟩
    · intro d2 hd2 _
      rw [hd] at hd2; cases hd2; rfl
    · intro b hb; rw [hor] at hb; cases hb
    · rw [q.status]
    · rw [q.status]
    · rw [q.status]; simp only [hor]; rfl
  | some d0 =>
    simp only
    obtain ⟨r, r1, r2, r3⟩ := deser_run (env := env) d0 w1
    rw [run_bind_ok r1]
    have hor := orig_some hr r2 r3
    cases r with
    | error e =>
      refine ⟨cache, w1.setStatus fun s => { s with failed := s.failed + 1 }, cur, d, rfl,
        hc, q.open ho, hget, id, ⟨?_, ?_⟩, q.events, by show w1.dbs .input = _; rw [q.dbs], ?_, ?_, ?_⟩
      · intro d2 hd2 _
        rw [hd] at hd2; cases hd2; rfl
      · intro b hb; rw [hor] at hb; cases hb
      · show w1.status.total = _; rw [q.status]
      · show w1.status.done = _; rw [q.status]
      · show w1.status.failed + 1 = _; rw [q.status]; simp only [hor]
    | ok b0 =>
      simp only
      obtain ⟨d0, e1, e2, -⟩ := (orig_ok hE.codec).1 hor
      have wf0 := wf_of_deserialize (deserialize_iff.2 e2)
      have s0 := ha _ _ _ (Table.get?_some_mem e1) e2
      obtain ⟨b1, f1, f0, f2⟩ := srcFold_ok env.build wf0 s0 (findIn_fine hE.codec has) hpo.valid hpo.inside
      obtain ⟨c2, w2, g1, g2, g3⟩ := overlaySrc_run hf (q.open hi) hc f1
      obtain ⟨d', b', w3, k1, k2, k3, k4, k5, k6, k7⟩ := write_run hE hf (g3.open (q.open ho)) wf0 f0 f2 k c2
      refine ⟨c2, w3, _, d', ?_, g2, k4, fun q => Table.get?_put _ _ _ _, fun h => Table.nodup_put h _ _,
        ⟨?_, ?_⟩, ?_, ?_, ?_, ?_, ?_⟩
      · cases area with
        | none =>
          exact (run_bind_ok (show (pure (partOf none k) : Run Area) w1 = (.ok (partOf none k), w1) from rfl)).trans
            ((run_bind_ok g1).trans k1)
        | some a =>
          simp only [hp a rfl]
          rw [run_bind_ok (show Run.unwrap (some (partIn a k)) w1 = (.ok (partOf (some a) k), w1) from rfl),
            run_bind_ok g1]
          exact k1
      · intro d2 hd2 hno
        exact absurd hor (hno b0)
      · intro b hb
        rw [hor] at hb
        cases hb
        exact ⟨b', k2, k3⟩
      · rw [k5, g3.events, q.events]
      · rw [k7, g3.dbs, q.dbs]
      · rw [k6, g3.status, q.status]
      · rw [k6, g3.status, q.status]
      · rw [k6, g3.status, q.status]; simp only [hor]; rfl

theorem overlayOffsetLoop_run {env : Env} (hE : EnvOk env) (hf : ∀ n, env.fail n = false) {w : World}
    {t src dur cur idur : Table} {cols icols : List Col} (ho : OpenAt w .main dur cur cols)
    (hi : OpenAt w .input idur src icols)
    (ha : AllBlocks env.codec t Tame)
    (has : AllBlocks env.codec src Tame)
    {cache : CacheMap (Option MapBlock)} (hc : CacheOk (origOk env.codec src) cache)
    {area : Option Area} {o : Vec3} {Sel : Vec3 → Prop} {ks : List Int} (hnd : ks.Nodup)
    (hrow : ∀ k ∈ ks, cur.get? k = t.get? k ∧ ∃ d, t.get? k = some d)
    (hp : ∀ k ∈ ks, ∀ a, area = some a → a.absBlockOverlap (Vec3.fromBlockKey k) = some (partIn a k))
    (hpo : ∀ k ∈ ks, PartOk Sel (partOf area k) (Vec3.fromBlockKey k) o) :
    ∃ cache' w' cur', ks.foldlM (overlayOffsetStep env area o) cache w = (.ok cache', w') ∧
      Looped env.codec t (findIn env.codec src) (partOf area) o ks dur cur cols w cur' w' := by
  induction ks generalizing cache w cur with
  | nil => exact ⟨cache, w, cur, rfl, looped_nil ho⟩
  | cons k ks ih =>
    rw [List.nodup_cons] at hnd
    obtain ⟨r1, d, r2⟩ := hrow k List.mem_cons_self
    obtain ⟨c1, w1, cur1, d', h1, h2, h3⟩ := overlayOffsetStep_run hE hf ho hi ha has hc r1 r2
      (hp k List.mem_cons_self) (hpo k List.mem_cons_self)
    obtain ⟨c2, w2, cur2, g1, g2⟩ := ih (cur := cur1) h3.isOpen
      (by unfold OpenAt; rw [h3.input]; exact hi) h2 hnd.2
      (fun q hq => by
        have hne : q ≠ k := fun e => hnd.1 (e ▸ hq)
        rw [h3.get, if_neg hne]
        exact hrow q (List.mem_cons_of_mem _ hq))
      (fun q hq => hp q (List.mem_cons_of_mem _ hq))
      (fun q hq => hpo q (List.mem_cons_of_mem _ hq))
    refine ⟨c2, w2, cur2, ?_, looped_cons hnd.1 h3 g2⟩
    rw [List.foldlM_cons, run_bind_ok h1]
    exact g1

/-- The destination area. -/
def shiftArea (area : Option Area) (o : Vec3) : Option Area := area.map fun a => a.add o

theorem shiftArea_ok {area : Option Area} (ha : AreaOk area) (o : Vec3) : AreaOk (shiftArea area o) := by
  intro a h
  cases area with
  | none => cases h
  | some a' =>
    cases h
    exact addArea_valid (ha a' rfl)

theorem shiftArea_sel (area : Option Area) (o p : Vec3) :
    Selected (shiftArea area o) false p ↔ Selected area false (unshift p o) := by
  cases area with
  | none => exact Iff.rfl
  | some a =>
    show Selected (some (a.add o)) false p ↔ _
    rw [selected_iff, selected_iff]
    unfold InBox unshift Area.add Vec3.add
    simp only [iff_true]
    omega

theorem overlayOffset_run {env : Env} (hE : EnvOk env) (hf : ∀ n, env.fail n = false) {w : World}
    {t src dur idur : Table} {cols icols : List Col} (ho : OpenAt w .main dur t cols)
    (hi : OpenAt w .input idur src icols) (hg : GoodTable t)
    (ha : AllBlocks env.codec t Tame)
    (has : AllBlocks env.codec src Tame) (cap : Nat) {args : InstArgs}
    {o : Vec3} (hO : args.offset = some o) (hinv : args.invert = false) (hv : AreaOk args.area) :
    ∃ w' cur', overlayWithOffset env cap args w = (.ok (), w') ∧
      CopyDone env.codec (findIn env.codec src) (partOf (shiftArea args.area o)) o
        (dests (shiftArea args.area o) false t) dur t cols w cur' w' := by
  unfold overlayWithOffset
  rw [hO, hinv]
  show ∃ w' cur', (do
    let keys ← queryKeys env .main [] (shiftArea args.area o) false true
    beginEditing
    let _ ← keys.foldlM (overlayOffsetStep env (shiftArea args.area o) o) (CacheMap.withCapacity cap)
    endEditing : Run Unit) w = _ ∧ _
  have hv' := shiftArea_ok hv o
  generalize shiftArea args.area o = area at *
  rcases queryKeys_open ho [] area false true (env := env) with ⟨w1, h1, q⟩ | ⟨h, _⟩
  · rw [run_bind_ok h1]
    have hd : (queryHits [] area false true t).map (·.1) = dests area false t := rfl
    rw [hd]
    obtain ⟨c2, w2, cur2, l1, l2⟩ := overlayOffsetLoop_run hE hf (w := w1.inState .editing) (dur := dur) (cur := t)
      (cols := cols) (show w1.dbs .main = _ by rw [q.dbs]; exact ho)
      (show w1.dbs .input = _ by rw [q.dbs]; exact hi) ha has
      (cacheOk_empty (origOk env.codec src) cap) (area := area) (o := o) (Sel := Selected area false)
      (ks := dests area false t) (dests_nodup hg)
      (fun k hk => ⟨rfl, (dests_row hg hk).2⟩)
      (fun k hk a h => by
        subst h
        exact partIn_some (hv' a rfl) hg hk)
      (fun k hk => partOf_ok hv' hg o hk)
    refine ⟨w2.inState .ignore, cur2, ?_, l2.isOpen, l2.nodup hg.nodup, l2.off, l2.on, ?_, ?_, ?_,
      ?_, ?_⟩
    · have hb : beginEditing w1 = (.ok (), w1.inState .editing) := rfl
      rw [run_bind_ok hb, run_bind_ok l1]
      rfl
    · show w2.events ++ _ = _
      rw [l2.events]
      show (w1.events ++ _) ++ _ = _
      rw [q.events]
      simp
    · show w2.dbs .input = _
      rw [l2.input]
      show w1.dbs .input = _
      rw [q.dbs]
    · show w2.status.total = _
      rw [l2.total]
      show w1.status.total = _
      rw [q.status]
      show (queryHits [] area false true t).length = _
      rw [← hd, List.length_map]
    · show w2.status.done = _
      rw [l2.done]
      show w1.status.done + _ = _
      rw [q.status]
    · show w2.status.failed = _
      rw [l2.failed]
      show w1.status.failed + _ = _
      rw [q.status]
  · rw [hf] at h; cases h

end MapEditr
