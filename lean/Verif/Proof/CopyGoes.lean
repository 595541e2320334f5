import Verif.Proof.DrawnExact
/-! # Lemmas: runs of the copying commands that do not crash -/

namespace MapEditr
open Spec
set_option linter.unusedSimpArgs false
set_option linter.unusedVariables false

theorem write_goes {env : Env} (hE : EnvOk env) (hf : ∀ n, env.fail n = false) {w : World}
    {dur cur : Table} {cols : List Col} (ho : OpenAt w .main dur cur cols) {b b2 : MapBlock}
    (h1 : cleanNimap env.build b = .ok b2) (h2 : Short b2) (k : Int) (a : α) :
    ∃ d' w', (do
        let dst ← Run.lift (cleanNimap env.build b)
        expect (← setBlock env .main k (← ser env dst))
        return a : Run α) w = (.ok a, w') ∧
      OpenAt w' .main dur (cur.put k d') cols ∧ w'.dbs .input = w.dbs .input := by
  obtain ⟨s, h3⟩ := h2.saves env.codec (hE.ord w.trace.length)
  refine ⟨s, (w.setDb .main ⟨⟨dur, cur.put k s, true, cols⟩, true⟩).did .main (.put k s) true, ?_, ?_, ?_⟩
  · rw [h1]
    show (do let s ← ser env b2; let r ← setBlock env .main k s; expect r; return a : Run α) w = _
    rw [run_bind_ok (ser_iff.2 ⟨h3, rfl⟩)]
    rw [← run_bind_assoc, run_bind_ok ((setBlock_expect_iff ho k s).2 ⟨hf _, rfl⟩)]
    rfl
  · unfold OpenAt
    rw [did_dbs, setDb_self]
  · rw [did_dbs, setDb_other _ (by decide)]

/-- One step. -/
structure GoStep (k : Int) (dur cur : Table) (cols : List Col) (w : World) (cur' : Table) (w' : World) : Prop where
  isOpen : OpenAt w' .main dur cur' cols
  off : ∀ q, q ≠ k → cur'.get? q = cur.get? q
  input : w'.dbs .input = w.dbs .input

theorem goStep_put {k : Int} {dur cur : Table} {cols : List Col} {w w' : World} {d : Bytes}
    (ho : OpenAt w' .main dur (cur.put k d) cols) (hi : w'.dbs .input = w.dbs .input) :
    GoStep k dur cur cols w (cur.put k d) w' :=
  ⟨ho, fun q hq => by rw [Table.get?_put, if_neg hq], hi⟩

/-- A loop works if every step does, where `N k q` means that the step for `k` looks at row `q`. -/
theorem goLoop {σ : Type} {N : Int → Int → Prop} {I : σ → Prop}
    {step : σ → Int → Run σ} {dur t : Table} {cols : List Col} {indb : Option MapDb} {ks : List Int}
    (hpw : ks.Pairwise fun a b => ¬ N b a)
    (hstep : ∀ k ∈ ks, ∀ s w cur, I s → OpenAt w .main dur cur cols → w.dbs .input = indb →
      (∀ q, N k q → cur.get? q = t.get? q) →
      ∃ s' w' cur', step s k w = (.ok s', w') ∧ I s' ∧ GoStep k dur cur cols w cur' w')
    {s : σ} {w : World} {cur : Table} (hI : I s) (ho : OpenAt w .main dur cur cols)
    (hi : w.dbs .input = indb) (hN : ∀ k ∈ ks, ∀ q, N k q → cur.get? q = t.get? q) :
    ∃ s' w', ks.foldlM step s w = (.ok s', w') := by
  induction ks generalizing s w cur with
  | nil => exact ⟨s, w, rfl⟩
  | cons k ks ih =>
    rw [List.pairwise_cons] at hpw
    obtain ⟨s1, w1, cur1, h1, h2, h3⟩ := hstep k List.mem_cons_self s w cur hI ho hi (hN k List.mem_cons_self)
    obtain ⟨s2, w2, g⟩ := ih hpw.2 (fun q hq => hstep q (List.mem_cons_of_mem _ hq)) h2 h3.isOpen
      (h3.input.trans hi) (fun q hq r hr => by
        have hne : r ≠ k := fun e => hpw.1 q hq (e ▸ hr)
        rw [h3.off r hne]
        exact hN q (List.mem_cons_of_mem _ hq) r hr)
    exact ⟨s2, w2, by rw [List.foldlM_cons, run_bind_ok h1]; exact g⟩

theorem cloneStep_goes {env : Env} (hE : EnvOk env) (hf : ∀ n, env.fail n = false) {w : World}
    {t dur cur : Table} {cols : List Col} (ho : OpenAt w .main dur cur cols)
    {cache : CacheMap BlockResult} (hc : CacheOk (orig env.codec t) cache) {area : Area} {o : Vec3}
    {part : Int → Area} {k : Int} (hN : ∀ q, CloneReads part o k q → cur.get? q = t.get? q)
    (hp : area.absBlockOverlap (Vec3.fromBlockKey k) = some (part k))
    (hgo : ∀ b, orig env.codec t k = some (.ok b) →
      Goes env.build ((part k).sub o) o (Vec3.fromBlockKey k) (findIn env.codec t) b) :
    ∃ cache' w' cur', cloneStep env area o cache k w = (.ok cache', w') ∧
      CacheOk (orig env.codec t) cache' ∧ GoStep k dur cur cols w cur' w' := by
  unfold cloneStep
  rw [run_bind_ok (incDone_run w)]
  obtain ⟨c1, w1, h1, h2, q⟩ := cloneCached_run (w := w.setStatus fun s => { s with done := s.done + 1 })
    hf ho hc (hN k (.inl rfl))
  rw [run_bind_ok h1]
  cases hr : orig env.codec t k with
  | none => exact ⟨c1, w1, cur, rfl, h2, q.open ho, fun _ _ => rfl, by rw [q.dbs]⟩
  | some r =>
    cases r with
    | error e =>
      exact ⟨c1, w1.setStatus fun s => { s with failed := s.failed + 1 }, cur, rfl,
        h2, q.open ho, fun _ _ => rfl, by show w1.dbs .input = _; rw [q.dbs]⟩
    | ok b0 =>
      simp only
      obtain ⟨b1, b2, f1, f2, f3⟩ := hgo b0 hr
      obtain ⟨c2, w2, g1, g2, g3⟩ := cloneSrc_run hf (q.open ho) h2
        (fun p hp hw => hN _ (.inr ⟨p, hp, hw, rfl⟩)) f1
      obtain ⟨d', w3, k1, k2, k3⟩ := write_goes hE hf (g3.open (q.open ho)) f2 f3 k c2
      refine ⟨c2, w3, _, ?_, g2, goStep_put k2 (by rw [k3, g3.dbs, q.dbs])⟩
      rw [hp]
      show (do
        let (dst, cache) ← ((part k).sub o).toTouchingBlockArea.positions.foldlM
          (cloneSrc env ((part k).sub o) o (Vec3.fromBlockKey k)) (b0, c1)
        _ : Run _) w1 = _
      rw [run_bind_ok g1]
      exact k1

/-- `clone` does not crash if every block it changes can take its nodes. -/
theorem clone_goes {env : Env} (hE : EnvOk env) (hf : ∀ n, env.fail n = false) {w : World}
    {t dur : Table} {cols : List Col} (ho : OpenAt w .main dur t cols) (hg : GoodTable t) (cap : Nat)
    {args : InstArgs} {a : Area} {o : Vec3} (hA : args.area = some a) (hO : args.offset = some o)
    (hv : a.isValid = true)
    (hgo : ∀ k ∈ dests (some (a.add o)) false t, ∀ b, orig env.codec t k = some (.ok b) →
      Goes env.build ((partIn (a.add o) k).sub o) o (Vec3.fromBlockKey k) (findIn env.codec t) b) :
    ∃ w', clone env cap args w = (.ok (), w') := by
  unfold clone
  rw [hA, hO]
  show ∃ w', (do
    let keys ← queryKeys env .main [] (some (a.add o)) false true
    let keys ← Run.lift (sortKeys o keys)
    beginEditing
    let _ ← keys.foldlM (cloneStep env (a.add o) o) (CacheMap.withCapacity cap)
    endEditing : Run Unit) w = _
  rcases queryKeys_open ho [] (some (a.add o)) false true (env := env) with ⟨w1, h1, q⟩ | ⟨h, _⟩
  · rw [run_bind_ok h1]
    have hd : (queryHits [] (some (a.add o)) false true t).map (·.1) = dests (some (a.add o)) false t := rfl
    rw [hd]
    obtain ⟨ks, k1, k2, k3⟩ := sortKeys_run (o := o) (keys := dests (some (a.add o)) false t)
      (fun k hk => (dests_row hg hk).1)
    rw [k1]
    have hmem : ∀ k, k ∈ ks ↔ k ∈ dests (some (a.add o)) false t := fun k => k2.mem_iff
    have hval : ∀ k ∈ ks, ValidKey k := fun k hk => (dests_row hg ((hmem k).1 hk)).1
    have hpart := fun k hk => partIn_some (addArea_valid (o := o) hv) hg ((hmem k).1 hk)
    obtain ⟨c2, w2, l1⟩ := goLoop (N := CloneReads (partIn (a.add o)) o) (I := CacheOk (orig env.codec t))
      (step := cloneStep env (a.add o) o) (dur := dur) (t := t) (cols := cols) (indb := w.dbs .input) (ks := ks)
      ((k3.and (k2.nodup_iff.2 (dests_nodup hg))).imp_of_mem fun {x y} hx hy ⟨hb, hne⟩ => by
        rintro (e | ⟨p, hp, hw, e⟩)
        · exact hne e
        · exact not_source (hval x hx) (hval y hy) hne hb (hpart y hy) hp hw e.symm)
      (fun k hk s w cur hI ho _ hN => cloneStep_goes hE hf ho hI hN (hpart k hk) (hgo k ((hmem k).1 hk)))
      (cacheOk_empty (orig env.codec t) cap) (w := w1.inState .editing) (cur := t)
      (show w1.dbs .main = _ by rw [q.dbs]; exact ho) (show w1.dbs .input = _ by rw [q.dbs])
      (fun _ _ _ _ => rfl)
    refine ⟨w2.inState .ignore, ?_⟩
    show (do
      beginEditing
      let _ ← ks.foldlM (cloneStep env (a.add o) o) (CacheMap.withCapacity cap)
      endEditing : Run Unit) w1 = _
    have hb : beginEditing w1 = (.ok (), w1.inState .editing) := rfl
    rw [run_bind_ok hb, run_bind_ok l1]
    rfl
  · rw [hf] at h; cases h

theorem overlayOffsetStep_goes {env : Env} (hE : EnvOk env) (hf : ∀ n, env.fail n = false) {w : World}
    {t src dur cur idur : Table} {cols icols : List Col} (ho : OpenAt w .main dur cur cols)
    (hi : OpenAt w .input idur src icols)
    {cache : CacheMap (Option MapBlock)} (hc : CacheOk (origOk env.codec src) cache)
    {area : Option Area} {o : Vec3} {k : Int} (hk : cur.get? k = t.get? k)
    (hp : ∀ a, area = some a → a.absBlockOverlap (Vec3.fromBlockKey k) = some (partIn a k))
    (hgo : ∀ b, orig env.codec t k = some (.ok b) →
      Goes env.build ((partOf area k).sub o) o (Vec3.fromBlockKey k) (findIn env.codec src) b) :
    ∃ cache' w' cur', overlayOffsetStep env area o cache k w = (.ok cache', w') ∧
      CacheOk (origOk env.codec src) cache' ∧ GoStep k dur cur cols w cur' w' := by
  unfold overlayOffsetStep
  rw [run_bind_ok (incDone_run w)]
  obtain ⟨w1, h1, q⟩ := getGenerated_run (w := w.setStatus fun s => { s with done := s.done + 1 })
    hf ho k
  simp only
  rw [run_bind_ok h1]
  have he : genRow env.codec cur k = genRow env.codec t k := by unfold genRow; rw [hk]
  rw [he]
  cases hr : genRow env.codec t k with
  | none => exact ⟨cache, w1, cur, rfl, hc, q.open ho, fun _ _ => rfl, by rw [q.dbs]⟩
  | some d0 =>
    simp only
    obtain ⟨r, r1, r2, r3⟩ := deser_run (env := env) d0 w1
    rw [run_bind_ok r1]
    have hor := orig_some hr r2 r3
    cases r with
    | error e =>
      exact ⟨cache, w1.setStatus fun s => { s with failed := s.failed + 1 }, cur, rfl,
        hc, q.open ho, fun _ _ => rfl, by show w1.dbs .input = _; rw [q.dbs]⟩
    | ok b0 =>
      simp only
      obtain ⟨b1, b2, f1, f2, f3⟩ := hgo b0 hor
      obtain ⟨c2, w2, g1, g2, g3⟩ := overlaySrc_run hf (q.open hi) hc f1
      obtain ⟨d', w3, k1, k2, k3⟩ := write_goes hE hf (g3.open (q.open ho)) f2 f3 k c2
      refine ⟨c2, w3, _, ?_, g2, goStep_put k2 (by rw [k3, g3.dbs, q.dbs])⟩
      cases area with
      | none =>
        exact (run_bind_ok (show (pure (partOf none k) : Run Area) w1 = (.ok (partOf none k), w1) from rfl)).trans
          ((run_bind_ok g1).trans k1)
      | some a =>
        simp only [hp a rfl]
        rw [run_bind_ok (show Run.unwrap (some (partIn a k)) w1 = (.ok (partOf (some a) k), w1) from rfl),
          run_bind_ok g1]
        exact k1

theorem overlayOffset_goes {env : Env} (hE : EnvOk env) (hf : ∀ n, env.fail n = false) {w : World}
    {t src dur idur : Table} {cols icols : List Col} (ho : OpenAt w .main dur t cols)
    (hi : OpenAt w .input idur src icols) (hg : GoodTable t) (cap : Nat) {args : InstArgs}
    {o : Vec3} (hO : args.offset = some o) (hinv : args.invert = false) (hv : AreaOk args.area)
    (hgo : ∀ k ∈ dests (shiftArea args.area o) false t, ∀ b, orig env.codec t k = some (.ok b) →
      Goes env.build ((partOf (shiftArea args.area o) k).sub o) o (Vec3.fromBlockKey k) (findIn env.codec src) b) :
    ∃ w', overlayWithOffset env cap args w = (.ok (), w') := by
  unfold overlayWithOffset
  rw [hO, hinv]
  show ∃ w', (do
    let keys ← queryKeys env .main [] (shiftArea args.area o) false true
    beginEditing
    let _ ← keys.foldlM (overlayOffsetStep env (shiftArea args.area o) o) (CacheMap.withCapacity cap)
    endEditing : Run Unit) w = _
  have hv' := shiftArea_ok hv o
  generalize shiftArea args.area o = area at *
  rcases queryKeys_open ho [] area false true (env := env) with ⟨w1, h1, q⟩ | ⟨h, _⟩
  · rw [run_bind_ok h1]
    have hd : (queryHits [] area false true t).map (·.1) = dests area false t := rfl
    rw [hd]
    obtain ⟨c2, w2, l1⟩ := goLoop (N := fun k q => q = k) (I := CacheOk (origOk env.codec src))
      (step := overlayOffsetStep env area o) (dur := dur) (t := t) (cols := cols) (indb := w.dbs .input)
      (ks := dests area false t) ((dests_nodup hg).imp fun hne => hne)
      (fun k hk s w cur hI ho hi' hN => overlayOffsetStep_goes hE hf ho (hi'.trans hi) hI (hN k rfl)
        (fun a h => by subst h; exact partIn_some (hv' a rfl) hg hk) (hgo k hk))
      (cacheOk_empty (origOk env.codec src) cap) (w := w1.inState .editing) (cur := t)
      (show w1.dbs .main = _ by rw [q.dbs]; exact ho) (show w1.dbs .input = _ by rw [q.dbs])
      (fun _ _ _ _ => rfl)
    refine ⟨w2.inState .ignore, ?_⟩
    have hb : beginEditing w1 = (.ok (), w1.inState .editing) := rfl
    rw [run_bind_ok hb, run_bind_ok l1]
    rfl
  · rw [hf] at h; cases h

/-! ## `overlay` without offset -/

/-- Merging a part of a block works, and tidying afterwards. -/
def PartGoes (bd : Build) (src b : MapBlock) (part : Area) : Prop :=
  ∃ b1 b2, mergeBoth bd src b part part = .ok b1 ∧ cleanNimap bd b1 = .ok b2 ∧ Short b2

theorem copyPart_goes {env : Env} (hE : EnvOk env) (hf : ∀ n, env.fail n = false) {w : World}
    {t dur cur idur src : Table} {cols icols : List Col} (ho : OpenAt w .main dur cur cols)
    (hi : OpenAt w .input idur src icols) {a : Area}
    (invert : Bool) {k : Int} {sd : Bytes} (hk : cur.get? k = t.get? k) (hs : src.get? k = some sd) {part : Area}
    (hp : a.relBlockOverlap (Vec3.fromBlockKey k) = some part)
    (hgo : ∀ sb b, deserialize env.codec sd = .ok sb → orig env.codec t k = some (.ok b) →
      PartGoes env.build (if invert then b else sb) (if invert then sb else b) part) :
    ∃ w' cur', (do incDone; copyPart env a invert k : Run Unit) w = (.ok (), w') ∧
      GoStep k dur cur cols w cur' w' := by
  rw [run_bind_ok (incDone_run w)]
  unfold copyPart
  obtain ⟨w1, h1, q⟩ := getGenerated_run (w := w.setStatus fun s => { s with done := s.done + 1 })
    hf ho k
  simp only
  rw [run_bind_ok h1]
  have he : genRow env.codec cur k = genRow env.codec t k := by unfold genRow; rw [hk]
  rw [he]
  cases hr : genRow env.codec t k with
  | none => exact ⟨w1, cur, rfl, q.open ho, fun _ _ => rfl, by rw [q.dbs]⟩
  | some d0 =>
    simp only
    have hsd := (getBlock_expect_iff (env := env) (q.open hi) k sd).2 ⟨hf _, hs, rfl⟩
    rw [← run_bind_assoc, run_bind_ok hsd]
    have q2 : Quiet w1 (w1.did .input (.select k) true) := ⟨rfl, rfl, rfl⟩
    generalize w1.did .input (.select k) true = w2 at q2
    have q3 := q.trans q2
    obtain ⟨rs, s1, s2, s3⟩ := deser_run (env := env) sd w2
    rw [run_bind_ok s1]
    cases rs with
    | error e =>
      exact ⟨w2.setStatus fun s => { s with failed := s.failed + 1 }, cur, rfl, q3.open ho,
        fun _ _ => rfl, by show w2.dbs .input = _; rw [q3.dbs]⟩
    | ok sb =>
      have hsb := (s2 sb).1 rfl
      simp only
      obtain ⟨rd, d1, d2, d3⟩ := deser_run (env := env) d0 w2
      rw [run_bind_ok d1]
      have hor := orig_some hr d2 d3
      cases rd with
      | error e =>
        exact ⟨w2.setStatus fun s => { s with failed := s.failed + 1 }, cur, rfl, q3.open ho,
          fun _ _ => rfl, by show w2.dbs .input = _; rw [q3.dbs]⟩
      | ok b =>
        simp only
        rw [hp]
        have hun : Run.unwrap (some part) w2 = (.ok part, w2) := rfl
        rw [run_bind_ok hun]
        have key : ∀ from_ to : MapBlock, PartGoes env.build from_ to part → ∃ w' d',
            (do
              let b ← Run.lift (mergeBlocks env.build from_ to part part)
              let metas ← Run.lift (mergeMetadata from_.metas b.metas part part)
              let b ← Run.lift (cleanNimap env.build { b with metas })
              expect (← setBlock env .main k (← ser env b)) : Run Unit) w2 = (.ok (), w') ∧
            OpenAt w' .main dur (cur.put k d') cols ∧ w'.dbs .input = w2.dbs .input := by
          rintro from_ to ⟨b1, b2, m1, m2, m3⟩
          unfold mergeBoth at m1
          obtain ⟨b3, n1, m1⟩ := bind_ok_iff.1 m1
          obtain ⟨metas, n2, m1⟩ := bind_ok_iff.1 m1
          cases m1
          obtain ⟨d', w3, k1, k2, k3⟩ := write_goes hE hf (q3.open ho) m2 m3 k ()
          refine ⟨w3, d', ?_, k2, k3⟩
          rw [n1]
          show (do
              let metas ← Run.lift (mergeMetadata from_.metas b3.metas part part)
              let b ← Run.lift (cleanNimap env.build { b3 with metas })
              expect (← setBlock env .main k (← ser env b)) : Run Unit) w2 = (.ok (), w3)
          rw [n2]
          simp only [bind_pure_unit] at k1
          exact k1
        have hgo := hgo sb b hsb hor
        cases invert with
        | false =>
          obtain ⟨w3, d', g1, g2, g3⟩ := key sb b hgo
          exact ⟨w3, _, g1, goStep_put g2 (by rw [g3, q3.dbs])⟩
        | true =>
          obtain ⟨w3, d', g1, g2, g3⟩ := key b sb hgo
          exact ⟨w3, _, g1, goStep_put g2 (by rw [g3, q3.dbs])⟩

theorem overlayStep_goes {env : Env} (hE : EnvOk env) (hf : ∀ n, env.fail n = false) {w : World}
    {t dur cur idur src : Table} {cols icols : List Col} (ho : OpenAt w .main dur cur cols)
    (hi : OpenAt w .input idur src icols) {area : Option Area}
    {invert : Bool} {k : Int} {sd : Bytes} (hk : cur.get? k = t.get? k) (hs : src.get? k = some sd)
    (hgo : ∀ a, area = some a → copiesWhole a invert (Vec3.fromBlockKey k) = false →
      ∃ part, a.relBlockOverlap (Vec3.fromBlockKey k) = some part ∧
      ∀ sb b, deserialize env.codec sd = .ok sb → orig env.codec t k = some (.ok b) →
      PartGoes env.build (if invert then b else sb) (if invert then sb else b) part) :
    ∃ w' cur', overlayStep env area invert k w = (.ok (), w') ∧ GoStep k dur cur cols w cur' w' := by
  have whole : overlayStep env area invert k = (do incDone; copyWhole env k) →
      ∃ w' cur', overlayStep env area invert k w = (.ok (), w') ∧ GoStep k dur cur cols w cur' w' := by
    intro e
    rw [e]
    obtain ⟨w', h⟩ := copyWhole_go hf ho hi hs
    obtain ⟨cur', s⟩ := copyWhole_step (t := t) (bad := fun _ => false) ho hi rfl hk h
    exact ⟨w', cur', h, s.isOpen, s.off, s.input⟩
  cases area with
  | none => exact whole rfl
  | some a =>
    cases hc : copiesWhole a invert (Vec3.fromBlockKey k) with
    | true =>
      refine whole ?_
      unfold copiesWhole at hc
      unfold overlayStep
      simp only [hc, if_true]
    | false =>
      obtain ⟨part, hp, hgo⟩ := hgo a rfl hc
      unfold copiesWhole at hc
      unfold overlayStep
      simp only [hc, Bool.false_eq_true, if_false]
      exact copyPart_goes hE hf ho hi invert hk hs hp hgo

theorem plain_goes {env : Env} (hE : EnvOk env) (hf : ∀ n, env.fail n = false) {w : World}
    {t dur idur src : Table} {cols icols : List Col}
    (ho : OpenAt w .main dur t cols) (hi : OpenAt w .input idur src icols) (hgs : GoodTable src)
    {args : InstArgs}
    (hgo : ∀ k ∈ dests args.area args.invert src, ∀ a, args.area = some a →
      copiesWhole a args.invert (Vec3.fromBlockKey k) = false →
      ∃ part, a.relBlockOverlap (Vec3.fromBlockKey k) = some part ∧
      ∀ sd sb b, src.get? k = some sd → deserialize env.codec sd = .ok sb → orig env.codec t k = some (.ok b) →
      PartGoes env.build (if args.invert then b else sb) (if args.invert then sb else b) part) :
    ∃ w', overlayNoOffset env args w = (.ok (), w') := by
  unfold overlayNoOffset
  rcases queryKeys_open hi [] args.area args.invert true (env := env) with ⟨w1, h1, q⟩ | ⟨h, _⟩
  · rw [run_bind_ok h1]
    have hd : (queryHits [] args.area args.invert true src).map (·.1) = dests args.area args.invert src := rfl
    rw [hd]
    have hb : beginEditing w1 = (.ok (), w1.inState .editing) := rfl
    rw [run_bind_ok hb]
    obtain ⟨u, w2, h2⟩ := goLoop (N := fun k q => q = k) (I := fun _ : Unit => True)
      (step := fun _ k => overlayStep env args.area args.invert k) (dur := dur) (t := t) (cols := cols)
      (indb := w.dbs .input) (ks := dests args.area args.invert src) ((dests_nodup hgs).imp fun hne => hne)
      (fun k hk s w cur _ ho hi' hN => by
        obtain ⟨sd, hs⟩ := (dests_row hgs hk).2
        obtain ⟨w', cur', g1, g2⟩ := overlayStep_goes hE hf ho (hi'.trans hi) (hN k rfl) hs
          (fun a ha hc => by
            obtain ⟨part, p1, p2⟩ := hgo k hk a ha hc
            exact ⟨part, p1, fun sb b => p2 sd sb b hs⟩)
        exact ⟨(), w', cur', g1, trivial, g2⟩)
      trivial (w := w1.inState .editing) (cur := t)
      (show w1.dbs .main = _ by rw [q.dbs]; exact ho) (show w1.dbs .input = _ by rw [q.dbs])
      (fun _ _ _ _ => rfl)
    exact ⟨w2.inState .ignore, (run_bind_ok h2).trans rfl⟩
  · rw [hf] at h; cases h

end MapEditr
