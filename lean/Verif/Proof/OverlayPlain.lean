import Verif.Proof.OverlayOffset
/-! # Lemmas: `overlay` without offset -/

namespace MapEditr
open Spec
set_option linter.unusedSimpArgs false
set_option linter.unusedVariables false

/-! ## Loops that change at most the row they are at -/

/-- One step. -/
structure RowStep (Row : Int → Option Bytes → Prop) (bad : Int → Bool) (k : Int) (dur cur : Table)
    (cols : List Col) (w : World) (cur' : Table) (w' : World) : Prop where
  isOpen : OpenAt w' .main dur cur' cols
  nodup : (cur.map (·.1)).Nodup → (cur'.map (·.1)).Nodup
  off : ∀ q, q ≠ k → cur'.get? q = cur.get? q
  row : Row k (cur'.get? k)
  events : w'.events = w.events
  input : w'.dbs .input = w.dbs .input
  total : w'.status.total = w.status.total
  done : w'.status.done = w.status.done + 1
  failed : w'.status.failed = w.status.failed + if bad k then 1 else 0

/-- The whole loop. -/
structure RowLoop (Row : Int → Option Bytes → Prop) (bad : Int → Bool) (ks : List Int) (dur cur : Table)
    (cols : List Col) (w : World) (cur' : Table) (w' : World) : Prop where
  isOpen : OpenAt w' .main dur cur' cols
  nodup : (cur.map (·.1)).Nodup → (cur'.map (·.1)).Nodup
  off : ∀ q, q ∉ ks → cur'.get? q = cur.get? q
  row : ∀ k ∈ ks, Row k (cur'.get? k)
  events : w'.events = w.events
  input : w'.dbs .input = w.dbs .input
  total : w'.status.total = w.status.total
  done : w'.status.done = w.status.done + ks.length
  failed : w'.status.failed = w.status.failed + (ks.filter bad).length

section
variable {Row : Int → Option Bytes → Prop} {bad : Int → Bool} {dur t : Table} {cols : List Col}
  {indb : Option MapDb} {step : Int → Run Unit}

theorem rowLoop_spec {ks : List Int} (hnd : ks.Nodup)
    (hstep : ∀ k ∈ ks, ∀ w w' cur, OpenAt w .main dur cur cols → w.dbs .input = indb →
      cur.get? k = t.get? k → step k w = (.ok (), w') → ∃ cur', RowStep Row bad k dur cur cols w cur' w')
    {w w' : World} {cur : Table} (ho : OpenAt w .main dur cur cols) (hi : w.dbs .input = indb)
    (hc : ∀ k ∈ ks, cur.get? k = t.get? k)
    (h : ks.foldlM (fun _ k => step k) () w = (.ok (), w')) :
    ∃ cur', RowLoop Row bad ks dur cur cols w cur' w' := by
  induction ks generalizing w cur with
  | nil =>
    cases h
    exact ⟨cur, ho, id, fun _ _ => rfl, by simp, rfl, rfl, rfl, rfl, rfl⟩
  | cons k ks ih =>
    rw [List.nodup_cons] at hnd
    rw [List.foldlM_cons, run_bind_iff] at h
    obtain ⟨u, w1, h1, h2⟩ := h
    obtain ⟨cur1, s⟩ := hstep k List.mem_cons_self w w1 cur ho hi (hc k List.mem_cons_self) h1
    obtain ⟨cur2, l⟩ := ih hnd.2 (fun q hq => hstep q (List.mem_cons_of_mem _ hq)) s.isOpen (s.input.trans hi)
      (fun q hq => by
        have hne : q ≠ k := fun e => hnd.1 (e ▸ hq)
        rw [s.off q hne]
        exact hc q (List.mem_cons_of_mem _ hq)) h2
    refine ⟨cur2, l.isOpen, fun h => l.nodup (s.nodup h), ?_, ?_, l.events.trans s.events,
      l.input.trans s.input, l.total.trans s.total, ?_, ?_⟩
    · intro q hq
      rw [List.mem_cons, not_or] at hq
      rw [l.off q hq.2, s.off q hq.1]
    · intro q hq
      rcases List.mem_cons.1 hq with rfl | hq
      · rw [l.off q hnd.1]
        exact s.row
      · exact l.row q hq
    · rw [l.done, s.done, List.length_cons]
      omega
    · rw [l.failed, s.failed, List.filter_cons]
      cases bad k <;> simp <;> omega

theorem rowLoop_go {ks : List Int} (hnd : ks.Nodup)
    (hstep : ∀ k ∈ ks, ∀ w cur, OpenAt w .main dur cur cols → w.dbs .input = indb →
      cur.get? k = t.get? k → ∃ w' cur', step k w = (.ok (), w') ∧ RowStep Row bad k dur cur cols w cur' w')
    {w : World} {cur : Table} (ho : OpenAt w .main dur cur cols) (hi : w.dbs .input = indb)
    (hc : ∀ k ∈ ks, cur.get? k = t.get? k) :
    ∃ w', ks.foldlM (fun _ k => step k) () w = (.ok (), w') := by
  induction ks generalizing w cur with
  | nil => exact ⟨w, rfl⟩
  | cons k ks ih =>
    rw [List.nodup_cons] at hnd
    obtain ⟨w1, cur1, h1, s⟩ := hstep k List.mem_cons_self w cur ho hi (hc k List.mem_cons_self)
    obtain ⟨w2, h2⟩ := ih hnd.2 (fun q hq => hstep q (List.mem_cons_of_mem _ hq)) s.isOpen (s.input.trans hi)
      (fun q hq => by
        have hne : q ≠ k := fun e => hnd.1 (e ▸ hq)
        rw [s.off q hne]
        exact hc q (List.mem_cons_of_mem _ hq))
    refine ⟨w2, ?_⟩
    rw [List.foldlM_cons, run_bind_ok h1]
    exact h2

end

/-! ## Whole blocks -/

/-- The row after copying a whole block. -/
def WholeRow (c : Codec) (src t : Table) (k : Int) (r : Option Bytes) : Prop :=
  ∃ sd, src.get? k = some sd ∧ r = if isValidGenerated c sd then some sd else t.get? k

theorem copyWhole_iff {env : Env} {w w' : World} {dur cur idur src : Table} {cols icols : List Col}
    (ho : OpenAt w .main dur cur cols) (hi : OpenAt w .input idur src icols) (k : Int) :
    copyWhole env k w = (.ok (), w') ↔ env.fail w.trace.length = false ∧ ∃ sd, src.get? k = some sd ∧
      if isValidGenerated env.codec sd then env.fail (w.trace.length + 1) = false ∧
        w' = ((w.did .input (.select k) true).setDb .main ⟨⟨dur, cur.put k sd, true, cols⟩, true⟩).did
          .main (.put k sd) true
      else w' = w.did .input (.select k) true := by
  unfold copyWhole
  have hl : (w.did .input (.select k) true).trace.length = w.trace.length + 1 := by
    simp [World.did]
  rw [← run_bind_assoc, run_bind_iff]
  constructor
  · rintro ⟨sd, w1, h1, h2⟩
    obtain ⟨f1, f2, rfl⟩ := (getBlock_expect_iff hi k sd).1 h1
    refine ⟨f1, sd, f2, ?_⟩
    split
    · next hg =>
      rw [if_pos hg, setBlock_expect_iff (by unfold OpenAt; rw [did_dbs]; exact ho), hl] at h2
      exact h2
    · next hg =>
      rw [if_neg hg] at h2
      cases h2
      rfl
  · rintro ⟨f1, sd, f2, h⟩
    refine ⟨sd, _, (getBlock_expect_iff hi k sd).2 ⟨f1, f2, rfl⟩, ?_⟩
    split at h
    · next hg =>
      rw [if_pos hg, setBlock_expect_iff (by unfold OpenAt; rw [did_dbs]; exact ho), hl]
      exact h
    · next hg =>
      rw [if_neg hg, h]
      rfl

theorem copyWhole_step {env : Env} {w w' : World} {t dur cur idur src : Table} {cols icols : List Col}
    (ho : OpenAt w .main dur cur cols) (hi : OpenAt w .input idur src icols) {k : Int} {bad : Int → Bool}
    (hb : bad k = false) (hk : cur.get? k = t.get? k)
    (h : (do incDone; copyWhole env k : Run Unit) w = (.ok (), w')) :
    ∃ cur', RowStep (WholeRow env.codec src t) bad k dur cur cols w cur' w' := by
  rw [run_bind_ok (incDone_run w)] at h
  obtain ⟨f1, sd, f2, h⟩ := (copyWhole_iff (w := w.setStatus fun s => { s with done := s.done + 1 })
    ho hi k).1 h
  split at h
  · next hg =>
    obtain ⟨-, rfl⟩ := h
    refine ⟨cur.put k sd, ?_, fun h => Table.nodup_put h _ _, ?_, ⟨sd, f2, ?_⟩, rfl, ?_, rfl, rfl, ?_⟩
    · unfold OpenAt
      rw [did_dbs, setDb_self]
    · intro q hq
      rw [Table.get?_put, if_neg hq]
    · rw [Table.get?_put, if_pos rfl, if_pos hg]
    · rw [did_dbs, setDb_other _ (by decide)]
      rfl
    · rw [hb]
      rfl
  · next hg =>
    subst h
    refine ⟨cur, ho, id, fun _ _ => rfl, ⟨sd, f2, by rw [if_neg hg, hk]⟩, rfl, rfl, rfl, rfl, ?_⟩
    rw [hb]
    rfl

/-! ## Parts of blocks -/

/-- The row after copying a part of a block: the source at `sb`, the main map's block at `b`. -/
def PartRow (c : Codec) (src t : Table) (a : Area) (invert : Bool) (k : Int) (r : Option Bytes) : Prop :=
  ∃ sd, src.get? k = some sd ∧
  (∀ sb b, deserialize c sd = .ok sb → orig c t k = some (.ok b) →
    ∃ d' b', r = some d' ∧ Represents c d' b' ∧ Remade (if invert then sb else b) b' fun i =>
      (if Selected (some a) invert (posAt (Vec3.fromBlockKey k) i) then sb else b, i)) ∧
  ((∀ sb b, ¬ (deserialize c sd = .ok sb ∧ orig c t k = some (.ok b))) → r = t.get? k)

/-- Partly selected blocks that count as failed. -/
def partBad (c : Codec) (src t : Table) (k : Int) : Bool :=
  match genRow c t k, src.get? k with
  | some d, some sd => !((deserialize c sd).isOk && (deserialize c d).isOk)
  | _, _ => false

theorem copyState_part {bd : Build} {b sb b1 : MapBlock} (wb : Wf b) (ws : Wf sb) (h1 : MetaRoom b)
    (h2 : MetaRoom sb) {part : Area} (hl : LocalArea part) (hw : bd = .release → SmallIds b ∧ SmallIds sb)
    (hr : mergeBlocks bd sb b part part = .ok b1) :
    ∃ metas, mergeMetadata sb.metas b1.metas part part = .ok metas ∧
      CopyState b { b1 with metas } fun i =>
        (if InBox part.min part.max (Vec3.fromU16Key i) then sb else b, i) := by
  have hw' : NoWrap bd sb.nimap b.nimap := by
    cases bd with
    | debug => exact .inl rfl
    | release => exact .inr ⟨7280, 7280, (hw rfl).1, (hw rfl).2, by decide⟩
  obtain ⟨metas, g2, g3⟩ := copyState_merge (copyState_start wb h1) ws h2 hl hl ⟨rfl, rfl, rfl⟩ hw' hr
  refine ⟨metas, g2, copyState_congr g3 ?_⟩
  intro i hi
  split
  · have : back part part (Vec3.fromU16Key i) = Vec3.fromU16Key i := by
      unfold back
      ext <;> simp only <;> omega
    rw [this]
    have : idxOf (Vec3.fromU16Key i) = i := idxOf_fromU16Key hi
    rw [this]
  · rfl

theorem copyState_part_ok (bd : Build) {b sb : MapBlock} (wb : Wf b) (ws : Wf sb) (h1 : Tame b) (h2 : Tame sb)
    {part : Area} (hl : LocalArea part) :
    ∃ b1 metas, mergeBlocks bd sb b part part = .ok b1 ∧
      mergeMetadata sb.metas b1.metas part part = .ok metas ∧ Joinable 65528 { b1 with metas } ∧
      CopyState b { b1 with metas } fun i =>
        (if InBox part.min part.max (Vec3.fromU16Key i) then sb else b, i) := by
  obtain ⟨b1, g1, g2⟩ := join bd hl hl ⟨rfl, rfl, rfl⟩ (tame_joinable ws h2) (tame_joinable wb h1) (by decide)
  obtain ⟨metas, g3, g4⟩ := copyState_part wb ws h1.room h2.room hl (fun _ => ⟨h1.small, h2.small⟩) g1
  exact ⟨b1, metas, g1, g3, (g2.mono (by decide)).metas metas, g4⟩

theorem copyPart_step {env : Env} (hE : EnvOk env) (hf : ∀ n, env.fail n = false) {w : World}
    {t dur cur idur src : Table} {cols icols : List Col} (ho : OpenAt w .main dur cur cols)
    (hi : OpenAt w .input idur src icols)
    (ha : AllBlocks env.codec t Tame)
    (has : AllBlocks env.codec src Tame) {a : Area} (hv : a.isValid = true)
    (invert : Bool) {k : Int} {sd : Bytes} (hk : cur.get? k = t.get? k) (hs : src.get? k = some sd)
    (hp : partly a (Vec3.fromBlockKey k) = true) :
    ∃ w' cur', (do incDone; copyPart env a invert k : Run Unit) w = (.ok (), w') ∧
      RowStep (PartRow env.codec src t a invert) (partBad env.codec src t) k dur cur cols w cur' w' := by
  rw [run_bind_ok (incDone_run w)]
  unfold copyPart
  obtain ⟨w1, h1, q⟩ := getGenerated_run (w := w.setStatus fun s => { s with done := s.done + 1 })
    hf ho k
  simp only
  rw [run_bind_ok h1]
  have he : genRow env.codec cur k = genRow env.codec t k := by unfold genRow; rw [hk]
  rw [he]
  cases hr : genRow env.codec t k with
  | none =>
    have hor := orig_none hr
    refine ⟨w1, cur, rfl, q.open ho, id, fun _ _ => rfl, ⟨sd, hs, ?_, fun _ => hk⟩, q.events, by rw [q.dbs], ?_, ?_, ?_⟩
    · intro sb b _ hb; rw [hor] at hb; cases hb
    · rw [q.status]
    · rw [q.status]
    · rw [q.status]; simp only [partBad, hr]; rfl
  | some d0 =>
    simp only
    have hsd := (getBlock_expect_iff (env := env) (q.open hi) k sd).2 ⟨hf _, hs, rfl⟩
    rw [← run_bind_assoc, run_bind_ok hsd]
    have q2 : Quiet w1 (w1.did .input (.select k) true) := ⟨rfl, rfl, rfl⟩
    generalize w1.did .input (.select k) true = w2 at q2
    have q3 := q.trans q2
    obtain ⟨rs, s1, s2, s3⟩ := deser_run (env := env) sd w2
    rw [run_bind_ok s1]
    cases rs with
    | error e =>
      have hse := (s3 e).1 rfl
      refine ⟨w2.setStatus fun s => { s with failed := s.failed + 1 }, cur, rfl, q3.open ho, id,
        fun _ _ => rfl, ⟨sd, hs, ?_, fun _ => hk⟩, q3.events, by show w2.dbs .input = _; rw [q3.dbs], ?_, ?_, ?_⟩
      · intro sb b hb; rw [hse] at hb; cases hb
      · show w2.status.total = _; rw [q3.status]
      · show w2.status.done = _; rw [q3.status]
      · show w2.status.failed + 1 = _; rw [q3.status]; simp only [partBad, hr, hs, hse]; rfl
    | ok sb =>
      have hsb := (s2 sb).1 rfl
      simp only
      obtain ⟨rd, d1, d2, d3⟩ := deser_run (env := env) d0 w2
      rw [run_bind_ok d1]
      have hor := orig_some hr d2 d3
      cases rd with
      | error e =>
        have hde := (d3 e).1 rfl
        refine ⟨w2.setStatus fun s => { s with failed := s.failed + 1 }, cur, rfl, q3.open ho, id,
          fun _ _ => rfl, ⟨sd, hs, ?_, fun _ => hk⟩, q3.events, by show w2.dbs .input = _; rw [q3.dbs], ?_, ?_, ?_⟩
        · intro sb b _ hb; rw [hor] at hb; cases hb
        · show w2.status.total = _; rw [q3.status]
        · show w2.status.done = _; rw [q3.status]
        · show w2.status.failed + 1 = _; rw [q3.status]; simp only [partBad, hr, hs, hsb, hde]; rfl
      | ok b =>
        have hdb := (d2 b).1 rfl
        simp only
        obtain ⟨part, p1, p2, p3⟩ := part_spec hv hp
        have wb := wf_of_deserialize hdb
        have ws := wf_of_deserialize hsb
        have fb := ha _ _ _ (Table.get?_some_mem (genRow_some.1 hr).1) (deserialize_iff.1 hdb)
        have fs := has _ _ _ (Table.get?_some_mem hs) (deserialize_iff.1 hsb)
        rw [p1]
        have hun : Run.unwrap (some part) w2 = (.ok part, w2) := rfl
        rw [run_bind_ok hun]
        have hout : ∀ i, i < 4096 → (InBox part.min part.max (Vec3.fromU16Key i) ↔
            InBox a.min a.max (posAt (Vec3.fromBlockKey k) i)) := by
          intro i hi
          rw [← p3 i hi, ← Bool.not_eq_true, outIdx_iff, Classical.not_not, fromU16Key_eq]
          unfold InBox
          simp only [and_assoc]
        -- the merged block
        have key : ∀ from_ to : MapBlock, Wf from_ → Wf to → Tame from_ →
            Tame to → ∃ w' d' b',
            (do
              let b ← Run.lift (mergeBlocks env.build from_ to part part)
              let metas ← Run.lift (mergeMetadata from_.metas b.metas part part)
              let b ← Run.lift (cleanNimap env.build { b with metas })
              expect (← setBlock env .main k (← ser env b)) : Run Unit) w2 = (.ok (), w') ∧
            Represents env.codec d' b' ∧
            (Remade to b' fun i => (if InBox part.min part.max (Vec3.fromU16Key i) then from_ else to, i)) ∧
            OpenAt w' .main dur (cur.put k d') cols ∧ w'.events = w2.events ∧ w'.status = w2.status ∧
            w'.dbs .input = w2.dbs .input := by
          intro from_ to wf1 wf2 f1 f2
          obtain ⟨b1, metas, m1, m2, m0, m3⟩ := copyState_part_ok env.build wf2 wf1 f2 f1 p2
          obtain ⟨d', b', w3, k1, k2, k3, k4, k5, k6, k7⟩ := write_run hE hf (q3.open ho) wf2 m0 m3 k ()
          refine ⟨w3, d', b', ?_, k2, k3, k4, k5, k6, k7⟩
          rw [m1]
          show (do
              let metas ← Run.lift (mergeMetadata from_.metas b1.metas part part)
              let b ← Run.lift (cleanNimap env.build { b1 with metas })
              expect (← setBlock env .main k (← ser env b)) : Run Unit) w2 = (.ok (), w3)
          rw [m2]
          simp only [bind_pure_unit] at k1
          exact k1
        have hbad : partBad env.codec src t k = false := by
          simp only [partBad, hr, hs, hsb, hdb]
          rfl
        cases invert with
        | false =>
          obtain ⟨w3, d', b', g1, g2, g3, g4, g5, g6, g7⟩ := key sb b ws wb fs fb
          refine ⟨w3, _, g1, g4, fun h => Table.nodup_put h _ _, ?_, ⟨sd, hs, ?_, ?_⟩, ?_, ?_, ?_, ?_, ?_⟩
          · intro q hq
            rw [Table.get?_put, if_neg hq]
          · intro sb' b0 e1 e2
            rw [hsb] at e1
            rw [hor] at e2
            cases e1
            cases e2
            refine ⟨d', b', by rw [Table.get?_put, if_pos rfl], g2, ⟨g3.rest, ?_, g3.tidy, g3.room, g3.pub, g3.written⟩⟩
            intro i hi
            have := g3.nodes i hi
            simp only [hout i hi] at this
            simp only [selected_iff, iff_true]
            exact this
          · intro hno
            exact absurd ⟨hsb, hor⟩ (hno sb b)
          · rw [g5, q3.events]
          · rw [g7, q3.dbs]
          · rw [g6, q3.status]
          · rw [g6, q3.status]
          · rw [g6, q3.status, hbad]; rfl
        | true =>
          obtain ⟨w3, d', b', g1, g2, g3, g4, g5, g6, g7⟩ := key b sb wb ws fb fs
          refine ⟨w3, _, g1, g4, fun h => Table.nodup_put h _ _, ?_, ⟨sd, hs, ?_, ?_⟩, ?_, ?_, ?_, ?_, ?_⟩
          · intro q hq
            rw [Table.get?_put, if_neg hq]
          · intro sb' b0 e1 e2
            rw [hsb] at e1
            rw [hor] at e2
            cases e1
            cases e2
            refine ⟨d', b', by rw [Table.get?_put, if_pos rfl], g2, ⟨g3.rest, ?_, g3.tidy, g3.room, g3.pub, g3.written⟩⟩
            intro i hi
            have := g3.nodes i hi
            simp only [hout i hi] at this
            simp only [selected_iff]
            by_cases hx : InBox a.min a.max (posAt (Vec3.fromBlockKey k) i)
            · simp only [hx, if_true, true_iff, Bool.true_eq_false, if_false] at this ⊢
              exact this
            · simp only [hx, if_false, false_iff, Bool.true_eq_false, not_false_eq_true, if_true] at this ⊢
              exact this
          · intro hno
            exact absurd ⟨hsb, hor⟩ (hno sb b)
          · rw [g5, q3.events]
          · rw [g7, q3.dbs]
          · rw [g6, q3.status]
          · rw [g6, q3.status]
          · rw [g6, q3.status, hbad]; rfl

/-! ## The whole command -/

/-- The test for copying a whole block. -/
def copiesWhole (a : Area) (invert : Bool) (pos : Vec3) : Bool :=
  (!invert && a.containsBlock pos) || (invert && !a.touchesBlock pos)

/-- The row of a visited block afterwards. -/
def LaidRow (c : Codec) (src t : Table) (area : Option Area) (invert : Bool) (k : Int) (r : Option Bytes) : Prop :=
  match area with
  | none => WholeRow c src t k r
  | some a =>
    if copiesWhole a invert (Vec3.fromBlockKey k) then WholeRow c src t k r
    else PartRow c src t a invert k r

def laidBad (c : Codec) (src t : Table) (area : Option Area) (invert : Bool) (k : Int) : Bool :=
  match area with
  | none => false
  | some a => !copiesWhole a invert (Vec3.fromBlockKey k) && partBad c src t k

theorem not_whole_partly {a : Area} (hv : a.isValid = true) {invert : Bool} {bp p : Vec3} (hp : InBlock bp p)
    (hs : Selected (some a) invert p) (h : copiesWhole a invert bp = false) : partly a bp = true := by
  have h1 := C06_contains_block a bp
  have h2 := C06_touches_block a hv bp
  unfold copiesWhole at h
  unfold partly
  rw [selected_iff] at hs
  cases invert with
  | false =>
    have ht : a.touchesBlock bp = true := h2.2 ⟨p, hp, hs.2 rfl⟩
    simp only [Bool.not_false, Bool.true_and, Bool.false_and, Bool.or_false] at h
    rw [h, ht]
    rfl
  | true =>
    have hc : a.containsBlock bp = false := by
      rw [← Bool.not_eq_true]
      intro hc
      have := hs.1 (h1.1 hc p hp)
      cases this
    simp only [Bool.not_true, Bool.true_and, Bool.false_and, Bool.false_or, Bool.not_eq_false'] at h
    rw [h, hc]
    rfl

theorem RowStep.mono {Row Row' : Int → Option Bytes → Prop} {bad bad' : Int → Bool} {k : Int}
    {dur cur : Table} {cols : List Col} {w : World} {cur' : Table} {w' : World}
    (h : RowStep Row bad k dur cur cols w cur' w') (hr : ∀ r, Row k r → Row' k r) (hb : bad' k = bad k) :
    RowStep Row' bad' k dur cur cols w cur' w' :=
  ⟨h.isOpen, h.nodup, h.off, hr _ h.row, h.events, h.input, h.total, h.done, by rw [h.failed, hb]⟩

theorem overlayStep_none {env : Env} {w w' : World} {t dur cur idur src : Table} {cols icols : List Col}
    (ho : OpenAt w .main dur cur cols) (hi : OpenAt w .input idur src icols) {k : Int} {invert : Bool}
    (hk : cur.get? k = t.get? k) (h : overlayStep env none invert k w = (.ok (), w')) :
    ∃ cur', RowStep (LaidRow env.codec src t none invert) (laidBad env.codec src t none invert) k dur cur cols
      w cur' w' :=
  copyWhole_step ho hi rfl hk h

theorem copyWhole_go {env : Env} (hf : ∀ n, env.fail n = false) {w : World} {dur cur idur src : Table}
    {cols icols : List Col} (ho : OpenAt w .main dur cur cols) (hi : OpenAt w .input idur src icols) {k : Int}
    {sd : Bytes} (hs : src.get? k = some sd) :
    ∃ w', (do incDone; copyWhole env k : Run Unit) w = (.ok (), w') := by
  rw [run_bind_ok (incDone_run w)]
  cases hg : isValidGenerated env.codec sd with
  | true =>
    exact ⟨_, (copyWhole_iff (w := w.setStatus fun s => { s with done := s.done + 1 }) ho hi k).2
      ⟨hf _, sd, hs, by rw [if_pos hg]; exact ⟨hf _, rfl⟩⟩⟩
  | false =>
    exact ⟨_, (copyWhole_iff (w := w.setStatus fun s => { s with done := s.done + 1 }) ho hi k).2
      ⟨hf _, sd, hs, by rw [hg, if_neg (by simp)]⟩⟩

theorem overlayStep_run {env : Env} (hE : EnvOk env) (hf : ∀ n, env.fail n = false) {w : World}
    {t dur cur idur src : Table} {cols icols : List Col} (ho : OpenAt w .main dur cur cols)
    (hi : OpenAt w .input idur src icols)
    (ha : AllBlocks env.codec t Tame)
    (has : AllBlocks env.codec src Tame) {area : Option Area} (hv : AreaOk area)
    {invert : Bool} {k : Int} {sd : Bytes} (hk : cur.get? k = t.get? k) (hs : src.get? k = some sd)
    (hsel : ∃ p, InBlock (Vec3.fromBlockKey k) p ∧ Selected area invert p) :
    ∃ w' cur', overlayStep env area invert k w = (.ok (), w') ∧
      RowStep (LaidRow env.codec src t area invert) (laidBad env.codec src t area invert) k dur cur cols
        w cur' w' := by
  cases area with
  | none =>
    obtain ⟨w', h⟩ := copyWhole_go hf ho hi hs
    obtain ⟨cur', s⟩ := overlayStep_none (invert := invert) ho hi hk h
    exact ⟨w', cur', h, s⟩
  | some a =>
    cases hc : copiesWhole a invert (Vec3.fromBlockKey k) with
    | true =>
      obtain ⟨w', h⟩ := copyWhole_go hf ho hi hs
      obtain ⟨cur', s⟩ := copyWhole_step (bad := laidBad env.codec src t (some a) invert) ho hi
        (by unfold laidBad; simp only [hc]; rfl) hk h
      refine ⟨w', cur', ?_, s.mono ?_ rfl⟩
      · unfold overlayStep
        unfold copiesWhole at hc
        simp only [hc, if_true]
        exact h
      · intro r hr
        unfold LaidRow
        simp only [hc, if_true]
        exact hr
    | false =>
      obtain ⟨p, hp, hps⟩ := hsel
      obtain ⟨w', cur', h, s⟩ := copyPart_step hE hf ho hi ha has (hv a rfl) invert hk hs
        (not_whole_partly (hv a rfl) hp hps hc)
      refine ⟨w', cur', ?_, s.mono ?_ ?_⟩
      · unfold overlayStep
        unfold copiesWhole at hc
        simp only [hc, Bool.false_eq_true, if_false]
        exact h
      · intro r hr
        unfold LaidRow
        simp only [hc, Bool.false_eq_true, if_false]
        exact hr
      · unfold laidBad
        simp only [hc]
        rfl

/-- The world after `overlay` without offset. -/
structure PlainDone (c : Codec) (src : Table) (area : Option Area) (invert : Bool) (dur cur : Table)
    (cols : List Col) (w : World) (cur' : Table) (w' : World) : Prop where
  isOpen : OpenAt w' .main dur cur' cols
  nodup : (cur.map (·.1)).Nodup → (cur'.map (·.1)).Nodup
  off : ∀ k, k ∉ dests area invert src → cur'.get? k = cur.get? k
  on : ∀ k ∈ dests area invert src, LaidRow c src cur area invert k (cur'.get? k)
  events : w'.events = w.events ++
    [.newState .querying, .newState .ignore, .newState .editing, .newState .ignore]
  total : w'.status.total = (dests area invert src).length
  done : w'.status.done = w.status.done + (dests area invert src).length
  failed : w'.status.failed = w.status.failed + ((dests area invert src).filter (laidBad c src cur area invert)).length

theorem plain_spec {env : Env} {w w' : World} {t dur idur src : Table} {cols icols : List Col}
    (ho : OpenAt w .main dur t cols) (hi : OpenAt w .input idur src icols) (hn : (src.map (·.1)).Nodup)
    {args : InstArgs}
    (hstep : ∀ k ∈ dests args.area args.invert src, ∀ w w' cur, OpenAt w .main dur cur cols →
      OpenAt w .input idur src icols → cur.get? k = t.get? k →
      overlayStep env args.area args.invert k w = (.ok (), w') →
      ∃ cur', RowStep (LaidRow env.codec src t args.area args.invert)
        (laidBad env.codec src t args.area args.invert) k dur cur cols w cur' w')
    (h : overlayNoOffset env args w = (.ok (), w')) :
    ∃ cur', PlainDone env.codec src args.area args.invert dur t cols w cur' w' := by
  unfold overlayNoOffset at h
  obtain ⟨keys, w1, h1, h⟩ := run_bind_iff.1 h
  obtain ⟨hk, q⟩ := queryKeys_iff hi h1
  have hd : keys = dests args.area args.invert src := hk
  subst hd
  obtain ⟨u, w2, h2, h⟩ := run_bind_iff.1 h
  cases h2
  obtain ⟨u, w3, h3, h⟩ := run_bind_iff.1 h
  cases h
  obtain ⟨cur', l⟩ := rowLoop_spec (t := t) (indb := w.dbs .input)
    (ks := dests args.area args.invert src) (w := w1.inState .editing) (w' := w3) (hits_nodup hn) (fun k hk w w' cur h1 h2 h3 h4 =>
    hstep k hk w w' cur h1 (h2.trans hi) h3 h4) (show w1.dbs .main = _ by rw [q.dbs]; exact ho)
    (show w1.dbs .input = _ by rw [q.dbs]) (fun _ _ => rfl) h3
  refine ⟨cur', l.isOpen, l.nodup, l.off, l.row, ?_, ?_, ?_, ?_⟩
  · show w3.events ++ _ = _
    rw [l.events]
    show (w1.events ++ _) ++ _ = _
    rw [q.events]
    simp
  · show w3.status.total = _
    rw [l.total]
    show w1.status.total = _
    rw [q.status]
  · show w3.status.done = _
    rw [l.done]
    show w1.status.done + _ = _
    rw [q.status]
  · show w3.status.failed = _
    rw [l.failed]
    show w1.status.failed + _ = _
    rw [q.status]

theorem dests_sel {area : Option Area} (hv : AreaOk area) {invert : Bool} {t : Table} (hg : GoodTable t)
    {k : Int} (hk : k ∈ dests area invert t) :
    ∃ p, InBlock (Vec3.fromBlockKey k) p ∧ Selected area invert p := by
  obtain ⟨h1, -⟩ := dests_row hg hk
  obtain ⟨v, e⟩ := keyOf_fromBlockKey k h1
  rw [← e] at hk
  exact ((mem_dests hg hv v).1 hk).2

theorem plain_run {env : Env} (hE : EnvOk env) (hf : ∀ n, env.fail n = false) {w : World}
    {t dur idur src : Table} {cols icols : List Col}
    (ho : OpenAt w .main dur t cols) (hi : OpenAt w .input idur src icols) (hgs : GoodTable src)
    (ha : AllBlocks env.codec t Tame)
    (has : AllBlocks env.codec src Tame) {args : InstArgs} (hv : AreaOk args.area) :
    ∃ w' cur', overlayNoOffset env args w = (.ok (), w') ∧
      PlainDone env.codec src args.area args.invert dur t cols w cur' w' := by
  have hstep : ∀ k ∈ dests args.area args.invert src, ∀ w cur, OpenAt w .main dur cur cols →
      OpenAt w .input idur src icols → cur.get? k = t.get? k →
      ∃ w' cur', overlayStep env args.area args.invert k w = (.ok (), w') ∧
        RowStep (LaidRow env.codec src t args.area args.invert)
        (laidBad env.codec src t args.area args.invert) k dur cur cols w cur' w' := by
    intro k hk w cur h1 h2 h3
    obtain ⟨sd, hs⟩ := (dests_row hgs hk).2
    exact overlayStep_run hE hf h1 h2 ha has hv h3 hs (dests_sel hv hgs hk)
  have hex : ∃ w', overlayNoOffset env args w = (.ok (), w') := by
    unfold overlayNoOffset
    rcases queryKeys_open hi [] args.area args.invert true (env := env) with ⟨w1, h1, q⟩ | ⟨h, _⟩
    · rw [run_bind_ok h1]
      have hb : beginEditing w1 = (.ok (), w1.inState .editing) := rfl
      rw [run_bind_ok hb]
      obtain ⟨w2, h2⟩ := rowLoop_go (t := t) (indb := w.dbs .input) (ks := dests args.area args.invert src)
        (dests_nodup hgs) (fun k hk w cur h1 h2 h3 => hstep k hk w cur h1 (h2.trans hi) h3)
        (w := w1.inState .editing) (show w1.dbs .main = _ by rw [q.dbs]; exact ho)
        (show w1.dbs .input = _ by rw [q.dbs]) (fun _ _ => rfl)
      refine ⟨w2.inState .ignore, ?_⟩
      exact (run_bind_ok h2).trans rfl
    · rw [hf] at h; cases h
  obtain ⟨w', h⟩ := hex
  obtain ⟨cur', hd⟩ := plain_spec ho hi hgs.nodup (fun k hk w w' cur h1 h2 h3 h4 => by
    obtain ⟨w2, cur', g1, g2⟩ := hstep k hk w cur h1 h2 h3
    rw [h4] at g1
    cases g1
    exact ⟨cur', g2⟩) h
  exact ⟨w', cur', h, hd⟩

end MapEditr
