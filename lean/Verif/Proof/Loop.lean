import Verif.Proof.Instance
import Verif.Proof.Query
import Verif.Proof.Block
/-! # Lemmas: the common shape of the block-editing commands

All block-editing commands but `deleteblocks`, `clone` and `overlay` run a query and then read,
change and write back the blocks found, one by one. -/

namespace MapEditr
open Spec
set_option linter.unusedSimpArgs false
set_option linter.unusedVariables false

/-- Increase the progress counter, or not. -/
def incIf (b : Bool) : Run Unit := if b then incDone else pure ()

/-- Write a block, if there is one. -/
def writeOpt (env : Env) (key : Int) : Option MapBlock → Run Unit
  | some b => do
    let s ← ser env b
    expect (← setBlock env .main key s)
  | none => pure ()

/-- Read, change and write back one block.  `edit` gives the block to write (if any) and what to add
to the count; `late` tells when the progress counter is increased. -/
def editStep (env : Env) (late : Bool) (edit : Int → MapBlock → Res (Option MapBlock × γ))
    (add : γ → γ → γ) (g : γ) (key : Int) : Run γ := do
  incIf !late
  let data ← expect (← getBlock env .main key)
  match ← Run.okOr (deserialize env.codec data) with
  | none =>
    incFailed
    return g
  | some block =>
    let r ← Run.lift (edit key block)
    writeOpt env key r.1
    incIf late
    return add g r.2

/-- The whole command. -/
def editCommand (env : Env) (late : Bool) (strs : List Bytes) (area : Option Area) (invert : Bool)
    (edit : Int → MapBlock → Res (Option MapBlock × γ)) (add : γ → γ → γ) (g0 : γ)
    (msg : γ → Msg) : Run Unit := do
  let keys ← queryKeys env .main strs area invert true
  beginEditing
  let g ← keys.foldlM (editStep env late edit add) g0
  endEditing
  logInfo (msg g)

/-- What is added to the count for a row; `none` if it cannot be read. -/
def outOf (c : Codec) (edit : Int → MapBlock → Res (Option MapBlock × γ)) (r : Int × Bytes) :
    Option γ :=
  match deserialize c r.2 with
  | .ok b => match edit r.1 b with | .ok (_, n) => some n | .error _ => none
  | .error _ => none

/-- `d'` is what a visited row holds afterwards. -/
def Touched (env : Env) (edit : Int → MapBlock → Res (Option MapBlock × γ)) (r : Int × Bytes)
    (d' : Bytes) : Prop :=
  ((∃ e, deserialize env.codec r.2 = .error (.err e)) ∧ d' = r.2) ∨
  ∃ b ob n, deserialize env.codec r.2 = .ok b ∧ edit r.1 b = .ok (ob, n) ∧
    ((ob = none ∧ d' = r.2) ∨ ∃ b' m, ob = some b' ∧ serialize env.codec (env.ord m) b' = .ok d')

/-- The row cannot be read. -/
def unreadable (c : Codec) (r : Int × Bytes) : Bool :=
  match deserialize c r.2 with
  | .ok _ => false
  | .error _ => true

theorem unreadable_iff {c : Codec} {r : Int × Bytes} :
    unreadable c r = true ↔ ∀ b, ¬ Represents c r.2 b := by
  unfold unreadable
  cases h : deserialize c r.2 with
  | ok b => simp; exact ⟨b, deserialize_iff.1 h⟩
  | error e =>
    simp
    intro b hb
    rw [deserialize_iff.2 hb] at h
    cases h

/-- The effect of visiting some rows. -/
structure Visited (env : Env) (late : Bool) (edit : Int → MapBlock → Res (Option MapBlock × γ))
    (add : γ → γ → γ) (rows : Table) (dur cur : Table) (cols : List Col) (g : γ) (w : World)
    (cur' : Table) (g' : γ) (w' : World) : Prop where
  isOpen : OpenAt w' .main dur cur' cols
  nodup : (cur.map (·.1)).Nodup → (cur'.map (·.1)).Nodup
  off : ∀ k, k ∉ rows.map (·.1) → cur'.get? k = cur.get? k
  on : ∀ r ∈ rows, ∃ d', cur'.get? r.1 = some d' ∧ Touched env edit r d'
  sum : g' = (rows.filterMap (outOf env.codec edit)).foldl add g
  events : w'.events = w.events
  input : w'.dbs .input = w.dbs .input
  total : w'.status.total = w.status.total
  failed : w'.status.failed = w.status.failed + (rows.filter (unreadable env.codec)).length
  done : w'.status.done + (if late then (rows.filter (unreadable env.codec)).length else 0) =
    w.status.done + rows.length

theorem incDone_run (w : World) : incDone w =
    (.ok (), w.setStatus fun s => { s with done := s.done + 1 }) := rfl

theorem incFailed_run (w : World) : incFailed w =
    (.ok (), w.setStatus fun s => { s with failed := s.failed + 1 }) := rfl

theorem editStep_visited {env : Env} {late : Bool}
    {edit : Int → MapBlock → Res (Option MapBlock × γ)} {add : γ → γ → γ} {g g' : γ} {r : Int × Bytes}
    {w w' : World} {dur cur : Table} {cols : List Col} (ho : OpenAt w .main dur cur cols)
    (hr : cur.get? r.1 = some r.2)
    (h : editStep env late edit add g r.1 w = (.ok g', w')) :
    ∃ cur', Visited env late edit add [r] dur cur cols g w cur' g' w' := by
  unfold editStep at h
  obtain ⟨_, w1, h1, h⟩ := run_bind_iff.1 h
  have hw1 : w1 = if late then w else (w.setStatus fun s => { s with done := s.done + 1 }) := by
    cases late with
    | true => cases h1; rfl
    | false => cases h1; rfl
  have ho1 : OpenAt w1 .main dur cur cols := by rw [hw1]; cases late <;> exact ho
  have hev1 : w1.events = w.events := by rw [hw1]; cases late <;> rfl
  have hin1 : w1.dbs = w.dbs := by rw [hw1]; cases late <;> rfl
  have hst1 : w1.status = if late then w.status else { w.status with done := w.status.done + 1 } := by
    rw [hw1]; cases late <;> rfl
  clear hw1 h1
  rw [← run_bind_assoc] at h
  obtain ⟨d, w2, h2, h⟩ := run_bind_iff.1 h
  obtain ⟨hf, hd, rfl⟩ := (getBlock_expect_iff ho1 _ _).1 h2
  rw [hr] at hd
  cases hd
  obtain ⟨o, w3, h3, h⟩ := run_bind_iff.1 h
  obtain ⟨hdec, rfl⟩ := okOr_iff.1 h3
  rcases hdec with ⟨b, hb, rfl⟩ | ⟨e, he, rfl⟩
  · simp only at h
    obtain ⟨⟨ob, n⟩, w4, h4, h⟩ := run_bind_iff.1 h
    obtain ⟨hed, rfl⟩ := run_lift_iff.1 h4
    obtain ⟨_, w5, h5, h⟩ := run_bind_iff.1 h
    have hun : unreadable env.codec r = false := by unfold unreadable; rw [hb]
    have hout : outOf env.codec edit r = some n := by
      unfold outOf; rw [hb]; simp only; rw [hed]
    -- the world after writing
    have hw5 : ∃ cur' d', OpenAt w5 .main dur cur' cols ∧
        (∀ k, cur'.get? k = if k = r.1 then some d' else cur.get? k) ∧
        ((cur.map (·.1)).Nodup → (cur'.map (·.1)).Nodup) ∧ Touched env edit r d' ∧
        w5.events = w.events ∧ w5.dbs .input = w.dbs .input ∧ w5.status = w1.status := by
      cases ob with
      | none =>
        cases h5
        refine ⟨cur, r.2, ho1, ?_, id, .inr ⟨b, none, n, hb, hed, .inl ⟨rfl, rfl⟩⟩, hev1,
          by show w1.dbs .input = _; rw [hin1], rfl⟩
        intro k
        split
        · next e => rw [e, hr]
        · rfl
      | some b' =>
        unfold writeOpt at h5
        obtain ⟨s, w6, h6, h5⟩ := run_bind_iff.1 h5
        obtain ⟨hse, rfl⟩ := ser_iff.1 h6
        obtain ⟨hf', rfl⟩ := (setBlock_expect_iff (w := w1.did .main (.select r.1) true) ho1 _ _).1 h5
        refine ⟨cur.put r.1 s, s, by unfold OpenAt; rw [did_dbs, setDb_self], fun k => Table.get?_put _ _ _ _,
          fun hn => Table.nodup_put hn _ _, .inr ⟨b, some b', n, hb, hed, .inr ⟨b', _, rfl, hse⟩⟩,
          hev1, ?_, rfl⟩
        rw [did_dbs, setDb_other _ (by decide), did_dbs, hin1]
    obtain ⟨cur', d', a1, a2, a3, a4, a5, a6, a7⟩ := hw5
    obtain ⟨_, w6, h6, h⟩ := run_bind_iff.1 h
    simp only [run_pure, Prod.mk.injEq, Except.ok.injEq] at h
    obtain ⟨rfl, rfl⟩ := h
    have hw6 : w6.dbs = w5.dbs ∧ w6.events = w5.events ∧ w6.status =
        if late then { w5.status with done := w5.status.done + 1 } else w5.status := by
      cases late with
      | true => cases h6; exact ⟨rfl, rfl, rfl⟩
      | false => cases h6; exact ⟨rfl, rfl, rfl⟩
    obtain ⟨b1, b2, b3⟩ := hw6
    refine ⟨cur', ?_, a3, ?_, ?_, ?_, b2.trans a5, by rw [b1, a6], ?_, ?_, ?_⟩
    · unfold OpenAt; rw [b1]; exact a1
    · intro k hk
      rw [a2, if_neg]
      simpa using hk
    · intro r' hr'
      simp only [List.mem_singleton] at hr'
      subst hr'
      exact ⟨d', by rw [a2, if_pos rfl], a4⟩
    · simp [hout]
    · rw [b3, a7, hst1]; cases late <;> rfl
    · rw [b3, a7, hst1]
      simp only [List.filter_cons, hun, Bool.false_eq_true, if_false, List.filter_nil, List.length_nil,
        Nat.add_zero]
      cases late <;> rfl
    · rw [b3, a7, hst1]
      simp only [List.filter_cons, hun, Bool.false_eq_true, if_false, List.filter_nil, List.length_nil,
        Nat.add_zero]
      cases late <;> rfl
  · simp only at h
    obtain ⟨_, w4, h4, h⟩ := run_bind_iff.1 h
    rw [incFailed_run] at h4
    simp only [Prod.mk.injEq, true_and] at h4
    simp only [run_pure, Prod.mk.injEq, Except.ok.injEq] at h
    obtain ⟨rfl, rfl⟩ := h
    subst h4
    have hun : unreadable env.codec r = true := by unfold unreadable; rw [he]
    have hout : outOf env.codec edit r = none := by unfold outOf; rw [he]
    refine ⟨cur, ho1, id, fun _ _ => rfl, ?_, ?_, hev1, ?_, ?_, ?_, ?_⟩
    · intro r' hr'
      simp only [List.mem_singleton] at hr'
      subst hr'
      exact ⟨r'.2, hr, .inl ⟨⟨e, he⟩, rfl⟩⟩
    · simp [hout]
    · show w1.dbs .input = _
      rw [hin1]
    · show w1.status.total = _
      rw [hst1]; cases late <;> rfl
    · show w1.status.failed + 1 = _
      rw [hst1]
      simp only [List.filter_cons, hun, if_true, List.filter_nil, List.length_singleton]
      cases late <;> rfl
    · show w1.status.done + _ = _
      rw [hst1]
      simp only [List.filter_cons, hun, if_true, List.filter_nil, List.length_singleton]
      cases late <;> rfl

theorem editLoop_visited {env : Env} {late : Bool}
    {edit : Int → MapBlock → Res (Option MapBlock × γ)} {add : γ → γ → γ} {g g' : γ} {rows : Table}
    {w w' : World} {dur cur : Table} {cols : List Col} (ho : OpenAt w .main dur cur cols)
    (hn : (rows.map (·.1)).Nodup) (hr : ∀ r ∈ rows, cur.get? r.1 = some r.2)
    (h : (rows.map (·.1)).foldlM (editStep env late edit add) g w = (.ok g', w')) :
    ∃ cur', Visited env late edit add rows dur cur cols g w cur' g' w' := by
  induction rows generalizing g w cur with
  | nil =>
    simp only [List.map_nil, List.foldlM_nil, run_pure, Prod.mk.injEq, Except.ok.injEq] at h
    obtain ⟨rfl, rfl⟩ := h
    refine ⟨cur, ho, id, fun _ _ => rfl, by simp, rfl, rfl, rfl, rfl, rfl, ?_⟩
    cases late <;> rfl
  | cons r rows ih =>
    rw [List.map_cons, List.foldlM_cons] at h
    obtain ⟨g1, w1, h1, h⟩ := run_bind_iff.1 h
    obtain ⟨cur1, v1⟩ := editStep_visited ho (hr r List.mem_cons_self) h1
    rw [List.map_cons, List.nodup_cons] at hn
    have hne : ∀ r' ∈ rows, r'.1 ∉ [r].map (·.1) := by
      intro r' hr' he
      simp only [List.map_cons, List.map_nil, List.mem_singleton] at he
      exact hn.1 (he ▸ List.mem_map.2 ⟨r', hr', rfl⟩)
    obtain ⟨cur', v2⟩ := ih v1.isOpen hn.2 (by
      intro r' hr'
      rw [v1.off _ (hne r' hr')]
      exact hr r' (List.mem_cons_of_mem _ hr')) h
    refine ⟨cur', v2.isOpen, fun hc => v2.nodup (v1.nodup hc), ?_, ?_, ?_, v2.events.trans v1.events,
      v2.input.trans v1.input, v2.total.trans v1.total, ?_, ?_⟩
    · intro k hk
      rw [List.map_cons, List.mem_cons] at hk
      rw [v2.off k (fun e => hk (.inr e)), v1.off k (by simpa using fun e => hk (.inl e))]
    · intro r' hr'
      rcases List.mem_cons.1 hr' with rfl | hr'
      · obtain ⟨d', e1, e2⟩ := v1.on r' (List.mem_singleton.2 rfl)
        exact ⟨d', by rw [v2.off _ hn.1, e1], e2⟩
      · exact v2.on r' hr'
    · rw [v2.sum, v1.sum, ← List.foldl_append, ← List.filterMap_append]
      rfl
    · rw [v2.failed, v1.failed, Nat.add_assoc, ← List.length_append, ← List.filter_append]
      rfl
    · have e1 := v1.done
      have e2 := v2.done
      have e3 : ((r :: rows).filter (unreadable env.codec)).length =
          ([r].filter (unreadable env.codec)).length + (rows.filter (unreadable env.codec)).length := by
        rw [← List.length_append, ← List.filter_append]; rfl
      rw [e3]
      simp only [List.length_cons, List.length_nil] at e1 ⊢
      cases late
      · simp only [Bool.false_eq_true, if_false] at e1 e2 ⊢; omega
      · simp only [if_true] at e1 e2 ⊢; omega

/-- The rows a block-editing command visits. -/
def hits (strs : List Bytes) (area : Option Area) (invert : Bool) (t : Table) : Table :=
  queryHits strs area invert true t

theorem mem_hits {strs : List Bytes} {area : Option Area} {invert : Bool} {t : Table}
    {r : Int × Bytes} : r ∈ hits strs area invert t ↔
      r ∈ t ∧ areaKeeps area invert true r.1 = true ∧ nameKeeps (strs.map string16) r.2 = true := by
  unfold hits
  rw [queryHits_eq, List.mem_filter, Bool.and_eq_true]

theorem hits_nodup {strs : List Bytes} {area : Option Area} {invert : Bool} {t : Table}
    (hn : (t.map (·.1)).Nodup) : ((hits strs area invert t).map (·.1)).Nodup := by
  unfold hits
  rw [queryHits_eq]
  exact hn.sublist (List.filter_sublist.map _)

/-- The messages a command adds when it succeeds. -/
def cmdEvents (m : Msg) : List Event :=
  [.newState .querying, .newState .ignore, .newState .editing, .newState .ignore, .log .info m]

/-- The effect of a whole command. -/
structure Edits (env : Env) (late : Bool) (edit : Int → MapBlock → Res (Option MapBlock × γ))
    (add : γ → γ → γ) (g0 : γ) (msg : γ → Msg) (rows : Table) (dur cur : Table) (cols : List Col)
    (w : World) (cur' : Table) (g : γ) (w' : World) : Prop where
  isOpen : OpenAt w' .main dur cur' cols
  nodup : (cur'.map (·.1)).Nodup
  off : ∀ k, k ∉ rows.map (·.1) → cur'.get? k = cur.get? k
  on : ∀ r ∈ rows, ∃ d', cur'.get? r.1 = some d' ∧ Touched env edit r d'
  sum : g = (rows.filterMap (outOf env.codec edit)).foldl add g0
  events : w'.events = w.events ++ cmdEvents (msg g)
  input : w'.dbs .input = w.dbs .input
  total : w'.status.total = rows.length
  failed : w'.status.failed = w.status.failed + (rows.filter (unreadable env.codec)).length
  done : w'.status.done + (if late then (rows.filter (unreadable env.codec)).length else 0) =
    w.status.done + rows.length

theorem editCommand_edits {env : Env} {late : Bool} {strs : List Bytes} {area : Option Area}
    {invert : Bool} {edit : Int → MapBlock → Res (Option MapBlock × γ)} {add : γ → γ → γ} {g0 : γ}
    {msg : γ → Msg} {w w' : World} {dur cur : Table} {cols : List Col}
    (ho : OpenAt w .main dur cur cols) (hn : (cur.map (·.1)).Nodup)
    (h : editCommand env late strs area invert edit add g0 msg w = (.ok (), w')) :
    ∃ cur' g, Edits env late edit add g0 msg (hits strs area invert cur) dur cur cols w cur' g w' := by
  unfold editCommand at h
  obtain ⟨keys, w1, h1, h⟩ := run_bind_iff.1 h
  obtain ⟨rfl, q⟩ := queryKeys_iff ho h1
  obtain ⟨_, w2, h2, h⟩ := run_bind_iff.1 h
  unfold beginEditing at h2
  rw [setState_run] at h2
  cases h2
  obtain ⟨g, w3, h3, h⟩ := run_bind_iff.1 h
  obtain ⟨cur', v⟩ := editLoop_visited (w := w1.inState .editing) (dur := dur) (cols := cols)
    (show w1.dbs .main = _ by rw [q.dbs]; exact ho)
    (hits_nodup (strs := strs) (area := area) (invert := invert) hn)
    (fun r hr => Table.get?_of_mem hn (mem_hits.1 hr).1) h3
  obtain ⟨_, w4, h4, h⟩ := run_bind_iff.1 h
  unfold endEditing at h4
  rw [setState_run] at h4
  cases h4
  have hw : w' = { w3.inState .ignore with
      events := (w3.inState .ignore).events ++ [.log .info (msg g)]
      acts := (w3.inState .ignore).acts ++ [.tell (.log .info (msg g))] } := by
    have : logInfo (msg g) (w3.inState .ignore) = (.ok (), _) := rfl
    rw [this] at h
    cases h
    rfl
  subst hw
  refine ⟨cur', g, v.isOpen, v.nodup hn, v.off, v.on, v.sum, ?_, ?_, ?_, ?_, ?_⟩
  · show (w3.events ++ _) ++ _ = _
    rw [v.events]
    show ((w1.events ++ _) ++ _) ++ _ = _
    rw [q.events]
    simp [cmdEvents]
  · show w3.dbs .input = _
    rw [v.input]
    show w1.dbs .input = _
    rw [q.dbs]
  · show w3.status.total = _
    rw [v.total]
    show w1.status.total = _
    rw [q.status]
    simp [hits]
  · show w3.status.failed = _
    rw [v.failed]
    show w1.status.failed + _ = _
    rw [q.status]
  · have := v.done
    show w3.status.done + _ = _
    rw [this]
    show w1.status.done + _ = _
    rw [q.status]

/-! ## Commands that succeed -/

/-- Every change of a row succeeds and gives a block that can be saved. -/
def Works (env : Env) (edit : Int → MapBlock → Res (Option MapBlock × γ)) (r : Int × Bytes) : Prop :=
  ∀ b, deserialize env.codec r.2 = .ok b → ∃ ob n, edit r.1 b = .ok (ob, n) ∧
    ∀ b', ob = some b' → ∀ ord : VarOrd, ord.Lawful → ∃ s, serialize env.codec ord b' = .ok s

theorem editStep_works {env : Env} {late : Bool}
    {edit : Int → MapBlock → Res (Option MapBlock × γ)} {add : γ → γ → γ} {g : γ} {r : Int × Bytes}
    {w : World} {dur cur : Table} {cols : List Col} (ho : OpenAt w .main dur cur cols)
    (hf : ∀ n, env.fail n = false) (hord : ∀ n, (env.ord n).Lawful)
    (hr : cur.get? r.1 = some r.2) (hw : Works env edit r) :
    ∃ g' w', editStep env late edit add g r.1 w = (.ok g', w') := by
  unfold editStep
  have h0 : ∃ w1, incIf (!late) w = (.ok (), w1) ∧
      OpenAt w1 .main dur cur cols := by
    cases late with
    | true => exact ⟨w, rfl, ho⟩
    | false => exact ⟨_, rfl, ho⟩
  obtain ⟨w1, h1, ho1⟩ := h0
  rw [run_bind_ok h1, ← run_bind_assoc,
    run_bind_ok ((getBlock_expect_iff ho1 _ _).2 ⟨hf _, hr, rfl⟩)]
  cases hd : deserialize env.codec r.2 with
  | error e =>
    cases e with
    | panic s => exact absurd hd (np_deserialize _ _ _)
    | err e => exact ⟨_, _, rfl⟩
  | ok b =>
    rw [run_bind_ok (okOr_iff.2 ⟨.inl ⟨b, rfl, rfl⟩, rfl⟩)]
    obtain ⟨ob, n, he, hwf⟩ := hw b hd
    simp only
    rw [run_bind_ok (run_lift_iff.2 ⟨he, rfl⟩)]
    have h2 : ∃ w2, writeOpt env r.1 (ob, n).1 (w1.did .main (.select r.1) true) = (.ok (), w2) := by
      cases ob with
      | none => exact ⟨_, rfl⟩
      | some b' =>
        obtain ⟨s, hs⟩ := hwf b' rfl _ (hord (w1.did .main (.select r.1) true).trace.length)
        simp only [writeOpt]
        rw [run_bind_ok (ser_iff.2 ⟨hs, rfl⟩)]
        exact ⟨_, (setBlock_expect_iff (w := w1.did .main (.select r.1) true) ho1 _ _).2 ⟨hf _, rfl⟩⟩
    obtain ⟨w2, h2⟩ := h2
    rw [run_bind_ok h2]
    cases late <;> exact ⟨_, _, rfl⟩

theorem editLoop_works {env : Env} {late : Bool}
    {edit : Int → MapBlock → Res (Option MapBlock × γ)} {add : γ → γ → γ} {g : γ} {rows : Table}
    {w : World} {dur cur : Table} {cols : List Col} (ho : OpenAt w .main dur cur cols)
    (hf : ∀ n, env.fail n = false) (hord : ∀ n, (env.ord n).Lawful)
    (hn : (rows.map (·.1)).Nodup) (hr : ∀ r ∈ rows, cur.get? r.1 = some r.2)
    (hw : ∀ r ∈ rows, Works env edit r) :
    ∃ g' w', (rows.map (·.1)).foldlM (editStep env late edit add) g w = (.ok g', w') := by
  induction rows generalizing g w cur with
  | nil => exact ⟨_, _, rfl⟩
  | cons r rows ih =>
    rw [List.map_cons, List.foldlM_cons]
    obtain ⟨g1, w1, h1⟩ := editStep_works (late := late) (add := add) (g := g) ho hf hord
      (hr r List.mem_cons_self) (hw r List.mem_cons_self)
    obtain ⟨cur1, v1⟩ := editStep_visited ho (hr r List.mem_cons_self) h1
    rw [List.map_cons, List.nodup_cons] at hn
    rw [run_bind_ok h1]
    refine ih v1.isOpen hn.2 ?_ fun r' hr' => hw r' (List.mem_cons_of_mem _ hr')
    intro r' hr'
    rw [v1.off]
    · exact hr r' (List.mem_cons_of_mem _ hr')
    · intro he
      simp only [List.map_cons, List.map_nil, List.mem_singleton] at he
      exact hn.1 (he ▸ List.mem_map.2 ⟨r', hr', rfl⟩)

theorem editCommand_works {env : Env} {late : Bool} {strs : List Bytes} {area : Option Area}
    {invert : Bool} {edit : Int → MapBlock → Res (Option MapBlock × γ)} {add : γ → γ → γ} {g0 : γ}
    {msg : γ → Msg} {w : World} {dur cur : Table} {cols : List Col}
    (ho : OpenAt w .main dur cur cols) (hn : (cur.map (·.1)).Nodup)
    (hf : ∀ n, env.fail n = false) (hord : ∀ n, (env.ord n).Lawful)
    (hw : ∀ r ∈ hits strs area invert cur, Works env edit r) :
    ∃ w', editCommand env late strs area invert edit add g0 msg w = (.ok (), w') := by
  unfold editCommand
  rcases queryKeys_open ho strs area invert true (env := env) with ⟨w1, h1, q⟩ | ⟨h, _⟩
  · rw [run_bind_ok h1]
    have hb : beginEditing w1 = (.ok (), w1.inState .editing) := rfl
    rw [run_bind_ok hb]
    obtain ⟨g, w2, h2⟩ := editLoop_works (late := late) (add := add) (g := g0)
      (w := w1.inState .editing) (dur := dur) (cols := cols)
      (show w1.dbs .main = _ by rw [q.dbs]; exact ho) hf hord
      (hits_nodup (strs := strs) (area := area) (invert := invert) hn)
      (fun r hr => Table.get?_of_mem hn (mem_hits.1 hr).1) hw
    unfold hits at h2
    rw [run_bind_ok h2]
    exact ⟨_, rfl⟩
  · rw [hf] at h; cases h

end MapEditr
