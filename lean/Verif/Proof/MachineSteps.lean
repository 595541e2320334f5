import Verif.Proof.Counters
/-! # Lemmas: the bodies of the loops with machine integers -/

set_option linter.unusedSimpArgs false
set_option linter.unusedVariables false

namespace MapEditr
namespace Checked
open Spec

/-- What one round of a loop may do to its counter and to the status. -/
def OneMore (c : Nat) (w : World) (c' : Nat) (w' : World) : Prop := c' ≤ c + 134217728 ∧ Rise w w'

/-- After the block has been counted as done. -/
def After (w w1 : World) : Prop := w1.status.done = w.status.done + 1 ∧ w1.status.failed = w.status.failed

theorem After.same {w w1 w2 : World} (h : After w w1) (e : w2.status = w1.status) : After w w2 := by
  unfold After
  rw [e]
  exact h

theorem After.rise {w w1 : World} (h : After w w1) : Rise w w1 := by
  unfold After at h
  unfold Rise
  omega

/-- A block that is not understood. -/
theorem agree_skip {β : Type} {b : Build} {c : β} {w w1 : World} {R : β → World → Prop} (hw : Low w) (h : After w w1)
    (hR : ∀ w', Rise w w' → w'.dbs = w1.dbs → R c w') :
    Agree R (incFailed b >>= fun _ => pure c) (MapEditr.incFailed >>= fun _ => pure c) w1 := by
  refine agree_failed (by rw [h.2]; exact hw.2) fun w2 h1 h2 h3 => agree_pure (hR w2 ?_ h3)
  unfold After at h
  unfold Rise
  omega

/-- Counting `n` more, and writing the block. -/
theorem agree_count {env : Env} {bd : Build} {c n : Nat} {k : Int} {b : MapBlock} {w w1 : World} (h : After w w1)
    (hc : c ≤ 9223372036854775808) (hn : n ≤ 65536) :
    Agree (OneMore c w)
      (addTo bd c n >>= fun c' => ser env b >>= fun s => setBlock env .main k s >>= fun r => expect r >>= fun _ => pure c')
      (ser env b >>= fun s => setBlock env .main k s >>= fun r => expect r >>= fun _ => pure (c + n)) w1 := by
  refine agree_add (by omega) (agree_save (f := fun _ => pure (c + n)) (still_pure _) fun a v v' e s => ?_)
  cases e
  exact ⟨by omega, (h.same s).rise⟩

theorem fillStep_agree {env : Env} {area : Area} (invert : Bool) (node : Bytes) {count : Nat} {key : Int} {w : World}
    (h : NearArea area) (hk : ValidKey key) (hw : Low w) (hc : count ≤ 9223372036854775808) :
    Agree (OneMore count w) (fillStep env area invert node count key) (MapEditr.fillStep env area invert node count key) w := by
  unfold fillStep MapEditr.fillStep
  rw [fromBlockKey_eq env.build key hk]
  simp only [run_lift_ok, fillBlock_eq env.build invert node _ h (valid_pos hk)]
  refine agree_done hw fun w1 h1 h2 _ => ?_
  have ha : After w w1 := ⟨h1, h2⟩
  refine agree_read (fun w2 s => agree_skip hw (ha.same s) fun w' hr _ => ⟨by omega, hr⟩) fun b w2 hb s => ?_
  refine agree_lift rfl fun bn e => ?_
  exact agree_count (ha.same s) hc (Nat.le_trans (fillBlock_count hb e) (by omega))

theorem replaceStep_agree {env : Env} {args : InstArgs} (oldNode newNode : Bytes) {count : Nat} {key : Int} {w : World}
    (h : ∀ a, args.area = some a → NearArea a) (hk : ValidKey key) (hw : Low w) (hc : count ≤ 9223372036854775808) :
    Agree (OneMore count w) (replaceStep env args oldNode newNode count key)
      (MapEditr.replaceStep env args oldNode newNode count key) w := by
  unfold replaceStep MapEditr.replaceStep
  simp only [doReplace_eq env.build _ _ newNode args.invert h hk]
  have fin : ∀ (c : Nat) (v : World), v.status = w.status → c ≤ count + 134217728 →
      Agree (OneMore count w) (incDone env.build >>= fun _ => pure c) (MapEditr.incDone >>= fun _ => pure c) v := by
    intro c v s hc
    refine agree_done (by unfold Low; rw [s]; exact hw) fun v1 h1 h2 _ => agree_pure ⟨hc, ?_⟩
    rw [s] at h1 h2
    exact After.rise ⟨h1, h2⟩
  refine agree_read (fun w2 s => ?_) fun b w2 hb s => ?_
  · refine agree_failed (by rw [s]; exact hw.2) fun w3 h1 h2 _ => agree_pure ⟨by omega, ?_⟩
    rw [s] at h1 h2
    unfold Rise
    omega
  · simp only
    cases hg : NameIdMap.getId b.nimap oldNode with
    | some id =>
      refine agree_lift rfl fun bn e => ?_
      have hn := doReplace_le hb e
      refine agree_add (by omega) ?_
      refine agree_still (still_ser _ _) fun _ w3 _ s3 => agree_still (still_setBlock _ _ _ _) fun _ w4 _ s4 =>
        agree_still (still_expect _) fun _ w5 _ s5 => ?_
      exact fin _ w5 (s5.trans (s4.trans (s3.trans s))) (by omega)
    | none => exact fin _ w2 s (by omega)

theorem param2Step_agree {env : Env} {args : InstArgs} (val : UInt8) (node : Option Bytes) {count : Nat} {key : Int}
    {w : World} (h : ∀ a, args.area = some a → NearArea a) (hk : ValidKey key) (hw : Low w)
    (hc : count ≤ 9223372036854775808) :
    Agree (OneMore count w) (param2Step env args val node count key) (MapEditr.param2Step env args val node count key) w := by
  unfold param2Step MapEditr.param2Step
  rw [fromBlockKey_eq env.build key hk]
  simp only [run_lift_ok, param2Block_eq env.build args.invert _ val _ h (valid_pos hk)]
  refine agree_done hw fun w1 h1 h2 _ => ?_
  have ha : After w w1 := ⟨h1, h2⟩
  refine agree_read (fun w2 s => agree_skip hw (ha.same s) fun w' hr _ => ⟨by omega, hr⟩) fun b w2 hb s => ?_
  simp only
  split
  · exact agree_pure ⟨by omega, (ha.same s).rise⟩
  · refine agree_lift rfl fun bn e => ?_
    exact agree_count (ha.same s) hc (Nat.le_trans (param2Block_count hb e) (by omega))

theorem deleteMetaStep_agree {env : Env} {args : InstArgs} (node : Option Bytes) {count : Nat} {key : Int}
    {w : World} (hk : ValidKey key) (hw : Low w) (hc : count ≤ 9223372036854775808) :
    Agree (OneMore count w) (deleteMetaStep env args node count key) (MapEditr.deleteMetaStep env args node count key) w := by
  unfold deleteMetaStep MapEditr.deleteMetaStep
  simp only [blockCorner_eq env.build hk, run_lift_ok, metaToDelete_eq env.build args _ _ _ hk]
  refine agree_done hw fun w1 h1 h2 _ => ?_
  have ha : After w w1 := ⟨h1, h2⟩
  refine agree_read (fun w2 s => agree_skip hw (ha.same s) fun w' hr _ => ⟨by omega, hr⟩) fun b w2 hb s => ?_
  simp only
  split
  · exact agree_pure ⟨by omega, (ha.same s).rise⟩
  · refine agree_lift rfl fun del e => ?_
    split
    · have h3 := metaToDelete_count e
      have h4 := hb.metas.count
      exact agree_count (ha.same s) hc (by omega)
    · exact agree_pure ⟨by omega, (ha.same s).rise⟩

theorem setMetaVarStep_agree {env : Env} {args : InstArgs} (k v : Bytes) (nodes : List Bytes) {count : Nat} {key : Int}
    {w : World} (hk : ValidKey key) (hw : Low w) (hc : count ≤ 9223372036854775808) :
    Agree (OneMore count w) (setMetaVarStep env args k v nodes count key)
      (MapEditr.setMetaVarStep env args k v nodes count key) w := by
  unfold setMetaVarStep MapEditr.setMetaVarStep
  simp only [blockCorner_eq env.build hk, run_lift_ok, editMetas_eq env.build args _ _ _ _ hk]
  refine agree_done hw fun w1 h1 h2 _ => ?_
  have ha : After w w1 := ⟨h1, h2⟩
  refine agree_read (fun w2 s => agree_skip hw (ha.same s) fun w' hr _ => ⟨by omega, hr⟩) fun b w2 hb s => ?_
  simp only
  split
  · exact agree_pure ⟨by omega, (ha.same s).rise⟩
  · refine agree_lift rfl fun mn e => ?_
    split
    · have h3 := (editMetas_count (size := fun _ => 1) (editVar_count k v args.delete) e).1
      have h4 := hb.metas.count
      have h5 := sum_le_length (b.metas.map fun e => 1) (by intro n hn; simp only [List.mem_map] at hn; obtain ⟨_, -, rfl⟩ := hn; exact Nat.le_refl _)
      rw [List.length_map] at h5
      exact agree_count (ha.same s) hc (by omega)
    · exact agree_pure ⟨by omega, (ha.same s).rise⟩

theorem deleteTimersStep_agree {env : Env} {args : InstArgs} (node : Option Bytes) {count : Nat} {key : Int}
    {w : World} (hk : ValidKey key) (hw : Low w) (hc : count ≤ 9223372036854775808) :
    Agree (OneMore count w) (deleteTimersStep env args node count key)
      (MapEditr.deleteTimersStep env args node count key) w := by
  unfold deleteTimersStep MapEditr.deleteTimersStep
  simp only [blockCorner_eq env.build hk, run_lift_ok, timerHit_eq env.build args _ _ hk]
  refine agree_done hw fun w1 h1 h2 _ => ?_
  have ha : After w w1 := ⟨h1, h2⟩
  refine agree_read (fun w2 s => agree_skip hw (ha.same s) fun w' hr _ => ⟨by omega, hr⟩) fun b w2 hb s => ?_
  simp only
  split
  · exact agree_pure ⟨by omega, (ha.same s).rise⟩
  · refine agree_lift rfl fun tn e => ?_
    split
    · have h3 := removeRev_count e
      have h4 := hb.timers.1
      exact agree_count (ha.same s) hc (by omega)
    · exact agree_pure ⟨by omega, (ha.same s).rise⟩

theorem deleteObjectsStep_agree {env : Env} {args : InstArgs} (obj : Option Bytes) (items : List Bytes) {count : Nat}
    {key : Int} {w : World} (hw : Low w) (hc : count ≤ 9223372036854775808) :
    Agree (OneMore count w) (deleteObjectsStep env args obj items count key)
      (MapEditr.deleteObjectsStep env args obj items count key) w := by
  unfold deleteObjectsStep MapEditr.deleteObjectsStep
  refine agree_done hw fun w1 h1 h2 _ => ?_
  have ha : After w w1 := ⟨h1, h2⟩
  refine agree_read (fun w2 s => agree_skip hw (ha.same s) fun w' hr _ => ⟨by omega, hr⟩) fun b w2 hb s => ?_
  refine agree_lift rfl fun tn e => ?_
  have h3 := removeRev_count e
  have h4 := hb.objs.1
  simp only
  split
  · exact agree_count (ha.same s) hc (by omega)
  · exact agree_pure ⟨by omega, (ha.same s).rise⟩

theorem deleteBlockStep_agree {env : Env} {key : Int} {w : World} (hw : Low w) :
    Agree (fun _ w' => Rise w w') (deleteBlockStep env key) (MapEditr.deleteBlockStep env key) w := by
  unfold deleteBlockStep MapEditr.deleteBlockStep
  refine agree_done hw fun w1 h1 h2 _ => ?_
  have ha : After w w1 := ⟨h1, h2⟩
  refine agree_still (still_deleteBlock _ _ _) fun r w2 _ s2 => agree_rfl fun _ w3 e3 => ?_
  have s3 := ((still_expect r) w2).1
  rw [e3] at s3
  exact (ha.same (s3.trans s2)).rise

/-! ## Inventories -/

/-- What the main database shows for a key. -/
def shown (w : World) (k : Int) : Option Bytes := (w.dbs .main).bind fun m => m.conn.cur.get? k

theorem shown_same {w w' : World} (e : w'.dbs = w.dbs) (k : Int) : shown w' k = shown w k := by
  unfold shown
  rw [e]

/-- A statement that succeeds: the rows shown are those of `step`. -/
theorem exec_shown {env : Env} {s : Sql} {w w' : World} (e : exec env .main s w = (.ok true, w')) :
    ∃ m, w.dbs .main = some m ∧ w'.dbs .main = some { m with conn := m.conn.step s } := by
  unfold exec at e
  cases hm : w.dbs .main with
  | none => rw [hm] at e; cases e
  | some m =>
    rw [hm] at e
    simp only at e
    split at e
    · cases e
    · split at e
      · cases e
      · cases e
        exact ⟨m, rfl, rfl⟩

theorem begin_shown {env : Env} {w w' : World} (e : beginIfNeeded env .main w = (.ok true, w')) (k : Int) :
    shown w' k = shown w k := by
  unfold beginIfNeeded at e
  obtain ⟨m, w1, e1, e2⟩ := run_bind_iff.1 e
  obtain ⟨-, rfl⟩ := theDb_iff.1 e1
  clear e
  split at e2
  · obtain ⟨m', h1, h2⟩ := exec_shown e2
    unfold shown
    rw [h1, h2]
    rfl
  · cases e2
    rfl

theorem getBlock_shown {env : Env} {k : Int} {d : Bytes} {w w' : World}
    (e : getBlock env .main k w = (.ok (.ok d), w')) : (∀ k', shown w' k' = shown w k') ∧ shown w k = some d := by
  unfold getBlock at e
  obtain ⟨ok, w1, e1, e⟩ := run_bind_iff.1 e
  cases ok with
  | false => cases e
  | true =>
    simp only [if_true] at e
    obtain ⟨ok, w2, e2, e⟩ := run_bind_iff.1 e
    cases ok with
    | false => cases e
    | true =>
      simp only [if_true] at e
      obtain ⟨m, w3, e3, e4⟩ := run_bind_iff.1 e
      obtain ⟨hm, rfl⟩ := theDb_iff.1 e3
      obtain ⟨m', h1, h2⟩ := exec_shown e2
      have hs : ∀ k', shown w3 k' = shown w k' := by
        intro k'
        rw [← begin_shown e1]
        unfold shown
        rw [h1, h2]
        rfl
      have hk : shown w3 k = m.conn.cur.get? k := by
        unfold shown
        rw [hm]
        rfl
      cases hg : m.conn.cur.get? k with
      | none =>
        rw [hg] at e4
        cases e4
      | some d' =>
        rw [hg] at e4
        cases e4
        exact ⟨hs, by rw [← hs, hk, hg]⟩

theorem setBlock_shown {env : Env} {k : Int} {d : Bytes} {w w' : World}
    (e : setBlock env .main k d w = (.ok (.ok ()), w')) {k' : Int} (hk : k' ≠ k) : shown w' k' = shown w k' := by
  unfold setBlock at e
  obtain ⟨ok, w1, e1, e⟩ := run_bind_iff.1 e
  cases ok with
  | false => cases e
  | true =>
    simp only [if_true] at e
    obtain ⟨ok, w2, e2, e⟩ := run_bind_iff.1 e
    cases ok with
    | false => cases e
    | true =>
      cases e
      obtain ⟨m', h1, h2⟩ := exec_shown e2
      rw [← begin_shown e1]
      unfold shown
      rw [h1, h2]
      have hc : (m'.conn.step (.put k d)).cur = m'.conn.cur.put k d := by
        simp only [Conn.step, Conn.change]
        split <;> rfl
      show ((m'.conn.step (.put k d)).cur).get? k' = m'.conn.cur.get? k'
      rw [hc, Table.get?_put, if_neg hk]

theorem expect_ok {α : Type} {r : Except DbErr α} {a : α} {w w' : World} (e : expect r w = (.ok a, w')) :
    r = .ok a ∧ w' = w := by
  cases r with
  | error x => cases e
  | ok b => cases e; exact ⟨rfl, rfl⟩

/-- The inventories of one block hold at most 64 MiB. -/
def InvsSmall (c : Codec) (d : Bytes) : Prop :=
  ∀ b, deserialize c d = .ok b → (b.metas.map fun e => e.2.inv.length).sum ≤ 67108864

/-- The keys still to come are different, and what is shown for them has small inventories. -/
def InvsOk (c : Codec) (keys : List Int) (w : World) : Prop :=
  keys.Nodup ∧ (∀ k ∈ keys, ValidKey k) ∧ ∀ k ∈ keys, ∀ d, shown w k = some d → InvsSmall c d

theorem InvsOk.tail {c : Codec} {k : Int} {rest : List Int} {w w' : World} (h : InvsOk c (k :: rest) w)
    (hs : ∀ k', k' ≠ k → shown w' k' = shown w k') : InvsOk c rest w' := by
  obtain ⟨h1, h2, h3⟩ := h
  rw [List.nodup_cons] at h1
  refine ⟨h1.2, fun k' hk => h2 k' (List.mem_cons_of_mem _ hk), fun k' hk d hd => h3 k' (List.mem_cons_of_mem _ hk) d ?_⟩
  rw [← hs k' (fun e => h1.1 (e ▸ hk))]
  exact hd

theorem replaceInInvStep_agree {env : Env} {args : InstArgs} (item newItem : Bytes) (nodes : List Bytes)
    {count : Nat × Nat} {key : Int} {rest : List Int} {w : World} (ho : InvsOk env.codec (key :: rest) w) (hw : Low w)
    (hc : max count.1 count.2 ≤ 9223372036854775808) :
    Agree (fun c' w' => max c'.1 c'.2 ≤ max count.1 count.2 + 134217728 ∧ Rise w w' ∧ InvsOk env.codec rest w')
      (replaceInInvStep env args item newItem nodes count key)
      (MapEditr.replaceInInvStep env args item newItem nodes count key) w := by
  have hk : ValidKey key := ho.2.1 key List.mem_cons_self
  unfold replaceInInvStep MapEditr.replaceInInvStep
  simp only [blockCorner_eq env.build hk, run_lift_ok, editMetas_eq env.build args _ _ _ _ hk]
  refine agree_done hw fun w1 h1 h2 hd1 => ?_
  have ha : After w w1 := ⟨h1, h2⟩
  have d1 : ∀ k', shown w1 k' = shown w k' := shown_same hd1
  refine agree_still (still_getBlock _ _ _) fun r w2 e2 s2 => agree_still (still_expect _) fun d w3 e3 s3 => ?_
  obtain ⟨rfl, rfl⟩ := expect_ok e3
  obtain ⟨d2, hd⟩ := getBlock_shown e2
  have hsm : InvsSmall env.codec d := ho.2.2 key List.mem_cons_self d (by rw [← d1]; exact hd)
  have hs : ∀ k', shown w3 k' = shown w k' := fun k' => (d2 k').trans (d1 k')
  have ha3 : After w w3 := ha.same s2
  have stay : ∀ w', w'.dbs = w3.dbs → InvsOk env.codec rest w' := fun w' e =>
    ho.tail fun k' _ => (shown_same e k').trans (hs k')
  unfold Run.okOr
  cases hde : deserialize env.codec d with
  | error x =>
    cases x with
    | err x =>
      exact agree_skip hw ha3 fun w' hr e => ⟨by omega, hr, stay w' e⟩
    | panic x => exact agree_rfl fun _ _ e => by cases e
  | ok b =>
    have hb : Wf b := wf_of_represents (deserialize_iff.1 hde)
    have h5 := hsm b hde
    refine agree_bind (P := fun o w' => o = some b ∧ w' = w3) (agree_rfl fun _ _ e => by cases e; exact ⟨rfl, rfl⟩) ?_
    rintro _ _ ⟨rfl, rfl⟩
    simp only
    split
    · exact agree_pure ⟨by omega, ha3.rise, stay _ rfl⟩
    · refine agree_lift rfl fun mn e => ?_
      have h3 := editMetas_count (size := fun m => m.inv.length + 1) (editInv_count item newItem args.deleteMeta) e
      have h4 := hb.metas.count
      have h6 : ∀ l : MetaList, (l.map fun e => e.2.inv.length + 1).sum = (l.map fun e => e.2.inv.length).sum + l.length := by
        intro l
        induction l with
        | nil => rfl
        | cons a t ih => simp only [List.map_cons, List.sum_cons, List.length_cons, ih]; omega
      rw [h6] at h3
      have h7 : (mn.2.filter fun x => decide (x > 0)).length ≤ mn.2.length := List.length_filter_le ..
      refine agree_add (by omega) (agree_add (by omega) ?_)
      split
      · refine agree_rfl fun a w' e => ?_
        obtain ⟨x, w4, e4, e⟩ := run_bind_iff.1 e
        obtain ⟨r, w5, e5, e⟩ := run_bind_iff.1 e
        obtain ⟨_, w6, e6, e⟩ := run_bind_iff.1 e
        obtain ⟨rfl, rfl⟩ := expect_ok e6
        cases e
        have e7 := (ser_iff.1 e4).2
        have s5 := ((still_setBlock env .main key x) w4).1
        rw [e5] at s5
        refine ⟨by simp only; omega, (ha3.same (s5.trans (congrArg World.status e7))).rise, ho.tail fun k' hne => ?_⟩
        rw [setBlock_shown e5 hne]
        rw [e7]
        exact hs k'
      · exact agree_pure ⟨by simp only; omega, ha3.rise, stay _ rfl⟩

end Checked
end MapEditr
