import Verif.Proof.Change
/-! # Lemmas: `deleteblocks` -/

namespace MapEditr
open Spec
set_option linter.unusedSimpArgs false
set_option linter.unusedVariables false

/-- Delete the rows with these keys. -/
def Table.delAll (t : Table) (ks : List Int) : Table := ks.foldl Table.del t

theorem mem_delAll {t : Table} {ks : List Int} {r : Int × Bytes} :
    r ∈ t.delAll ks ↔ r ∈ t ∧ r.1 ∉ ks := by
  unfold Table.delAll
  induction ks generalizing t with
  | nil => simp
  | cons k ks ih =>
    rw [List.foldl_cons, ih]
    unfold Table.del
    simp [and_assoc]

theorem nodup_delAll {t : Table} {ks : List Int} (h : (t.map (·.1)).Nodup) :
    ((t.delAll ks).map (·.1)).Nodup := by
  unfold Table.delAll
  induction ks generalizing t with
  | nil => exact h
  | cons k ks ih => exact ih (Table.nodup_del h k)

theorem deleteLoop {env : Env} {ks : List Int} {w w' : World} {dur cur : Table} {cols : List Col}
    (ho : OpenAt w .main dur cur cols)
    (h : forEach ks (deleteBlockStep env) w = (.ok (), w')) :
    OpenAt w' .main dur (cur.delAll ks) cols ∧ w'.events = w.events ∧
      w'.status = { w.status with done := w.status.done + ks.length } := by
  unfold forEach at h
  induction ks generalizing w cur with
  | nil =>
    simp only [List.foldlM_nil, run_pure, Prod.mk.injEq, true_and] at h
    subst h
    exact ⟨ho, rfl, rfl⟩
  | cons k ks ih =>
    rw [List.foldlM_cons] at h
    obtain ⟨_, w1, h1, h⟩ := run_bind_iff.1 h
    unfold deleteBlockStep at h1
    obtain ⟨_, w2, h2, h1⟩ := run_bind_iff.1 h1
    rw [incDone_run] at h2
    cases h2
    obtain ⟨hf, rfl⟩ := (deleteBlock_expect_iff (dur := dur) (cur := cur) (cols := cols)
      (w := w.setStatus fun s => { s with done := s.done + 1 }) ho _).1 h1
    obtain ⟨h3, h4, h5⟩ := ih (cur := cur.del k)
      (by unfold OpenAt; rw [did_dbs, setDb_self]) h
    refine ⟨h3, h4, ?_⟩
    rw [h5]
    show ({ w.status with done := w.status.done + 1 + ks.length } : Status) = _
    have e : w.status.done + 1 + ks.length = w.status.done + (ks.length + 1) := by omega
    rw [List.length_cons, e]

theorem deleteLoop_works {env : Env} {ks : List Int} {w : World} {dur cur : Table} {cols : List Col}
    (hf : ∀ n, env.fail n = false) (ho : OpenAt w .main dur cur cols) :
    ∃ w', forEach ks (deleteBlockStep env) w = (.ok (), w') := by
  unfold forEach
  induction ks generalizing w cur with
  | nil => exact ⟨w, rfl⟩
  | cons k ks ih =>
    rw [List.foldlM_cons]
    have h1 : ∃ w1, deleteBlockStep env k w = (.ok (), w1) ∧ OpenAt w1 .main dur (cur.del k) cols := by
      unfold deleteBlockStep
      rw [run_bind_ok (incDone_run w)]
      refine ⟨_, (deleteBlock_expect_iff (dur := dur) (cur := cur) (cols := cols)
        (w := w.setStatus fun s => { s with done := s.done + 1 }) ho _).2 ⟨hf _, rfl⟩, ?_⟩
      unfold OpenAt; rw [did_dbs, setDb_self]
    obtain ⟨w1, h1, ho1⟩ := h1
    rw [run_bind_ok h1]
    exact ih ho1

/-- The keys `deleteblocks` deletes. -/
def doomed (area : Option Area) (invert : Bool) (t : Table) : List Int :=
  (queryHits [] area invert false t).map (·.1)

theorem deleteBlocks_run {env : Env} {args : InstArgs} {w w' : World} {dur cur : Table}
    {cols : List Col} (ho : OpenAt w .main dur cur cols)
    (h : deleteBlocks env args w = (.ok (), w')) :
    OpenAt w' .main dur (cur.delAll (doomed args.area args.invert cur)) cols ∧
      w'.status.total = (doomed args.area args.invert cur).length ∧
      w'.status.done = w.status.done + (doomed args.area args.invert cur).length ∧
      w'.status.failed = w.status.failed := by
  unfold deleteBlocks at h
  obtain ⟨keys, w1, h1, h⟩ := run_bind_iff.1 h
  obtain ⟨rfl, q⟩ := queryKeys_iff ho h1
  obtain ⟨_, w2, h2, h⟩ := run_bind_iff.1 h
  unfold beginEditing at h2
  rw [setState_run] at h2
  cases h2
  obtain ⟨_, w3, h3, h⟩ := run_bind_iff.1 h
  obtain ⟨a1, a2, a3⟩ := deleteLoop (w := w1.inState .editing) (dur := dur) (cur := cur) (cols := cols)
    (show w1.dbs .main = _ by rw [q.dbs]; exact ho) h3
  unfold endEditing at h
  rw [setState_run] at h
  cases h
  refine ⟨a1, ?_, ?_, ?_⟩
  · show w3.status.total = _
    rw [a3]
    show w1.status.total = _
    rw [q.status]
    simp [doomed]
  · show w3.status.done = _
    rw [a3]
    show w1.status.done + _ = _
    rw [q.status]
    simp [doomed]
  · show w3.status.failed = _
    rw [a3]
    show w1.status.failed = _
    rw [q.status]

theorem deleteBlocks_works {env : Env} {args : InstArgs} {w : World} {dur cur : Table}
    {cols : List Col} (hf : ∀ n, env.fail n = false) (ho : OpenAt w .main dur cur cols) :
    ∃ w', deleteBlocks env args w = (.ok (), w') := by
  unfold deleteBlocks
  rcases queryKeys_open ho [] args.area args.invert false (env := env) with ⟨w1, h1, q⟩ | ⟨h, _⟩
  · rw [run_bind_ok h1]
    have hb : beginEditing w1 = (.ok (), w1.inState .editing) := rfl
    rw [run_bind_ok hb]
    obtain ⟨w2, h2⟩ := deleteLoop_works (ks := (queryHits [] args.area args.invert false cur).map (·.1))
      (w := w1.inState .editing) (dur := dur) (cur := cur) (cols := cols) hf
      (show w1.dbs .main = _ by rw [q.dbs]; exact ho)
    rw [run_bind_ok h2]
    exact ⟨_, rfl⟩
  · rw [hf] at h; cases h

/-- Which rows are deleted. -/
theorem mem_doomed {area : Option Area} {invert : Bool} {t : Table} (hg : GoodTable t)
    (ha : AreaOk area) {bp : Vec3} (hb : ValidBlockPos bp) {d : Bytes} (hd : (keyOf bp, d) ∈ t) :
    keyOf bp ∈ doomed area invert t ↔ ∀ p, InBlock bp p → Selected area invert p := by
  unfold doomed
  rw [queryHits_eq]
  have hw := areaKeeps_iff ha invert false hb
  simp only [Wanted, Bool.false_eq_true, if_false] at hw
  rw [← hw]
  simp only [List.mem_map, List.mem_filter, Bool.and_eq_true]
  constructor
  · rintro ⟨r, ⟨h1, h2, h3⟩, h4⟩
    rw [← h4]
    exact h2
  · intro h
    exact ⟨_, ⟨hd, h, nameKeeps_nil d⟩, rfl⟩

end MapEditr
