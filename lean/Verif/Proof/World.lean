import Verif.Model.World
import Verif.Proof.ByteIO
/-! # Lemmas: the run monad, tables, database operations -/

namespace MapEditr
set_option linter.unusedSimpArgs false

/-! ## The monad -/

theorem run_pure (a : α) (w : World) : (pure a : Run α) w = (.ok a, w) := rfl

theorem run_bind (m : Run α) (f : α → Run β) (w : World) : (m >>= f) w =
    match m w with
    | (.ok a, w') => f a w'
    | (.error e, w') => (.error e, w') := rfl

theorem run_bind_ok {m : Run α} {f : α → Run β} {w w1 : World} {a : α} (h : m w = (.ok a, w1)) :
    (m >>= f) w = f a w1 := by rw [run_bind, h]

theorem run_bind_err {m : Run α} {f : α → Run β} {w w1 : World} {e : Stop}
    (h : m w = (.error e, w1)) : (m >>= f) w = (.error e, w1) := by rw [run_bind, h]

theorem run_bind_iff {m : Run α} {f : α → Run β} {w w' : World} {b : β} :
    (m >>= f) w = (.ok b, w') ↔ ∃ a w1, m w = (.ok a, w1) ∧ f a w1 = (.ok b, w') := by
  rw [run_bind]
  rcases h : m w with ⟨r, w1⟩
  cases r with
  | error e => simp
  | ok a =>
    constructor
    · intro h; exact ⟨a, w1, rfl, h⟩
    · rintro ⟨a', w1', h1, h2⟩; cases h1; exact h2

theorem run_lift (r : Res α) (w : World) : Run.lift r w = (r, w) := rfl
theorem run_upd (f : World → World) (w : World) : Run.upd f w = (.ok (), f w) := rfl

theorem run_pure_bind (a : α) (f : α → Run β) : (pure a >>= f) = f a := rfl

theorem run_bind_assoc (m : Run α) (f : α → Run β) (g : β → Run γ) :
    (m >>= f >>= g) = (m >>= fun a => f a >>= g) := by
  funext w
  simp only [run_bind]
  rcases m w with ⟨r, w1⟩
  cases r <;> rfl

theorem run_bind_pure (m : Run α) : (m >>= pure) = m := by
  funext w
  rw [run_bind]
  rcases h : m w with ⟨r, w1⟩
  cases r <;> rfl

instance : LawfulMonad Run := LawfulMonad.mk'
  (id_map := by
    intro α x
    show (x >>= fun a => pure (id a)) = x
    exact run_bind_pure x)
  (pure_bind := fun a f => rfl)
  (bind_assoc := run_bind_assoc)

theorem run_unwrap_iff {o : Option α} {a : α} {w w' : World} :
    Run.unwrap o w = (.ok a, w') ↔ o = some a ∧ w' = w := by
  cases o with
  | none => simp [Run.unwrap, unwrap, Run.lift]
  | some b => simp [Run.unwrap, unwrap, Run.lift, eq_comm]

theorem run_unwrap_some (a : α) (w : World) : Run.unwrap (some a) w = (.ok a, w) := rfl

theorem run_lift_iff {r : Res α} {a : α} {w w' : World} :
    Run.lift r w = (.ok a, w') ↔ r = .ok a ∧ w' = w := by
  simp [Run.lift, eq_comm]

/-! ## Tables -/

namespace Table

theorem get?_nil (k : Int) : Table.get? [] k = none := rfl

theorem get?_cons (r : Int × Bytes) (t : Table) (k : Int) :
    Table.get? (r :: t) k = if r.1 = k then some r.2 else Table.get? t k := by
  unfold get?
  rw [List.find?_cons]
  by_cases h : r.1 = k
  · rw [if_pos h, (beq_iff_eq.2 h)]; rfl
  · rw [if_neg h, (beq_eq_false_iff_ne.2 h)]

theorem get?_some_mem {t : Table} {k : Int} {d : Bytes} (h : t.get? k = some d) : (k, d) ∈ t := by
  induction t with
  | nil => cases h
  | cons r t ih =>
    rw [get?_cons] at h
    split at h
    · next e => cases h; subst e; exact List.mem_cons_self
    · exact List.mem_cons_of_mem _ (ih h)

theorem get?_of_mem {t : Table} (hn : (t.map (·.1)).Nodup) {k : Int} {d : Bytes}
    (h : (k, d) ∈ t) : t.get? k = some d := by
  induction t with
  | nil => cases h
  | cons r t ih =>
    rw [List.map_cons, List.nodup_cons] at hn
    rw [get?_cons]
    rcases List.mem_cons.1 h with rfl | h
    · rw [if_pos rfl]
    · rw [if_neg, ih hn.2 h]
      intro e
      exact hn.1 (e ▸ List.mem_map.2 ⟨_, h, rfl⟩)

theorem mem_iff {t : Table} (hn : (t.map (·.1)).Nodup) {k : Int} {d : Bytes} :
    (k, d) ∈ t ↔ t.get? k = some d := ⟨get?_of_mem hn, get?_some_mem⟩

theorem get?_none {t : Table} {k : Int} : t.get? k = none ↔ k ∉ t.map (·.1) := by
  induction t with
  | nil => simp [get?_nil]
  | cons r t ih =>
    rw [get?_cons, List.map_cons, List.mem_cons]
    by_cases h : r.1 = k
    · simp [h]
    · rw [if_neg h, ih]
      constructor
      · rintro h1 (h2 | h2)
        · exact h h2.symm
        · exact h1 h2
      · intro h1 h2; exact h1 (.inr h2)

theorem get?_del (t : Table) (k q : Int) : (t.del k).get? q = if q = k then none else t.get? q := by
  induction t with
  | nil => rw [show Table.del [] k = [] from rfl, get?_nil]; split <;> rfl
  | cons r t ih =>
    unfold del at ih ⊢
    rw [List.filter_cons]
    by_cases h : r.1 = k
    · rw [if_neg (by simp [h]), ih, get?_cons]
      by_cases hq : q = k
      · rw [if_pos hq, if_pos hq]
      · rw [if_neg hq, if_neg hq, if_neg (by rw [h]; exact fun e => hq e.symm)]
    · rw [if_pos (by simp [h]), get?_cons, ih, get?_cons]
      by_cases hq : q = k
      · rw [if_pos hq, if_pos hq, if_neg (by rw [hq]; exact h)]
      · rw [if_neg hq, if_neg hq]

theorem get?_append (s t : Table) (q : Int) :
    Table.get? (s ++ t) q = (s.get? q).or (t.get? q) := by
  induction s with
  | nil => rw [List.nil_append, get?_nil]; rfl
  | cons r s ih =>
    rw [List.cons_append, get?_cons, get?_cons, ih]
    split <;> rfl

theorem get?_put (t : Table) (k : Int) (d : Bytes) (q : Int) :
    (t.put k d).get? q = if q = k then some d else t.get? q := by
  unfold put
  rw [get?_append, get?_del, get?_cons, get?_nil]
  by_cases h : q = k
  · rw [if_pos h, if_pos h, if_pos h.symm]; rfl
  · rw [if_neg h, if_neg h, if_neg (fun e => h e.symm)]
    cases t.get? q <;> rfl

theorem keys_del (t : Table) (k : Int) : (t.del k).map (·.1) = (t.map (·.1)).filter (· != k) := by
  induction t with
  | nil => rfl
  | cons r t ih =>
    unfold del at ih ⊢
    rw [List.filter_cons, List.map_cons, List.filter_cons]
    by_cases h : r.1 = k
    · rw [if_neg (by simp [h]), if_neg (by simp [h]), ih]
    · rw [if_pos (by simp [h]), if_pos (by simp [h]), List.map_cons, ih]

theorem nodup_del {t : Table} (h : (t.map (·.1)).Nodup) (k : Int) : ((t.del k).map (·.1)).Nodup := by
  rw [keys_del]; exact h.filter _

theorem nodup_put {t : Table} (h : (t.map (·.1)).Nodup) (k : Int) (d : Bytes) :
    ((t.put k d).map (·.1)).Nodup := by
  unfold put
  rw [List.map_append, List.nodup_append]
  refine ⟨nodup_del h k, by simp, ?_⟩
  intro a ha b hb
  rw [keys_del] at ha
  simp at hb ha
  rw [hb]; exact ha.2

end Table

/-! ## Database operations on an open map -/

/-- Database `i` is open and in its transaction; `dur` is the committed content, `cur` the content
seen by the program. -/
def OpenAt (w : World) (i : DbId) (dur cur : Table) (cols : List Col) : Prop :=
  w.dbs i = some ⟨⟨dur, cur, true, cols⟩, true⟩

theorem setDb_same {w : World} {i : DbId} {m : MapDb} (h : w.dbs i = some m) : w.setDb i m = w := by
  unfold World.setDb
  have : (fun j => if j = i then some m else w.dbs j) = w.dbs := by
    funext j
    by_cases hj : j = i
    · rw [if_pos hj, hj, h]
    · rw [if_neg hj]
  rw [this]

theorem setDb_self (w : World) (i : DbId) (m : MapDb) : (w.setDb i m).dbs i = some m := if_pos rfl
theorem setDb_other {w : World} {i j : DbId} (m : MapDb) (h : j ≠ i) :
    (w.setDb i m).dbs j = w.dbs j := if_neg h

/-- Statements that are never refused inside a transaction and change no table. -/
def Sql.Quiet : Sql → Prop
  | .select _ | .selectAll | .tableInfo | .prepare | .open => True
  | _ => False

theorem did_dbs (w : World) (i : DbId) (s : Sql) (ok : Bool) : (w.did i s ok).dbs = w.dbs := rfl

theorem failed_input (w : World) (env : Env) (s : Sql) : w.failed env .input s = w.did .input s false := by
  unfold World.failed
  split
  · rfl
  · rw [if_neg]; rintro ⟨h, -⟩; cases h

/-- A failed statement leaves nothing but its record, or the transaction on the main map is undone. -/
theorem failed_cases (w : World) (env : Env) (i : DbId) (s : Sql) : w.failed env i s = w.did i s false ∨
    (i = .main ∧ ∃ m, w.dbs .main = some m ∧ m.conn.inTx = true ∧ env.undo w.trace.length = true ∧
      w.failed env i s = ((w.did i s false).setDb .main ⟨m.conn.step .rollback, m.inTransaction⟩).did .main
        .rollback true) := by
  unfold World.failed
  cases hd : w.dbs i with
  | none => exact Or.inl rfl
  | some m =>
    simp only
    by_cases h : i = .main ∧ m.conn.inTx = true ∧ env.undo w.trace.length = true
    · rw [if_pos h]
      obtain ⟨rfl, h1, h2⟩ := h
      exact Or.inr ⟨rfl, m, hd, h1, h2, rfl⟩
    · rw [if_neg h]; exact Or.inl rfl

theorem failed_status (w : World) (env : Env) (i : DbId) (s : Sql) : (w.failed env i s).status = w.status := by
  rcases failed_cases w env i s with h | ⟨-, m, -, -, -, h⟩ <;> rw [h] <;> rfl
theorem failed_events (w : World) (env : Env) (i : DbId) (s : Sql) : (w.failed env i s).events = w.events := by
  rcases failed_cases w env i s with h | ⟨-, m, -, -, -, h⟩ <;> rw [h] <;> rfl
theorem failed_seen (w : World) (env : Env) (i : DbId) (s : Sql) : (w.failed env i s).seen = w.seen := by
  rcases failed_cases w env i s with h | ⟨-, m, -, -, -, h⟩ <;> rw [h] <;> rfl

theorem failed_other {i j : DbId} (w : World) (env : Env) (s : Sql) (h : j ≠ i) :
    (w.failed env i s).dbs j = w.dbs j := by
  rcases failed_cases w env i s with h' | ⟨rfl, m, -, -, -, h'⟩ <;> rw [h']
  · rfl
  · exact setDb_other _ h

/-- The record of a failed statement. -/
theorem failed_trace (w : World) (env : Env) (i : DbId) (s : Sql) : ∃ l, (w.failed env i s).trace =
    w.trace ++ ⟨i, s, false⟩ :: l ∧ (l = [] ∨ i = .main ∧ l = [⟨.main, .rollback, true⟩]) := by
  rcases failed_cases w env i s with h | ⟨hi, m, -, -, -, h⟩ <;> rw [h]
  · exact ⟨[], rfl, Or.inl rfl⟩
  · exact ⟨_, List.append_assoc _ _ _, Or.inr ⟨hi, rfl⟩⟩

theorem exec_quiet {env : Env} {i : DbId} {s : Sql} {w : World} {m : MapDb} (h : w.dbs i = some m)
    (hs : s.Quiet) : exec env i s w = if env.fail w.trace.length then (.ok false, w.failed env i s)
      else (.ok true, w.did i s true) := by
  unfold exec
  rw [h]
  have hr : m.conn.refuses s = false := by cases s <;> first | rfl | exact hs.elim
  have hst : m.conn.step s = m.conn := by cases s <;> first | rfl | exact hs.elim
  simp only [hr]
  cases hf : env.fail w.trace.length with
  | true => rfl
  | false =>
    simp only [Bool.false_eq_true, if_false, hst]
    rw [setDb_same h]

theorem theDb_eq {i : DbId} {w : World} {m : MapDb} (h : w.dbs i = some m) :
    theDb i w = (.ok m, w) := by unfold theDb; rw [h]

theorem beginIfNeeded_open {env : Env} {i : DbId} {w : World} {dur cur : Table} {cols : List Col}
    (h : OpenAt w i dur cur cols) : beginIfNeeded env i w = (.ok true, w) := by
  unfold beginIfNeeded
  rw [run_bind_ok (theDb_eq h)]
  rfl

theorem getBlock_open {env : Env} {i : DbId} {w : World} {dur cur : Table} {cols : List Col}
    (h : OpenAt w i dur cur cols) (k : Int) : getBlock env i k w =
      if env.fail w.trace.length then
        (.ok (.error .databaseError), w.failed env i (.select k))
      else (.ok (match cur.get? k with | some d => .ok d | none => .error .missingData),
        w.did i (.select k) true) := by
  unfold getBlock
  rw [run_bind_ok (beginIfNeeded_open h)]
  simp only [if_true]
  rw [run_bind, exec_quiet (s := .select k) h trivial]
  cases hf : env.fail w.trace.length with
  | true => rfl
  | false =>
    simp only [if_true, Bool.false_eq_true, if_false]
    rw [run_bind_ok (theDb_eq (w := w.did i (.select k) true) h)]
    cases hg : cur.get? k with
    | none => simp only [hg]; rfl
    | some d => simp only [hg]; rfl

theorem exec_put {env : Env} {i : DbId} {w : World} {dur cur : Table} {cols : List Col}
    (h : OpenAt w i dur cur cols) (k : Int) (d : Bytes) : exec env i (.put k d) w =
      if env.fail w.trace.length then (.ok false, w.failed env i (.put k d))
      else (.ok true, (w.setDb i ⟨⟨dur, cur.put k d, true, cols⟩, true⟩).did i (.put k d) true) := by
  unfold exec
  rw [h]
  simp only [Conn.refuses, Bool.false_eq_true, if_false]
  rfl

theorem exec_del {env : Env} {i : DbId} {w : World} {dur cur : Table} {cols : List Col}
    (h : OpenAt w i dur cur cols) (k : Int) : exec env i (.del k) w =
      if env.fail w.trace.length then (.ok false, w.failed env i (.del k))
      else (.ok true, (w.setDb i ⟨⟨dur, cur.del k, true, cols⟩, true⟩).did i (.del k) true) := by
  unfold exec
  rw [h]
  simp only [Conn.refuses, Bool.false_eq_true, if_false]
  rfl

theorem setBlock_open {env : Env} {i : DbId} {w : World} {dur cur : Table} {cols : List Col}
    (h : OpenAt w i dur cur cols) (k : Int) (d : Bytes) : setBlock env i k d w =
      if env.fail w.trace.length then
        (.ok (.error .databaseError), w.failed env i (.put k d))
      else (.ok (.ok ()),
        (w.setDb i ⟨⟨dur, cur.put k d, true, cols⟩, true⟩).did i (.put k d) true) := by
  unfold setBlock
  rw [run_bind_ok (beginIfNeeded_open h)]
  simp only [if_true]
  rw [run_bind, exec_put h]
  cases env.fail w.trace.length <;> rfl

theorem deleteBlock_open {env : Env} {i : DbId} {w : World} {dur cur : Table} {cols : List Col}
    (h : OpenAt w i dur cur cols) (k : Int) : deleteBlock env i k w =
      if env.fail w.trace.length then
        (.ok (.error .databaseError), w.failed env i (.del k))
      else (.ok (.ok ()), (w.setDb i ⟨⟨dur, cur.del k, true, cols⟩, true⟩).did i (.del k) true) := by
  unfold deleteBlock
  rw [run_bind_ok (beginIfNeeded_open h)]
  simp only [if_true]
  rw [run_bind, exec_del h]
  cases env.fail w.trace.length <;> rfl

theorem iterRows_open {env : Env} {i : DbId} {w : World} {dur cur : Table} {cols : List Col}
    (h : OpenAt w i dur cur cols) : iterRows env i w =
      if env.fail w.trace.length then (.error (.panic "unwrap"), w.failed env i .selectAll)
      else (.ok cur, w.did i .selectAll true) := by
  unfold iterRows
  rw [run_bind_ok (beginIfNeeded_open h)]
  simp only [if_true]
  rw [run_bind, exec_quiet (s := .selectAll) h trivial]
  cases hf : env.fail w.trace.length with
  | true => rfl
  | false =>
    simp only [if_true, Bool.false_eq_true, if_false]
    rw [run_bind_ok (theDb_eq (w := w.did i .selectAll true) h)]
    rfl

theorem expect_iff {r : Except DbErr α} {a : α} {w w' : World} :
    expect r w = (.ok a, w') ↔ r = .ok a ∧ w' = w := by
  unfold expect
  rw [run_unwrap_iff]
  cases r with
  | error e => simp [Except.toOption]
  | ok b => simp [Except.toOption]

theorem expect_ok (a : α) (w : World) : expect (.ok a) w = (.ok a, w) := rfl

theorem ser_iff {env : Env} {b : MapBlock} {s : Bytes} {w w' : World} :
    ser env b w = (.ok s, w') ↔ serialize env.codec (env.ord w.trace.length) b = .ok s ∧ w' = w := by
  unfold ser
  simp [eq_comm]

theorem okOr_iff {r : Res α} {o : Option α} {w w' : World} :
    Run.okOr r w = (.ok o, w') ↔
      ((∃ a, r = .ok a ∧ o = some a) ∨ (∃ e, r = .error (.err e) ∧ o = none)) ∧ w' = w := by
  unfold Run.okOr
  cases r with
  | ok a => simp [run_pure, eq_comm]
  | error e =>
    cases e with
    | err e => simp [run_pure, eq_comm]
    | panic s => simp [run_lift]

/-! ## Reading and writing, inverted -/

/-- A successful `getBlock(..).unwrap()`. -/
theorem getBlock_expect_iff {env : Env} {i : DbId} {w w' : World} {dur cur : Table} {cols : List Col}
    (h : OpenAt w i dur cur cols) (k : Int) (d : Bytes) :
    (getBlock env i k >>= expect) w = (.ok d, w') ↔
      env.fail w.trace.length = false ∧ cur.get? k = some d ∧ w' = w.did i (.select k) true := by
  rw [run_bind, getBlock_open h]
  cases hf : env.fail w.trace.length with
  | true => simp [expect_iff]
  | false =>
    simp only [Bool.false_eq_true, if_false]
    cases cur.get? k with
    | none => simp [expect_iff]
    | some e => simp [expect_iff]

theorem setBlock_expect_iff {env : Env} {i : DbId} {w w' : World} {dur cur : Table} {cols : List Col}
    (h : OpenAt w i dur cur cols) (k : Int) (d : Bytes) :
    (setBlock env i k d >>= expect) w = (.ok (), w') ↔
      env.fail w.trace.length = false ∧
      w' = (w.setDb i ⟨⟨dur, cur.put k d, true, cols⟩, true⟩).did i (.put k d) true := by
  rw [run_bind, setBlock_open h]
  cases hf : env.fail w.trace.length with
  | true => simp [expect_iff]
  | false => simp [expect_iff]

theorem deleteBlock_expect_iff {env : Env} {i : DbId} {w w' : World} {dur cur : Table}
    {cols : List Col} (h : OpenAt w i dur cur cols) (k : Int) :
    (deleteBlock env i k >>= expect) w = (.ok (), w') ↔
      env.fail w.trace.length = false ∧
      w' = (w.setDb i ⟨⟨dur, cur.del k, true, cols⟩, true⟩).did i (.del k) true := by
  rw [run_bind, deleteBlock_open h]
  cases hf : env.fail w.trace.length with
  | true => simp [expect_iff]
  | false => simp [expect_iff]

end MapEditr
