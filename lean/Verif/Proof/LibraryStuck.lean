import Verif.Proof.LibraryRun
/-! # Statements that were not reset -/

namespace MapEditr
namespace Lib

variable {o : Outside} {t : Stmt}

/-- A statement that was not reset is not reset by this. -/
def Keeps (t : Stmt) (x : L α) : Prop := ∀ d, d.stepped t = true → (x d).2.stepped t = true

theorem keeps_bind {x : L α} {y : α → L β} (hx : Keeps t x) (hy : ∀ a, Keeps t (y a)) : Keeps t (x >>= y) := by
  intro d hd
  have h := hx d hd
  rw [bind_run]
  revert h
  rcases x d with ⟨r, d1⟩
  intro h
  cases r
  · exact h
  · exact hy _ d1 h

theorem keeps_pure (a : α) : Keeps t (pure a : L α) := fun _ h => h
theorem keeps_err (e : DbErr) : Keeps t (err e : L α) := fun _ h => h
theorem keeps_flag : Keeps t flag := fun _ h => h
theorem keeps_setFlag (b : Bool) : Keeps t (setFlag b) := fun _ h => h
theorem keeps_lookup (k : Int) : Keeps t (lookup k) := fun _ h => h
theorem keeps_table : Keeps t table := fun _ h => h

theorem keeps_call : Keeps t (call o) := fun d h => by rw [(call_cases o d).1]; exact h

theorem keeps_attempt (s : Sql) : Keeps t (attempt o s) := fun d h => by rw [(attempt_cases o s d).1]; exact h

theorem execute_stepped (o : Outside) (s : Sql) (d : Db) : (execute o s d).2.stepped = d.stepped := by
  unfold execute
  split
  · rfl
  · exact (attempt_cases o s d).1

theorem keeps_execute (s : Sql) : Keeps t (execute o s) := fun d h => by rw [execute_stepped]; exact h

theorem keeps_bindTo (u : Stmt) : Keeps t (bind o u) := fun d h => by rw [(bind_cases o u d).1]; exact h

theorem keeps_next (u : Stmt) (s : Sql) : Keeps t (next o u s) := fun d h => by
  unfold next
  rw [(attempt_cases o s _).1]
  show (if t = u then true else d.stepped t) = true
  split
  · rfl
  · exact h

theorem keeps_reset {u : Stmt} (hu : t ≠ u) (row : Bool) : Keeps t (reset o u row) := fun d h => by
  have e : (reset o u row d).2.stepped = fun v => if v = u then false else d.stepped v := by
    unfold reset
    cases row
    · rfl
    · simp only [if_true]; rw [(call_cases o _).1]
  rw [e]
  simp only [if_neg hu]
  exact h

/-- What is bound to such a statement is refused. -/
theorem bind_stuck {d : Db} (h : d.stepped t = true) : bind o t d = (.error .databaseError, { d with calls := d.calls + 1 }) := by
  unfold bind; rw [if_pos h]

/-- What would follow is not reached. -/
theorem keeps_stop (y : Unit → L α) : Keeps t (bind o t >>= y) := fun d h => by
  rw [bind_run, bind_stuck h]; exact h

theorem keeps_either {u : Stmt} {y : Unit → L α} (hy : t ≠ u → ∀ a, Keeps t (y a)) : Keeps t (bind o u >>= y) := by
  by_cases h : t = u
  · subst h; exact keeps_stop y
  · exact keeps_bind (keeps_bindTo u) (hy h)

theorem keeps_begin : Keeps t (beginIfNeeded o) := by
  unfold beginIfNeeded
  refine keeps_bind keeps_flag fun a => ?_
  split
  · exact keeps_execute _
  · exact keeps_pure _

theorem keeps_commit : Keeps t (commitIfNeeded o) := by
  unfold commitIfNeeded
  refine keeps_bind keeps_flag fun a => ?_
  split
  · exact keeps_bind (keeps_execute _) fun _ => keeps_setFlag _
  · exact keeps_pure _

theorem keeps_get (k : Int) : Keeps t (getBlock o k) := by
  rw [getBlock_eq]
  refine keeps_bind keeps_begin fun _ => ?_
  unfold getTail
  refine keeps_either fun h _ => keeps_bind (keeps_next _ _) fun _ => keeps_bind (keeps_lookup k) fun a => ?_
  cases a
  · exact keeps_bind (keeps_reset h _) fun _ => keeps_err _
  · exact keeps_bind keeps_call fun _ => keeps_bind (keeps_reset h _) fun _ => keeps_pure _

theorem keeps_set (k : Int) (v : Bytes) : Keeps t (setBlock o k v) := by
  rw [setBlock_eq]
  refine keeps_bind keeps_begin fun _ => ?_
  unfold setTail
  exact keeps_either fun h _ => keeps_either fun h _ => keeps_bind (keeps_next _ _) fun _ => keeps_reset h _

theorem keeps_del (k : Int) : Keeps t (deleteBlock o k) := by
  rw [deleteBlock_eq]
  refine keeps_bind keeps_begin fun _ => ?_
  unfold delTail
  exact keeps_either fun h _ => keeps_bind (keeps_next _ _) fun _ => keeps_reset h _

theorem keeps_readRows (l : Table) : Keeps t (readRows o l) := by
  induction l with
  | nil => exact keeps_attempt _
  | cons a l ih => exact keeps_bind (keeps_attempt _) fun _ => keeps_bind keeps_call fun _ => keeps_bind keeps_call fun _ => ih

theorem keeps_rows : Keeps t (iterRows o) :=
  keeps_bind keeps_begin fun _ => keeps_bind keeps_call fun _ => keeps_bind keeps_table fun _ =>
    keeps_bind (keeps_readRows _) fun _ => keeps_pure _

theorem keeps_vacuum : Keeps t (dbVacuum o) := keeps_bind keeps_commit fun _ => keeps_execute _

theorem op_keeps (op : Op) (d : Db) (h : d.stepped t = true) : (op.run o d).2.stepped t = true := by
  cases op with
  | get k => exact keeps_get k d h
  | put k v => exact keeps_set k v d h
  | del k => exact keeps_del k d h
  | rows => exact keeps_rows d h
  | commit => exact keeps_commit d h
  | vacuum => exact keeps_vacuum d h

theorem client_keeps (c : Client) (n : Nat) (as : List Ans) (d : Db) (h : d.stepped t = true) :
    (c.run o n as d).2.stepped t = true := by
  induction n generalizing as d with
  | zero => exact h
  | succ n ih =>
    unfold Client.run
    cases c as with
    | none => exact h
    | some op => exact ih _ _ (op_keeps op d h)

/-- A function that begins with the binding of such a statement. -/
theorem stuck_fails {y : Unit → L α} {d : Db} (h : d.stepped t = true) :
    ((beginIfNeeded o >>= fun _ => bind o t >>= y) d).1 = .error .databaseError := by
  have hk := keeps_begin (o := o) d h
  have hr : (beginIfNeeded o d).1 = .ok () ∨ (beginIfNeeded o d).1 = .error .databaseError := by
    unfold beginIfNeeded
    rw [bind_run]
    unfold flag
    dsimp only
    split
    · rcases execute_cases o .begin d with h | h
      · exact .inl h.1
      · exact .inr h.1
    · exact .inl rfl
  rw [bind_run]
  rcases he : beginIfNeeded o d with ⟨r, d1⟩
  rw [he] at hk hr
  rcases hr with rfl | rfl
  · show ((bind o t >>= y) d1).1 = _
    rw [bind_run, bind_stuck hk]
  · rfl

theorem get_stuck {d : Db} (h : d.stepped .get = true) (k : Int) : (getBlock o k d).1 = .error .databaseError := stuck_fails h
theorem set_stuck {d : Db} (h : d.stepped .set = true) (k : Int) (v : Bytes) :
    (setBlock o k v d).1 = .error .databaseError := stuck_fails h
theorem del_stuck {d : Db} (h : d.stepped .del = true) (k : Int) : (deleteBlock o k d).1 = .error .databaseError := stuck_fails h

/-! ## How a statement comes to be stuck -/

theorem call_ok {d : Db} (h : o.fail d.calls = false) : call o d = (.ok (), { d with calls := d.calls + 1 }) := by
  unfold call; rw [if_neg (by simp [h])]

theorem call_bad {d : Db} (h : o.fail d.calls = true) : call o d = (.error .databaseError, { d with calls := d.calls + 1 }) := by
  unfold call; rw [if_pos h]

theorem bind_ok {d : Db} (h : o.fail d.calls = false) (hs : d.stepped t = false) :
    bind o t d = (.ok (), { d with calls := d.calls + 1 }) := by
  unfold bind; rw [if_neg (by simp [hs]), call_ok h]

theorem begin_ok {d : Db} (h : d.inTransaction = true) : beginIfNeeded o d = (.ok (), d) := by
  unfold beginIfNeeded
  rw [bind_run]
  unfold flag
  dsimp only
  rw [h]
  rfl

/-- In a transaction, `get_block` is four calls. -/
theorem get_run {d : Db} (ht : d.inTransaction = true) (hs : d.stepped .get = false) (hb : o.fail d.calls = false)
    (k : Int) : getBlock o k d = (next o .get (.select k) >>= fun _ => lookup k >>= fun a => match a with
      | some v => call o >>= fun _ => reset o .get true >>= fun _ => pure v
      | none => reset o .get false >>= fun _ => err .missingData) { d with calls := d.calls + 1 } := by
  rw [getBlock_eq, bind_run, begin_ok ht]
  unfold getTail
  show (bind o .get >>= _) d = _
  rw [bind_run, bind_ok hb hs]
  rfl

theorem next_ok {s : Sql} {d : Db} (h : o.fail d.calls = false) : next o t s d =
    (.ok (), { conn := d.conn.step s, inTransaction := d.inTransaction,
               stepped := fun u => if u = t then true else d.stepped u, calls := d.calls + 1 }) := by
  unfold next attempt
  dsimp only
  rw [if_neg (by simp [h])]

theorem next_bad {s : Sql} {d : Db} (h : o.fail d.calls = true) : (next o t s d).1 = .error .databaseError ∧
    (next o t s d).2.stepped = fun u => if u = t then true else d.stepped u := by
  refine ⟨?_, ?_⟩
  · unfold next attempt
    dsimp only
    rw [if_pos h]
  · unfold next
    rw [(attempt_cases o s _).1]

/-! ## Without failures -/

/-- All is well: no call fails from now on, no statement waits for a reset, and there is a transaction. -/
structure Fine (o : Outside) (d : Db) : Prop where
  flag : d.inTransaction = true
  ready : ∀ t, d.stepped t = false
  calls : ∀ n, d.calls ≤ n → o.fail n = false

theorem reset_ok {row : Bool} {d : Db} (h : o.fail d.calls = false) : reset o t row d =
    (.ok (), { d with stepped := fun u => if u = t then false else d.stepped u, calls := d.calls + 1 }) := by
  unfold reset
  cases row
  · rfl
  · exact call_ok (d := { d with stepped := fun u => if u = t then false else d.stepped u }) h

theorem lookup_bind (k : Int) (y : Option Bytes → L α) (d : Db) : (lookup k >>= y) d = y (d.conn.cur.get? k) d := rfl

theorem fine_get {d : Db} (h : Fine o d) (k : Int) : Fine o (getBlock o k d).2 ∧ (getBlock o k d).2.conn = d.conn ∧
    (getBlock o k d).1 = found k d.conn := by
  have hc : ∀ n, o.fail (d.calls + n) = false := fun n => h.calls _ (by omega)
  rw [get_run h.flag (h.ready _) (hc 0), bind_run, next_ok (hc 1)]
  dsimp only
  rw [lookup_bind]
  have e : d.conn.step (.select k) = d.conn := rfl
  rw [e]
  unfold found
  cases hf : d.conn.cur.get? k with
  | none =>
    dsimp only
    rw [bind_run, reset_ok (hc 2)]
    refine ⟨⟨h.flag, fun t => ?_, fun n hn => h.calls n ?_⟩, rfl, rfl⟩
    · show (if t = .get then false else if t = .get then true else d.stepped t) = false
      split
      · rfl
      · exact h.ready t
    · have : d.calls + 1 + 1 + 1 ≤ n := hn
      omega
  | some v =>
    dsimp only
    rw [bind_run, call_ok (hc 2)]
    dsimp only
    rw [bind_run, reset_ok (hc 3)]
    refine ⟨⟨h.flag, fun t => ?_, fun n hn => h.calls n ?_⟩, rfl, rfl⟩
    · show (if t = .get then false else if t = .get then true else d.stepped t) = false
      split
      · rfl
      · exact h.ready t
    · have : d.calls + 1 + 1 + 1 + 1 ≤ n := hn
      omega

theorem fine_done {d : Db} (h : Fine o d) (t : Stmt) (s : Sql) : Fine o ((next o t s >>= fun _ => reset o t false) d).2 ∧
    ((next o t s >>= fun _ => reset o t false) d).2.conn = d.conn.step s ∧
    ((next o t s >>= fun _ => reset o t false) d).1 = .ok () := by
  have hc : ∀ n, o.fail (d.calls + n) = false := fun n => h.calls _ (by omega)
  rw [bind_run, next_ok (hc 0)]
  dsimp only
  rw [reset_ok (hc 1)]
  refine ⟨⟨h.flag, fun u => ?_, fun n hn => h.calls n ?_⟩, rfl, rfl⟩
  · show (if u = t then false else if u = t then true else d.stepped u) = false
    split
    · rfl
    · exact h.ready u
  · have : d.calls + 1 + 1 ≤ n := hn
    omega

theorem fine_bound {d : Db} (h : Fine o d) : Fine o { d with calls := d.calls + 1 } :=
  ⟨h.flag, h.ready, fun n hn => h.calls n (Nat.le_of_succ_le hn)⟩

theorem fine_put {d : Db} (h : Fine o d) (k : Int) (v : Bytes) : Fine o (setBlock o k v d).2 ∧
    (setBlock o k v d).2.conn = d.conn.step (.put k v) ∧ (setBlock o k v d).1 = .ok () := by
  rw [setBlock_eq, bind_run, begin_ok h.flag]
  unfold setTail
  show Fine o ((bind o .set >>= _) d).2 ∧ ((bind o .set >>= _) d).2.conn = _ ∧ ((bind o .set >>= _) d).1 = _
  rw [bind_run, bind_ok (h.calls _ (Nat.le_refl _)) (h.ready _)]
  have h1 := fine_bound h
  show Fine o ((bind o .set >>= _) _).2 ∧ ((bind o .set >>= _) _).2.conn = _ ∧ ((bind o .set >>= _) _).1 = _
  rw [bind_run, bind_ok (h1.calls _ (Nat.le_refl _)) (h1.ready _)]
  exact fine_done (fine_bound h1) .set (.put k v)

theorem fine_del {d : Db} (h : Fine o d) (k : Int) : Fine o (deleteBlock o k d).2 ∧
    (deleteBlock o k d).2.conn = d.conn.step (.del k) ∧ (deleteBlock o k d).1 = .ok () := by
  rw [deleteBlock_eq, bind_run, begin_ok h.flag]
  unfold delTail
  show Fine o ((bind o .del >>= _) d).2 ∧ ((bind o .del >>= _) d).2.conn = _ ∧ ((bind o .del >>= _) d).1 = _
  rw [bind_run, bind_ok (h.calls _ (Nat.le_refl _)) (h.ready _)]
  exact fine_done (fine_bound h) .del (.del k)

theorem change_cur (c : Conn) (t : Table) : (c.change t).cur = t := by
  unfold Conn.change; split <;> rfl

theorem fine_client (c : Client) (hc : c.Plain) (n : Nat) (as : List Ans) (d : Db) (h : Fine o d)
    (m : Int → Option Bytes) (hm : ∀ k, d.conn.cur.get? k = m k) : (c.run o n as d).1 = (c.ideal n as m).1 ∧
      (∀ k, (c.run o n as d).2.conn.cur.get? k = (c.ideal n as m).2 k) ∧ Fine o (c.run o n as d).2 := by
  induction n generalizing as d m with
  | zero => exact ⟨rfl, hm, h⟩
  | succ n ih =>
    unfold Client.run Client.ideal
    cases hop : c as with
    | none => exact ⟨rfl, hm, h⟩
    | some op =>
      have key : (op.run o d).1 = (op.ideal m).1 ∧ (∀ k, (op.run o d).2.conn.cur.get? k = (op.ideal m).2 k) ∧
          Fine o (op.run o d).2 := by
        rcases hc as op hop with ⟨k, rfl⟩ | ⟨k, v, rfl⟩ | ⟨k, rfl⟩
        · obtain ⟨h1, h2, h3⟩ := fine_get h k
          refine ⟨?_, fun q => ?_, h1⟩
          · unfold Op.run Op.ideal
            dsimp only
            rw [h3, ← hm k]
            rfl
          · unfold Op.run Op.ideal
            dsimp only
            rw [h2, hm q]
        · obtain ⟨h1, h2, h3⟩ := fine_put h k v
          refine ⟨?_, fun q => ?_, h1⟩
          · unfold Op.run Op.ideal
            dsimp only
            rw [h3]
          · unfold Op.run Op.ideal
            dsimp only
            rw [h2]
            show ((d.conn.change (d.conn.cur.put k v)).cur).get? q = _
            rw [change_cur, Table.get?_put, ← hm q]
        · obtain ⟨h1, h2, h3⟩ := fine_del h k
          refine ⟨?_, fun q => ?_, h1⟩
          · unfold Op.run Op.ideal
            dsimp only
            rw [h3]
          · unfold Op.run Op.ideal
            dsimp only
            rw [h2]
            show ((d.conn.change (d.conn.cur.del k)).cur).get? q = _
            rw [change_cur, Table.get?_del, ← hm q]
      obtain ⟨k1, k2, k3⟩ := key
      dsimp only
      rw [k1]
      exact ih _ _ k3 _ k2

end Lib
end MapEditr
