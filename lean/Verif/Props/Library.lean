import Verif.Proof.LibraryStuck
/-!
# C110: the map database, one library call at a time

`Model/Library` renders `src/map_database.rs` with `bind`, `next`, `read` and `reset` as calls of their own.  Whatever
the library does, someone who uses a map database sees nothing that could not also happen in `Model/World`, where the
calls for a statement succeed or fail as one: so the theorems about all failing statements (`fail`, `undo`) lose nothing.

It also shows what the coarser model does not: `get_block`, `set_block` and `delete_block` return early, by `?`, when
`next` fails (`get_block` also when `read` does), and skip `reset`.  SQLite then refuses to bind values to that
statement: all later reads fail, not just the one.
-/

namespace MapEditr
open Lib

/-- A database with one row, in a transaction. -/
def oneRow : Db := ⟨⟨[(0, [1])], [(0, [1])], true, []⟩, true, fun _ => false, 0⟩

/-- A client that reads the row for ever. -/
def reader : Client := fun _ => some (.get 0)

/-- C110: whatever library calls fail, what a client gets, call by call, and the database in the end, are as in the
coarser model for some choice of failing statements.  (Only the main map is written to, so only there can a failure undo
anything; for the input map of `overlay` a failure does not.) -/
theorem C110_library (env : Env) (o : Outside) (i : DbId) (hi : i = .main ∨ ∀ n, o.undo n = false) (c : Client) (n : Nat)
    (d : Db) (w : World) (hd : Matches i d w) :
    ∃ f u, (c.whole (env.failing f u) i n [] w).1 = .ok (c.run o n [] d).1 ∧
      Matches i (c.run o n [] d).2 (c.whole (env.failing f u) i n [] w).2 := by
  obtain ⟨f, u, -, h⟩ := sim_client (env := env) hi c n [] d w hd env.fail env.undo
  exact ⟨f, u, h⟩

-- The third library call fails: the read of the row.
example : (reader.run ⟨fun n => n == 2, fun _ => false⟩ 3 [] oneRow).1 =
    [.data (.error .databaseError), .data (.error .databaseError), .data (.error .databaseError)] := by decide
example : (reader.run ⟨fun n => n == 3, fun _ => false⟩ 3 [] oneRow).1 =
    [.data (.error .databaseError), .data (.ok [1]), .data (.ok [1])] := by decide
example (env : Env) (w : World) (hw : w.dbs .main = some ⟨oneRow.conn, true⟩) :
    ∃ f u, (reader.whole (env.failing f u) .main 2 [] w).1 = .ok [.data (.error .databaseError), .data (.ok [1])] := by
  obtain ⟨f, u, h, -⟩ := C110_library env ⟨fun n => n == 3, fun _ => false⟩ .main (.inl rfl) reader 2 oneRow w hw
  exact ⟨f, u, h⟩

/-- C110: a statement that was stepped and not reset never works again, whatever is done with the database. -/
theorem C110_stuck (o : Outside) (c : Client) (n : Nat) (as : List Ans) (d : Db) :
    (d.stepped .get = true → ∀ k, (Lib.getBlock o k (c.run o n as d).2).1 = .error .databaseError) ∧
    (d.stepped .set = true → ∀ k v, (Lib.setBlock o k v (c.run o n as d).2).1 = .error .databaseError) ∧
    (d.stepped .del = true → ∀ k, (Lib.deleteBlock o k (c.run o n as d).2).1 = .error .databaseError) :=
  ⟨fun h k => get_stuck (client_keeps c n as d h) k, fun h k v => set_stuck (client_keeps c n as d h) k v,
    fun h k => del_stuck (client_keeps c n as d h) k⟩

example : ({ oneRow with stepped := fun t => t == .get } : Db).stepped .get = true := rfl

/-- C110: when that happens in `get_block`: if the step fails, or if it finds a row and reading it fails.  If the
binding fails, or the reset, then only this read fails. -/
theorem C110_get_stuck_iff (o : Outside) (d : Db) (ht : d.inTransaction = true) (hs : d.stepped .get = false) (k : Int) :
    (Lib.getBlock o k d).2.stepped .get = true ↔ o.fail d.calls = false ∧
      (o.fail (d.calls + 1) = true ∨ (d.conn.cur.get? k).isSome = true ∧ o.fail (d.calls + 2) = true) := by
  by_cases hb : o.fail d.calls = true
  · have : Lib.getBlock o k d = (.error .databaseError, { d with calls := d.calls + 1 }) := by
      rw [getBlock_eq, bind_run, begin_ok ht]
      unfold getTail
      show (bind o .get >>= _) d = _
      rw [bind_run]
      unfold Lib.bind
      rw [if_neg (by simp [hs]), call_bad hb]
    rw [this]
    simp [hs, hb]
  · have hb' : o.fail d.calls = false := by simpa using hb
    rw [get_run ht hs hb', bind_run]
    by_cases hn : o.fail (d.calls + 1) = true
    · obtain ⟨h1, h2⟩ := next_bad (o := o) (t := .get) (s := .select k) (d := { d with calls := d.calls + 1 }) hn
      revert h1 h2
      rcases next o .get (.select k) { d with calls := d.calls + 1 } with ⟨r, d1⟩
      intro h1 h2
      simp only at h1 h2
      subst h1
      simp [h2, hb', hn]
    · have hn' : o.fail (d.calls + 1) = false := by simpa using hn
      rw [next_ok hn']
      dsimp only
      rw [lookup_bind]
      have e : d.conn.step (.select k) = d.conn := rfl
      rw [e]
      cases hf : d.conn.cur.get? k with
      | none =>
        dsimp only
        rw [bind_run]
        simp [reset, err, hn']
      | some v =>
        dsimp only
        rw [bind_run]
        by_cases hr : o.fail (d.calls + 2) = true
        · rw [call_bad (by exact hr)]
          simp [hb', hr]
        · have hr' : o.fail (d.calls + 2) = false := by simpa using hr
          rw [call_ok (by exact hr')]
          dsimp only
          rw [bind_run]
          have key : ∀ d : Db, (reset o .get true d).2.stepped .get = false := fun d => by
            unfold reset
            simp only [if_true]
            rw [(call_cases o _).1]
            rfl
          generalize hg : reset o .get true _ = x
          have this : x.2.stepped .get = false := by rw [← hg]; exact key _
          rcases x with ⟨r, d1⟩
          refine iff_of_false (fun h => ?_) (by simp [hn', hr'])
          cases r <;> exact absurd (this.symm.trans h) (by decide)

example : (Lib.getBlock ⟨fun n => n == 1, fun _ => false⟩ 0 oneRow).2.stepped .get = true :=
  (C110_get_stuck_iff _ _ rfl rfl _).mpr ⟨rfl, .inl rfl⟩
example : ¬ (Lib.getBlock ⟨fun n => n == 0, fun _ => false⟩ 0 oneRow).2.stepped .get = true := by
  rw [C110_get_stuck_iff _ _ rfl rfl _]; decide
example : ¬ (Lib.getBlock ⟨fun n => n == 3, fun _ => false⟩ 0 oneRow).2.stepped .get = true := by
  rw [C110_get_stuck_iff _ _ rfl rfl _]; decide

/-- C110 is false: one library call fails, once, and from then on no block can be read, whatever is done. -/
theorem C110_false : ∃ (o : Outside) (d : Db) (k : Int) (v : Bytes), d.inTransaction = true ∧ (∀ t, d.stepped t = false) ∧
    d.conn.cur.get? k = some v ∧ (∀ n, o.fail n = true ↔ n = d.calls + 1) ∧ (∀ n, o.undo n = false) ∧
    (Lib.getBlock o k d).2.conn.cur.get? k = some v ∧
    ∀ (c : Client) n as k', (Lib.getBlock o k' (c.run o n as (Lib.getBlock o k d).2).2).1 = .error .databaseError := by
  refine ⟨⟨fun n => n == 1, fun _ => false⟩, oneRow, 0, [1], rfl, fun _ => rfl, rfl, fun n => ?_, fun _ => rfl, rfl, ?_⟩
  · show (n == 1) = true ↔ n = 1
    exact beq_iff_eq
  · intro c n as k'
    exact (C110_stuck _ c n as _).1 ((C110_get_stuck_iff _ _ rfl rfl _).mpr ⟨rfl, .inl rfl⟩) k'

/-- C110: the same with a write: one that fails, and all later ones fail, too. -/
theorem C110_write_false : ∃ (o : Outside) (d : Db) (k : Int) (v : Bytes), d.inTransaction = true ∧
    (∀ t, d.stepped t = false) ∧ (∀ n, o.fail n = true ↔ n = d.calls + 2) ∧ (∀ n, o.undo n = false) ∧
    ∀ (c : Client) n as k' v', (Lib.setBlock o k' v' (c.run o n as (Lib.setBlock o k v d).2).2).1 = .error .databaseError := by
  refine ⟨⟨fun n => n == 2, fun _ => false⟩, oneRow, 0, [1], rfl, fun _ => rfl, fun n => ?_, fun _ => rfl, ?_⟩
  · show (n == 2) = true ↔ n = 2
    exact beq_iff_eq
  · intro c n as k' v'
    exact (C110_stuck _ c n as _).2.1 rfl k' v'

/-- C110, as far as it is true: while no library call fails, reads, writes and deletions are those of a memory.
(Missing: that it is so again after a failure.) -/
theorem C110_memory_partial (o : Outside) (c : Client) (hc : c.Plain) (n : Nat) (d : Db) (ht : d.inTransaction = true)
    (hs : ∀ t, d.stepped t = false) (hf : ∀ n, d.calls ≤ n → o.fail n = false) :
    (c.run o n [] d).1 = (c.ideal n [] fun k => d.conn.cur.get? k).1 ∧
      ∀ k, (c.run o n [] d).2.conn.cur.get? k = (c.ideal n [] fun k => d.conn.cur.get? k).2 k :=
  let h := fine_client c hc n [] d ⟨ht, hs, hf⟩ _ fun _ => rfl
  ⟨h.1, h.2.1⟩

/-- A client that writes, reads, deletes and reads. -/
def worker4 : Client := fun as => [Op.put 7 [2, 3], .get 7, .del 7, .get 7, .get 0][as.length]?

example : worker4.Plain ∧ (worker4.run ⟨fun _ => false, fun _ => false⟩ 9 [] oneRow).1 =
    [.unit (.ok ()), .data (.ok [2, 3]), .unit (.ok ()), .data (.error .missingData), .data (.ok [1])] := by
  refine ⟨fun as op h => ?_, by decide⟩
  have := List.mem_of_getElem? h
  simp only [List.mem_cons, List.not_mem_nil, or_false] at this
  rcases this with rfl | rfl | rfl | rfl | rfl
  · exact .inr (.inl ⟨_, _, rfl⟩)
  · exact .inl ⟨_, rfl⟩
  · exact .inr (.inr ⟨_, rfl⟩)
  · exact .inl ⟨_, rfl⟩
  · exact .inl ⟨_, rfl⟩

end MapEditr
