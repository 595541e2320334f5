import Verif.Proof.Library
/-! # Clients of a map database -/

namespace MapEditr
namespace Lib

/-- The answers of a function that says whether it succeeded. -/
def Said (r : Except DbErr Unit) (c : Res Bool) : Prop :=
  r = .ok () ∧ c = .ok true ∨ r = .error .databaseError ∧ c = .ok false

theorem said_not (r : Except DbErr Unit) (e : Stop) : ¬ Said r (.error e) := by
  rintro (⟨-, h⟩ | ⟨-, h⟩) <;> cases h

variable {env : Env} {i : DbId} {o : Outside}

theorem sim_exec (hi : i = .main ∨ ∀ n, o.undo n = false) (s : Sql) :
    Sim env i (execute o s) (fun env => exec env i s) Said := by
  have h : (fun env => exec env i s) = fun env => exec env i s >>= pure := by
    funext env w
    rw [run_bind]
    rcases exec env i s w with ⟨r, w'⟩
    cases r <;> rfl
  rw [h]
  exact sim_acts hi (acts_execute o s) (fun w m _ => ⟨_, rfl, .inl ⟨rfl, rfl⟩⟩) fun w => ⟨_, rfl, .inr ⟨rfl, rfl⟩⟩

theorem theDb_run {w : World} {m : MapDb} (h : w.dbs i = some m) : theDb i w = (.ok m, w) := by
  unfold theDb; rw [h]

theorem sim_begin (hi : i = .main ∨ ∀ n, o.undo n = false) :
    Sim env i (beginIfNeeded o) (fun env => MapEditr.beginIfNeeded env i) Said := by
  intro d w hd f0 u0
  have e1 : beginIfNeeded o d = if d.inTransaction then (.ok (), d) else execute o .begin d := by
    unfold beginIfNeeded
    rw [bind_run]
    unfold flag
    dsimp only
    cases d.inTransaction <;> rfl
  have e2 : ∀ env, MapEditr.beginIfNeeded env i w = if d.inTransaction then (.ok true, w) else exec env i .begin w := by
    intro env
    unfold MapEditr.beginIfNeeded
    rw [run_bind, theDb_run hd]
    cases d.inTransaction <;> rfl
  dsimp only
  rw [e1]
  by_cases h : d.inTransaction = true
  · refine ⟨f0, u0, fun _ _ => ⟨rfl, rfl⟩, ?_⟩
    rw [e2, if_pos h, if_pos h]
    exact ⟨.inl ⟨rfl, rfl⟩, hd⟩
  · obtain ⟨f, u, h1, h2, h3⟩ := sim_exec (env := env) hi .begin d w hd f0 u0
    refine ⟨f, u, h1, ?_⟩
    rw [e2, if_neg h, if_neg h]
    exact ⟨h2, h3⟩

theorem sim_commit (hi : i = .main ∨ ∀ n, o.undo n = false) :
    Sim env i (commitIfNeeded o) (fun env => MapEditr.commitIfNeeded env i) Said := by
  intro d w hd f0 u0
  have e1 : commitIfNeeded o d = if d.inTransaction then (execute o .commit >>= fun _ => setFlag false) d else (.ok (), d) := by
    unfold commitIfNeeded
    rw [bind_run]
    unfold flag
    dsimp only
    cases d.inTransaction <;> rfl
  have e2 : ∀ env, MapEditr.commitIfNeeded env i w = if d.inTransaction then
      (exec env i .commit >>= fun ok => if ok then MapEditr.setFlag i false >>= fun _ => pure true else pure false) w
      else (.ok true, w) := by
    intro env
    unfold MapEditr.commitIfNeeded
    rw [run_bind, theDb_run hd]
    cases d.inTransaction <;> rfl
  dsimp only
  rw [e1]
  by_cases h : d.inTransaction = true
  · have := sim_bind (env := env) (q' := Said) (y := fun _ => setFlag false)
      (l := fun ok _ => if ok then MapEditr.setFlag i false >>= fun _ => pure true else pure false)
      (fun f u f' u' => det_exec (env := env.failing f u) i .commit) (sim_exec hi .commit) said_not ?_ ?_ d w hd f0 u0
    · obtain ⟨f, u, h1, h2, h3⟩ := this
      refine ⟨f, u, h1, ?_⟩
      rw [e2, if_pos h, if_pos h]
      exact ⟨h2, h3⟩
    · rintro a b (⟨-, hb⟩ | ⟨hb, -⟩)
      · cases hb
        intro d w hd f0 u0
        refine ⟨f0, u0, fun _ _ => ⟨rfl, rfl⟩, ?_⟩
        simp only [if_true]
        unfold MapEditr.setFlag
        rw [run_bind, run_bind, theDb_run hd]
        refine ⟨.inl ⟨rfl, rfl⟩, ?_⟩
        unfold Matches
        show (if i = i then _ else _) = _
        rw [if_pos rfl]
        rfl
      · cases hb
    · rintro e b (⟨hb, -⟩ | ⟨he, hb⟩) env w
      · cases hb
      · cases hb; cases he
        exact ⟨_, rfl, .inr ⟨rfl, rfl⟩⟩
  · refine ⟨f0, u0, fun _ _ => ⟨rfl, rfl⟩, ?_⟩
    rw [e2, if_neg h, if_neg h]
    exact ⟨.inl ⟨rfl, rfl⟩, hd⟩

theorem dets_begin : Dets env fun env => MapEditr.beginIfNeeded env i := fun f u _ _ => det_begin (env := env.failing f u) i
theorem dets_commit : Dets env fun env => MapEditr.commitIfNeeded env i := fun f u _ _ => det_commit (env := env.failing f u) i

theorem sim_get (hi : i = .main ∨ ∀ n, o.undo n = false) (k : Int) :
    Sim env i (getBlock o k) (fun env => MapEditr.getBlock env i k) (fun r c => c = .ok r) := by
  rw [getBlock_eq]
  refine sim_bind dets_begin (sim_begin hi) said_not ?_ ?_
  · rintro a b (⟨-, hb⟩ | ⟨hb, -⟩)
    · cases hb
      refine sim_acts hi (acts_get o k) (fun w m hm => ?_) fun w => ⟨_, rfl, rfl⟩
      simp only [if_true]
      rw [run_bind, theDb_run hm]
      unfold found
      dsimp only
      cases h : m.conn.cur.get? k <;> exact ⟨_, rfl, rfl⟩
    · cases hb
  · rintro e b (⟨hb, -⟩ | ⟨he, hb⟩) env w
    · cases hb
    · cases hb; cases he
      exact ⟨_, rfl, rfl⟩

theorem sim_put (hi : i = .main ∨ ∀ n, o.undo n = false) (k : Int) (v : Bytes) :
    Sim env i (setBlock o k v) (fun env => MapEditr.setBlock env i k v) (fun r c => c = .ok r) := by
  rw [setBlock_eq]
  refine sim_bind dets_begin (sim_begin hi) said_not ?_ ?_
  · rintro a b (⟨-, hb⟩ | ⟨hb, -⟩)
    · cases hb
      exact sim_acts hi (acts_set o k v) (fun w m hm => ⟨_, rfl, rfl⟩) fun w => ⟨_, rfl, rfl⟩
    · cases hb
  · rintro e b (⟨hb, -⟩ | ⟨he, hb⟩) env w
    · cases hb
    · cases hb; cases he
      exact ⟨_, rfl, rfl⟩

theorem sim_del (hi : i = .main ∨ ∀ n, o.undo n = false) (k : Int) :
    Sim env i (deleteBlock o k) (fun env => MapEditr.deleteBlock env i k) (fun r c => c = .ok r) := by
  rw [deleteBlock_eq]
  refine sim_bind dets_begin (sim_begin hi) said_not ?_ ?_
  · rintro a b (⟨-, hb⟩ | ⟨hb, -⟩)
    · cases hb
      exact sim_acts hi (acts_del o k) (fun w m hm => ⟨_, rfl, rfl⟩) fun w => ⟨_, rfl, rfl⟩
    · cases hb
  · rintro e b (⟨hb, -⟩ | ⟨he, hb⟩) env w
    · cases hb
    · cases hb; cases he
      exact ⟨_, rfl, rfl⟩

/-- Rows, or a panic. -/
def Gave (r : Except DbErr Table) (c : Res Table) : Prop :=
  (∃ t, r = .ok t ∧ c = .ok t) ∨ (∃ e, r = .error e) ∧ ∃ e, c = .error e

theorem sim_rows (hi : i = .main ∨ ∀ n, o.undo n = false) :
    Sim env i (iterRows o) (fun env => MapEditr.iterRows env i) Gave := by
  rw [iterRows_eq]
  refine sim_bind dets_begin (sim_begin hi) said_not ?_ ?_
  · rintro a b (⟨-, hb⟩ | ⟨hb, -⟩)
    · cases hb
      refine sim_acts hi (acts_rows o) (fun w m hm => ?_) fun w => ⟨_, rfl, .inr ⟨⟨_, rfl⟩, _, rfl⟩⟩
      simp only [if_true]
      rw [run_bind, theDb_run hm]
      exact ⟨_, rfl, .inl ⟨_, rfl, rfl⟩⟩
    · cases hb
  · rintro e b (⟨hb, -⟩ | ⟨he, hb⟩) env w
    · cases hb
    · cases hb; cases he
      exact ⟨_, rfl, .inr ⟨⟨_, rfl⟩, _, rfl⟩⟩

theorem sim_vacuum (hi : i = .main ∨ ∀ n, o.undo n = false) :
    Sim env i (dbVacuum o) (fun env => MapEditr.dbVacuum env i) (fun r c => c = .ok r) := by
  unfold dbVacuum
  refine sim_bind dets_commit (sim_commit hi) said_not ?_ ?_
  · rintro a b (⟨-, hb⟩ | ⟨hb, -⟩)
    · cases hb
      exact sim_acts hi (acts_execute o .vacuum) (fun w m hm => ⟨_, rfl, rfl⟩) fun w => ⟨_, rfl, rfl⟩
    · cases hb
  · rintro e b (⟨hb, -⟩ | ⟨he, hb⟩) env w
    · cases hb
    · cases hb; cases he
      exact ⟨_, rfl, rfl⟩

/-! ## Clients -/

/-- A function that gives what another one gives, without panics. -/
theorem sim_orElse {x : L α} {m : Env → Run β} {q : Except DbErr α → Res β → Prop} {g : β → Ans} {a : Ans}
    {h : Except DbErr α → Ans} (hs : Sim env i x m q) (hok : ∀ r b, q r (.ok b) → g b = h r)
    (herr : ∀ r e, q r (.error e) → a = h r) (d : Db) (w : World) (hd : Matches i d w) (f0 u0 : Nat → Bool) :
    ∃ f u, (∀ n, n < w.trace.length → f n = f0 n ∧ u n = u0 n) ∧
      (Run.orElse (m (env.failing f u) >>= fun b => pure (g b)) a w).1 = .ok (h (x d).1) ∧
      Matches i (x d).2 (Run.orElse (m (env.failing f u) >>= fun b => pure (g b)) a w).2 := by
  obtain ⟨f, u, h1, h2, h3⟩ := hs d w hd f0 u0
  refine ⟨f, u, h1, ?_⟩
  unfold Run.orElse
  rw [run_bind]
  revert h2 h3
  rcases m (env.failing f u) w with ⟨r, w'⟩
  intro h2 h3
  cases r with
  | ok b => exact ⟨congrArg _ (hok _ _ h2), h3⟩
  | error e => exact ⟨congrArg _ (herr _ _ h2), h3⟩

theorem sim_op (hi : i = .main ∨ ∀ n, o.undo n = false) (op : Op) (d : Db) (w : World) (hd : Matches i d w)
    (f0 u0 : Nat → Bool) : ∃ f u, (∀ n, n < w.trace.length → f n = f0 n ∧ u n = u0 n) ∧
      (op.whole (env.failing f u) i w).1 = .ok (op.run o d).1 ∧ Matches i (op.run o d).2 (op.whole (env.failing f u) i w).2 := by
  cases op with
  | get k => exact sim_orElse (sim_get hi k) (by rintro r b h; cases h; rfl) (by rintro r e h; cases h) d w hd f0 u0
  | put k v => exact sim_orElse (sim_put hi k v) (by rintro r b h; cases h; rfl) (by rintro r e h; cases h) d w hd f0 u0
  | del k => exact sim_orElse (sim_del hi k) (by rintro r b h; cases h; rfl) (by rintro r e h; cases h) d w hd f0 u0
  | rows =>
    refine sim_orElse (h := fun r => .rows r.toOption) (sim_rows hi) ?_ ?_ d w hd f0 u0
    · rintro r b (⟨t, rfl, h⟩ | ⟨⟨e, rfl⟩, e', h⟩) <;> cases h
      rfl
    · rintro r b (⟨t, rfl, h⟩ | ⟨⟨e, rfl⟩, e', h⟩) <;> cases h
      rfl
  | commit =>
    refine sim_orElse (h := fun r => .unit r) (sim_commit hi) ?_ ?_ d w hd f0 u0
    · rintro r b (⟨rfl, h⟩ | ⟨rfl, h⟩) <;> cases h <;> rfl
    · rintro r b (⟨rfl, h⟩ | ⟨rfl, h⟩) <;> cases h
  | vacuum => exact sim_orElse (sim_vacuum hi) (by rintro r b h; cases h; rfl) (by rintro r e h; cases h) d w hd f0 u0

theorem det_orElse {env : Env} {f u : Nat → Bool} {m m' : Run α} (h : Det env f u m m') (a : α) :
    Det env f u (m.orElse a) (m'.orElse a) := by
  have e : ∀ (m : Run α) w, (m.orElse a w).2 = (m w).2 := by
    intro m w
    unfold Run.orElse
    rcases m w with ⟨r, w'⟩
    cases r <;> rfl
  have hx : ∀ g (m : Run α), Inv (Honest g) m → Inv (Honest g) (m.orElse a) := by
    intro g m h w
    rw [e]
    exact h w
  refine ⟨hx _ _ h.ext, hx _ _ h.ext', fun w => ?_⟩
  rw [e, e]
  rcases h.same w with h | h
  · left; unfold Run.orElse; rw [h]
  · exact .inr h

theorem dets_op (op : Op) : Dets env fun env => op.whole env i := by
  intro f u f' u'
  cases op with
  | get k => exact det_orElse (det_bind (det_getBlock (env := env.failing f u) i k) fun _ => det_pure _) _
  | put k v => exact det_orElse (det_bind (det_setBlock (env := env.failing f u) i k v) fun _ => det_pure _) _
  | del k => exact det_orElse (det_bind (det_deleteBlock (env := env.failing f u) i k) fun _ => det_pure _) _
  | rows => exact det_orElse (det_bind (det_iterRows (env := env.failing f u) i) fun _ => det_pure _) _
  | commit => exact det_orElse (det_bind (det_commit (env := env.failing f u) i) fun _ => det_pure _) _
  | vacuum => exact det_orElse (det_bind (det_dbVacuum (env := env.failing f u) i) fun _ => det_pure _) _

theorem sim_client (hi : i = .main ∨ ∀ n, o.undo n = false) (c : Client) (n : Nat) (as : List Ans) (d : Db) (w : World)
    (hd : Matches i d w) (f0 u0 : Nat → Bool) : ∃ f u, (∀ n, n < w.trace.length → f n = f0 n ∧ u n = u0 n) ∧
      (c.whole (env.failing f u) i n as w).1 = .ok (c.run o n as d).1 ∧
      Matches i (c.run o n as d).2 (c.whole (env.failing f u) i n as w).2 := by
  induction n generalizing as d w f0 u0 with
  | zero => exact ⟨f0, u0, fun _ _ => ⟨rfl, rfl⟩, rfl, hd⟩
  | succ n ih =>
    unfold Client.whole Client.run
    cases c as with
    | none => exact ⟨f0, u0, fun _ _ => ⟨rfl, rfl⟩, rfl, hd⟩
    | some op =>
      obtain ⟨f, u, h1, h2, h3⟩ := sim_op (env := env) hi op d w hd f0 u0
      obtain ⟨f', u', h4, h5, h6⟩ := ih (as ++ [(op.run o d).1]) (op.run o d).2 (op.whole (env.failing f u) i w).2 h3 f u
      have hg := (dets_op (env := env) (i := i) op).grows f u w
      refine ⟨f', u', fun m hm => ?_, ?_⟩
      · rw [(h4 m (Nat.lt_of_lt_of_le hm hg)).1, (h4 m (Nat.lt_of_lt_of_le hm hg)).2]
        exact h1 m hm
      · have e := (dets_op (env := env) (i := i) op).agree (f := f) (u := u) (f' := f') (u' := u') (w := w) h4
        dsimp only at e ⊢
        rw [run_bind, ← e]
        rcases he : op.whole (env.failing f u) i w with ⟨r, w'⟩
        rw [he] at h2 h5 h6
        simp only at h2
        subst h2
        exact ⟨h5, h6⟩

end Lib
end MapEditr
