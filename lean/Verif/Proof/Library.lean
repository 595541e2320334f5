import Verif.Spec.Library
import Verif.Proof.Oracle
/-! # Library calls and statements -/

namespace MapEditr
namespace Lib

theorem bind_run (m : L α) (f : α → L β) (d : Db) :
    (m >>= f) d = match m d with | (.ok a, d) => f a d | (.error e, d) => (.error e, d) := rfl

theorem pure_run (a : α) (d : Db) : (pure a : L α) d = (.ok a, d) := rfl

/-- The statement failed, as seen from outside. -/
def Bad (o : Outside) (d d' : Db) : Prop :=
  d'.inTransaction = d.inTransaction ∧
    (d'.conn = d.conn ∨ d.conn.inTx = true ∧ (∃ n, o.undo n = true) ∧ d'.conn = d.conn.step .rollback)

/-- The statement was executed. -/
def Did (s : Sql) (d d' : Db) : Prop := d'.inTransaction = d.inTransaction ∧ d'.conn = d.conn.step s

theorem call_cases (o : Outside) (d : Db) :
    (call o d).2 = { d with calls := d.calls + 1 } ∧ ((call o d).1 = .ok () ∨ (call o d).1 = .error .databaseError) := by
  unfold call
  split <;> simp

theorem attempt_cases (o : Outside) (s : Sql) (d : Db) :
    (attempt o s d).2.stepped = d.stepped ∧
    ((attempt o s d).1 = .ok () ∧ Did s d (attempt o s d).2 ∨
      (attempt o s d).1 = .error .databaseError ∧ Bad o d (attempt o s d).2) := by
  unfold attempt
  split
  · refine ⟨rfl, .inr ⟨rfl, rfl, ?_⟩⟩
    by_cases h : d.conn.inTx = true ∧ o.undo d.calls = true
    · refine .inr ⟨h.1, ⟨_, h.2⟩, ?_⟩
      simp only [h.1, h.2, Bool.and_self, if_true]
    · left
      show (if _ then _ else _) = _
      rw [if_neg (by simpa using h)]
  · exact ⟨rfl, .inl ⟨rfl, rfl, rfl⟩⟩

theorem execute_cases (o : Outside) (s : Sql) (d : Db) :
    (execute o s d).1 = .ok () ∧ d.conn.refuses s = false ∧ Did s d (execute o s d).2 ∨
      (execute o s d).1 = .error .databaseError ∧ Bad o d (execute o s d).2 ∧
        (d.conn.refuses s = true → (execute o s d).2.conn = d.conn) := by
  unfold execute
  split
  · exact .inr ⟨rfl, ⟨rfl, .inl rfl⟩, fun _ => rfl⟩
  · rename_i h
    rcases (attempt_cases o s d).2 with h1 | h1
    · exact .inl ⟨h1.1, by simpa using h, h1.2⟩
    · exact .inr ⟨h1.1, h1.2, fun h' => absurd h' h⟩

/-! ## Statements that stand for several calls -/

/-- As seen from outside, the calls are a statement: they do what it does and give what is said, or they fail. -/
def Acts (o : Outside) (s : Sql) (g : Conn → Except DbErr α) (x : L α) : Prop :=
  ∀ d, (x d).1 = g (d.conn.step s) ∧ d.conn.refuses s = false ∧ Did s d (x d).2 ∨
    (x d).1 = .error .databaseError ∧ Bad o d (x d).2 ∧ (d.conn.refuses s = true → (x d).2.conn = d.conn)

theorem acts_execute (o : Outside) (s : Sql) : Acts o s (fun _ => .ok ()) (execute o s) := execute_cases o s

theorem bind_cases (o : Outside) (t : Stmt) (d : Db) :
    (bind o t d).2 = { d with calls := d.calls + 1 } ∧
      ((bind o t d).1 = .ok () ∨ (bind o t d).1 = .error .databaseError) := by
  unfold bind
  split
  · exact ⟨rfl, .inr rfl⟩
  · exact call_cases o d

theorem next_cases (o : Outside) (t : Stmt) (s : Sql) (d : Db) :
    (next o t s d).1 = .ok () ∧ Did s d (next o t s d).2 ∨ (next o t s d).1 = .error .databaseError ∧ Bad o d (next o t s d).2 :=
  (attempt_cases o s { d with stepped := fun u => if u = t then true else d.stepped u }).2

/-- A call that may fail, and changes nothing that is seen from outside. -/
def Idle (x : L Unit) : Prop := ∀ d, (x d).2.conn = d.conn ∧ (x d).2.inTransaction = d.inTransaction ∧
  ((x d).1 = .ok () ∨ (x d).1 = .error .databaseError)

theorem idle_call (o : Outside) : Idle (call o) := fun d => by
  obtain ⟨h, h'⟩ := call_cases o d
  rw [h]; exact ⟨rfl, rfl, h'⟩

theorem idle_bind (o : Outside) (t : Stmt) : Idle (bind o t) := fun d => by
  obtain ⟨h, h'⟩ := bind_cases o t d
  rw [h]; exact ⟨rfl, rfl, h'⟩

theorem idle_reset (o : Outside) (t : Stmt) (row : Bool) : Idle (reset o t row) := fun d => by
  unfold reset
  cases row
  · exact ⟨rfl, rfl, .inl rfl⟩
  · exact idle_call o _

/-- After a call that changes nothing. -/
theorem acts_after {o : Outside} {s : Sql} {g : Conn → Except DbErr α} {x : L Unit} {y : L α} (hx : Idle x)
    (hy : Acts o s g y) : Acts o s g (x >>= fun _ => y) := fun d => by
  obtain ⟨h1, h2, h3⟩ := hx d
  rw [bind_run]
  rcases he : x d with ⟨r, d1⟩
  rw [he] at h1 h2 h3
  rcases h3 with rfl | rfl
  · have := hy d1
    unfold Did Bad at *
    simp only at h1 h2
    rwa [h1, h2] at this
  · exact .inr ⟨rfl, ⟨h2, .inl h1⟩, fun _ => h1⟩

/-- A statement, and what follows it: it changes nothing more, and may fail. -/
theorem acts_then {o : Outside} {s : Sql} {g : Conn → Except DbErr α} {x : L Unit} {y : L α}
    (hs : ∀ c : Conn, c.refuses s = false ∧ c.step s = c)
    (hx : ∀ d, (x d).1 = .ok () ∧ Did s d (x d).2 ∨ (x d).1 = .error .databaseError ∧ Bad o d (x d).2)
    (hy : ∀ d, (y d).2.conn = d.conn ∧ (y d).2.inTransaction = d.inTransaction ∧
      ((y d).1 = g d.conn ∨ (y d).1 = .error .databaseError)) : Acts o s g (x >>= fun _ => y) := fun d => by
  have := hx d
  rw [bind_run]
  rcases he : x d with ⟨r, d1⟩
  rw [he] at this
  rcases this with ⟨h, h1, h2⟩ | ⟨h, h1⟩
  · simp only at h h1 h2
    subst h
    obtain ⟨a, b, c⟩ := hy d1
    rw [(hs _).2] at h2
    rcases c with c | c
    · refine .inl ⟨?_, (hs _).1, ?_, ?_⟩
      · rw [(hs _).2, ← h2]; exact c
      · exact b.trans h1
      · rw [(hs _).2, ← h2]; exact a
    · exact .inr ⟨c, ⟨b.trans h1, .inl (a.trans h2)⟩, fun _ => a.trans h2⟩
  · simp only at h
    subst h
    exact .inr ⟨rfl, h1, fun h => absurd h (by simp [(hs _).1])⟩

/-- A statement and the reset of it, which cannot fail. -/
theorem acts_done {o : Outside} {s : Sql} {t : Stmt} (hs : ∀ c : Conn, c.refuses s = false) :
    Acts o s (fun _ => .ok ()) (next o t s >>= fun _ => reset o t false) := fun d => by
  have := next_cases o t s d
  rw [bind_run]
  rcases he : next o t s d with ⟨r, d1⟩
  rw [he] at this
  rcases this with ⟨h, h1, h2⟩ | ⟨h, h1⟩
  · simp only at h; subst h
    exact .inl ⟨rfl, hs _, h1, h2⟩
  · simp only at h; subst h
    exact .inr ⟨rfl, h1, fun h => absurd h (by simp [hs])⟩

/-- `get_block` after `begin_if_needed`. -/
def getTail (o : Outside) (k : Int) : L Bytes := do
  bind o .get
  next o .get (.select k)
  match ← lookup k with
  | some v => do
    call o
    reset o .get true
    return v
  | none => do
    reset o .get false
    err .missingData

theorem getBlock_eq (o : Outside) (k : Int) : getBlock o k = (beginIfNeeded o >>= fun _ => getTail o k) := rfl

/-- What a table says of a key. -/
def found (k : Int) (c : Conn) : Except DbErr Bytes :=
  match c.cur.get? k with
  | some v => .ok v
  | none => .error .missingData

theorem acts_get (o : Outside) (k : Int) : Acts o (.select k) (found k) (getTail o k) := by
  refine acts_after (idle_bind o .get) (acts_then (fun c => ⟨rfl, rfl⟩) (next_cases o .get (.select k)) fun d => ?_)
  rw [bind_run]
  show _ ∧ _ ∧ _
  unfold found lookup
  cases h : d.conn.cur.get? k with
  | some v =>
    simp only
    rw [bind_run]
    obtain ⟨h1, h2, h3⟩ := idle_call o d
    rcases he : call o d with ⟨r, d1⟩
    rw [he] at h1 h2 h3
    rcases h3 with rfl | rfl
    · simp only
      rw [bind_run]
      obtain ⟨a1, a2, a3⟩ := idle_reset o .get true d1
      rcases he : reset o .get true d1 with ⟨r, d2⟩
      rw [he] at a1 a2 a3
      rcases a3 with rfl | rfl
      · exact ⟨a1.trans h1, a2.trans h2, .inl rfl⟩
      · exact ⟨a1.trans h1, a2.trans h2, .inr rfl⟩
    · exact ⟨h1, h2, .inr rfl⟩
  | none => exact ⟨rfl, rfl, .inl rfl⟩

/-- `set_block` after `begin_if_needed`. -/
def setTail (o : Outside) (k : Int) (v : Bytes) : L Unit := do
  bind o .set
  bind o .set
  next o .set (.put k v)
  reset o .set false

theorem setBlock_eq (o : Outside) (k : Int) (v : Bytes) : setBlock o k v = (beginIfNeeded o >>= fun _ => setTail o k v) := rfl

theorem acts_set (o : Outside) (k : Int) (v : Bytes) : Acts o (.put k v) (fun _ => .ok ()) (setTail o k v) :=
  acts_after (idle_bind o .set) (acts_after (idle_bind o .set) (acts_done fun _ => rfl))

/-- `delete_block` after `begin_if_needed`. -/
def delTail (o : Outside) (k : Int) : L Unit := do
  bind o .del
  next o .del (.del k)
  reset o .del false

theorem deleteBlock_eq (o : Outside) (k : Int) : deleteBlock o k = (beginIfNeeded o >>= fun _ => delTail o k) := rfl

theorem acts_del (o : Outside) (k : Int) : Acts o (.del k) (fun _ => .ok ()) (delTail o k) :=
  acts_after (idle_bind o .del) (acts_done fun _ => rfl)

theorem acts_readRows (o : Outside) (t : Table) : Acts o .selectAll (fun _ => .ok ()) (readRows o t) := by
  have ha := fun d => (attempt_cases o .selectAll d).2
  induction t with
  | nil =>
    intro d
    rcases ha d with h | h
    · exact .inl ⟨h.1, rfl, h.2⟩
    · exact .inr ⟨h.1, h.2, fun h => absurd h (by simp [Conn.refuses])⟩
  | cons r t ih =>
    have h2 : Acts o .selectAll (fun _ => .ok ()) (call o >>= fun _ => call o >>= fun _ => readRows o t) :=
      acts_after (idle_call o) (acts_after (idle_call o) ih)
    intro d
    show _ ∨ _
    unfold readRows
    rw [bind_run]
    have := ha d
    rcases he : attempt o .selectAll d with ⟨r, d1⟩
    rw [he] at this
    rcases this with ⟨h, h1, h3⟩ | ⟨h, h1⟩
    · simp only at h; subst h
      have := h2 d1
      unfold Did Bad at *
      simp only at h1 h3
      rw [h1, h3] at this
      exact this
    · simp only at h; subst h
      exact .inr ⟨rfl, h1, fun h => absurd h (by simp [Conn.refuses])⟩

/-- `iter_rows` after `begin_if_needed`. -/
def rowsTail (o : Outside) : L Table := do
  call o
  let t ← table
  readRows o t
  return t

theorem iterRows_eq (o : Outside) : iterRows o = (beginIfNeeded o >>= fun _ => rowsTail o) := rfl

theorem acts_rows (o : Outside) : Acts o .selectAll (fun c => .ok c.cur) (rowsTail o) := by
  refine acts_after (idle_call o) fun d => ?_
  have h := acts_readRows o d.conn.cur d
  have e : (table >>= fun t => readRows o t >>= fun _ => (pure t : L Table)) d =
    (readRows o d.conn.cur >>= fun _ => (pure d.conn.cur : L Table)) d := rfl
  rw [e, bind_run]
  rcases he : readRows o d.conn.cur d with ⟨r, d1⟩
  rw [he] at h
  rcases h with ⟨h, h1, h2⟩ | ⟨h, h1⟩
  · simp only at h; subst h
    exact .inl ⟨rfl, h1, h2⟩
  · simp only at h; subst h
    exact .inr ⟨rfl, h1⟩

/-! ## The same with statements -/

/-- Two computations, one with library calls and one with statements, end in the same way if the right statements fail;
which ones failed earlier is up to the caller. -/
def Sim (env : Env) (i : DbId) (x : L α) (m : Env → Run β) (q : Except DbErr α → Res β → Prop) : Prop :=
  ∀ d w, Matches i d w → ∀ f0 u0 : Nat → Bool, ∃ f u, (∀ n, n < w.trace.length → f n = f0 n ∧ u n = u0 n) ∧
    q (x d).1 (m (env.failing f u) w).1 ∧ Matches i (x d).2 (m (env.failing f u) w).2

/-- It depends on the failing statements only. -/
def Dets (env : Env) (m : Env → Run β) : Prop :=
  ∀ f u f' u', Det (env.failing f u) f' u' (m (env.failing f u)) (m (env.failing f' u'))

theorem Dets.grows {env : Env} {m : Env → Run β} (h : Dets env m) (f u : Nat → Bool) (w : World) :
    w.trace.length ≤ (m (env.failing f u) w).2.trace.length := by
  obtain ⟨ds, h, -⟩ := (h f u f u).ext w
  rw [h, List.length_append]
  omega

theorem Dets.agree {env : Env} {m : Env → Run β} (h : Dets env m) {f u f' u' : Nat → Bool} {w : World}
    (ha : ∀ n, n < (m (env.failing f u) w).2.trace.length → f' n = f n ∧ u' n = u n) :
    m (env.failing f u) w = m (env.failing f' u') w :=
  det_agree (h f u f' u') (fun n hn => (ha n hn).1.symm) fun n hn _ => (ha n hn).2.symm

/-- One after the other. -/
theorem sim_bind {env : Env} {i : DbId} {x : L α} {y : α → L γ} {m : Env → Run β} {l : β → Env → Run δ}
    {q : Except DbErr α → Res β → Prop} {q' : Except DbErr γ → Res δ → Prop}
    (hm : Dets env m) (hx : Sim env i x m q) (hq : ∀ r e, ¬ q r (.error e))
    (hy : ∀ a b, q (.ok a) (.ok b) → Sim env i (y a) (l b) q')
    (he : ∀ e b, q (.error e) (.ok b) → ∀ env w, ∃ c, l b env w = (c, w) ∧ q' (.error e) c) :
    Sim env i (x >>= y) (fun env => m env >>= fun b => l b env) q' := by
  intro d w hd f0 u0
  obtain ⟨f, u, ha, h1, h2⟩ := hx d w hd f0 u0
  rcases hr : m (env.failing f u) w with ⟨r, w1⟩
  rw [hr] at h1 h2
  cases r with
  | error e => exact absurd h1 (hq _ _)
  | ok b =>
    rcases hs : x d with ⟨s, d1⟩
    rw [hs] at h1 h2
    have hg := hm.grows f u w
    rw [hr] at hg
    cases s with
    | error e =>
      obtain ⟨c, h3, h4⟩ := he e b h1 (env.failing f u) w1
      refine ⟨f, u, ha, ?_⟩
      dsimp only
      rw [bind_run, hs, run_bind, hr]
      simp only [h3]
      exact ⟨h4, h2⟩
    | ok a =>
      obtain ⟨f', u', ha', h3, h4⟩ := hy a b h1 d1 w1 h2 f u
      refine ⟨f', u', fun n hn => ?_, ?_⟩
      · rw [(ha' n (by simp only at hg; omega)).1, (ha' n (by simp only at hg; omega)).2]
        exact ha n hn
      · have := hm.agree (f := f) (u := u) (f' := f') (u' := u') (w := w) (by rw [hr]; exact ha')
        dsimp only
        rw [bind_run, hs, run_bind, ← this, hr]
        exact ⟨h3, h4⟩

/-- A statement. -/
theorem sim_acts {env : Env} {i : DbId} {o : Outside} {s : Sql} {g : Conn → Except DbErr α} {x : L α}
    {l : Bool → Run β} {q : Except DbErr α → Res β → Prop} (hi : i = .main ∨ ∀ n, o.undo n = false) (hx : Acts o s g x)
    (hok : ∀ w m, w.dbs i = some m → ∃ c, l true w = (c, w) ∧ q (g m.conn) c)
    (hbad : ∀ w, ∃ c, l false w = (c, w) ∧ q (.error .databaseError) c) :
    Sim env i x (fun env => exec env i s >>= l) q := by
  intro d w hd f0 u0
  unfold Matches at hd
  rcases hx d with ⟨h1, h2, h3, h4⟩ | ⟨h1, ⟨h3, h4⟩, h5⟩
  · refine ⟨fun n => if n = w.trace.length then false else f0 n, u0, fun n hn => ⟨if_neg (by omega), rfl⟩, ?_⟩
    have he : exec (env.failing (fun n => if n = w.trace.length then false else f0 n) u0) i s w =
        (.ok true, (w.setDb i { (⟨d.conn, d.inTransaction⟩ : MapDb) with conn := d.conn.step s }).did i s true) := by
      unfold exec
      rw [hd]
      simp [h2]
    dsimp only
    rw [run_bind, he]
    obtain ⟨c, h5, h6⟩ := hok ((w.setDb i { (⟨d.conn, d.inTransaction⟩ : MapDb) with conn := d.conn.step s }).did i s true) _
      (show _ = some { (⟨d.conn, d.inTransaction⟩ : MapDb) with conn := d.conn.step s } by
        unfold World.setDb World.did; simp)
    simp only [h5]
    refine ⟨by rw [h1]; exact h6, ?_⟩
    unfold Matches World.setDb World.did
    simp [h3, h4]
  · by_cases hr : d.conn.refuses s = true
    · refine ⟨f0, u0, fun n hn => ⟨rfl, rfl⟩, ?_⟩
      have he : exec (env.failing f0 u0) i s w = (.ok false, w.did i s false) := by
        unfold exec
        rw [hd]
        simp [hr]
      dsimp only
      rw [run_bind, he]
      obtain ⟨c, h6, h7⟩ := hbad (w.did i s false)
      simp only [h6]
      refine ⟨by rw [h1]; exact h7, ?_⟩
      unfold Matches World.did
      simp only [hd, h5 hr, h3]
    · by_cases hu : d.conn.inTx = true ∧ (∃ n, o.undo n = true) ∧ (x d).2.conn = d.conn.step .rollback
      · obtain ⟨hu1, ⟨n, hu2⟩, hu3⟩ := hu
        have hi : i = .main := hi.resolve_right fun h => by rw [h] at hu2; cases hu2
        subst hi
        refine ⟨fun n => if n = w.trace.length then true else f0 n, fun n => if n = w.trace.length then true else u0 n,
          fun n hn => ⟨if_neg (by omega), if_neg (by omega)⟩, ?_⟩
        have he : exec (env.failing (fun n => if n = w.trace.length then true else f0 n)
            (fun n => if n = w.trace.length then true else u0 n)) .main s w = (.ok false,
            ((w.did .main s false).setDb .main { (⟨d.conn, d.inTransaction⟩ : MapDb) with conn := d.conn.step .rollback }).did
              .main .rollback true) := by
          unfold exec World.failed
          rw [hd]
          simp [hr, hu1]
        dsimp only
        rw [run_bind, he]
        obtain ⟨c, h6, h7⟩ := hbad (((w.did .main s false).setDb .main
          { (⟨d.conn, d.inTransaction⟩ : MapDb) with conn := d.conn.step .rollback }).did .main .rollback true)
        simp only [h6]
        refine ⟨by rw [h1]; exact h7, ?_⟩
        unfold Matches World.setDb World.did
        simp [h3, hu3]
      · have h4 : (x d).2.conn = d.conn := h4.resolve_right hu
        refine ⟨fun n => if n = w.trace.length then true else f0 n, fun n => if n = w.trace.length then false else u0 n,
          fun n hn => ⟨if_neg (by omega), if_neg (by omega)⟩, ?_⟩
        have he : exec (env.failing (fun n => if n = w.trace.length then true else f0 n)
            (fun n => if n = w.trace.length then false else u0 n)) i s w = (.ok false, w.did i s false) := by
          unfold exec World.failed
          rw [hd]
          simp [hr]
        dsimp only
        rw [run_bind, he]
        obtain ⟨c, h6, h7⟩ := hbad (w.did i s false)
        simp only [h6]
        refine ⟨by rw [h1]; exact h7, ?_⟩
        unfold Matches World.did
        simp only [hd, h4, h3]

end Lib
end MapEditr
