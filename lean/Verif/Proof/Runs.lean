import Verif.Proof.Instance
import Verif.Spec.Map
import Verif.Spec.Runs
/-! # Lemmas about whole runs -/

namespace MapEditr
open Spec
set_option linter.unusedSimpArgs false

/-- Induction from the end of a list. -/
theorem snoc_ind {P : List α → Prop} (l : List α) (nil : P [])
    (snoc : ∀ l a, P l → P (l ++ [a])) : P l := by
  have : ∀ l : List α, P l.reverse := by
    intro l
    induction l with
    | nil => exact nil
    | cons a t ih => rw [List.reverse_cons]; exact snoc _ _ ih
  simpa using this l.reverse

/-! ## The record of statements -/

theorem replay_append (t : Table) (tr ext : List Did) : replay t (tr ++ ext) =
    ext.foldl (fun c d => if d.db = .main ∧ d.ok = true then c.step d.stmt else c) (replay t tr) := by
  unfold replay
  rw [List.foldl_append]

theorem replay_snoc (t : Table) (tr : List Did) (d : Did) : replay t (tr ++ [d]) =
    if d.db = .main ∧ d.ok = true then (replay t tr).step d.stmt else replay t tr := by
  rw [replay_append]; rfl

/-- No row is changed on the main map. -/
def NoWrite (d : Did) : Prop := d.db = .main → (∀ k b, d.stmt ≠ .put k b) ∧ (∀ k, d.stmt ≠ .del k)

theorem replay_noWrite {t : Table} {tr : List Did} (h : ∀ d ∈ tr, NoWrite d) :
    (replay t tr).durable = t ∧ (replay t tr).cur = t := by
  induction tr using snoc_ind with
  | nil => exact ⟨rfl, rfl⟩
  | snoc tr d ih =>
    have := ih fun x hx => h x (List.mem_append_left _ hx)
    rw [replay_snoc]
    split
    · rename_i hd
      have hn := h d (by simp) hd.1
      cases hs : d.stmt with
      | put k b => exact absurd hs (hn.1 k b)
      | del k => exact absurd hs (hn.2 k)
      | rollback => exact ⟨this.1, this.1⟩
      | _ => exact ⟨by first | exact this.1 | exact this.2, this.2⟩
    · exact this

theorem onDisk_noWrite {t : Table} {tr : List Did} (h : ∀ d ∈ tr, NoWrite d) (n : Nat) :
    onDisk t (tr.take n) = t :=
  (replay_noWrite fun d hd => h d (List.mem_of_mem_take hd)).1

/-- Whatever prefix is executed, the file is unchanged. -/
def Kept (t : Table) (tr : List Did) : Prop := ∀ n, onDisk t (tr.take n) = t

theorem kept_snoc {t : Table} {tr : List Did} {d : Did} (h : Kept t tr) (hd : onDisk t (tr ++ [d]) = t) :
    Kept t (tr ++ [d]) := by
  intro n
  by_cases hn : n ≤ tr.length
  · rw [List.take_append_of_le_length hn]; exact h n
  · rw [List.take_of_length_le (by simp; omega)]; exact hd

/-- The main map is open in its transaction, nothing is committed. -/
def Tx (t : Table) (w : World) : Prop :=
  ∃ cur cols, OpenAt w .main t cur cols ∧ replay t w.trace = ⟨t, cur, true, []⟩ ∧ Kept t w.trace

theorem tx_snoc_other {t : Table} {tr : List Did} {cur : Table} {d : Did} (hd : d.db ≠ .main ∨ d.ok = false)
    (h1 : replay t tr = ⟨t, cur, true, []⟩) (h2 : Kept t tr) :
    replay t (tr ++ [d]) = ⟨t, cur, true, []⟩ ∧ Kept t (tr ++ [d]) := by
  have : replay t (tr ++ [d]) = ⟨t, cur, true, []⟩ := by
    rw [replay_snoc, if_neg]
    · exact h1
    · rintro ⟨a, b⟩
      rcases hd with h | h
      · exact h a
      · rw [h] at b; cases b
  refine ⟨this, kept_snoc h2 ?_⟩
  unfold onDisk; rw [this]

theorem tx_append_other {t : Table} {tr ext : List Did} {cur : Table} (he : ∀ d ∈ ext, d.db = .input)
    (h1 : replay t tr = ⟨t, cur, true, []⟩) (h2 : Kept t tr) :
    replay t (tr ++ ext) = ⟨t, cur, true, []⟩ ∧ Kept t (tr ++ ext) := by
  induction ext using snoc_ind with
  | nil => simpa using ⟨h1, h2⟩
  | snoc ext d ih =>
    obtain ⟨a, b⟩ := ih fun x hx => he x (List.mem_append_left _ hx)
    rw [← List.append_assoc]
    exact tx_snoc_other (Or.inl (by rw [he d (by simp)]; decide)) a b

theorem tx_snoc {t : Table} {tr : List Did} {cur cur' : Table} {s : Sql}
    (hs : Conn.step ⟨t, cur, true, []⟩ s = ⟨t, cur', true, []⟩)
    (h1 : replay t tr = ⟨t, cur, true, []⟩) (h2 : Kept t tr) (ok : Bool) :
    replay t (tr ++ [⟨.main, s, ok⟩]) = ⟨t, if ok then cur' else cur, true, []⟩ ∧
      Kept t (tr ++ [⟨.main, s, ok⟩]) := by
  cases ok with
  | false => exact tx_snoc_other (Or.inr rfl) h1 h2
  | true =>
    have : replay t (tr ++ [⟨.main, s, true⟩]) = ⟨t, cur', true, []⟩ := by
      rw [replay_snoc, if_pos ⟨rfl, rfl⟩, h1, hs]
    refine ⟨this, kept_snoc h2 ?_⟩
    unfold onDisk; rw [this]

/-- Only statements on the input map are executed. -/
def OnInput (w : World) (_ : Bool) (w' : World) : Prop :=
  ∃ ext, w'.trace = w.trace ++ ext ∧ ∀ d ∈ ext, d.db = .input

theorem onInput_same {m : Run α} (h : ∀ w, (m w).2.trace = w.trace) : Inv OnInput m :=
  fun w => ⟨[], by rw [h, List.append_nil], by simp⟩

theorem onInput_bind {m : Run α} {f : α → Run β} (hm : Inv OnInput m) (hf : ∀ a, Inv OnInput (f a)) :
    Inv OnInput (m >>= f) := by
  intro w
  obtain ⟨e1, h1, g1⟩ := hm w
  rw [run_bind]
  rcases h : m w with ⟨r, w1⟩
  rw [h] at h1
  cases r with
  | error e => exact ⟨e1, h1, g1⟩
  | ok a =>
    obtain ⟨e2, h2, g2⟩ := hf a w1
    refine ⟨e1 ++ e2, by rw [h2, h1, List.append_assoc], fun d hd => ?_⟩
    rcases List.mem_append.1 hd with hd | hd
    · exact g1 d hd
    · exact g2 d hd

theorem onInput_pure (a : α) : Inv OnInput (pure a : Run α) := onInput_same fun _ => rfl

theorem onInput_ite (c : Prop) [Decidable c] {m m' : Run α} (h : Inv OnInput m)
    (h' : Inv OnInput m') : Inv OnInput (if c then m else m') := by split <;> assumption

theorem onInput_theDb (i : DbId) : Inv OnInput (theDb i) := onInput_same fun w => by
  unfold theDb; split <;> rfl

theorem onInput_exec {env : Env} {s : Sql} : Inv OnInput (exec env .input s) := by
  intro w
  unfold exec
  split
  · exact ⟨[], (List.append_nil _).symm, by simp⟩
  · rw [failed_input]
    split
    · exact ⟨[⟨.input, s, false⟩], rfl, by simp⟩
    · split
      · exact ⟨[⟨.input, s, false⟩], rfl, by simp⟩
      · exact ⟨[⟨.input, s, true⟩], rfl, by simp⟩

theorem onInput_begin {env : Env} : Inv OnInput (beginIfNeeded env .input) :=
  onInput_bind (onInput_theDb _) fun _ => onInput_ite _ onInput_exec (onInput_pure _)

theorem onInput_getBlock {env : Env} {k : Int} : Inv OnInput (getBlock env .input k) := by
  unfold getBlock
  refine onInput_bind onInput_begin fun _ => onInput_ite _ (onInput_bind onInput_exec fun _ => onInput_ite _
    (onInput_bind (onInput_theDb _) fun m => ?_) (onInput_pure _)) (onInput_pure _)
  split <;> exact onInput_pure _

theorem onInput_iterRows {env : Env} : Inv OnInput (iterRows env .input) :=
  onInput_bind onInput_begin fun _ => onInput_ite _ (onInput_bind onInput_exec fun _ => onInput_ite _
    (onInput_bind (onInput_theDb _) fun _ => onInput_pure _) (onInput_same fun _ => rfl)) (onInput_same fun _ => rfl)

/-- SQLite has undone the transaction after a failing read of a single block. -/
def ReadUndone (tr : List Did) : Prop := ∃ pre k post, tr = pre ++ ⟨.main, .select k, false⟩ :: undone :: post

/-- The transaction goes on and nothing is committed; if something failed noticeably, nothing is
committed either; or, if `c`, a read failed and SQLite undid the transaction. -/
def TxGoes (c : Prop) (t : Table) (w : World) (b : Bool) (w' : World) : Prop :=
  (∃ ext, w'.trace = w.trace ++ ext) ∧
  (Tx t w → Tx t w' ∨ (b = false ∧ Kept t w'.trace) ∨ (c ∧ ReadUndone w'.trace))

/-- Operations on the input map only. -/
theorem tx_input {c : Prop} {t : Table} {m : Run α} (h1 : Inv (Only .input) m)
    (h2 : Inv OnInput m) : Inv (TxGoes c t) m := by
  intro w
  obtain ⟨ext, he, hall⟩ := h2 w
  refine ⟨⟨ext, he⟩, fun ⟨cur, cols, ho, hr, hk⟩ => Or.inl ⟨cur, cols, ?_, ?_⟩⟩
  · unfold OpenAt
    rw [h1 w .main (by decide)]
    exact ho
  · rw [he]
    exact tx_append_other hall hr hk

theorem kept_undone {t : Table} {tr : List Did} {cur : Table} {s : Sql}
    (h1 : replay t tr = ⟨t, cur, true, []⟩) (h2 : Kept t tr) :
    Kept t (tr ++ [⟨.main, s, false⟩, undone]) := by
  obtain ⟨a, b⟩ := tx_snoc_other (d := ⟨.main, s, false⟩) (Or.inr rfl) h1 h2
  rw [show tr ++ [(⟨.main, s, false⟩ : Did), undone] = (tr ++ [⟨.main, s, false⟩]) ++ [undone] by simp]
  refine kept_snoc b ?_
  unfold onDisk
  rw [replay_snoc, if_pos ⟨rfl, rfl⟩, a]
  rfl

/-- After a failing statement. -/
theorem tx_failed {env : Env} {t : Table} {s : Sql} {w : World} (h : Tx t w) :
    Tx t (w.failed env .main s) ∨ Kept t (w.failed env .main s).trace ∧
      (w.failed env .main s).trace = w.trace ++ [⟨.main, s, false⟩, undone] := by
  obtain ⟨cur, cols, ho, hr, hk⟩ := h
  rcases failed_cases w env .main s with h1 | ⟨-, m, h2, -, -, h1⟩ <;> rw [h1]
  · exact Or.inl ⟨cur, cols, ho, tx_snoc_other (Or.inr rfl) hr hk⟩
  · have : (((w.did .main s false).setDb .main ⟨m.conn.step .rollback, m.inTransaction⟩).did .main
        .rollback true).trace = w.trace ++ [⟨.main, s, false⟩, undone] := List.append_assoc _ _ _
    rw [this]
    exact Or.inr ⟨kept_undone hr hk, rfl⟩

theorem failed_ext (w : World) (env : Env) (i : DbId) (s : Sql) : ∃ ext, (w.failed env i s).trace = w.trace ++ ext := by
  obtain ⟨l, h, -⟩ := failed_trace w env i s
  exact ⟨_, h⟩

theorem ext_some {m : Run α} (h : Inv (Ext fun _ => True) m) (w : World) : ∃ ext, (m w).2.trace = w.trace ++ ext := by
  obtain ⟨ext, he, -⟩ := h w
  exact ⟨ext, he⟩

theorem only_iterRows {env : Env} {i : DbId} : Inv (Only i) (iterRows env i) := by
  unfold iterRows
  exact only_bind only_begin fun _ => only_ite _ (only_bind only_exec fun _ => only_ite _
    (only_bind only_theDb fun m => only_pure _) (only_same fun _ => rfl)) (only_same fun _ => rfl)

theorem ext_iterRows {env : Env} {P : Did → Prop} {i : DbId} (hb : ∀ ok, P ⟨i, .begin, ok⟩)
    (ha : ∀ ok, P ⟨i, .selectAll, ok⟩) : Inv (Ext P) (iterRows env i) := by
  unfold iterRows
  exact ext_bind (ext_begin hb) fun _ => ext_ite _ (ext_bind (ext_exec ha) fun _ => ext_ite _
    (ext_bind (ext_theDb i) fun m => ext_pure _) (ext_same fun _ => rfl)) (ext_same fun _ => rfl)

theorem tx_get {env : Env} {t : Table} {k : Int} {w : World} (h : Tx t w) :
    Tx t (getBlock env .main k w).2 ∨ ((getBlock env .main k w).1 = .ok (.error .databaseError) ∧
      Kept t (getBlock env .main k w).2.trace ∧ ReadUndone (getBlock env .main k w).2.trace) := by
  have h' := h
  obtain ⟨cur, cols, ho, hr, hk⟩ := h
  rw [getBlock_open ho]
  split
  · rcases tx_failed (env := env) (s := .select k) h' with h | ⟨h1, h2⟩
    · exact Or.inl h
    · exact Or.inr ⟨rfl, h1, w.trace, k, [], h2⟩
  · exact Or.inl ⟨cur, cols, ho, tx_snoc (s := .select k) rfl hr hk true⟩

theorem ext_all (env : Env) : CopyFrame env (Ext fun _ => True) :=
  ext_frame (by simp) (by simp) (by simp) (by simp) (by simp)

theorem tx_frame (env : Env) (c : Prop) (t : Table) : Frame env (TxGoes c t) where
  quiet := by
    intro w b w' h1 h2 _
    refine ⟨⟨[], by rw [h2, List.append_nil]⟩, fun ⟨cur, cols, ho, hr⟩ => Or.inl ⟨cur, cols, ?_, by rw [h2]; exact hr⟩⟩
    unfold OpenAt; rw [h1]; exact ho
  trans := fun w w1 b w2 ⟨⟨e1, g1⟩, h⟩ ⟨⟨e2, g2⟩, h'⟩ => by
    refine ⟨⟨e1 ++ e2, by rw [g2, g1, List.append_assoc]⟩, fun hw => ?_⟩
    rcases h hw with h | ⟨h, -⟩ | ⟨hc, pre, k, post, h⟩
    · exact h' h
    · cases h
    · exact Or.inr (Or.inr ⟨hc, pre, k, post ++ e2, by rw [g2, h]; simp⟩)
  get := by
    intro i k
    cases i with
    | input =>
      exact tx_input (only_bind only_getBlock fun _ => only_same fun _ => rfl)
        (onInput_bind onInput_getBlock fun _ => onInput_same fun _ => rfl)
    | main =>
      intro w
      refine ⟨ext_some ((ext_all env).get .main k) w, fun h => ?_⟩
      have := tx_get (env := env) (k := k) h
      rw [run_bind]
      rcases h1 : getBlock env .main k w with ⟨r, w1⟩
      rw [h1] at this
      rcases this with this | ⟨h2, h3, -⟩
      · cases r with
        | error e => exact Or.inl this
        | ok a => exact Or.inl this
      · simp only at h2 h3
        subst h2
        exact Or.inr (Or.inl ⟨rfl, h3⟩)
  rows := by
    intro i
    cases i with
    | input => exact tx_input only_iterRows onInput_iterRows
    | main =>
      intro w
      refine ⟨ext_some ((ext_all env).rows .main) w, fun h => ?_⟩
      have h' := h
      obtain ⟨cur, cols, ho, hr, hk⟩ := h
      rw [iterRows_open ho]
      split
      · rcases tx_failed (env := env) (s := .selectAll) h' with h | ⟨h, -⟩
        · exact Or.inl h
        · exact Or.inr (Or.inl ⟨rfl, h⟩)
      · exact Or.inl ⟨cur, cols, ho, tx_snoc (s := .selectAll) rfl hr hk true⟩
  put := by
    intro k d w
    refine ⟨ext_some ((ext_all env).put k d) w, fun h => ?_⟩
    have h' := h
    obtain ⟨cur, cols, ho, hr, hk⟩ := h
    rw [run_bind, setBlock_open ho]
    cases env.fail w.trace.length with
    | true =>
      rcases tx_failed (env := env) (s := .put k d) h' with h | ⟨h, -⟩
      · exact Or.inl h
      · exact Or.inr (Or.inl ⟨rfl, h⟩)
    | false => exact Or.inl ⟨cur.put k d, cols, setDb_did_self _ _ _ _ _ _, tx_snoc (s := .put k d) rfl hr hk true⟩
  del := by
    intro k w
    refine ⟨ext_some ((ext_all env).del k) w, fun h => ?_⟩
    have h' := h
    obtain ⟨cur, cols, ho, hr, hk⟩ := h
    rw [run_bind, deleteBlock_open ho]
    cases env.fail w.trace.length with
    | true =>
      rcases tx_failed (env := env) (s := .del k) h' with h | ⟨h, -⟩
      · exact Or.inl h
      · exact Or.inr (Or.inl ⟨rfl, h⟩)
    | false => exact Or.inl ⟨cur.del k, cols, setDb_did_self _ _ _ _ _ _, tx_snoc (s := .del k) rfl hr hk true⟩

theorem tx_copyFrame (env : Env) (t : Table) : CopyFrame env (TxGoes True t) where
  toFrame := tx_frame env True t
  gen := by
    intro i k
    cases i with
    | input =>
      unfold getGenerated
      refine tx_input (only_bind only_getBlock fun r => ?_) (onInput_bind onInput_getBlock fun r => ?_)
      · split <;> exact only_pure _
      · split <;> exact onInput_pure _
    | main =>
      intro w
      refine ⟨ext_some ((ext_all env).gen .main k) w, fun h => ?_⟩
      have := tx_get (env := env) (k := k) h
      unfold getGenerated
      rw [run_bind]
      rcases h1 : getBlock env .main k w with ⟨r, w1⟩
      rw [h1] at this
      rcases this with this | ⟨h2, -, h3⟩
      · cases r with
        | error e => exact Or.inl this
        | ok a => cases a <;> exact Or.inl this
      · simp only at h2 h3
        subst h2
        exact Or.inr (Or.inr ⟨trivial, h3⟩)

/-- Opening the main map. -/
theorem tx_opened (f : DbFile) : Tx f.table (World.start.opened .main f) := by
  refine ⟨f.table, f.cols, opened_at _ _ _, rfl, ?_⟩
  intro n
  refine onDisk_noWrite ?_ n
  intro d hd _
  simp only [World.opened, World.start, openTrace, List.nil_append, List.mem_cons, List.not_mem_nil,
    or_false] at hd
  rcases hd with rfl | rfl | rfl | rfl <;> simp

theorem tx_setup {env : Env} {args : InstArgs} {w : World} {f : DbFile}
    (hf : mapFile env args.mapPath = some f) (h : SetupWorld env args World.start w) : Tx f.table w := by
  obtain ⟨f', h1, -, -, h4⟩ := h
  rw [hf] at h1
  cases h1
  cases hi : args.inputMapPath with
  | none => rw [hi] at h4; simp only at h4; subst h4; exact tx_opened f
  | some p =>
    rw [hi] at h4
    obtain ⟨g, -, -, -, rfl⟩ := h4
    obtain ⟨cur, cols, ho, hr, hk⟩ := tx_opened f
    refine ⟨cur, cols, ho, ?_⟩
    exact tx_append_other (by simp [openTrace]) hr hk

/-! ## The trace of a whole run -/

/-- The trace of a run whose setup did not succeed, or whose user declined. -/
theorem ext_early {env : Env} {args : InstArgs} {w : World}
    (h : (∀ r w1, setup env args w ≠ (.ok (.ok r), w1)) ∨ (args.doConfirmation = true ∧ env.answer ≠ some true)) :
    ∃ ext, (computeThread env args w).2.trace = w.trace ++ ext ∧ ∀ d ∈ ext,
      d.stmt = .open ∨ d.stmt = .begin ∨ d.stmt = .tableInfo ∨ d.stmt = .prepare ∨ d.stmt = .rollback := by
  suffices h : Ext (fun d => d.stmt = .open ∨ d.stmt = .begin ∨ d.stmt = .tableInfo ∨ d.stmt = .prepare) w true
      (computeThread env args w).2 by
    obtain ⟨ext, h1, h2⟩ := h
    refine ⟨ext, h1, fun d hd => ?_⟩
    rcases h2 d hd with (h | h | h | h) | h <;> simp [h, undone]
  have hs := ext_setup (env := env)
    (P := fun d => d.stmt = .open ∨ d.stmt = .begin ∨ d.stmt = .tableInfo ∨ d.stmt = .prepare) args
    (by simp) (by simp) (by simp) (by simp) w
  rw [computeThread_eq, run_bind]
  rcases h1 : setup env args w with ⟨r, w1⟩
  rw [h1] at hs
  cases r with
  | error e => exact hs
  | ok r =>
    cases r with
    | error e => exact hs
    | ok q =>
      rcases h with h | h
      · exact absurd h1 (h q w1)
      · simp only
        rw [runCommand_eq, if_pos h]
        exact hs

/-- All statements of a run. -/
theorem ext_run {env : Env} {P : Did → Prop} {args : InstArgs} (ho : ∀ i ok, P ⟨i, .open, ok⟩)
    (hb : ∀ i ok, P ⟨i, .begin, ok⟩) (ht : ∀ i ok, P ⟨i, .tableInfo, ok⟩)
    (hp : ∀ i ok, P ⟨i, .prepare, ok⟩) (hs : ∀ i k ok, P ⟨i, .select k, ok⟩)
    (ha : ∀ i ok, P ⟨i, .selectAll, ok⟩) (hc : ∀ ok, P ⟨.main, .commit, ok⟩)
    (hv : args.command = "vacuum" → ∀ ok, P ⟨.main, .vacuum, ok⟩)
    (hput : args.command ≠ "vacuum" → ∀ k d ok, P ⟨.main, .put k d, ok⟩)
    (hdel : args.command ≠ "vacuum" → ∀ k ok, P ⟨.main, .del k, ok⟩) :
    Inv (Ext P) (computeThread env args) := by
  intro w
  have hset := ext_setup (env := env) (P := P) args ho hb ht hp w
  rw [computeThread_eq, run_bind]
  rcases h1 : setup env args w with ⟨r, w1⟩
  rw [h1] at hset
  cases r with
  | error e => exact hset
  | ok r =>
    cases r with
    | error e => exact hset
    | ok q =>
      simp only
      rw [runCommand_eq]
      split
      · exact hset
      · refine ext_trans hset (b := true) ?_
        obtain ⟨cmd, wn⟩ := q
        obtain ⟨-, hcmd, -⟩ := setup_iff.1 h1
        refine ext_finish (args := args) hc ?_ _
        by_cases hvac : args.command = "vacuum"
        · rw [hvac] at hcmd
          have : cmd = ⟨fun env _ => vacuum env, fun _ => .ok .ok, []⟩ := by
            have : command? "vacuum" = some ⟨fun env _ => vacuum env, fun _ => .ok .ok, []⟩ := rfl
            rw [this] at hcmd
            exact (Option.some.inj hcmd).symm
          subst this
          exact ext_vacuum hc (hv hvac)
        · exact inv_command (ext_frame hb hs ha (hput hvac) (hdel hvac)) hcmd hvac args

/-! ## Arguments -/

theorem colsOk_iff (cols : List Col) : colsOk cols = true ↔ MapColumns cols := by
  unfold colsOk MapColumns
  split
  · next a b t =>
    simp only [Bool.and_eq_true, beq_iff_eq, List.cons.injEq]
    constructor
    · rintro ⟨⟨⟨⟨⟨h1, h2⟩, h3⟩, h4⟩, h5⟩, h6⟩
      refine ⟨t, ?_, ?_, rfl⟩
      · cases a; simp_all
      · cases b; simp_all
    · rintro ⟨r, rfl, rfl, -⟩
      exact ⟨⟨⟨⟨⟨rfl, rfl⟩, rfl⟩, rfl⟩, rfl⟩, rfl⟩
  · next h =>
    constructor
    · intro h'; cases h'
    · rintro ⟨r, rfl⟩
      exact absurd rfl (h _ _ _)

theorem validNodePos_iff (p : Vec3) : p.isValidNodePos = true ↔ Within 31000 p := by
  unfold Vec3.isValidNodePos Within MAP_LIMIT
  rw [decide_eq_true_iff]
  omega

theorem huge_iff (n : Int) : huge n = false ↔ -62000 ≤ n ∧ n ≤ 62000 := by
  unfold huge MAP_LIMIT
  rw [decide_eq_false_iff_not]
  omega

/-! ## Setting up sends no message -/

theorem inv_trans {Q : World → Bool → World → Prop} {m : Run α} {f : α → Run β}
    (ht : ∀ w w1 b w2, Q w true w1 → Q w1 b w2 → Q w b w2) (hm : Inv Q m)
    (hf : ∀ a, Inv Q (f a)) : Inv Q (m >>= f) := by
  intro w
  have h := hm w
  rw [run_bind]
  rcases h1 : m w with ⟨r, w1⟩
  rw [h1] at h
  cases r with
  | error e => exact h
  | ok a => exact ht _ _ _ _ h (hf a w1)

/-- No message is sent. -/
def Silent (w : World) (_ : Bool) (w' : World) : Prop := w'.events = w.events

theorem silent_bind {m : Run α} {f : α → Run β} (hm : Inv Silent m) (hf : ∀ a, Inv Silent (f a)) :
    Inv Silent (m >>= f) := inv_trans (fun _ _ _ _ h h' => h'.trans h) hm hf

theorem silent_exec {env : Env} {i : DbId} {s : Sql} : Inv Silent (exec env i s) := by
  intro w
  unfold exec
  split
  · rfl
  · split
    · rfl
    · split
      · exact failed_events _ _ _ _
      · rfl

theorem silent_theDb (i : DbId) : Inv Silent (theDb i) := by
  intro w; unfold theDb; split <;> rfl

theorem silent_pure (a : α) : Inv Silent (pure a : Run α) := fun _ => rfl

theorem silent_ite (c : Prop) [Decidable c] {m m' : Run α} (h : Inv Silent m)
    (h' : Inv Silent m') : Inv Silent (if c then m else m') := by split <;> assumption

theorem silent_new {env : Env} {i : DbId} : Inv Silent (MapDb.new env i) := by
  unfold MapDb.new verifyDatabase
  refine silent_bind silent_exec fun _ => silent_ite _ (silent_bind ?_ fun r => ?_) (silent_pure _)
  · exact silent_bind silent_exec fun _ => silent_ite _ (silent_bind (silent_theDb i) fun _ =>
      silent_ite _ (silent_pure _) (silent_pure _)) (silent_pure _)
  · cases r with
    | error e => exact silent_pure _
    | ok u => exact (silent_bind silent_exec fun _ => silent_ite _ (silent_bind
        (silent_bind (silent_theDb i) fun _ _ => rfl) fun _ => silent_pure _) (silent_pure _))

theorem silent_openK {env : Env} {i : DbId} {path e1 e2 : String} {k : Run (Except String β)}
    (hk : Inv Silent k) : Inv Silent (openK env i path e1 e2 k) := by
  unfold openK
  refine silent_bind ?_ fun _ => silent_ite _ (silent_pure _) (silent_bind silent_new fun r => ?_)
  · intro w
    unfold openMap
    split
    · rfl
    · split <;> rfl
  · cases r with
    | error e => exact silent_pure _
    | ok u => exact hk

theorem silent_setup (env : Env) (args : InstArgs) : Inv Silent (setup env args) := by
  rw [setup_eq]
  split
  · exact silent_pure _
  · refine silent_bind (fun _ => rfl) fun cmd => silent_bind (fun _ => rfl) fun res => ?_
    have h : ∀ r : Command × Option String, Inv Silent (openAll env args r) := by
      intro r
      unfold openAll
      refine silent_openK ?_
      split
      · exact silent_pure _
      · exact silent_openK (silent_pure _)
    cases res with
    | error e => exact silent_pure _
    | ok => exact h _
    | warning t => exact h _

/-! ## Failures that are not noticed -/

/-- If the computation ends normally, all its statements satisfy `P`; the maps' flags stay set. -/
def Noticed (P : Did → Prop) (w : World) (b : Bool) (w' : World) : Prop :=
  (∀ i m, w.dbs i = some m → m.inTransaction = true) →
    (∀ i m, w'.dbs i = some m → m.inTransaction = true) ∧ (b = true → Ext P w b w')

theorem flags_did {w : World} (h : ∀ i m, w.dbs i = some m → m.inTransaction = true) {i : DbId} {m : MapDb}
    (hm : m.inTransaction = true) (s : Sql) (ok : Bool) :
    ∀ j m', ((w.setDb i m).did i s ok).dbs j = some m' → m'.inTransaction = true := by
  intro j m' hj
  by_cases hji : j = i
  · subst hji
    rw [setDb_did_self] at hj
    cases hj
    exact hm
  · rw [did_dbs, setDb_other m hji] at hj
    exact h j m' hj

/-- Executing a statement whose failure makes the computation fail. -/
theorem noticed_exec {env : Env} {P : Did → Prop} {i : DbId} {s : Sql} {r : Bool → Run α}
    {w : World} (hok : P ⟨i, s, true⟩) (hr : ∀ ok w', ((r ok) w').2 = w')
    (hbad : P ⟨i, s, false⟩ ∨ ∀ w', okay ((r false) w').1 = false) :
    Noticed P w (okay ((exec env i s >>= r) w).1) ((exec env i s >>= r) w).2 := by
  intro hw
  rw [run_bind]
  unfold exec
  cases hd : w.dbs i with
  | none => exact ⟨hw, by simp [okay]⟩
  | some m =>
    simp only
    have hfl : ∀ w', (∀ i m, w'.dbs i = some m → m.inTransaction = true) → Ext P w true w' ∨ (∀ w', okay ((r false) w').1 = false) →
        (∀ i m, w'.dbs i = some m → m.inTransaction = true) ∧ (okay ((r false) w').1 = true → Ext P w (okay ((r false) w').1) w') := by
      intro w' h1 h2
      refine ⟨h1, fun hb => ?_⟩
      rcases h2 with h | h
      · rw [hb]; exact h
      · rw [h] at hb; cases hb
    by_cases hc : m.conn.refuses s = true
    · simp only [hc, if_true]
      rw [hr]
      exact hfl _ hw (hbad.imp_left fun h => ⟨[⟨i, s, false⟩], rfl, by simpa using Or.inl h⟩)
    · by_cases hf : env.fail w.trace.length = true
      · simp only [if_neg hc, hf, if_true]
        rw [hr]
        refine hfl _ ?_ (hbad.imp_left fun h => ext_failed h)
        rcases failed_cases w env i s with h1 | ⟨-, m', h2, -, -, h1⟩ <;> rw [h1]
        · exact hw
        · exact flags_did (i := .main) (m := ⟨m'.conn.step .rollback, m'.inTransaction⟩) (w := w.did i s false)
            hw (hw .main m' h2) .rollback true
      · simp only [if_neg hf, if_neg hc]
        rw [hr]
        exact ⟨flags_did (m := ⟨m.conn.step s, m.inTransaction⟩) hw (hw i m hd) s true,
          fun _ => ⟨[⟨i, s, true⟩], rfl, by simpa using Or.inl hok⟩⟩

theorem begin_flag {env : Env} {i : DbId} {w : World} {m : MapDb} (h : w.dbs i = some m)
    (hm : m.inTransaction = true) : beginIfNeeded env i w = (.ok true, w) := by
  unfold beginIfNeeded
  rw [run_bind_ok (theDb_eq h), hm]
  rfl

theorem begin_none {env : Env} {i : DbId} {w : World} (h : w.dbs i = none) :
    ∃ e, beginIfNeeded env i w = (.error e, w) := by
  have : theDb i w = (.error (.panic "no such database"), w) := by unfold theDb; rw [h]
  unfold beginIfNeeded
  rw [run_bind_err this]
  exact ⟨_, rfl⟩

/-- Such a statement after `beginIfNeeded`. -/
theorem noticed_begin {env : Env} {P : Did → Prop} {i : DbId} {f : Bool → Run α} {w : World}
    (h : Noticed P w (okay ((f true) w).1) ((f true) w).2) :
    Noticed P w (okay ((beginIfNeeded env i >>= f) w).1) ((beginIfNeeded env i >>= f) w).2 := by
  intro hw
  cases hd : w.dbs i with
  | none =>
    obtain ⟨e, he⟩ := begin_none (env := env) hd
    rw [run_bind_err he]
    exact ⟨hw, by simp [okay]⟩
  | some m =>
    rw [run_bind_ok (begin_flag hd (hw i m hd))]
    exact h hw

theorem getBlock_shape {env : Env} {i : DbId} {k : Int} : getBlock env i k =
    (beginIfNeeded env i >>= fun ok => if ok then exec env i (.select k) >>= (fun ok =>
      if ok then theDb i >>= fun m => (match m.conn.cur.get? k with
        | some d => pure (.ok d)
        | none => pure (.error .missingData) : Run (Except DbErr Bytes))
      else pure (.error .databaseError)) else pure (.error .databaseError)) := rfl

theorem theDb_world (i : DbId) (w : World) : (theDb i w).2 = w := by
  unfold theDb; split <;> rfl

theorem bind_world {m : Run α} {f : α → Run β} (hm : ∀ w, (m w).2 = w) (hf : ∀ a w, (f a w).2 = w) (w : World) :
    ((m >>= f) w).2 = w := by
  rw [run_bind]
  have := hm w
  rcases h : m w with ⟨r, w1⟩
  rw [h] at this
  simp only at this
  subst this
  cases r with
  | error e => rfl
  | ok a => exact hf a _

theorem noticed_frame {env : Env} {P : Did → Prop} (h : ∀ d : Did, d.ok = true → P d) : Frame env (Noticed P) where
  quiet := fun w b w' h1 h2 _ hw => ⟨by rw [h1]; exact hw, fun _ => ext_quiet P w b w' h2⟩
  trans := fun w w1 b w2 h1 h2 hw => by
    obtain ⟨a1, a2⟩ := h1 hw
    obtain ⟨b1, b2⟩ := h2 a1
    exact ⟨b1, fun hb => ext_trans (a2 rfl) (b2 hb)⟩
  get := by
    intro i k w
    rw [getBlock_shape, run_bind_assoc]
    refine noticed_begin ?_
    simp only [if_true]
    rw [run_bind_assoc]
    refine noticed_exec (h _ rfl) ?_ (Or.inr fun _ => rfl)
    intro ok w'
    refine bind_world ?_ (fun _ _ => rfl) w'
    intro w'
    cases ok with
    | false => rfl
    | true =>
      refine bind_world (theDb_world i) ?_ w'
      intro m w
      cases m.conn.cur.get? k <;> rfl
  rows := by
    intro i w
    unfold iterRows
    refine noticed_begin ?_
    simp only [if_true]
    refine noticed_exec (h _ rfl) ?_ (Or.inr fun _ => rfl)
    intro ok w'
    cases ok with
    | false => rfl
    | true => exact bind_world (theDb_world i) (fun _ _ => rfl) w'
  put := by
    intro k d w
    unfold setBlock
    rw [run_bind_assoc]
    refine noticed_begin ?_
    simp only [if_true]
    rw [run_bind_assoc]
    refine noticed_exec (h _ rfl) ?_ (Or.inr fun _ => rfl)
    intro ok w'
    cases ok <;> rfl
  del := by
    intro k w
    unfold deleteBlock
    rw [run_bind_assoc]
    refine noticed_begin ?_
    simp only [if_true]
    rw [run_bind_assoc]
    refine noticed_exec (h _ rfl) ?_ (Or.inr fun _ => rfl)
    intro ok w'
    cases ok <;> rfl

theorem noticed_copy {env : Env} {P : Did → Prop} (h : ∀ d : Did, d.ok = true → P d)
    (hs : ∀ i k, P ⟨i, .select k, false⟩) : CopyFrame env (Noticed P) where
  toFrame := noticed_frame h
  gen := by
    intro i k w
    unfold getGenerated
    rw [getBlock_shape, run_bind_assoc]
    refine noticed_begin ?_
    simp only [if_true]
    rw [run_bind_assoc]
    refine noticed_exec (h _ rfl) ?_ (Or.inl (hs i k))
    intro ok w'
    refine bind_world ?_ (fun r w => by cases r <;> rfl) w'
    intro w'
    cases ok with
    | false => rfl
    | true =>
      refine bind_world (theDb_world i) ?_ w'
      intro m w
      cases m.conn.cur.get? k <;> rfl

end MapEditr
