import Verif.Proof.Query
import Verif.Proof.Frame
/-! # Lemmas: from starting the worker to the command body, and from there to the end -/

namespace MapEditr
open Spec
set_option linter.unusedSimpArgs false

theorem run_log (t : LogType) (m : Msg) (w : World) :
    log t m w = (.ok (), { w with events := w.events ++ [.log t m], acts := w.acts ++ [.tell (.log t m)] }) := rfl

theorem exec_begin {env : Env} {i : DbId} {w : World} {m : MapDb} (h : w.dbs i = some m)
    (ht : m.conn.inTx = false) : exec env i .begin w =
      if env.fail w.trace.length then (.ok false, w.failed env i .begin)
      else (.ok true, (w.setDb i { m with conn := { m.conn with inTx := true } }).did i .begin true) := by
  unfold exec
  rw [h]
  simp only [Conn.refuses, ht, Bool.false_eq_true, if_false, Conn.step]

theorem exec_commit {env : Env} {i : DbId} {w : World} {m : MapDb} (h : w.dbs i = some m)
    (ht : m.conn.inTx = true) : exec env i .commit w =
      if env.fail w.trace.length then (.ok false, w.failed env i .commit)
      else (.ok true, (w.setDb i { m with conn := { m.conn with durable := m.conn.cur, inTx := false } }).did
        i .commit true) := by
  unfold exec
  rw [h]
  simp only [Conn.refuses, ht, Bool.not_true, Bool.false_eq_true, if_false, Conn.step]

/-! ## Setting up -/

/-- `computeThread` is `setup` and then `runCommand`. -/
theorem computeThread_eq (env : Env) (args : InstArgs) : computeThread env args =
    (setup env args >>= fun r => match r with
      | .error e => pure (.error e)
      | .ok (cmd, warning) => runCommand env args cmd warning) := by
  unfold computeThread setup
  cases verifyArgs args with
  | some e => rfl
  | none =>
    simp only [run_bind_assoc]
    congr 1; funext cmd
    congr 1; funext res
    cases res with
    | error e => rfl
    | ok =>
      simp only [run_bind_assoc]
      congr 1; funext ok
      cases ok with
      | false => rfl
      | true =>
        simp only [Bool.not_true, Bool.false_eq_true, if_false, run_bind_assoc]
        congr 1; funext r
        cases r with
        | error e => rfl
        | ok u =>
          cases args.inputMapPath with
          | none => rfl
          | some p =>
            simp only [run_bind_assoc]
            congr 1; funext ok
            cases ok with
            | false => rfl
            | true =>
              simp only [Bool.not_true, Bool.false_eq_true, if_false, run_bind_assoc]
              congr 1; funext r
              cases r <;> rfl
    | warning t =>
      simp only [run_bind_assoc]
      congr 1; funext ok
      cases ok with
      | false => rfl
      | true =>
        simp only [Bool.not_true, Bool.false_eq_true, if_false, run_bind_assoc]
        congr 1; funext r
        cases r with
        | error e => rfl
        | ok u =>
          cases args.inputMapPath with
          | none => rfl
          | some p =>
            simp only [run_bind_assoc]
            congr 1; funext ok
            cases ok with
            | false => rfl
            | true =>
              simp only [Bool.not_true, Bool.false_eq_true, if_false, run_bind_assoc]
              congr 1; funext r
              cases r <;> rfl

/-- The statements of opening a map. -/
def openTrace (i : DbId) : List Did :=
  [⟨i, .open, true⟩, ⟨i, .begin, true⟩, ⟨i, .tableInfo, true⟩, ⟨i, .prepare, true⟩]

/-- The world after opening map `i` as file `f`. -/
def World.opened (w : World) (i : DbId) (f : DbFile) : World :=
  { w.setDb i ⟨⟨f.table, f.table, true, f.cols⟩, true⟩ with trace := w.trace ++ openTrace i }

theorem opened_at (w : World) (i : DbId) (f : DbFile) :
    OpenAt (w.opened i f) i f.table f.table f.cols := if_pos rfl

theorem setDb_setDb (w : World) (i : DbId) (m m' : MapDb) : (w.setDb i m).setDb i m' = w.setDb i m' := by
  unfold World.setDb
  simp only
  congr 1
  funext j
  by_cases h : j = i <;> simp [h]

theorem exec_ok_iff {env : Env} {i : DbId} {s : Sql} {w w' : World} {m : MapDb} (h : w.dbs i = some m) :
    exec env i s w = (.ok true, w') ↔ env.fail w.trace.length = false ∧ m.conn.refuses s = false ∧
      w' = (w.setDb i { m with conn := m.conn.step s }).did i s true := by
  unfold exec
  rw [h]
  simp only
  cases h1 : env.fail w.trace.length <;> cases h2 : m.conn.refuses s <;> simp [eq_comm]

theorem setFlag_run {i : DbId} {w : World} {m : MapDb} (h : w.dbs i = some m) (v : Bool) :
    setFlag i v w = (.ok (), w.setDb i { m with inTransaction := v }) := by
  unfold setFlag
  rw [run_bind_ok (theDb_eq h)]
  rfl

theorem did_setDb (w : World) (i j : DbId) (m : MapDb) (s : Sql) (ok : Bool) :
    (w.did j s ok).setDb i m = (w.setDb i m).did j s ok := rfl

theorem setDb_did_self (w : World) (i j : DbId) (m : MapDb) (s : Sql) (ok : Bool) :
    ((w.setDb i m).did j s ok).dbs i = some m := if_pos rfl

/-- Opening a map succeeds in exactly one way. -/
theorem open_iff {env : Env} {i : DbId} {path : String} {w w2 : World} :
    (∃ w1, openMap env i path w = (.ok true, w1) ∧ MapDb.new env i w1 = (.ok (.ok ()), w2)) ↔
    ∃ f, mapFile env path = some f ∧ colsOk f.cols = true ∧
      (∀ j, j < 4 → env.fail (w.trace.length + j) = false) ∧ w2 = w.opened i f := by
  unfold openMap
  constructor
  · rintro ⟨w1, h1, h2⟩
    cases hm : mapFile env path with
    | none => rw [hm] at h1; simp at h1
    | some f =>
      rw [hm] at h1
      simp only at h1
      cases hf0 : env.fail w.trace.length with
      | true => rw [hf0] at h1; simp at h1
      | false =>
        rw [hf0] at h1
        simp only [Bool.false_eq_true, if_false, Prod.mk.injEq, true_and] at h1
        subst h1
        refine ⟨f, rfl, ?_⟩
        unfold MapDb.new at h2
        rw [run_bind_iff] at h2
        obtain ⟨ok, w1, h2, h3⟩ := h2
        cases ok with
        | false => simp [run_pure] at h3
        | true =>
          have d0 : ((w.setDb i ⟨Conn.ofFile f, false⟩).did i .open true).dbs i =
            some ⟨Conn.ofFile f, false⟩ := if_pos rfl
          rw [exec_ok_iff d0] at h2
          obtain ⟨hf1, -, rfl⟩ := h2
          simp only [if_true] at h3
          rw [run_bind_iff] at h3
          obtain ⟨r, w2', h3, h4⟩ := h3
          cases r with
          | error e => simp [run_pure] at h4
          | ok u =>
            unfold verifyDatabase at h3
            rw [run_bind_iff] at h3
            obtain ⟨ok, w3, h3, h5⟩ := h3
            cases ok with
            | false => simp [run_pure] at h5
            | true =>
              rw [did_setDb, setDb_setDb] at h3
              rw [exec_ok_iff (if_pos rfl)] at h3
              obtain ⟨hf2, -, rfl⟩ := h3
              simp only [if_true] at h5
              rw [did_setDb, did_setDb, setDb_setDb, run_bind_ok (theDb_eq (if_pos rfl))] at h5
              cases hc : colsOk f.cols with
              | false =>
                rw [if_neg (by simp [Conn.step, Conn.ofFile, hc])] at h5
                simp [run_pure] at h5
              | true =>
                rw [if_pos (by simp [Conn.step, Conn.ofFile, hc])] at h5
                simp only [run_pure, Prod.mk.injEq] at h5
                rw [← h5.2] at h4
                rw [run_bind_iff] at h4
                obtain ⟨ok, w5, h4, h6⟩ := h4
                cases ok with
                | false => simp [run_pure] at h6
                | true =>
                  rw [exec_ok_iff (if_pos rfl)] at h4
                  obtain ⟨hf3, -, rfl⟩ := h4
                  simp only [if_true] at h6
                  rw [did_setDb, did_setDb, did_setDb, setDb_setDb,
                    run_bind_ok (setFlag_run (if_pos rfl) true)] at h6
                  simp only [run_pure, Prod.mk.injEq, true_and] at h6
                  refine ⟨rfl, ?_, ?_⟩
                  · intro j hj
                    have hl : w.trace.length + 0 = w.trace.length := rfl
                    simp only [World.did, World.setDb, List.length_append, List.length_cons,
                      List.length_nil] at hf1 hf2 hf3
                    match j, hj with
                    | 0, _ => exact hf0
                    | 1, _ => exact hf1
                    | 2, _ => exact hf2
                    | 3, _ => exact hf3
                  · rw [← h6, did_setDb, did_setDb, did_setDb, did_setDb, setDb_setDb]
                    simp [World.opened, World.did, openTrace, Conn.step, Conn.ofFile, World.setDb]
  · rintro ⟨f, hm, hc, hf, rfl⟩
    rw [hm]
    have hf0 := hf 0 (by omega)
    have hf1 := hf 1 (by omega)
    have hf2 := hf 2 (by omega)
    have hf3 := hf 3 (by omega)
    rw [Nat.add_zero] at hf0
    refine ⟨(w.setDb i ⟨Conn.ofFile f, false⟩).did i .open true,
      by simp only [hf0, Bool.false_eq_true, if_false], ?_⟩
    unfold MapDb.new
    rw [run_bind_ok ((exec_ok_iff (m := ⟨Conn.ofFile f, false⟩) (if_pos rfl)).2 ⟨by
      simpa [World.did, World.setDb] using hf1, rfl, rfl⟩)]
    simp only [if_true]
    rw [did_setDb, setDb_setDb]
    unfold verifyDatabase
    rw [run_bind_assoc, run_bind_ok ((exec_ok_iff (if_pos rfl)).2 ⟨by
      simpa [World.did, World.setDb] using hf2, rfl, rfl⟩)]
    simp only [if_true]
    rw [did_setDb, did_setDb, setDb_setDb, run_bind_assoc, run_bind_ok (theDb_eq (if_pos rfl))]
    rw [if_pos (by simp [Conn.step, Conn.ofFile, hc]), run_pure_bind]
    simp only
    rw [run_bind_ok ((exec_ok_iff (if_pos rfl)).2 ⟨by
      simpa [World.did, World.setDb] using hf3, rfl, rfl⟩)]
    simp only [if_true]
    rw [did_setDb, did_setDb, did_setDb, setDb_setDb, run_bind_ok (setFlag_run (if_pos rfl) true)]
    rw [run_pure, did_setDb, did_setDb, did_setDb, did_setDb, setDb_setDb]
    simp [World.opened, World.did, openTrace, Conn.step, Conn.ofFile, World.setDb]

/-- The warning of a check result. -/
def warningOf : ArgResult → Option String
  | .warning t => some t
  | _ => none

/-- Open a map, check it, and go on. -/
def openK (env : Env) (i : DbId) (path e1 e2 : String) (k : Run (Except String β)) :
    Run (Except String β) := do
  let ok ← openMap env i path
  if !ok then return .error e1
  else
    match ← MapDb.new env i with
    | .error _ => return .error e2
    | .ok _ => k

theorem openK_iff {env : Env} {i : DbId} {path e1 e2 : String} {k : Run (Except String β)} {q : β}
    {w w' : World} : openK env i path e1 e2 k w = (.ok (.ok q), w') ↔
      ∃ f, mapFile env path = some f ∧ colsOk f.cols = true ∧
        (∀ j, j < 4 → env.fail (w.trace.length + j) = false) ∧
        k (w.opened i f) = (.ok (.ok q), w') := by
  unfold openK
  constructor
  · intro h
    rw [run_bind_iff] at h
    obtain ⟨ok, w1, h1, h2⟩ := h
    cases ok with
    | false => simp [run_pure] at h2
    | true =>
      simp only [Bool.not_true, Bool.false_eq_true, if_false] at h2
      rw [run_bind_iff] at h2
      obtain ⟨x, w2, h2, h3⟩ := h2
      cases x with
      | error e => simp [run_pure] at h3
      | ok u =>
        obtain ⟨f, a, b, c, rfl⟩ := open_iff.1 ⟨w1, h1, h2⟩
        exact ⟨f, a, b, c, h3⟩
  · rintro ⟨f, a, b, c, h⟩
    obtain ⟨w1, h1, h2⟩ := open_iff.2 ⟨f, a, b, c, rfl⟩
    rw [run_bind_ok h1]
    simp only [Bool.not_true, Bool.false_eq_true, if_false]
    rw [run_bind_ok h2]
    exact h

/-- What a successful `setup` does to the world. -/
def SetupWorld (env : Env) (args : InstArgs) (w w' : World) : Prop :=
  ∃ f, mapFile env args.mapPath = some f ∧ colsOk f.cols = true ∧
    (∀ j, j < 4 → env.fail (w.trace.length + j) = false) ∧
    match args.inputMapPath with
    | none => w' = w.opened .main f
    | some p => ∃ g, mapFile env p = some g ∧ colsOk g.cols = true ∧
        (∀ j, j < 4 → env.fail (w.trace.length + 4 + j) = false) ∧
        w' = (w.opened .main f).opened .input g

theorem opened_len (w : World) (i : DbId) (f : DbFile) : (w.opened i f).trace.length = w.trace.length + 4 := by
  simp [World.opened, openTrace]

/-- The part of `setup` that opens the maps. -/
def openAll (env : Env) (args : InstArgs) (r : β) : Run (Except String β) :=
  openK env .main args.mapPath "Failed to open main world/map." "Main world or map database is invalid."
    (match args.inputMapPath with
     | none => pure (.ok r)
     | some p => openK env .input p "Failed to open input world/map."
        "Input world or map database is invalid." (pure (.ok r)))

theorem openAll_iff {env : Env} {args : InstArgs} {r q : β} {w w' : World} :
    openAll env args r w = (.ok (.ok q), w') ↔ q = r ∧ SetupWorld env args w w' := by
  unfold openAll SetupWorld
  rw [openK_iff]
  cases args.inputMapPath with
  | none =>
    simp only [run_pure, Prod.mk.injEq, Except.ok.injEq, true_and]
    constructor
    · rintro ⟨f, a, b, c, h1, h2⟩; exact ⟨h1.symm, f, a, b, c, h2.symm⟩
    · rintro ⟨rfl, f, a, b, c, rfl⟩; exact ⟨f, a, b, c, rfl, rfl⟩
  | some p =>
    constructor
    · rintro ⟨f, a, b, c, h⟩
      simp only at h
      rw [openK_iff] at h
      obtain ⟨g, a', b', c', h⟩ := h
      simp only [run_pure, Prod.mk.injEq, Except.ok.injEq] at h
      rw [opened_len] at c'
      exact ⟨h.1.symm, f, a, b, c, g, a', b', c', h.2.symm⟩
    · rintro ⟨rfl, f, a, b, c, g, a', b', c', rfl⟩
      refine ⟨f, a, b, c, ?_⟩
      simp only
      rw [openK_iff]
      exact ⟨g, a', b', by rw [opened_len]; exact c', rfl⟩

theorem setup_eq (env : Env) (args : InstArgs) : setup env args =
    (match verifyArgs args with
    | some e => pure (.error e)
    | none => do
      let cmd ← Run.unwrap (command? args.command)
      match ← Run.lift (cmd.verify args) with
      | .error e => pure (.error e)
      | res => openAll env args (cmd, warningOf res)) := by
  unfold setup
  cases verifyArgs args with
  | some e => rfl
  | none =>
    simp only
    congr 1

theorem setup_iff {env : Env} {args : InstArgs} {cmd : Command} {wn : Option String} {w w' : World} :
    setup env args w = (.ok (.ok (cmd, wn)), w') ↔
      verifyArgs args = none ∧ command? args.command = some cmd ∧
      (∃ res, cmd.verify args = .ok res ∧ (∀ e, res ≠ .error e) ∧ wn = warningOf res) ∧
      SetupWorld env args w w' := by
  rw [setup_eq]
  cases verifyArgs args with
  | some e => simp [run_pure]
  | none =>
    simp only [run_bind_iff, run_unwrap_iff, run_lift_iff]
    constructor
    · rintro ⟨c, w1, ⟨h1, rfl⟩, res, w2, ⟨h2, rfl⟩, h3⟩
      cases res with
      | error e => simp [run_pure] at h3
      | ok =>
        rw [openAll_iff] at h3
        obtain ⟨h3, h4⟩ := h3
        cases h3
        exact ⟨trivial, h1, ⟨_, h2, by simp, rfl⟩, h4⟩
      | warning t =>
        rw [openAll_iff] at h3
        obtain ⟨h3, h4⟩ := h3
        cases h3
        exact ⟨trivial, h1, ⟨_, h2, by simp, rfl⟩, h4⟩
    · rintro ⟨-, h1, ⟨res, h2, h3, rfl⟩, h4⟩
      refine ⟨cmd, w, ⟨h1, rfl⟩, res, w, ⟨h2, rfl⟩, ?_⟩
      cases res with
      | error e => exact absurd rfl (h3 e)
      | ok => exact openAll_iff.2 ⟨rfl, h4⟩
      | warning t => exact openAll_iff.2 ⟨rfl, h4⟩

/-! ## The end of a run -/

/-- Messages before the command body. -/
def preEvents (args : InstArgs) (wn : Option String) : List Event :=
  (if args.doConfirmation then [.log .warning (.text GENERAL_WARNING)] else []) ++
  (match wn with | some t => [.log .warning (.text t)] | none => []) ++
  (if args.doConfirmation then [.confirmRequest] else [])

theorem say_nil (w : World) : w.say [] = w := by
  unfold World.say
  rw [List.map_nil, List.append_nil, List.append_nil]

theorem say_append (w : World) (a b : List Event) : w.say (a ++ b) = (w.say a).say b := by
  unfold World.say
  rw [List.map_append, List.append_assoc, List.append_assoc]

theorem runCommand_eq (env : Env) (args : InstArgs) (cmd : Command) (wn : Option String) (w : World) :
    runCommand env args cmd wn w =
      if args.doConfirmation = true ∧ env.answer ≠ some true then
        (.ok (.ok ()), w.say (preEvents args wn))
      else finish env args cmd (w.say (preEvents args wn)) := by
  unfold runCommand preEvents
  cases hc : args.doConfirmation with
  | false =>
    simp only [Bool.false_eq_true, if_false, false_and, List.nil_append, List.append_nil]
    cases wn with
    | none => rw [say_nil]; rfl
    | some t => rfl
  | true =>
    simp only [if_true, true_and]
    by_cases ha : env.answer = some true
    · rw [if_neg (by simp [ha])]
      cases wn with
      | none =>
        rw [run_bind_ok (run_log _ _ _)]
        unfold getConfirmation
        simp only [ha]
        rw [List.append_nil, say_append]
        rfl
      | some t =>
        rw [run_bind_ok (run_log _ _ _)]
        unfold getConfirmation
        simp only [ha]
        rw [say_append, say_append]
        rfl
    · rw [if_pos ha]
      have hb : env.answer.getD false = false := by
        cases h : env.answer with
        | none => rfl
        | some b => cases b with
          | false => rfl
          | true => exact absurd h ha
      cases wn with
      | none =>
        rw [run_bind_ok (run_log _ _ _)]
        unfold getConfirmation
        simp only [hb]
        rw [List.append_nil, say_append]
        rfl
      | some t =>
        rw [run_bind_ok (run_log _ _ _)]
        unfold getConfirmation
        simp only [hb]
        rw [say_append, say_append]
        rfl

/-- Message about skipped blocks. -/
def skipEvents (n : Nat) : List Event :=
  if n > 0 then [.log .info (.count "Skipped {} invalid/unsupported mapblocks." n)] else []

/-- The end of a run whose command body left the main map open. -/
theorem finish_open {env : Env} {args : InstArgs} {cmd : Command} {w w2 : World} {dur cur : Table}
    {cols : List Col} (h : cmd.func env args w = (.ok (), w2)) (ho : OpenAt w2 .main dur cur cols) :
    finish env args cmd w =
      if env.fail w2.trace.length then
        (.ok (.error "database operation failed"),
          (w2.say (skipEvents w2.status.failed ++ [.log .info (.text "Committing...")])).failed env .main .commit)
      else
        (.ok (.ok ()),
          (((w2.setDb .main ⟨⟨cur, cur, false, cols⟩, false⟩).say (skipEvents w2.status.failed ++
            [.log .info (.text "Committing..."), .log .info (.text "Done.")])).did .main .commit true)) := by
  unfold finish
  rw [run_bind_ok h]
  have key : ∀ w3 : World, w3.dbs = w2.dbs → w3.trace = w2.trace → (do
      let m ← theDb .main
      let ok ←
        if m.inTransaction then do
          logInfo (.text "Committing...")
          commitIfNeeded env .main
        else pure true
      if ok then
        logInfo (.text "Done.")
        return .ok ()
      else return .error "database operation failed" : Run (Except String Unit)) w3 =
      if env.fail w3.trace.length then
        (.ok (.error "database operation failed"),
          (w3.say [.log .info (.text "Committing...")]).failed env .main .commit)
      else
        (.ok (.ok ()),
          (((w3.setDb .main ⟨⟨cur, cur, false, cols⟩, false⟩).say
            [.log .info (.text "Committing..."), .log .info (.text "Done.")]).did .main .commit true)) := by
    intro w3 hd ht
    have ho3 : OpenAt w3 .main dur cur cols := by unfold OpenAt; rw [hd]; exact ho
    rw [run_bind_ok (theDb_eq ho3)]
    simp only [if_true]
    have hc : commitIfNeeded env .main (w3.say [.log .info (.text "Committing...")]) =
        if env.fail w3.trace.length then
          (.ok false, (w3.say [.log .info (.text "Committing...")]).failed env .main .commit)
        else (.ok true, ((w3.setDb .main ⟨⟨cur, cur, false, cols⟩, false⟩).say
            [.log .info (.text "Committing...")]).did .main .commit true) := by
      unfold commitIfNeeded
      rw [run_bind_ok (theDb_eq (w := w3.say _) ho3)]
      simp only [if_true]
      rw [run_bind, exec_commit (w := w3.say _) ho3 rfl]
      have ht' : (w3.say [.log .info (.text "Committing...")]).trace.length = w3.trace.length := rfl
      rw [ht']
      cases env.fail w3.trace.length with
      | true => rfl
      | false =>
        simp only [Bool.false_eq_true, if_false, if_true]
        rw [run_bind_ok (setFlag_run (setDb_did_self _ _ _ _ _ _) false), run_pure,
          did_setDb, setDb_setDb]
        rfl
    rw [run_bind_ok (show logInfo (.text "Committing...") w3 = (.ok (), w3.say _) from rfl), run_bind, hc]
    cases env.fail w3.trace.length with
    | true => rfl
    | false =>
      simp only [Bool.false_eq_true, if_false, if_true]
      rw [run_bind_ok (show logInfo (.text "Done.") _ = (.ok (), World.say _ _) from rfl), run_pure]
      simp [World.say, World.did, World.setDb]
  rw [run_bind_ok (show getFailed w2 = (.ok w2.status.failed, w2) from rfl)]
  unfold skipEvents
  by_cases hf : w2.status.failed > 0
  · simp only [if_pos hf]
    rw [run_bind_ok (show logInfo _ w2 = (.ok (), w2.say [_]) from rfl), key (w2.say _) rfl rfl]
    simp [World.say, World.did, World.setDb]
  · simp only [if_neg hf]
    rw [key w2 rfl rfl]
    simp [World.say, World.did, World.setDb]

/-! ## Frames -/

/-- SQLite has undone the transaction on the main map. -/
def undone : Did := ⟨.main, .rollback, true⟩

/-- All new statements satisfy `P`. -/
def Ext (P : Did → Prop) (w : World) (_ : Bool) (w' : World) : Prop :=
  ∃ ext, w'.trace = w.trace ++ ext ∧ ∀ d ∈ ext, P d ∨ d = undone

theorem ext_quiet (P : Did → Prop) (w : World) (b : Bool) (w' : World) (h : w'.trace = w.trace) :
    Ext P w b w' := ⟨[], by simp [h], by simp⟩

theorem ext_trans {P : Did → Prop} {w w1 w2 : World} {a b c : Bool} (h : Ext P w a w1) (h' : Ext P w1 b w2) :
    Ext P w c w2 := by
  obtain ⟨e1, h1, h2⟩ := h
  obtain ⟨e2, h3, h4⟩ := h'
  refine ⟨e1 ++ e2, by rw [h3, h1, List.append_assoc], ?_⟩
  intro d hd
  rcases List.mem_append.1 hd with h | h
  · exact h2 d h
  · exact h4 d h

theorem ext_bind {P : Did → Prop} {m : Run α} {f : α → Run β} (hm : Inv (Ext P) m)
    (hf : ∀ a, Inv (Ext P) (f a)) : Inv (Ext P) (m >>= f) := by
  intro w
  have h := hm w
  rw [run_bind]
  rcases h1 : m w with ⟨r, w1⟩
  rw [h1] at h
  cases r with
  | error e => exact h
  | ok a => exact ext_trans h (hf a w1)

theorem ext_failed {env : Env} {P : Did → Prop} {i : DbId} {s : Sql} {w : World} {b : Bool} (h : P ⟨i, s, false⟩) :
    Ext P w b (w.failed env i s) := by
  obtain ⟨l, h1, h2⟩ := failed_trace w env i s
  refine ⟨_, h1, ?_⟩
  intro d hd
  rcases List.mem_cons.1 hd with rfl | hd
  · exact Or.inl h
  · rcases h2 with rfl | ⟨-, rfl⟩
    · cases hd
    · exact Or.inr (List.mem_singleton.1 hd)

theorem ext_exec {env : Env} {P : Did → Prop} {i : DbId} {s : Sql} (h : ∀ ok, P ⟨i, s, ok⟩) :
    Inv (Ext P) (exec env i s) := by
  intro w
  unfold exec
  split
  · exact ext_quiet P w _ _ rfl
  · split
    · exact ⟨[⟨i, s, false⟩], rfl, by simpa using Or.inl (h false)⟩
    · split
      · exact ext_failed (h false)
      · exact ⟨[⟨i, s, true⟩], rfl, by simpa using Or.inl (h true)⟩

theorem ext_same {P : Did → Prop} {m : Run α} (h : ∀ w, (m w).2.trace = w.trace) : Inv (Ext P) m :=
  fun w => ext_quiet P w _ _ (h w)

theorem ext_theDb {P : Did → Prop} (i : DbId) : Inv (Ext P) (theDb i) :=
  ext_same fun w => by unfold theDb; split <;> rfl

theorem ext_pure {P : Did → Prop} (a : α) : Inv (Ext P) (pure a : Run α) := ext_same fun _ => rfl

theorem ext_setFlag {P : Did → Prop} (i : DbId) (v : Bool) : Inv (Ext P) (setFlag i v) :=
  ext_bind (ext_theDb i) fun _ => ext_same fun _ => rfl

theorem ext_ite {P : Did → Prop} (c : Prop) [Decidable c] {m m' : Run α} (h : Inv (Ext P) m)
    (h' : Inv (Ext P) m') : Inv (Ext P) (if c then m else m') := by split <;> assumption

theorem ext_begin {env : Env} {P : Did → Prop} {i : DbId} (h : ∀ ok, P ⟨i, .begin, ok⟩) :
    Inv (Ext P) (beginIfNeeded env i) :=
  ext_bind (ext_theDb i) fun _ => ext_ite _ (ext_exec h) (ext_pure _)

theorem ext_getBlock {env : Env} {P : Did → Prop} {i : DbId} {k : Int} (h : ∀ ok, P ⟨i, .begin, ok⟩)
    (h' : ∀ ok, P ⟨i, .select k, ok⟩) : Inv (Ext P) (getBlock env i k) := by
  unfold getBlock
  refine ext_bind (ext_begin h) fun _ => ext_ite _ (ext_bind (ext_exec h') fun _ => ext_ite _
    (ext_bind (ext_theDb i) fun m => ?_) (ext_pure _)) (ext_pure _)
  split <;> exact ext_pure _

/-- The frame of all commands: anything but `COMMIT` and `VACUUM`, and on the input map only reading. -/
theorem ext_frame {env : Env} {P : Did → Prop} (hb : ∀ i ok, P ⟨i, .begin, ok⟩)
    (hs : ∀ i k ok, P ⟨i, .select k, ok⟩) (ha : ∀ i ok, P ⟨i, .selectAll, ok⟩)
    (hp : ∀ k d ok, P ⟨.main, .put k d, ok⟩) (hd : ∀ k ok, P ⟨.main, .del k, ok⟩) :
    CopyFrame env (Ext P) where
  quiet := fun w b w' _ h _ => ext_quiet P w b w' h
  trans := fun _ _ _ _ h h' => ext_trans h h'
  get := fun i k => ext_bind (ext_getBlock (hb i) (hs i k)) fun _ => ext_same fun _ => rfl
  rows := fun i => by
    unfold iterRows
    exact ext_bind (ext_begin (hb i)) fun _ => ext_ite _ (ext_bind (ext_exec (ha i)) fun _ => ext_ite _
      (ext_bind (ext_theDb i) fun m => ext_pure _) (ext_same fun _ => rfl)) (ext_same fun _ => rfl)
  put := fun k d => by
    refine ext_bind ?_ fun _ => ext_same fun _ => rfl
    unfold setBlock
    exact ext_bind (ext_begin (hb _)) fun _ => ext_ite _ (ext_bind (ext_exec (hp k d)) fun _ => ext_ite _
      (ext_pure _) (ext_pure _)) (ext_pure _)
  del := fun k => by
    refine ext_bind ?_ fun _ => ext_same fun _ => rfl
    unfold deleteBlock
    exact ext_bind (ext_begin (hb _)) fun _ => ext_ite _ (ext_bind (ext_exec (hd k)) fun _ => ext_ite _
      (ext_pure _) (ext_pure _)) (ext_pure _)
  gen := fun i k => by
    unfold getGenerated
    refine ext_bind (ext_getBlock (hb i) (hs i k)) fun r => ?_
    split <;> exact ext_pure _

theorem ext_new {env : Env} {P : Did → Prop} {i : DbId} (hb : ∀ ok, P ⟨i, .begin, ok⟩)
    (ht : ∀ ok, P ⟨i, .tableInfo, ok⟩) (hp : ∀ ok, P ⟨i, .prepare, ok⟩) :
    Inv (Ext P) (MapDb.new env i) := by
  unfold MapDb.new verifyDatabase
  refine ext_bind (ext_exec hb) fun _ => ext_ite _ (ext_bind ?_ fun r => ?_) (ext_pure _)
  · exact ext_bind (ext_exec ht) fun _ => ext_ite _ (ext_bind (ext_theDb i) fun _ => ext_ite _ (ext_pure _)
      (ext_pure _)) (ext_pure _)
  · cases r with
    | error e => exact ext_pure _
    | ok u => exact (ext_bind (ext_exec hp) fun _ => ext_ite _ (ext_bind (ext_setFlag _ _) fun _ => ext_pure _)
        (ext_pure _))

theorem ext_open {env : Env} {P : Did → Prop} {i : DbId} {path : String} (h : ∀ ok, P ⟨i, .open, ok⟩) :
    Inv (Ext P) (openMap env i path) := by
  intro w
  unfold openMap
  split
  · exact ext_quiet P w _ _ rfl
  · split
    · exact ⟨[⟨i, .open, false⟩], rfl, by simpa using Or.inl (h false)⟩
    · exact ⟨[⟨i, .open, true⟩], rfl, by simpa using Or.inl (h true)⟩

theorem ext_openK {env : Env} {P : Did → Prop} {i : DbId} {path e1 e2 : String}
    {k : Run (Except String β)} (ho : ∀ ok, P ⟨i, .open, ok⟩) (hb : ∀ ok, P ⟨i, .begin, ok⟩)
    (ht : ∀ ok, P ⟨i, .tableInfo, ok⟩) (hp : ∀ ok, P ⟨i, .prepare, ok⟩) (hk : Inv (Ext P) k) :
    Inv (Ext P) (openK env i path e1 e2 k) := by
  unfold openK
  refine ext_bind (ext_open ho) fun _ => ext_ite _ (ext_pure _) (ext_bind (ext_new hb ht hp) fun r => ?_)
  cases r with
  | error e => exact ext_pure _
  | ok u => exact hk

theorem ext_setup {env : Env} {P : Did → Prop} (args : InstArgs) (ho : ∀ i ok, P ⟨i, .open, ok⟩)
    (hb : ∀ i ok, P ⟨i, .begin, ok⟩) (ht : ∀ i ok, P ⟨i, .tableInfo, ok⟩)
    (hp : ∀ i ok, P ⟨i, .prepare, ok⟩) : Inv (Ext P) (setup env args) := by
  rw [setup_eq]
  split
  · exact ext_pure _
  · refine ext_bind (ext_same fun _ => rfl) fun cmd => ext_bind (ext_same fun _ => rfl) fun res => ?_
    have h : ∀ r : Command × Option String, Inv (Ext P) (openAll env args r) := by
      intro r
      unfold openAll
      refine ext_openK (ho _) (hb _) (ht _) (hp _) ?_
      split
      · exact ext_pure _
      · exact ext_openK (ho _) (hb _) (ht _) (hp _) (ext_pure _)
    cases res with
    | error e => exact ext_pure _
    | ok => exact h _
    | warning t => exact h _

theorem ext_vacuum {env : Env} {P : Did → Prop} (hc : ∀ ok, P ⟨.main, .commit, ok⟩)
    (hv : ∀ ok, P ⟨.main, .vacuum, ok⟩) : Inv (Ext P) (vacuum env) := by
  unfold vacuum
  refine ext_bind (ext_same fun _ => rfl) fun _ => ext_bind (ext_same fun _ => rfl) fun _ =>
    ext_bind (ext_same fun _ => rfl) fun _ => ext_bind ?_ fun r => ext_bind (ext_same fun _ => rfl) fun _ => ?_
  · unfold dbVacuum commitIfNeeded
    refine ext_bind (ext_bind (ext_theDb _) fun _ => ext_ite _ (ext_bind (ext_exec hc) fun _ => ext_ite _
      (ext_bind (ext_setFlag _ _) fun _ => ext_pure _) (ext_pure _)) (ext_pure _)) fun _ => ext_ite _
      (ext_bind (ext_exec hv) fun _ => ext_ite _ (ext_pure _) (ext_pure _)) (ext_pure _)
  · cases r <;> exact ext_same fun _ => rfl

theorem ext_finish {env : Env} {P : Did → Prop} {args : InstArgs} {cmd : Command}
    (hc : ∀ ok, P ⟨.main, .commit, ok⟩) (h : Inv (Ext P) (cmd.func env args)) :
    Inv (Ext P) (finish env args cmd) := by
  unfold finish
  have hcom : Inv (Ext P) (commitIfNeeded env .main) := by
    unfold commitIfNeeded
    exact ext_bind (ext_theDb _) fun _ => ext_ite _ (ext_bind (ext_exec hc) fun _ => ext_ite _
      (ext_bind (ext_setFlag _ _) fun _ => ext_pure _) (ext_pure _)) (ext_pure _)
  have hend : ∀ ok : Bool, Inv (Ext P) (if ok then do
        logInfo (.text "Done.")
        return .ok ()
      else return .error "database operation failed" : Run (Except String Unit)) := fun ok =>
    ext_ite _ (ext_bind (ext_same fun _ => rfl) fun _ => ext_pure _) (ext_pure _)
  refine ext_bind h fun _ => ext_bind (ext_same fun _ => rfl) fun n => ?_
  have hrest : Inv (Ext P) (do
      let m ← theDb .main
      let ok ←
        if m.inTransaction then do
          logInfo (.text "Committing...")
          commitIfNeeded env .main
        else pure true
      if ok then
        logInfo (.text "Done.")
        return .ok ()
      else return .error "database operation failed" : Run (Except String Unit)) :=
    ext_bind (ext_theDb _) fun m => ext_ite _ (ext_bind (ext_same fun _ => rfl) fun _ =>
      ext_bind hcom hend) (ext_bind (ext_pure _) hend)
  exact ext_ite _ (ext_bind (ext_same fun _ => rfl) fun _ => hrest) hrest

/-! ## Commands leave the maps open -/

/-- SQLite has undone the transaction on the main map, unknown to the program. -/
def Lost (w : World) : Prop := ∃ m, w.dbs .main = some m ∧ m.inTransaction = true ∧ m.conn.inTx = false

theorem open_not_lost {w : World} {dur cur : Table} {cols : List Col} (h : OpenAt w .main dur cur cols) :
    ¬ Lost w := by
  rintro ⟨m, h1, h2, h3⟩
  rw [h] at h1
  cases h1
  cases h3

/-- The main map stays open with the same committed content or the transaction is lost, for good; the
input map stays exactly as it is. -/
def Stays (w : World) (_ : Bool) (w' : World) : Prop :=
  (∀ dur cur cols, OpenAt w .main dur cur cols → (∃ cur', OpenAt w' .main dur cur' cols) ∨ Lost w') ∧
  (Lost w → Lost w') ∧
  (∀ dur cur cols, OpenAt w .input dur cur cols → OpenAt w' .input dur cur cols)

theorem lost_same {w w' : World} (h : w'.dbs = w.dbs) (hl : Lost w) : Lost w' := by
  unfold Lost; rw [h]; exact hl

theorem stays_same {w w' : World} (b : Bool) (h : w'.dbs = w.dbs) : Stays w b w' := by
  unfold Stays OpenAt
  rw [h]
  exact ⟨fun dur cur cols h => Or.inl ⟨cur, h⟩, lost_same h, fun _ _ _ h => h⟩

/-- Only database `i` changes. -/
def Only (i : DbId) (w : World) (_ : Bool) (w' : World) : Prop := ∀ j, j ≠ i → w'.dbs j = w.dbs j

theorem only_bind {i : DbId} {m : Run α} {f : α → Run β} (hm : Inv (Only i) m)
    (hf : ∀ a, Inv (Only i) (f a)) : Inv (Only i) (m >>= f) := by
  intro w
  have h := hm w
  rw [run_bind]
  rcases h1 : m w with ⟨r, w1⟩
  rw [h1] at h
  cases r with
  | error e => exact h
  | ok a => exact fun j hj => (hf a w1 j hj).trans (h j hj)

theorem only_exec {env : Env} {i : DbId} {s : Sql} : Inv (Only i) (exec env i s) := by
  intro w j hj
  unfold exec
  split
  · rfl
  · split
    · rfl
    · split
      · exact failed_other w env s hj
      · exact if_neg hj

theorem only_same {i : DbId} {m : Run α} (h : ∀ w, (m w).2.dbs = w.dbs) : Inv (Only i) m :=
  fun w j _ => by rw [h w]

theorem only_theDb {i j : DbId} : Inv (Only i) (theDb j) :=
  only_same fun w => by unfold theDb; split <;> rfl

theorem only_pure {i : DbId} (a : α) : Inv (Only i) (pure a : Run α) := only_same fun _ => rfl

theorem only_ite {i : DbId} (c : Prop) [Decidable c] {m m' : Run α} (h : Inv (Only i) m)
    (h' : Inv (Only i) m') : Inv (Only i) (if c then m else m') := by split <;> assumption

theorem only_begin {env : Env} {i : DbId} : Inv (Only i) (beginIfNeeded env i) :=
  only_bind only_theDb fun _ => only_ite _ only_exec (only_pure _)

theorem only_getBlock {env : Env} {i : DbId} {k : Int} : Inv (Only i) (getBlock env i k) := by
  unfold getBlock
  refine only_bind only_begin fun _ => only_ite _ (only_bind only_exec fun _ => only_ite _
    (only_bind only_theDb fun m => ?_) (only_pure _)) (only_pure _)
  split <;> exact only_pure _

theorem failed_open {env : Env} {w : World} {s : Sql} {dur cur : Table} {cols : List Col}
    (h : OpenAt w .main dur cur cols) :
    OpenAt (w.failed env .main s) .main dur cur cols ∨ Lost (w.failed env .main s) := by
  rcases failed_cases w env .main s with h1 | ⟨-, m, h2, -, -, h1⟩ <;> rw [h1]
  · exact Or.inl h
  · rw [h] at h2
    cases h2
    exact Or.inr ⟨_, setDb_did_self _ _ _ _ _ _, rfl, rfl⟩

theorem failed_of_lost {env : Env} {w : World} {i : DbId} {s : Sql} (h : Lost w) :
    w.failed env i s = w.did i s false := by
  rcases failed_cases w env i s with h1 | ⟨-, m, h2, h3, -, h1⟩
  · exact h1
  · obtain ⟨m', h4, -, h5⟩ := h
    rw [h2] at h4
    cases h4
    rw [h3] at h5
    cases h5

theorem failed_lost {env : Env} {w : World} {i : DbId} {s : Sql} (h : Lost w) : Lost (w.failed env i s) := by
  rw [failed_of_lost h]
  exact h

/-- Statements other than `BEGIN` do not bring the transaction back. -/
theorem exec_lost {env : Env} {w : World} {i : DbId} {s : Sql} (hs : s ≠ .begin) (h : Lost w) :
    Lost (exec env i s w).2 := by
  unfold exec
  cases hd : w.dbs i with
  | none => exact h
  | some m =>
    simp only
    split
    · exact h
    · split
      · exact failed_lost h
      · obtain ⟨m', h1, h2, h3⟩ := h
        by_cases hi : i = .main
        · subst hi
          rw [hd] at h1
          cases h1
          refine ⟨_, setDb_did_self _ _ _ _ _ _, h2, ?_⟩
          cases s <;> first | exact h3 | rfl | exact absurd rfl hs | skip
          all_goals simp [Conn.step, Conn.change, h3]
        · exact ⟨m', (setDb_other _ (Ne.symm hi)).trans h1, h2, h3⟩

theorem begin_lost {env : Env} {w : World} (h : Lost w) : beginIfNeeded env .main w = (.ok true, w) := by
  obtain ⟨m, h1, h2, -⟩ := h
  unfold beginIfNeeded
  rw [run_bind_ok (theDb_eq h1), h2]
  rfl

/-- Once lost, lost for good. -/
def StaysLost (w : World) (_ : Bool) (w' : World) : Prop := Lost w → Lost w'

theorem lost_bind {m : Run α} {f : α → Run β} (hm : Inv StaysLost m)
    (hf : ∀ a, Inv StaysLost (f a)) : Inv StaysLost (m >>= f) := by
  intro w hw
  have h := hm w hw
  rw [run_bind]
  rcases h1 : m w with ⟨r, w1⟩
  rw [h1] at h
  cases r with
  | error e => exact h
  | ok a => exact hf a w1 h

theorem lost_dbs {m : Run α} (h : ∀ w, (m w).2.dbs = w.dbs) : Inv StaysLost m := fun w hw => lost_same (h w) hw

theorem lost_theDb (i : DbId) : Inv StaysLost (theDb i) := lost_dbs fun w => by unfold theDb; split <;> rfl

theorem lost_pure (a : α) : Inv StaysLost (pure a : Run α) := lost_dbs fun _ => rfl

theorem lost_ite (c : Prop) [Decidable c] {m m' : Run α} (h : Inv StaysLost m)
    (h' : Inv StaysLost m') : Inv StaysLost (if c then m else m') := by split <;> assumption

theorem lost_exec {env : Env} {i : DbId} {s : Sql} (hs : s ≠ .begin) : Inv StaysLost (exec env i s) :=
  fun _ h => exec_lost hs h

theorem lost_begin {env : Env} {i : DbId} : Inv StaysLost (beginIfNeeded env i) := by
  cases i with
  | main =>
    intro w h
    rw [begin_lost h]
    exact h
  | input =>
    intro w h
    obtain ⟨m, h1, h2⟩ := h
    exact ⟨m, (only_begin (env := env) (i := .input) w .main (by decide)).trans h1, h2⟩

theorem lost_getBlock {env : Env} {i : DbId} {k : Int} : Inv StaysLost (getBlock env i k) := by
  unfold getBlock
  refine lost_bind lost_begin fun _ => lost_ite _ (lost_bind (lost_exec (by simp)) fun _ => lost_ite _
    (lost_bind (lost_theDb _) fun m => ?_) (lost_pure _)) (lost_pure _)
  split <;> exact lost_pure _

theorem lost_setBlock {env : Env} {i : DbId} {k : Int} {d : Bytes} : Inv StaysLost (setBlock env i k d) :=
  lost_bind lost_begin fun _ => lost_ite _ (lost_bind (lost_exec (by simp)) fun _ => lost_ite _
    (lost_pure _) (lost_pure _)) (lost_pure _)

theorem lost_deleteBlock {env : Env} {i : DbId} {k : Int} : Inv StaysLost (deleteBlock env i k) :=
  lost_bind lost_begin fun _ => lost_ite _ (lost_bind (lost_exec (by simp)) fun _ => lost_ite _
    (lost_pure _) (lost_pure _)) (lost_pure _)

theorem lost_iterRows {env : Env} {i : DbId} : Inv StaysLost (iterRows env i) :=
  lost_bind lost_begin fun _ => lost_ite _ (lost_bind (lost_exec (by simp)) fun _ => lost_ite _
    (lost_bind (lost_theDb _) fun _ => lost_pure _) (lost_dbs fun _ => rfl)) (lost_dbs fun _ => rfl)

theorem lost_getGenerated {env : Env} {i : DbId} {k : Int} : Inv StaysLost (getGenerated env i k) := by
  unfold getGenerated
  refine lost_bind lost_getBlock fun r => ?_
  split <;> exact lost_pure _

theorem lost_frame (env : Env) : CopyFrame env StaysLost where
  quiet := fun _ _ _ h _ _ => lost_same h
  trans := fun _ _ _ _ h h' hw => h' (h hw)
  get := fun _ _ => lost_bind lost_getBlock fun _ => lost_dbs fun _ => rfl
  rows := fun _ => lost_iterRows
  put := fun _ _ => lost_bind lost_setBlock fun _ => lost_dbs fun _ => rfl
  del := fun _ => lost_bind lost_deleteBlock fun _ => lost_dbs fun _ => rfl
  gen := fun _ _ => lost_getGenerated

/-- An operation on the main map. -/
theorem stays_main {m : Run α} (ho : Inv (Only .main) m) (hl : Inv StaysLost m)
    (h : ∀ w dur cur cols, OpenAt w .main dur cur cols → (∃ cur', OpenAt (m w).2 .main dur cur' cols) ∨ Lost (m w).2) :
    Inv Stays m := by
  intro w
  refine ⟨fun dur cur cols h1 => h w dur cur cols h1, hl w, fun dur cur cols h1 => ?_⟩
  unfold OpenAt
  rw [ho w .input (by decide)]
  exact h1

/-- A reading operation. -/
theorem stays_read {i : DbId} {m : Run α} (ho : Inv (Only i) m) (hl : Inv StaysLost m)
    (h : ∀ w dur cur cols, OpenAt w i dur cur cols → OpenAt (m w).2 i dur cur cols ∨ i = .main ∧ Lost (m w).2) :
    Inv Stays m := by
  intro w
  cases i with
  | main =>
    exact stays_main ho hl (fun w dur cur cols h1 => (h w dur cur cols h1).imp (fun h => ⟨cur, h⟩) fun h => h.2) w
  | input =>
    refine ⟨fun dur cur cols h1 => Or.inl ⟨cur, ?_⟩, hl w, fun dur cur cols h1 => ?_⟩
    · unfold OpenAt
      rw [ho w .main (by decide)]
      exact h1
    · rcases h w dur cur cols h1 with h | ⟨h, -⟩
      · exact h
      · cases h

theorem failed_read {env : Env} {i : DbId} {s : Sql} {w : World} {dur cur : Table} {cols : List Col}
    (h : OpenAt w i dur cur cols) :
    OpenAt (w.failed env i s) i dur cur cols ∨ i = .main ∧ Lost (w.failed env i s) := by
  cases i with
  | main => exact (failed_open h).imp_right fun h => ⟨rfl, h⟩
  | input => rw [failed_input]; exact Or.inl h

theorem getBlock_read {env : Env} {i : DbId} {k : Int} {w : World} {dur cur : Table} {cols : List Col}
    (h : OpenAt w i dur cur cols) : OpenAt (getBlock env i k w).2 i dur cur cols ∨
      i = .main ∧ Lost (getBlock env i k w).2 := by
  rw [getBlock_open h]
  split
  · exact failed_read h
  · exact Or.inl h

theorem stays_frame (env : Env) : CopyFrame env Stays where
  quiet := fun w b w' h _ _ => stays_same b h
  trans := fun w w1 b w2 h h' => ⟨fun dur cur cols h1 => by
    rcases h.1 dur cur cols h1 with ⟨c1, h2⟩ | h2
    · exact h'.1 dur c1 cols h2
    · exact Or.inr (h'.2.1 h2), fun hl => h'.2.1 (h.2.1 hl), fun dur cur cols h1 => h'.2.2 _ _ _ (h.2.2 _ _ _ h1)⟩
  get := fun i k => by
    refine stays_read (i := i) (only_bind only_getBlock fun _ => only_same fun _ => rfl)
      ((lost_frame env).get i k) ?_
    intro w dur cur cols h
    have := getBlock_read (env := env) (k := k) h
    rw [run_bind]
    rcases h1 : getBlock env i k w with ⟨r, w1⟩
    rw [h1] at this
    cases r with
    | error e => exact this
    | ok a => exact this
  rows := fun i => by
    refine stays_read (i := i) ?_ lost_iterRows ?_
    · unfold iterRows
      exact only_bind only_begin fun _ => only_ite _ (only_bind only_exec fun _ => only_ite _
        (only_bind only_theDb fun m => only_pure _) (only_same fun _ => rfl)) (only_same fun _ => rfl)
    · intro w dur cur cols h
      rw [iterRows_open h]
      split
      · exact failed_read h
      · exact Or.inl h
  put := fun k d => by
    refine stays_main (only_bind ?_ fun _ => only_same fun _ => rfl) ((lost_frame env).put k d) ?_
    · unfold setBlock
      exact only_bind only_begin fun _ => only_ite _ (only_bind only_exec fun _ => only_ite _
        (only_pure _) (only_pure _)) (only_pure _)
    · intro w dur cur cols h
      rw [run_bind, setBlock_open h]
      cases env.fail w.trace.length with
      | true => exact (failed_open (s := .put k d) h).imp_left fun h => ⟨cur, h⟩
      | false => exact Or.inl ⟨cur.put k d, setDb_did_self _ _ _ _ _ _⟩
  del := fun k => by
    refine stays_main (only_bind ?_ fun _ => only_same fun _ => rfl) ((lost_frame env).del k) ?_
    · unfold deleteBlock
      exact only_bind only_begin fun _ => only_ite _ (only_bind only_exec fun _ => only_ite _
        (only_pure _) (only_pure _)) (only_pure _)
    · intro w dur cur cols h
      rw [run_bind, deleteBlock_open h]
      cases env.fail w.trace.length with
      | true => exact (failed_open (s := .del k) h).imp_left fun h => ⟨cur, h⟩
      | false => exact Or.inl ⟨cur.del k, setDb_did_self _ _ _ _ _ _⟩
  gen := fun i k => by
    refine stays_read (i := i) ?_ lost_getGenerated ?_
    · unfold getGenerated
      refine only_bind only_getBlock fun r => ?_
      split <;> exact only_pure _
    · unfold getGenerated
      intro w dur cur cols h
      have := getBlock_read (env := env) (k := k) h
      rw [run_bind]
      rcases h1 : getBlock env i k w with ⟨r, w1⟩
      rw [h1] at this
      cases r with
      | error e => exact this
      | ok a => cases a <;> exact this

/-- While no failure undoes it, the transaction stays open. -/
def StaysOpen (w : World) (_ : Bool) (w' : World) : Prop :=
  ∀ dur cur cols, OpenAt w .main dur cur cols → ∃ cur', OpenAt w' .main dur cur' cols

theorem failed_plain {env : Env} {w : World} (h : env.undo w.trace.length = false) (i : DbId) (s : Sql) :
    w.failed env i s = w.did i s false := by
  rcases failed_cases w env i s with h1 | ⟨-, m, -, -, h2, -⟩
  · exact h1
  · rw [h] at h2; cases h2

theorem only_open {m : Run α} (h : Inv (Only .input) m) : Inv StaysOpen m := by
  intro w dur cur cols ho
  exact ⟨cur, (h w .main (by decide)).trans ho⟩

theorem getBlock_plain {env : Env} (hu : ∀ n, env.fail n = true → env.undo n = false) {k : Int} {w : World}
    {dur cur : Table} {cols : List Col} (h : OpenAt w .main dur cur cols) :
    OpenAt (getBlock env .main k w).2 .main dur cur cols := by
  rw [getBlock_open h]
  split
  · next hf => rw [failed_plain (hu _ hf)]; exact h
  · exact h

theorem open_frame {env : Env} (hu : ∀ n, env.fail n = true → env.undo n = false) : CopyFrame env StaysOpen where
  quiet := fun w b w' h _ _ dur cur cols ho => ⟨cur, by unfold OpenAt; rw [h]; exact ho⟩
  trans := fun w w1 b w2 h h' dur cur cols ho => by
    obtain ⟨c, h1⟩ := h dur cur cols ho
    exact h' dur c cols h1
  get := fun i k => by
    cases i with
    | input => exact only_open (only_bind only_getBlock fun _ => only_same fun _ => rfl)
    | main =>
      intro w dur cur cols h
      have := getBlock_plain hu (k := k) h
      rw [run_bind]
      rcases h1 : getBlock env .main k w with ⟨r, w1⟩
      rw [h1] at this
      cases r with
      | error e => exact ⟨cur, this⟩
      | ok a => exact ⟨cur, this⟩
  rows := fun i => by
    cases i with
    | input =>
      unfold iterRows
      exact only_open (only_bind only_begin fun _ => only_ite _ (only_bind only_exec fun _ => only_ite _
        (only_bind only_theDb fun m => only_pure _) (only_same fun _ => rfl)) (only_same fun _ => rfl))
    | main =>
      intro w dur cur cols h
      rw [iterRows_open h]
      split
      · next hf => rw [failed_plain (hu _ hf)]; exact ⟨cur, h⟩
      · exact ⟨cur, h⟩
  put := fun k d => by
    intro w dur cur cols h
    rw [run_bind, setBlock_open h]
    cases hf : env.fail w.trace.length with
    | true => simp only [if_true]; rw [failed_plain (hu _ hf)]; exact ⟨cur, h⟩
    | false => exact ⟨cur.put k d, setDb_did_self _ _ _ _ _ _⟩
  del := fun k => by
    intro w dur cur cols h
    rw [run_bind, deleteBlock_open h]
    cases hf : env.fail w.trace.length with
    | true => simp only [if_true]; rw [failed_plain (hu _ hf)]; exact ⟨cur, h⟩
    | false => exact ⟨cur.del k, setDb_did_self _ _ _ _ _ _⟩
  gen := fun i k => by
    unfold getGenerated
    cases i with
    | input =>
      refine only_open (only_bind only_getBlock fun r => ?_)
      split <;> exact only_pure _
    | main =>
      intro w dur cur cols h
      have := getBlock_plain hu (k := k) h
      rw [run_bind]
      rcases h1 : getBlock env .main k w with ⟨r, w1⟩
      rw [h1] at this
      cases r with
      | error e => exact ⟨cur, this⟩
      | ok a => cases a <;> exact ⟨cur, this⟩

/-- The end of a run whose transaction was lost: the commit is refused. -/
theorem finish_lost {env : Env} {args : InstArgs} {cmd : Command} {w w2 : World}
    (h : cmd.func env args w = (.ok (), w2)) (hl : Lost w2) :
    finish env args cmd w = (.ok (.error "database operation failed"),
      (w2.say (skipEvents w2.status.failed ++ [.log .info (.text "Committing...")])).did .main .commit false) := by
  unfold finish
  rw [run_bind_ok h]
  have key : ∀ w3 : World, Lost w3 → (do
      let m ← theDb .main
      let ok ←
        if m.inTransaction then do
          logInfo (.text "Committing...")
          commitIfNeeded env .main
        else pure true
      if ok then
        logInfo (.text "Done.")
        return .ok ()
      else return .error "database operation failed" : Run (Except String Unit)) w3 =
        (.ok (.error "database operation failed"),
          (w3.say [.log .info (.text "Committing...")]).did .main .commit false) := by
    intro w3 hl3
    obtain ⟨m, h1, h2, h3⟩ := hl3
    rw [run_bind_ok (theDb_eq h1), h2]
    simp only [if_true]
    have hc : commitIfNeeded env .main (w3.say [.log .info (.text "Committing...")]) =
        (.ok false, (w3.say [.log .info (.text "Committing...")]).did .main .commit false) := by
      unfold commitIfNeeded
      rw [run_bind_ok (theDb_eq (w := w3.say _) h1), h2]
      simp only [if_true]
      have he : exec env .main .commit (w3.say [.log .info (.text "Committing...")]) =
          (.ok false, (w3.say [.log .info (.text "Committing...")]).did .main .commit false) := by
        unfold exec
        rw [show (w3.say [.log .info (.text "Committing...")]).dbs .main = some m from h1]
        simp only [Conn.refuses, h3, Bool.not_false, if_true]
      rw [run_bind_ok he]
      rfl
    rw [run_bind_ok (show logInfo (.text "Committing...") w3 = (.ok (), w3.say _) from rfl), run_bind, hc]
    rfl
  rw [run_bind_ok (show getFailed w2 = (.ok w2.status.failed, w2) from rfl)]
  unfold skipEvents
  by_cases hf : w2.status.failed > 0
  · simp only [if_pos hf]
    rw [run_bind_ok (show logInfo _ w2 = (.ok (), w2.say [_]) from rfl), key (w2.say _) hl]
    simp [World.say, World.did, World.setDb]
  · simp only [if_neg hf]
    rw [key w2 hl]
    simp [World.say, World.did, World.setDb]

/-! ## Completed runs -/

/-- The parts of a run that ended with "Done.", for any command but `vacuum`. -/
structure DoneRun (env : Env) (args : InstArgs) (t t' : Table) (evs : List Event) where
  cmd : Command
  f : DbFile
  wn : Option String
  w1 : World
  w2 : World
  args_ok : verifyArgs args = none
  cmd_ok : command? args.command = some cmd
  verify_ok : ∃ res, cmd.verify args = .ok res ∧ ∀ e, res ≠ .error e
  file : mapFile env args.mapPath = some f
  table : f.table = t
  start : OpenAt w1 .main t t f.cols
  input : ∀ p, args.inputMapPath = some p → ∃ g, mapFile env p = some g ∧
    OpenAt w1 .input g.table g.table g.cols
  noInput : args.inputMapPath = none → w1.dbs .input = none
  status : w1.status = {}
  before : w1.events = preEvents args wn
  body : cmd.func env args w1 = (.ok (), w2)
  fin : OpenAt w2 .main t t' f.cols
  after : evs = w2.events ++ skipEvents w2.status.failed ++
    [.log .info (.text "Committing..."), .log .info (.text "Done.")]

theorem preEvents_not_info {args : InstArgs} {wn : Option String} {m : Msg} :
    .log .info m ∉ preEvents args wn := by
  unfold preEvents
  cases wn <;> cases args.doConfirmation <;> simp

/-- The worlds after a successful setup. -/
theorem setupWorld_start {env : Env} {args : InstArgs} {w : World} (h : SetupWorld env args World.start w) :
    ∃ f, mapFile env args.mapPath = some f ∧ OpenAt w .main f.table f.table f.cols ∧
      (∀ p, args.inputMapPath = some p → ∃ g, mapFile env p = some g ∧
        OpenAt w .input g.table g.table g.cols) ∧
      (args.inputMapPath = none → w.dbs .input = none) ∧ w.status = {} ∧ w.events = [] := by
  obtain ⟨f, h1, -, -, h4⟩ := h
  refine ⟨f, h1, ?_⟩
  cases hi : args.inputMapPath with
  | none =>
    rw [hi] at h4
    simp only at h4
    subst h4
    refine ⟨opened_at _ _ _, by simp, fun _ => rfl, rfl, rfl⟩
  | some p =>
    rw [hi] at h4
    obtain ⟨g, h5, -, -, rfl⟩ := h4
    refine ⟨?_, ?_, by simp, rfl, rfl⟩
    · exact opened_at World.start .main f
    · rintro p' hp
      cases hp
      exact ⟨g, h5, opened_at _ _ _⟩

/-- The same, with the status at the end. -/
theorem completes_status {env : Env} {args : InstArgs} {f : DbFile} {w : World} {m : MapDb}
    (h1 : mapFile env args.mapPath = some f) (h3 : computeThread env args World.start = (.ok (.ok ()), w))
    (h5 : .log .info (.text "Done.") ∈ w.events) (h6 : w.dbs .main = some m) (hv : args.command ≠ "vacuum") :
    ∃ D : DoneRun env args f.table m.conn.durable w.events, w.status = D.w2.status := by
  rw [computeThread_eq, run_bind_iff] at h3
  obtain ⟨r, w0, h3, h4⟩ := h3
  cases r with
  | error e => simp [run_pure] at h4
  | ok r =>
    obtain ⟨cmd, wn⟩ := r
    obtain ⟨a1, a2, ⟨res, a3, a4, -⟩, a5⟩ := setup_iff.1 h3
    simp only at h4
    obtain ⟨f', b1, b2, b3, b4, b5, b6⟩ := setupWorld_start a5
    rw [h1] at b1
    cases b1
    rw [runCommand_eq] at h4
    split at h4
    · rename_i hc
      simp only [Prod.mk.injEq] at h4
      rw [← h4.2] at h5
      simp only [World.say, b6, List.nil_append] at h5
      exact absurd h5 preEvents_not_info
    · cases hb : cmd.func env args (w0.say (preEvents args wn)) with
      | mk r w2 =>
        cases r with
        | error e =>
          unfold finish at h4
          rw [run_bind_err hb] at h4
          simp at h4
        | ok u =>
          have hs := inv_command (stays_frame env) a2 hv args (w0.say (preEvents args wn))
          rw [hb] at hs
          rcases hs.1 _ _ _ (show OpenAt (w0.say _) .main _ _ _ from b2) with ⟨cur, hcur⟩ | hl
          rotate_left
          · rw [finish_lost hb hl] at h4; simp at h4
          rw [finish_open hb hcur] at h4
          split at h4
          · simp at h4
          · simp only [Prod.mk.injEq, true_and] at h4
            subst h4
            have hm : m = ⟨⟨cur, cur, false, f.cols⟩, false⟩ := by
              have : (some ⟨⟨cur, cur, false, f.cols⟩, false⟩ : Option MapDb) = some m := h6
              exact (Option.some.inj this).symm
            subst hm
            exact ⟨DoneRun.mk cmd f wn (w0.say (preEvents args wn)) w2 a1 a2 ⟨res, a3, a4⟩ h1 rfl b2 b3 b4 b5
              (by simp [World.say, b6]) hb hcur (by simp [World.say, World.did, World.setDb]), rfl⟩

theorem completes_done {env : Env} {args : InstArgs} {t t' : Table} {evs : List Event}
    (h : Completes env args t t' evs) (hv : args.command ≠ "vacuum") :
    Nonempty (DoneRun env args t t' evs) := by
  obtain ⟨f, w, m, h1, rfl, h3, rfl, h5, h6, rfl⟩ := h
  obtain ⟨D, -⟩ := completes_status h1 h3 h5 h6 hv
  exact ⟨D⟩

/-- A run that ends with "Done.", for any command but `vacuum`. -/
theorem completes_of {env : Env} {args : InstArgs} {cmd : Command} {res : ArgResult} {f : DbFile}
    (h1 : verifyArgs args = none) (h2 : command? args.command = some cmd)
    (h3 : cmd.verify args = .ok res) (h4 : ∀ e, res ≠ .error e)
    (hf : mapFile env args.mapPath = some f) (hc : colsOk f.cols = true)
    (hi : ∀ p, args.inputMapPath = some p → ∃ g, mapFile env p = some g ∧ colsOk g.cols = true)
    (hfail : ∀ n, env.fail n = false) (hy : args.doConfirmation = true → env.answer = some true)
    (hv : args.command ≠ "vacuum")
    (hrun : ∀ w1, OpenAt w1 .main f.table f.table f.cols →
      (∀ p g, args.inputMapPath = some p → mapFile env p = some g →
        OpenAt w1 .input g.table g.table g.cols) → ∃ w2, cmd.func env args w1 = (.ok (), w2)) :
    ∃ t' evs, Completes env args f.table t' evs := by
  have hset : ∃ w0, SetupWorld env args World.start w0 := by
    cases hp : args.inputMapPath with
    | none => exact ⟨World.start.opened .main f, f, hf, hc, fun _ _ => hfail _, by rw [hp]⟩
    | some p =>
      obtain ⟨g, hg, hgc⟩ := hi p hp
      exact ⟨(World.start.opened .main f).opened .input g, f, hf, hc, fun _ _ => hfail _, by
        rw [hp]; exact ⟨g, hg, hgc, fun _ _ => hfail _, rfl⟩⟩
  obtain ⟨w0, hset⟩ := hset
  have hsu := setup_iff.2 ⟨h1, h2, ⟨res, h3, h4, rfl⟩, hset⟩
  obtain ⟨f', b1, b2, b3, b4, b5, b6⟩ := setupWorld_start hset
  rw [hf] at b1
  cases b1
  obtain ⟨w2, hb⟩ := hrun (w0.say (preEvents args (warningOf res))) b2 (by
    intro p g hp hg
    obtain ⟨g', hg', ho⟩ := b3 p hp
    rw [hg] at hg'
    cases hg'
    exact ho)
  have hs := inv_command (open_frame (env := env) fun n hn => absurd hn (by simp [hfail])) h2 hv args
    (w0.say (preEvents args (warningOf res)))
  rw [hb] at hs
  obtain ⟨cur, hcur⟩ := hs _ _ _ (show OpenAt (w0.say _) .main _ _ _ from b2)
  have hfin := finish_open hb hcur
  rw [hfail] at hfin
  simp only [Bool.false_eq_true, if_false] at hfin
  generalize hw3 : World.did _ _ _ _ = w3 at hfin
  have hdone : w3.dbs .main = some ⟨⟨cur, cur, false, f.cols⟩, false⟩ := by rw [← hw3]; rfl
  refine ⟨cur, w3.events, f, w3, _, hf, rfl, ?_, rfl, ?_, hdone, rfl⟩
  · rw [computeThread_eq, run_bind_ok hsu]
    simp only
    rw [runCommand_eq, if_neg (fun h => h.2 (hy h.1))]
    exact hfin
  · rw [← hw3]; simp [World.say, World.did, World.setDb]

end MapEditr
