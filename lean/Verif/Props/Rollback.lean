import Verif.Proof.Calm
import Verif.Props.Runs
/-!
# Property C55: a transaction that is lost without notice

If a statement fails, SQLite may undo the whole transaction.  `overlay` and `clone` take a failing read
of a destination block for a missing block and carry on; what they write from there on is no longer part
of a transaction.
-/

namespace MapEditr
open Spec

/-- The map that is changed: three blocks. -/
def lostFile : DbFile := ⟨[(0, [28, 0]), (1, [28, 0]), (2, [28, 0])], [⟨"pos", "INT", 1⟩, ⟨"data", "BLOB", 0⟩]⟩

/-- Two maps with the same three blocks. -/
def lostFs : String → Option DbFile
  | "map" => some lostFile
  | "other" => some ⟨[(2, [28, 1]), (0, [28, 1]), (1, [28, 1])], [⟨"pos", "INT", 1⟩, ⟨"data", "BLOB", 0⟩]⟩
  | _ => none

/-- In which the twelfth statement fails, if any, and SQLite undoes the transaction then. -/
def lostEnv (fails : Bool) : Env :=
  ⟨.debug, Toy.codec id, fun _ => Toy.ord, fun n => fails && n == 11, fun _ => true, lostFs, none⟩

/-- `overlay` of one block in part (nodes with x at least 5) and two as a whole. -/
def lostArgs : InstArgs :=
  { runArgs false "overlay" "map" (some "other") with area := some ⟨⟨5, 0, 0⟩, ⟨47, 15, 15⟩⟩ }

/-- What is executed on the main map once it is open: the second block is written, then reading the
destination of the partial copy fails, and nobody notices. -/
example : (computeThread (lostEnv true) lostArgs World.start).2.trace.filter (fun d => d.db = .main) =
    [⟨.main, .open, true⟩, ⟨.main, .begin, true⟩, ⟨.main, .tableInfo, true⟩, ⟨.main, .prepare, true⟩,
      ⟨.main, .put 2 [28, 1], true⟩, ⟨.main, .select 0, false⟩, ⟨.main, .rollback, true⟩,
      ⟨.main, .put 1 [28, 1], true⟩, ⟨.main, .commit, false⟩] := by decide

/-- A run can end with an error and leave the map changed in part: of two blocks it has copied, one is
in the file, the other is not. -/
theorem C55_false : ∃ env args f, mapFile env args.mapPath = some f ∧ EnvOk env ∧ GoodTable f.table ∧
    (∃ e, (computeThread env args World.start).1 = .ok (.error e)) ∧
    ∃ k k' d d', (⟨.main, .put k d, true⟩ : Did) ∈ (computeThread env args World.start).2.trace ∧
      (⟨.main, .put k' d', true⟩ : Did) ∈ (computeThread env args World.start).2.trace ∧
      (onDisk f.table (computeThread env args World.start).2.trace).get? k = some d ∧ f.table.get? k ≠ some d ∧
      (onDisk f.table (computeThread env args World.start).2.trace).get? k' = f.table.get? k' ∧
      f.table.get? k' ≠ some d' := by
  refine ⟨lostEnv true, lostArgs, lostFile, rfl, ⟨Toy.lawful id, Toy.fullWrites, fun _ => Toy.ord_lawful⟩,
    ⟨by decide, by decide⟩, ⟨_, rfl⟩, 1, 2, [28, 1], [28, 1], by decide, by decide, by decide, by decide, by decide, by decide⟩

/-- That cannot happen unnoticed: if a run that is not a `vacuum` ends without an error, SQLite has not
undone its transaction. -/
theorem C55_lost_partial (env : Env) (args : InstArgs) (w : World) (hv : args.command ≠ "vacuum")
    (h : computeThread env args World.start = (.ok (.ok ()), w)) : (⟨.main, .rollback, true⟩ : Did) ∉ w.trace :=
  done_calm hv h

/-- Whichever statements fail, and whether or not SQLite undoes the transaction then: if a run that is not
a `vacuum` ends with "Done.", the map file holds its whole result, and has held its original content until
the last statement.  (For `vacuum` see `C53_vacuum_any_outcome`.) -/
theorem C55_done_partial (env : Env) (args : InstArgs) (t t' : Table) (evs : List Event)
    (hv : args.command ≠ "vacuum") (h : Completes env args t t' evs) :
    onDisk t (computeThread env args World.start).2.trace = t' ∧
    ∀ n, n < (computeThread env args World.start).2.trace.length →
      onDisk t ((computeThread env args World.start).2.trace.take n) = t := by
  obtain ⟨f, w, m, hf, rfl, h, rfl, hd, hm, rfl⟩ := h
  rw [h]
  rw [computeThread_eq, run_bind_iff] at h
  obtain ⟨r, w0, hs, h⟩ := h
  cases r with
  | error e => simp [run_pure] at h
  | ok r =>
    obtain ⟨cmd, wn⟩ := r
    obtain ⟨-, a2, -, a5⟩ := setup_iff.1 hs
    have htx0 : Tx f.table w0 := tx_setup hf a5
    have htx : Tx f.table (w0.say (preEvents args wn)) := htx0
    obtain ⟨f', -, b2, -, -, -, b5⟩ := setupWorld_start a5
    have b2' : OpenAt (w0.say (preEvents args wn)) .main _ _ _ := b2
    simp only at h
    rw [runCommand_eq] at h
    split at h
    · simp only [Prod.mk.injEq] at h
      rw [← h.2] at hd
      have hd : .log .info (.text "Done.") ∈ w0.events ++ preEvents args wn := hd
      rw [b5, List.nil_append] at hd
      exact absurd hd preEvents_not_info
    · have hb' := inv_command (tx_copyFrame env f.table) a2 hv args (w0.say (preEvents args wn))
      rcases hb : cmd.func env args (w0.say (preEvents args wn)) with ⟨r, w2⟩
      rw [hb] at hb'
      cases r with
      | error e =>
        unfold finish at h
        rw [run_bind_err hb] at h
        simp at h
      | ok u =>
        rcases hb'.2 htx with ⟨cur, cols, ho, hr, hk⟩ | ⟨hbad, -⟩ | ⟨-, pre, k, post, hu⟩
        · rw [finish_open hb ho] at h
          split at h
          · simp at h
          · simp only [Prod.mk.injEq, true_and] at h
            subst h
            cases hm
            refine ⟨?_, fun n hn => ?_⟩
            · show onDisk f.table (w2.trace ++ [⟨.main, .commit, true⟩]) = cur
              unfold onDisk
              rw [replay_snoc, if_pos ⟨rfl, rfl⟩, hr]
              rfl
            · have hlen : n ≤ w2.trace.length := by
                have : n < (w2.trace ++ [(⟨.main, .commit, true⟩ : Did)]).length := hn
                simp at this
                omega
              show onDisk f.table ((w2.trace ++ [(⟨.main, .commit, true⟩ : Did)]).take n) = f.table
              rw [List.take_append_of_le_length hlen]
              exact hk n
        · cases hbad
        · have hun := (inv_command (undoes_frame env) a2 hv args (w0.say (preEvents args wn))).2 _ _ _ b2'
          rw [hb] at hun
          rcases hun (by rw [hu]; simp [undone]) with h1 | h1
          · exact absurd (show undone ∈ w0.trace from h1) (setup_trace a5)
          · rw [finish_lost hb h1] at h
            simp at h

/-- A completed run in which a read failed; a run in which that read undid the transaction does not
complete. -/
example :
    (computeThread { lostEnv true with undo := fun _ => false } lostArgs World.start).1 = .ok (.ok ()) ∧
    (onDisk lostFile.table (computeThread { lostEnv true with undo := fun _ => false } lostArgs World.start).2.trace).Perm
      [(1, [28, 1]), (2, [28, 1]), (0, [28, 0])] ∧
    (⟨.main, .select 0, false⟩ : Did) ∈
      (computeThread { lostEnv true with undo := fun _ => false } lostArgs World.start).2.trace ∧
    (computeThread (lostEnv true) lostArgs World.start).1 = .ok (.error "database operation failed") := by
  exact ⟨rfl, by decide, by decide, rfl⟩

end MapEditr
