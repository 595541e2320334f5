import Verif.Model.Library
import Verif.Spec.Oracle
/-! # Specification: a map database used one library call at a time, and one statement at a time -/

namespace MapEditr

/-- A computation that does not panic, or what is given if it does. -/
def Run.orElse (m : Run α) (a : α) : Run α := fun w =>
  match m w with
  | (.ok r, w) => (.ok r, w)
  | (.error _, w) => (.ok a, w)

namespace Lib

/-- The same call in `Model/World`, where all library calls for a statement succeed or fail as one. -/
def Op.whole (env : Env) (i : DbId) : Op → Run Ans
  | .get k => Run.orElse (do return .data (← MapEditr.getBlock env i k)) (.data (.error .databaseError))
  | .put k v => Run.orElse (do return .unit (← MapEditr.setBlock env i k v)) (.unit (.error .databaseError))
  | .del k => Run.orElse (do return .unit (← MapEditr.deleteBlock env i k)) (.unit (.error .databaseError))
  | .rows => Run.orElse (do return .rows (some (← MapEditr.iterRows env i))) (.rows none)
  | .commit => Run.orElse (do
      let ok ← MapEditr.commitIfNeeded env i
      return .unit (if ok then .ok () else .error .databaseError)) (.unit (.error .databaseError))
  | .vacuum => Run.orElse (do return .unit (← MapEditr.dbVacuum env i)) (.unit (.error .databaseError))

/-- The first `n` calls of a client, after those that gave `as`. -/
def Client.whole (env : Env) (i : DbId) (c : Client) : Nat → List Ans → Run (List Ans)
  | 0, as => pure as
  | n + 1, as =>
    match c as with
    | none => pure as
    | some op => do
      let a ← op.whole env i
      Client.whole env i c n (as ++ [a])

/-- The database is in the same state in both. -/
def Matches (i : DbId) (d : Db) (w : World) : Prop := w.dbs i = some ⟨d.conn, d.inTransaction⟩

/-! ## A memory -/

/-- What a call does to a memory, and what it gives. -/
def Op.ideal : Op → (Int → Option Bytes) → Ans × (Int → Option Bytes)
  | .get k, m => (.data (match m k with | some v => .ok v | none => .error .missingData), m)
  | .put k v, m => (.unit (.ok ()), fun q => if q = k then some v else m q)
  | .del k, m => (.unit (.ok ()), fun q => if q = k then none else m q)
  | _, m => (.unit (.ok ()), m)

/-- The first `n` calls of a client, on a memory. -/
def Client.ideal (c : Client) : Nat → List Ans → (Int → Option Bytes) → List Ans × (Int → Option Bytes)
  | 0, as, m => (as, m)
  | n + 1, as, m =>
    match c as with
    | none => (as, m)
    | some op => Client.ideal c n (as ++ [(op.ideal m).1]) (op.ideal m).2

/-- Reads, writes and deletions only. -/
def Client.Plain (c : Client) : Prop :=
  ∀ as op, c as = some op → (∃ k, op = .get k) ∨ (∃ k v, op = .put k v) ∨ ∃ k, op = .del k

end Lib
end MapEditr
