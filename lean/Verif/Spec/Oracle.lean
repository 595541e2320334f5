import Verif.Model.Instance
/-! # Specification: runs that differ only in which statements fail -/

namespace MapEditr

/-- The same circumstances with other failing statements, and other ones that undo the transaction when
they fail. -/
abbrev Env.failing (env : Env) (f u : Nat → Bool) : Env := { env with fail := f, undo := u }

namespace Spec

/-- Two records of executed statements part at a statement that does not do the same in both: before it
they are the same, and it fails in one of them only, or it fails in both and SQLite undoes the
transaction in one of them only. -/
inductive Fork (env env' : Env) : List Did → List Did → Prop
  | fails (p : List Did) (i : DbId) (s : Sql) (r r' : List Did) (h : env.fail p.length ≠ env'.fail p.length) :
      Fork env env' (p ++ ⟨i, s, !env.fail p.length⟩ :: r) (p ++ ⟨i, s, !env'.fail p.length⟩ :: r')
  | undoes (p : List Did) (s : Sql) (r r' : List Did) (h : env.fail p.length = true)
      (h' : env'.fail p.length = true) (hu : env.undo p.length = true) (hu' : env'.undo p.length = false) :
      Fork env env' (p ++ ⟨.main, s, false⟩ :: ⟨.main, .rollback, true⟩ :: r) (p ++ ⟨.main, s, false⟩ :: r')
  | keeps (p : List Did) (s : Sql) (r r' : List Did) (h : env.fail p.length = true)
      (h' : env'.fail p.length = true) (hu : env.undo p.length = false) (hu' : env'.undo p.length = true) :
      Fork env env' (p ++ ⟨.main, s, false⟩ :: r) (p ++ ⟨.main, s, false⟩ :: ⟨.main, .rollback, true⟩ :: r')

/-- The database works during this run: none of the statements it executes fails. -/
def DbWorks (env : Env) (args : InstArgs) : Prop :=
  ∀ n, n < (computeThread env args World.start).2.trace.length → env.fail n = false

end Spec

end MapEditr
