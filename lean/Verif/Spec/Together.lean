import Verif.Model.Together
import Verif.Spec.Locks
/-! # Spec: several runs at the same time -/

namespace MapEditr.Spec
open Locks

/-- SQLite allowed what succeeded. -/
def AllAllowed (uses : Nat → DbId → Bool) (f : File) (S : List Turn) : Prop :=
  ∀ n u, S[n]? = some u → u.did.ok = true → uses u.run u.did.db = true →
    ((together uses f (S.take n)).step (whose u.run u.did.db) u.spill u.keep u.did.stmt).isSome = true

/-- What failed, SQLite refused. -/
def OnlyRefused (uses : Nat → DbId → Bool) (f : File) (S : List Turn) : Prop :=
  ∀ n u, S[n]? = some u → u.did.ok = false → uses u.run u.did.db = true ∧
    (together uses f (S.take n)).step (whose u.run u.did.db) u.spill u.keep u.did.stmt = none

/-- With the `n`-th statement a run gets its first lock on a map, or commits without having got one. -/
def GetsLock (uses : Nat → DbId → Bool) (f : File) (S : List Turn) (r : Nat) (i : DbId) (n : Nat) : Prop :=
  whose r i ∉ (together uses f (S.take n)).readers ∧
    (whose r i ∈ (together uses f (S.take (n + 1))).readers ∨
      ∃ u, S[n]? = some u ∧ u.run = r ∧ u.did = ⟨i, .commit, true⟩)

/-- The map a run opened is the file: this is in it when the run gets its first lock. -/
def MeetsAt (uses : Nat → DbId → Bool) (f : File) (S : List Turn) (r : Nat) (i : DbId) (t : Table) : Prop :=
  ∀ n < S.length, GetsLock uses f S r i n → (together uses f (S.take n)).content = t

/-- Nothing is executed on a connection that has been closed. -/
def NoneClosed (S : List Turn) : Prop :=
  ∀ (m n : Nat) (u v : Turn), m < n → S[m]? = some u → S[n]? = some v → u.did.stmt = .rollback →
    ¬ (v.run = u.run ∧ v.did.db = u.did.db)

/-- The statements are those of runs of the program, which need not have come to their ends. -/
def OfRuns (env : Nat → Env) (args : Nat → InstArgs) (S : List Turn) : Prop :=
  (∀ r, ∃ rest, (computeThread (env r) (args r) World.start).2.trace = part r S ++ rest) ∧ NoneClosed S

/-- The runs that commit, in the order of their commits. -/
def commits (uses : Nat → DbId → Bool) (S : List Turn) : List Nat :=
  (S.filter fun u => u.did == ⟨.main, .commit, true⟩ && uses u.run .main).map (·.run)

/-- One run after the other: each works on what the one before it has made. `made r` is what run `r` found and what it
made of it. -/
def InTurn (made : Nat → Table × Table) (t : Table) : List Nat → Table → Prop
  | [], t' => t' = t
  | r :: R, t' => (made r).1 = t ∧ InTurn made (made r).2 R t'

end MapEditr.Spec
