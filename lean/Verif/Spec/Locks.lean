import Verif.Model.Locks
import Verif.Spec.Runs
/-! # Spec: runs in company -/

namespace MapEditr.Spec
open Locks

/-- None of the connections of the run is in use yet. -/
def Unused (f : File) : Prop := ∀ i, f.inTx (.us i) = false ∧ Who.us i ∉ f.readers ∧ f.writer ≠ some (.us i)

/-- SQLite allowed what succeeded. -/
def Allowed (c : Company) (f : File) (tr : List Did) : Prop :=
  ∀ n d, tr[n]? = some d → d.ok = true → c.uses d.db = true →
    ((c.now f (tr.take n)).step (.us d.db) (c.spill n) (c.keep n) d.stmt).isSome = true

/-- With the `n`-th statement the run gets its first lock on the map, or commits without having got one. -/
def FirstLock (c : Company) (f : File) (tr : List Did) (i : DbId) (n : Nat) : Prop :=
  Who.us i ∉ (c.now f (tr.take n)).readers ∧
    (Who.us i ∈ (c.after f (tr.take (n + 1))).readers ∨ tr[n]? = some ⟨i, .commit, true⟩)

/-- The map opened is the file: this is in it when the run gets its first lock. -/
def LooksAt (c : Company) (f : File) (tr : List Did) (i : DbId) (t : Table) : Prop :=
  ∀ n < tr.length, FirstLock c f tr i n → (c.now f (tr.take n)).content = t

/-- What a connection with the map for itself sees after some statements. -/
def seesAlone (i : DbId) (t : Table) (tr : List Did) : Table :=
  (tr.foldl (fun c d => if d.db = i ∧ d.ok = true then c.step d.stmt else c) (⟨t, t, false, []⟩ : Conn)).cur

/-- A statement that writes a row. -/
def WritesRow (s : Sql) : Prop := (∃ k b, s = .put k b) ∨ ∃ k, s = .del k

/-- A statement that reads rows. -/
def ReadsRows (s : Sql) : Prop := s = .selectAll ∨ ∃ k, s = .select k

/-- The run reads its input map before it writes anything. -/
def ReadsFirst (tr : List Did) : Prop :=
  ∀ n s, tr[n]? = some ⟨.main, s, true⟩ → WritesRow s →
    ∃ m : Nat, m < n ∧ ∃ s', tr[m]? = some ⟨.input, s', true⟩ ∧ ReadsRows s'

/-- Nobody uses the file. -/
def Idle (f : File) : Prop := (∀ x, f.inTx x = false) ∧ f.readers = [] ∧ f.writer = none ∧ f.exclusive = false

end MapEditr.Spec
