import Verif.Spec.Map
import Verif.Spec.Metas
import Verif.Spec.Geometry
/-!
# Doing a map in pieces
-/

namespace MapEditr.Spec
open MapEditr

/-- Two settings of the program that compress alike and are built alike.  All else may differ: what the files hold,
in which order hash maps are gone through, which statements fail, what the user answers. -/
def SameSetup (env env' : Env) : Prop := env'.codec = env.codec ∧ env'.build = env.build

/-- The same bytes; or the same block, written with the variables of its nodes in another order. -/
def SameUpToOrder (c : Codec) (d d' : Bytes) : Prop :=
  d' = d ∨ ∃ b o o', VarOrd.Lawful o ∧ VarOrd.Lawful o' ∧ serialize c o b = .ok d ∧ serialize c o' b = .ok d'

/-- Both rows are missing, or they hold the same but for the order of variables. -/
def SameRow (c : Codec) (r r' : Option Bytes) : Prop :=
  (r = none ∧ r' = none) ∨ ∃ d d', r = some d ∧ r' = some d' ∧ SameUpToOrder c d d'

/-- The count given with this text is `n`; no message counts as 0. -/
def CountIs (evs : List Event) (what : String) (n : Nat) : Prop :=
  Reported evs what n ∨ ((∀ m, .log .info (.count what m) ∉ evs) ∧ n = 0)

/-- The same of a message with two counts. -/
def Count2Is (evs : List Event) (what : String) (n m : Nat) : Prop :=
  Reported2 evs what n m ∨ ((∀ n' m', .log .info (.count2 what n' m') ∉ evs) ∧ n = 0 ∧ m = 0)

/-- Some node of the block at `bp`, moved back by `o`, is in the block at `q`.  (There are at most eight such blocks;
without an offset, only `bp` itself.) -/
def ComesFrom (o bp q : Vec3) : Prop := ∃ p, InBlock bp p ∧ InBlock q (unshift p o)

end MapEditr.Spec
