import Verif.Spec.Rest
/-!
# Spec: commands that have nothing to do with each other
-/

namespace MapEditr.Spec
open MapEditr

/-- The command may change the node at `p`, or what is in its block beside the nodes. -/
def ActsOn (args : InstArgs) (p : Vec3) : Prop := args.command ≠ "vacuum" ∧ Touches args p

/-- The command takes nodes of the map it changes from `p`. -/
def TakesFrom (args : InstArgs) (p : Vec3) : Prop := args.command = "clone" ∧ Selected args.area false p

/-- No node is changed by both, and neither changes what the other copies. -/
structure Apart (a b : InstArgs) : Prop where
  works : ∀ p, ¬ (ActsOn a p ∧ ActsOn b p)
  left : ∀ p, ¬ (TakesFrom a p ∧ ActsOn b p)
  right : ∀ p, ¬ (ActsOn a p ∧ TakesFrom b p)

/-- The way back. -/
def opposite (o : Vec3) : Vec3 := ⟨-o.x, -o.y, -o.z⟩

/-- The same command for the nodes in an area, or outside of it, or for all. -/
def within (args : InstArgs) (area : Option Area) (invert : Bool) : InstArgs := { args with area := area, invert := invert }

/-- The commands that change nodes one by one and can do without an area. -/
def sweepCommands : List String :=
  ["replacenodes", "setparam2", "deletemeta", "deletetimers", "setmetavar", "replaceininv"]

/-- Objects are kept in the block they are in. -/
def AtHome (R : Rests) : Prop := ∀ bp r, R bp = some r → ∀ o ∈ r.objects, ∃ p, AtNode o p ∧ InBlock bp p

end MapEditr.Spec
