import Verif.Model.Instance
/-!
# Spec: what is opened, and what the user is told
-/

namespace MapEditr.Spec
open MapEditr

/-- The path of the map file in a world directory. -/
def InWorld (dir path : String) : Prop :=
  (dir ≠ "" ∧ ¬ ['/'] <:+ dir.toList ∧ path.toList = dir.toList ++ "/map.sqlite".toList) ∨
  ((dir = "" ∨ ['/'] <:+ dir.toList) ∧ path.toList = dir.toList ++ "map.sqlite".toList)

/-- The map a path stands for: the file itself, or else the one in the world directory. -/
def Found (fs : String → Option DbFile) (path : String) (f : DbFile) : Prop :=
  fs path = some f ∨ (fs path = none ∧ ∃ p, InWorld path p ∧ fs p = some f)

/-- The message of a run that went well. -/
def doneMsg : Event := .log .info (.text "Done.")

/-- The message of a run that returned an error. -/
def errMsg (e : String) : Event := .log .error (.text e)

/-- What the user must have been told before anything happens. -/
def warnings (args : InstArgs) : List Event :=
  (if args.doConfirmation then [.log .warning (.text
    "This tool can permanently damage your Minetest world.\nAlways EXIT Minetest and BACK UP the map database before use.")]
    else []) ++
  (if args.command = "deletemeta" ∧ args.node = none ∧ args.area = none then
    [.log .warning (.text "No area or node specified. ALL metadata will be deleted!")] else [])

/-- All that comes before the command itself. -/
def preface (args : InstArgs) : List Event :=
  warnings args ++ if args.doConfirmation then [.confirmRequest] else []

end MapEditr.Spec
