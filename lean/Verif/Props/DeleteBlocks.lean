import Verif.Proof.DeleteBlocks
import Verif.Proof.ToyMap
/-!
# Property C39: `deleteblocks`
-/

namespace MapEditr
open Spec

theorem deleteBlocks_command :
    command? "deleteblocks" = some ⟨deleteBlocks, fun _ => .ok .ok, [.area true, .invert]⟩ := rfl

/-- After `deleteblocks` a block is gone iff all its nodes are selected, that is, inside the area or
with `invert` all outside; every other block keeps its bytes; nothing is added. -/
theorem C39_deleteblocks (env : Env) (args : InstArgs) (t t' : Table) (evs : List Event)
    (hg : GoodTable t) (hc : args.command = "deleteblocks") (ha : AreaOk args.area)
    (h : Completes env args t t' evs) :
    (t'.map (·.1)).Nodup ∧ (∀ r ∈ t', r ∈ t) ∧ ∀ bp d, ValidBlockPos bp → (keyOf bp, d) ∈ t →
      ((∀ p, InBlock bp p → Selected args.area args.invert p) → keyOf bp ∉ t'.map (·.1)) ∧
      ((∃ p, InBlock bp p ∧ ¬ Selected args.area args.invert p) → (keyOf bp, d) ∈ t') := by
  obtain ⟨D⟩ := completes_done h (by rw [hc]; decide)
  have hb := D.body_of hc deleteBlocks_command
  obtain ⟨h1, -⟩ := deleteBlocks_run D.start hb
  obtain ⟨h2, -⟩ := openAt_unique D.fin h1
  subst h2
  refine ⟨nodup_delAll hg.nodup, fun r hr => (mem_delAll.1 hr).1, ?_⟩
  intro bp d hbp hd
  have hm := mem_doomed (invert := args.invert) hg ha hbp hd
  constructor
  · intro hall hk
    obtain ⟨r, hr, hrk⟩ := List.mem_map.1 hk
    have := (mem_delAll.1 hr).2
    rw [hrk] at this
    exact this (hm.2 hall)
  · rintro ⟨p, hp, hns⟩
    refine mem_delAll.2 ⟨hd, fun hk => hns (hm.1 hk p hp)⟩

/-- `deleteblocks` completes whenever the database works and the arguments are accepted. -/
theorem C39_deleteblocks_completes (env : Env) (args : InstArgs) (f : DbFile)
    (hfail : ∀ n, env.fail n = false) (hfile : mapFile env args.mapPath = some f)
    (hcols : MapColumns f.cols) (hargs : ¬ BadArgs args) (hc : args.command = "deleteblocks")
    (hin : args.inputMapPath = none) (hconf : args.doConfirmation = true → env.answer = some true) :
    ∃ t' evs, Completes env args f.table t' evs :=
  completes_of ((verifyArgs_iff args).2 hargs) (by rw [hc]; exact deleteBlocks_command) (res := .ok) rfl
    (by simp) hfile ((colsOk_iff _).2 hcols) (by intro p hp; rw [hin] at hp; cases hp) hfail hconf
    (by rw [hc]; decide) fun _ ho _ => deleteBlocks_works hfail ho

/-- Three blocks in a row, none of them readable; the area covers the middle one and touches the last. -/
def rowMap : Table := [(0, [1]), (1, [2]), (2, [3])]
def rowArgs (invert : Bool) : InstArgs :=
  { runArgs false "deleteblocks" "map" none with
    area := some ⟨⟨16, 0, 0⟩, ⟨40, 15, 15⟩⟩, invert := invert }

/-- Only the middle block is deleted; with `invert`, only the first. -/
example : Completes (editEnv rowMap) (rowArgs false) rowMap [(0, [1]), (2, [3])]
    (computeThread (editEnv rowMap) (rowArgs false) World.start).2.events :=
  ⟨_, _, _, rfl, rfl, rfl, rfl, by decide, rfl, rfl⟩

example : Completes (editEnv rowMap) (rowArgs true) rowMap [(1, [2]), (2, [3])]
    (computeThread (editEnv rowMap) (rowArgs true) World.start).2.events :=
  ⟨_, _, _, rfl, rfl, rfl, rfl, by decide, rfl, rfl⟩

end MapEditr
