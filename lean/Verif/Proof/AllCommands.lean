import Verif.Props.DeleteBlocks
import Verif.Props.DeleteObjects
import Verif.Props.ReplaceNodes
import Verif.Props.Fill
/-! # Lemmas: the eight commands that edit blocks one by one

`fill`, `replacenodes`, `setparam2`, `deletemeta`, `setmetavar`, `deletetimers`, `deleteobjects` and
`replaceininv` all are the common loop. -/

namespace MapEditr
open Spec

/-- The commands that read, change and write back blocks one by one. -/
def Spec.editNames : List String :=
  ["fill", "replacenodes", "setparam2", "deletemeta", "setmetavar", "deletetimers", "deleteobjects",
    "replaceininv"]

/-- The node or entity names that restrict the blocks a command looks at. -/
def Spec.searchNames (args : InstArgs) : List Bytes :=
  match args.command with
  | "fill" => []
  | "deleteobjects" => (entityFor args).toList
  | "setmetavar" => args.nodes.map toBytes
  | "replaceininv" => args.nodes.map toBytes
  | _ => (args.node.map toBytes).toList

theorem toSlice_eq (o : Option Bytes) : toSlice o = o.toList := by
  cases o <;> rfl

theorem unwrap_ok_some {o : Option α} {f : α → Run β} {w : World} {b : β} {w' : World}
    (h : (Run.unwrap o >>= f : Run β) w = (.ok b, w')) : ∃ a, o = some a := by
  cases o with
  | some a => exact ⟨a, rfl⟩
  | none =>
    obtain ⟨a, w1, h1, -⟩ := run_bind_iff.1 h
    cases h1

/-- Each of these commands is the common loop. -/
theorem editNames_eq {env : Env} {args : InstArgs} {cmd : Command} {w w' : World}
    (hm : args.command ∈ editNames) (hc : command? args.command = some cmd)
    (h : cmd.func env args w = (.ok (), w')) :
    ∃ (γ : Type) (edit : Int → MapBlock → Res (Option MapBlock × γ)) (add : γ → γ → γ) (g0 : γ)
      (msg : γ → Msg), (∀ g n, msg g ≠ .count "Skipped {} invalid/unsupported mapblocks." n) ∧
      cmd.func env args = editCommand env (decide (args.command = "replacenodes"))
        (searchNames args) args.area args.invert edit add g0 msg := by
  simp only [editNames, List.mem_cons, List.not_mem_nil, or_false] at hm
  rcases hm with e | e | e | e | e | e | e | e <;> rw [e] at hc
  · rw [fill_command] at hc
    cases hc
    change fill env args w = _ at h
    unfold fill at h
    obtain ⟨a, ha⟩ := unwrap_ok_some h
    rw [ha] at h
    obtain ⟨node, hn⟩ := unwrap_ok_some (o := args.newNode) h
    rw [show searchNames args = [] by unfold searchNames; rw [e]; rfl, e]
    refine ⟨_, _, _, _, _, ?_, fill_eq env args a node ha hn⟩
    exact fun g n h => by injection h with h1; exact absurd h1 (by decide)
  · rw [replaceNodes_command] at hc
    cases hc
    change replaceNodes env args w = _ at h
    unfold replaceNodes at h
    obtain ⟨a, ha⟩ := unwrap_ok_some h
    rw [ha] at h
    obtain ⟨node, hn⟩ := unwrap_ok_some (o := args.newNode) h
    rw [show searchNames args = [toBytes a] by unfold searchNames; rw [e, ha]; rfl, e]
    refine ⟨_, _, _, _, _, ?_, replaceNodes_eq env args ha hn⟩
    exact fun g n h => by injection h with h1; exact absurd h1 (by decide)
  · rw [setParam2_command] at hc
    cases hc
    change setParam2 env args w = _ at h
    unfold setParam2 at h
    obtain ⟨a, ha⟩ := unwrap_ok_some h
    rw [show searchNames args = toSlice (args.node.map toBytes) by
      unfold searchNames; rw [e, toSlice_eq]; rfl, e]
    refine ⟨_, _, _, _, _, ?_, setParam2_eq env args a ha⟩
    exact fun g n h => by injection h with h1; exact absurd h1 (by decide)
  · rw [deleteMeta_command] at hc
    cases hc
    rw [show searchNames args = toSlice (args.node.map toBytes) by
      unfold searchNames; rw [e, toSlice_eq]; rfl, e]
    refine ⟨_, _, _, _, _, ?_, deleteMetadata_eq env args⟩
    exact fun g n h => by injection h with h1; exact absurd h1 (by decide)
  · rw [setMetaVar_command] at hc
    cases hc
    change setMetaVar env args w = _ at h
    unfold setMetaVar at h
    obtain ⟨a, ha⟩ := unwrap_ok_some h
    rw [show searchNames args = args.nodes.map toBytes by unfold searchNames; rw [e]; rfl, e]
    refine ⟨_, _, _, _, _, ?_, setMetaVar_eq env args ha⟩
    exact fun g n h => by injection h with h1; exact absurd h1 (by decide)
  · rw [deleteTimers_command] at hc
    cases hc
    rw [show searchNames args = toSlice (args.node.map toBytes) by
      unfold searchNames; rw [e, toSlice_eq]; rfl, e]
    refine ⟨_, _, _, _, _, ?_, deleteTimers_eq env args⟩
    exact fun g n h => by injection h with h1; exact absurd h1 (by decide)
  · rw [deleteObjects_command] at hc
    cases hc
    rw [show searchNames args = toSlice (entityFor args) by
      unfold searchNames; rw [e, toSlice_eq]; rfl, e]
    refine ⟨_, _, _, _, _, ?_, deleteObjects_eq env args⟩
    exact fun g n h => by injection h with h1; exact absurd h1 (by decide)
  · rw [replaceInInv_command] at hc
    cases hc
    change replaceInInv env args w = _ at h
    unfold replaceInInv at h
    obtain ⟨a, ha⟩ := unwrap_ok_some h
    rw [show searchNames args = args.nodes.map toBytes by unfold searchNames; rw [e]; rfl, e]
    refine ⟨_, _, _, _, _, ?_, replaceInInv_eq env args ha⟩
    exact fun g n h => by injection h

end MapEditr
