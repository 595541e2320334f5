import Verif.Proof.MachineMain
import Verif.Spec.Counters
import Verif.Props.Forever
/-!
# Property C102: the whole program with machine integers

`Checked.runCmdLine` is the program with the integer types of the source in all commands.
-/

namespace MapEditr
open Spec

/-- For every command line, accepted or not, every environment and all maps whose keys are different and belong to
blocks (for `replaceininv`, with inventories of at most 64 MiB in a block), the program with machine integers is the one with
exact integers: the same system of threads, so with the same executions. -/
theorem C102_program (env : Env) (yes : Bool) (cmd map : String) (m : Matches)
    (hmain : ∀ f, mapFile env map = some f → GoodTable f.table)
    (hinput : ∀ p f, m.valueOf "input_map" = some p → mapFile env p = some f → GoodTable f.table)
    (hinv : cmd = "replaceininv" → ∀ f, mapFile env map = some f → AllBlocks env.codec f.table SmallInvs) :
    Checked.runCmdLine env yes cmd map m = runCmdLine env yes cmd map m := by
  unfold Checked.runCmdLine runCmdLine
  cases h : toInstArgs yes cmd map m with
  | error e => rfl
  | ok args =>
    obtain ⟨p1, p2, -, -, -, -, e⟩ := toInstArgs_fields h
    have e1 : args.area = areaOf p1 p2 := by rw [e]
    have e2 : args.mapPath = map := by rw [e]
    have e4 : args.command = cmd := by rw [e]
    have e3 : args.inputMapPath = m.valueOf "input_map" := by rw [e]
    simp only
    rw [Checked.workerProg_eq]
    · intro a ha
      rw [e1] at ha
      unfold areaOf at ha
      split at ha
      · cases ha
        exact (C03_valid _ _).1
      · cases ha
    · rw [e2]; exact fun f hf => ⟨(hmain f hf).valid, (hmain f hf).nodup⟩
    · intro f hf hc r hr b hb
      rw [e2] at hf
      exact hinv (e4 ▸ hc) f hf r.1 r.2 b hr (deserialize_iff.1 hb)
    · rw [e3]; exact fun p f hp hf => ⟨(hinput p f hp hf).valid, (hinput p f hp hf).nodup⟩

/-- `C99_total` for the program with machine integers. -/
theorem C102_total (env : Env) (l : CmdLine) (K : Nat) (f : DbFile) (s : Table) (x : Nat → Sys)
    (act : Nat → Option Actor) (hl : LineOk l) (hs : l.name ≠ "setparam2") (hr : NotRefused l) (hE : EnvOk env)
    (hfail : ∀ n, env.fail n = false) (hf : mapFile env l.map = some f) (hm : MapOk env.codec K f) (hK : 4095 ≤ K)
    (hK' : K ≤ 7280) (hinv : l.name = "replaceininv" → AllBlocks env.codec f.table SmallInvs)
    (hsrc : l.name = "overlay" → ∃ p g, ("input_map", [p]) ∈ l.matches_ ∧ mapFile env p = some g ∧
      MapColumns g.cols ∧ g.table = s ∧ Source env.codec K s ∧ AllBlocks env.codec s PlainInvs)
    (h : Execution (Checked.runCmdLine env l.yes l.name l.map l.matches_) x act) (hx : Fair x act)
    (hcr : ∀ n, act n ≠ some .crash) (hno : ∀ n, act n ≠ some (.user false)) :
    ∃ k n t' args, (x k).exit = some 0 ∧ (.info, .text "Done.") ∈ (x k).printed ∧
      (l.yes = false → (x k).answers = [true]) ∧
      Used env.codec l s true f.table t' env (x k) n ∧ Got l args ∧
      nodesOf env.codec t' = meaning args (nodesOf env.codec s) (nodesOf env.codec f.table) ∧
      restsOf env.codec t' = restMeaning args (restsOf env.codec s) (restsOf env.codec f.table) := by
  obtain ⟨cm, hc, ha⟩ := hl.accepted
  have hall : ∀ p, l.matches_.valueOf "input_map" = some p → l.name = "overlay" ∧ ("input_map", [p]) ∈ l.matches_ := by
    intro p hp
    obtain ⟨args, e1, -⟩ := C85_wellformed env l.yes l.name l.map l.matches_ cm hc ha hr.p1 hr.p2 hr.offset
    have e3 : args.inputMapPath = l.matches_.valueOf "input_map" := by
      obtain ⟨_, _, -, -, -, -, e⟩ := toInstArgs_fields e1
      rw [e]
    have ho : l.name = "overlay" := Classical.byContradiction fun ho => by
      rw [← e3, no_input hc ha ho e1] at hp
      cases hp
    refine ⟨ho, ?_⟩
    obtain ⟨q, g, h1, -⟩ := hsrc ho
    have := (holds_valueOf ha.once "input_map").1 q h1
    rw [hp] at this
    cases this
    exact h1
  rw [C102_program env l.yes l.name l.map l.matches_ (by
      intro g hg
      rw [hf] at hg
      cases hg
      exact hm.good) (by
      intro p g hp hg
      obtain ⟨ho, hin⟩ := hall p hp
      obtain ⟨q, g', h1, h2, -, h4, h5, -⟩ := hsrc ho
      have := (holds_valueOf ha.once "input_map").1 q h1
      rw [hp] at this
      cases this
      rw [hg] at h2
      cases h2
      rw [h4]
      exact h5.good) (by
      intro hc g hg
      rw [hf] at hg
      cases hg
      exact hinv hc)] at h
  exact C99_total env l K f s x act hl hs hr hE hfail hf hm hK hK' hsrc h hx hcr hno

/-- The hypotheses of `C102_total` are met by a map with a readable and an unreadable block. -/
example : ∃ x act, Execution (Checked.runCmdLine (editEnv (toyMap (Toy.block 28))) askCmd.yes askCmd.name askCmd.map
      askCmd.matches_) x act ∧ Fair x act ∧ (∀ n, act n ≠ some .crash) ∧ (∀ n, act n ≠ some (.user false)) ∧
    ∃ n, (x n).exit = some 0 ∧ (.info, .text "Done.") ∈ (x n).printed ∧ (x n).answers = [true] := by
  have hw := Toy.block_wf 28 (by omega)
  obtain ⟨x, act, e1, e2, e3, e4⟩ := C99_possible (editEnv (toyMap (Toy.block 28))) askCmd
  have hm : MapOk (Toy.codec id) 4095 ⟨toyMap (Toy.block 28), [⟨"pos", "INT", 1⟩, ⟨"data", "BLOB", 0⟩]⟩ :=
    ⟨⟨_, rfl⟩, toyMap_good _, toyMap_all hw toy_usual, toyMap_all hw toy_place⟩
  rw [← C102_program (editEnv (toyMap (Toy.block 28))) askCmd.yes askCmd.name askCmd.map askCmd.matches_ (by
    intro g hg
    rw [show mapFile (editEnv (toyMap (Toy.block 28))) askCmd.map = _ from editEnv_file _] at hg
    cases hg
    exact toyMap_good _) (by
    intro p g hp
    rw [show askCmd.matches_.valueOf "input_map" = none by decide] at hp
    cases hp) (fun h => absurd h (by decide))] at e1
  refine ⟨x, act, e1, e2, e3, e4, ?_⟩
  obtain ⟨k, n, t', args, g1, g2, g3, -⟩ := C102_total (editEnv (toyMap (Toy.block 28))) askCmd 4095 _ [] x act askCmd_ok
    (by decide) askCmd_notRefused (editEnv_ok _) (fun _ => rfl) (editEnv_file _) hm (by omega) (by omega)
    (fun h => absurd h (by decide)) (fun h => absurd h (by decide)) e1 e2 e3 e4
  exact ⟨k, g1, g2, g3 rfl⟩

end MapEditr
