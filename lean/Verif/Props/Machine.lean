import Verif.Proof.MachineRun
import Verif.Spec.Counters
import Verif.Props.Overlay
import Verif.Props.Clone
import Verif.Props.Fill
/-!
# C88: a run computing with machine integers

`Checked.worker` is the worker thread with the integer types of the source: every `i32`, `i64`, `u64`
operation on coordinates, indices, volumes and counters panics on overflow in a debug build and wraps around in a
release build.  The other theorems are about `worker`, which computes exactly.
-/

namespace MapEditr
open Spec

/-- For all arguments (areas as the command line makes them: corners sorted), all environments - any
outcome of any database statement, both builds - and all maps whose keys are different and belong to blocks,
a run with machine integers is the run with exact ones: same result or panic, same messages with the same numbers,
same progress, same statements, same content of both databases.  For `replaceininv` the inventories of a block must
not be larger than 64 MiB. -/
theorem C88_machine_integers (env : Env) (args : InstArgs) (ha : AreaOk args.area)
    (hmain : ∀ f, mapFile env args.mapPath = some f → GoodTable f.table)
    (hinput : ∀ p f, args.inputMapPath = some p → mapFile env p = some f → GoodTable f.table)
    (hinv : args.command = "replaceininv" → ∀ f, mapFile env args.mapPath = some f →
      AllBlocks env.codec f.table SmallInvs) :
    Checked.worker env args World.start = worker env args World.start :=
  Checked.worker_eq ha (fun f hf => ⟨(hmain f hf).valid, (hmain f hf).nodup⟩)
    (fun f hf hc r hr b hb => hinv hc f hf r.1 r.2 b hr (deserialize_iff.1 hb))
    (fun p f hp hf => ⟨(hinput p f hp hf).valid, (hinput p f hp hf).nodup⟩)

/-- So everything proved of runs with exact integers holds with machine integers. -/
theorem C88_transfer (P : Res Unit × World → Prop) (env : Env) (args : InstArgs) (ha : AreaOk args.area)
    (hmain : ∀ f, mapFile env args.mapPath = some f → GoodTable f.table)
    (hinput : ∀ p f, args.inputMapPath = some p → mapFile env p = some f → GoodTable f.table)
    (hinv : args.command = "replaceininv" → ∀ f, mapFile env args.mapPath = some f →
      AllBlocks env.codec f.table SmallInvs)
    (h : P (worker env args World.start)) : P (Checked.worker env args World.start) := by
  rw [C88_machine_integers env args ha hmain hinput hinv]
  exact h

/-- The hypotheses are met by a run of `fill`, with `--invert`, on a map with a readable and an unreadable
block, -/
example : (∃ t' evs, Completes (editEnv (toyMap (Toy.block 28))) (fillArgs true) (toyMap (Toy.block 28)) t' evs) ∧
    Checked.worker (editEnv (toyMap (Toy.block 28))) (fillArgs true) World.start =
      worker (editEnv (toyMap (Toy.block 28))) (fillArgs true) World.start := by
  refine ⟨fill_toy true (Toy.block 28) (Toy.block_wf 28 (by omega)) (named_covered (toy_named 28)) (toy_small 28),
    C88_machine_integers _ _ (by rintro _ ⟨⟩; rfl) ?_ (by rintro _ _ ⟨⟩) (fun h => absurd h (by decide))⟩
  rintro _ ⟨⟩
  exact toyMap_good _

/-- by a run of `clone` from one end of the map to the other, -/
example : (∃ t' evs, Completes (editEnv (pairMap 1936 (Toy.block 28))) (cloneArgs (-31000) 61990)
      (pairMap 1936 (Toy.block 28)) t' evs) ∧
    Checked.worker (editEnv (pairMap 1936 (Toy.block 28))) (cloneArgs (-31000) 61990) World.start =
      worker (editEnv (pairMap 1936 (Toy.block 28))) (cloneArgs (-31000) 61990) World.start := by
  refine ⟨clone_toy 28 (by omega) (by decide) (by decide) (by omega) (by omega) (by omega),
    C88_machine_integers _ _ (by rintro _ ⟨⟩; rfl) ?_ (by rintro _ _ ⟨⟩) (fun h => absurd h (by decide))⟩
  rintro _ ⟨⟩
  exact pairMap_good (by decide) (by decide) _

/-- and by a run of `overlay` with two maps. -/
example : (∃ t' evs, Completes (twoEnv (oneMap (Toy.block 28)) (oneMap (otherBlock 1))) (overlayArgs true)
      (oneMap (Toy.block 28)) t' evs) ∧
    Checked.worker (twoEnv (oneMap (Toy.block 28)) (oneMap (otherBlock 1))) (overlayArgs true) World.start =
      worker (twoEnv (oneMap (Toy.block 28)) (oneMap (otherBlock 1))) (overlayArgs true) World.start := by
  refine ⟨overlay_toy true 1 (by omega), C88_machine_integers _ _ (by rintro _ ⟨⟩; rfl) ?_ ?_ (fun h => absurd h (by decide))⟩
  · rintro _ ⟨⟩
    exact oneMap_good _
  · rintro _ _ ⟨⟩ ⟨⟩
    exact oneMap_good _

/-- A row whose key is the largest `i64`. -/
def strayEnv (b : Build) : Env := { editEnv [(9223372036854775807, [25])] with build := b }

/-- Keys of blocks are needed: for another key, a debug build panics where exact arithmetic does not. -/
example : (∃ why, (Checked.worker (strayEnv .debug) (fillArgs true) World.start).1 = .error (.panic why)) ∧
    (worker (strayEnv .debug) (fillArgs true) World.start).1 = .ok () := by
  refine ⟨⟨"i64 overflow", by decide +kernel⟩, by decide +kernel⟩

end MapEditr
