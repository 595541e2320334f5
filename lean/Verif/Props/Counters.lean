import Verif.Proof.Totals
import Verif.Props.Machine
import Verif.Props.Progress
/-!
# The counters cannot overflow (C104)

`Checked.worker` counts blocks, failures and changes in `u64`, as the code does: an increment at the
largest value panics in a debug build and starts over at 0 in a release build.
-/

namespace MapEditr
open Spec

/-- No counter ever shows more than the number of rows of the larger of the two maps. -/
theorem C104_rows (env : Env) (args : InstArgs) (n : Nat)
    (hmain : ∀ f, mapFile env args.mapPath = some f → f.table.length ≤ n)
    (hinput : ∀ p f, args.inputMapPath = some p → mapFile env p = some f → f.table.length ≤ n) :
    ∀ s ∈ (worker env args World.start).2.seen, s.total ≤ n ∧ s.done ≤ n ∧ s.failed ≤ n := by
  have ht := Checked.tot_worker env args hmain hinput
  have hl := C72_history env args
  obtain ⟨h1, h2⟩ := C72_progress env args
  intro s hs
  have hle : s.total ≤ n := by
    obtain ⟨l, e⟩ := List.getLast?_eq_some_iff.1 hl
    rw [e] at h2 hs
    rcases List.mem_append.1 hs with h | h
    · exact Nat.le_trans ((List.pairwise_append.1 h2).2.2 s h _ (List.mem_singleton.2 rfl)).2.2.1 ht
    · rw [List.mem_singleton.1 h]
      exact ht
  exact ⟨hle, Nat.le_trans (h1 s hs).1 hle, Nat.le_trans (h1 s hs).2 hle⟩

/-- **C104**: for all arguments of Rust values, all environments and all maps with different keys that
belong to blocks (for `replaceininv`, with inventories of at most 64 MiB in a block), the run with `u64` counters
shows sensible progress at all times, and no counter ever exceeds 2³⁶. -/
theorem C104_counters (env : Env) (args : InstArgs) (ha : AreaOk args.area)
    (hmain : ∀ f, mapFile env args.mapPath = some f → GoodTable f.table)
    (hinput : ∀ p f, args.inputMapPath = some p → mapFile env p = some f → GoodTable f.table)
    (hinv : args.command = "replaceininv" → ∀ f, mapFile env args.mapPath = some f →
      AllBlocks env.codec f.table SmallInvs) :
    ProgressOk (Checked.worker env args World.start).2.seen ∧
      ∀ s ∈ (Checked.worker env args World.start).2.seen, s.total ≤ 2 ^ 36 ∧ s.done ≤ 2 ^ 36 ∧ s.failed ≤ 2 ^ 36 := by
  have hb : ∀ t, GoodTable t → t.length ≤ 2 ^ 36 := fun t h => by
    have := keys_bound h.nodup (by
      intro k hk
      obtain ⟨r, hr, rfl⟩ := List.mem_map.1 hk
      exact h.valid r hr)
    rwa [List.length_map] at this
  rw [C88_machine_integers env args ha hmain hinput hinv]
  exact ⟨C72_progress env args,
    C104_rows env args _ (fun f hf => hb _ (hmain f hf)) fun p f hp hf => hb _ (hinput p f hp hf)⟩

/-- The hypotheses are met, and blocks are counted. -/
example : (worker (editEnv [(0, [1]), (7, [30]), (-4096, [])]) (runArgs false "deletemeta" "map" none)
      World.start).2.status.total = 3 ∧
    ProgressOk (Checked.worker (editEnv [(0, [1]), (7, [30]), (-4096, [])]) (runArgs false "deletemeta" "map" none)
      World.start).2.seen := by
  refine ⟨rfl, (C104_counters _ _ (by rintro _ ⟨⟩) ?_ (by rintro _ _ ⟨⟩) (fun h => absurd h (by decide))).1⟩
  rintro _ ⟨⟩
  exact ⟨by decide, by decide⟩

/-- The blocks of an ordinary map have small inventories. -/
example : AllBlocks (Toy.codec id) (toyMap (Toy.block 29)) SmallInvs ∧
    ((stored (Toy.block 29)).metas.map fun e => e.2.inv.length).sum = 48 :=
  ⟨toyMap_all (Toy.block_wf 29 (by omega)) (by unfold SmallInvs; decide), by decide⟩

/-- What an overflow would do: a panic in a debug build, ... -/
example : (Checked.incDone .debug { World.start with status := { World.start.status with done := 2 ^ 64 - 1 } }).1 =
    .error (.panic "u64 overflow") := by rfl

/-- ... and a count that starts over in a release build. -/
example : (Checked.incDone .release { World.start with status := { World.start.status with done := 2 ^ 64 - 1 } }).2.status.done =
    0 := by rfl

end MapEditr
