import Verif.Proof.Cost
import Verif.Props.Progress
/-!
# What a run costs (C105)

Bounds on the statements, writes and messages of one run, whatever the maps hold and whichever
statements fail.
-/

namespace MapEditr
open Spec

/-- **C105**: with at most `n` rows in each map, a run of `clone` or `overlay` executes at most `10 n + 11` statements
and one of any other command at most `2 n + 11`, whatever the rows hold and whichever statements fail. -/
theorem C105_statements (env : Env) (args : InstArgs) (n : Nat)
    (hmain : ∀ f, mapFile env args.mapPath = some f → f.table.length ≤ n)
    (hinput : ∀ p f, args.inputMapPath = some p → mapFile env p = some f → f.table.length ≤ n) :
    asked (worker env args World.start).2.trace ≤
      (if args.command = "clone" ∨ args.command = "overlay" then 10 else 2) * n + 11 := by
  obtain ⟨ks, h1, h2, -, -⟩ := worker_cost (Q := fun _ t => t.length ≤ n) env args hmain hinput
  have hl : ks.length ≤ n := by
    rcases h1 with rfl | ⟨i, rows, ks', h3, h4, h5⟩
    · exact Nat.zero_le _
    · have := h5.length_le
      rw [List.length_map, ← h4.length_eq] at this
      exact Nat.le_trans this h3
  have hmul := Nat.mul_le_mul_left (stepCost args.command) hl
  have h0 : asked World.start.trace = 0 := rfl
  unfold stepCost at h2 hmul
  omega

/-- **C105**: no run writes or deletes a block twice, and it only ever writes or deletes blocks of one of the two maps:
those of the map being edited or those of the second map (which only `overlay` has). -/
theorem C105_once (env : Env) (args : InstArgs)
    (hmain : ∀ f, mapFile env args.mapPath = some f → (f.table.map (·.1)).Nodup)
    (hinput : ∀ p f, args.inputMapPath = some p → mapFile env p = some f → (f.table.map (·.1)).Nodup) :
    (keysWritten (worker env args World.start).2.trace).Nodup ∧
      ((∀ k ∈ keysWritten (worker env args World.start).2.trace,
          ∃ f, mapFile env args.mapPath = some f ∧ k ∈ f.table.map (·.1)) ∨
        ∀ k ∈ keysWritten (worker env args World.start).2.trace,
          ∃ p f, args.inputMapPath = some p ∧ mapFile env p = some f ∧ k ∈ f.table.map (·.1)) := by
  obtain ⟨ks, h1, -, -, l, h2, h3⟩ := worker_cost (Q := fun i t => match i with
    | .main => ∃ f, mapFile env args.mapPath = some f ∧ t = f.table
    | .input => ∃ p f, args.inputMapPath = some p ∧ mapFile env p = some f ∧ t = f.table) env args
    (fun f hf => ⟨f, hf, rfl⟩) fun p f hp hf => ⟨p, f, hp, hf, rfl⟩
  rw [h2, show keysWritten World.start.trace = [] from rfl, List.nil_append]
  rcases h1 with rfl | ⟨i, rows, ks', h4, h5, h6⟩
  · rw [List.sublist_nil.1 h3]
    exact ⟨List.nodup_nil, .inl fun _ h => absurd h List.not_mem_nil⟩
  · have hsub : ∀ k ∈ l, k ∈ rows.map (·.1) := fun k hk => h6.subset (h5.mem_iff.1 (h3.subset hk))
    cases i with
    | main =>
      obtain ⟨f, hf, rfl⟩ := h4
      exact ⟨h3.nodup (h5.nodup_iff.2 (h6.nodup (hmain f hf))), .inl fun k hk => ⟨f, hf, hsub k hk⟩⟩
    | input =>
      obtain ⟨p, f, hp, hf, rfl⟩ := h4
      exact ⟨h3.nodup (h5.nodup_iff.2 (h6.nodup (hinput p f hp hf))), .inr fun k hk => ⟨p, f, hp, hf, hsub k hk⟩⟩

/-- **C105**: no run sends more than twelve messages to the terminal, however large the maps are. -/
theorem C105_messages (env : Env) (args : InstArgs) : (worker env args World.start).2.events.length ≤ 12 := by
  obtain ⟨ks, -, -, h, -⟩ := worker_cost (Q := fun _ _ => True) env args (fun _ _ => trivial) fun _ _ _ _ => trivial
  have h0 : World.start.events.length = 0 := rfl
  omega

/-- A run over three rows that hold no blocks: nine statements of at most seventeen, ... -/
example : asked (worker (editEnv [(0, [1]), (7, [30]), (-4096, [])]) (runArgs false "deletemeta" "map" none)
      World.start).2.trace = 9 ∧
    asked (worker (editEnv [(0, [1]), (7, [30]), (-4096, [])]) (runArgs false "deletemeta" "map" none)
      World.start).2.trace ≤ 2 * 3 + 11 :=
  ⟨rfl, C105_statements _ _ 3 (by rintro _ ⟨⟩; decide) (by rintro _ _ ⟨⟩)⟩

/-- ... of which none writes, and a run that deletes all three. -/
example : keysWritten (worker (editEnv [(0, [1]), (7, [30]), (-4096, [])]) (runArgs false "deletemeta" "map" none)
      World.start).2.trace = [] ∧
    keysWritten (worker (editEnv [(0, [1]), (7, [30]), (-4096, [])])
      { runArgs false "deleteblocks" "map" none with area := some ⟨⟨-16, -16, -16⟩, ⟨127, 15, 15⟩⟩ }
      World.start).2.trace = [0, 7, -4096] := ⟨rfl, rfl⟩

end MapEditr
