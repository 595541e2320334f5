import Verif.Proof.TogetherNext
import Verif.Props.Together
/-!
# C115: one run after the other

Nothing is refused if the next run begins when those before it have come to their ends.
-/

namespace MapEditr
open Spec Locks

/-- The end of a connection. -/
def closing (r : Nat) (i : DbId) : Turn := ⟨r, ⟨i, .rollback, true⟩, false, false⟩

theorem part_closing (r r' : Nat) (i : DbId) : part r [closing r' i] = [] := by
  unfold part closing
  rw [List.filter_cons_of_neg (by simp)]
  rfl

theorem part_absent {r : Nat} {S : List Turn} (h : ∀ u ∈ S, u.run ≠ r) : part r S = [] := by
  unfold part
  rw [List.filter_eq_nil_iff.2]
  · rfl
  · intro u hu e
    simp only [Bool.and_eq_true, beq_iff_eq] at e
    exact h u hu e.1

theorem noneClosed_append {S T : List Turn} (hS : NoneClosed S) (hT : NoneClosed T)
    (h : ∀ u ∈ S, ∀ v ∈ T, u.did.stmt = .rollback → ¬ (v.run = u.run ∧ v.did.db = u.did.db)) : NoneClosed (S ++ T) := by
  intro m n u v hmn hm hn hr
  by_cases h1 : n < S.length
  · rw [List.getElem?_append_left h1] at hn
    rw [List.getElem?_append_left (by omega)] at hm
    exact hS m n u v hmn hm hn hr
  · rw [List.getElem?_append_right (by omega)] at hn
    by_cases h2 : m < S.length
    · rw [List.getElem?_append_left h2] at hm
      exact h u (List.mem_of_getElem? hm) v (List.mem_of_getElem? hn) hr
    · rw [List.getElem?_append_right (by omega)] at hm
      exact hT _ _ u v (by omega) hm hn hr

theorem noneClosed_open {T : List Turn} (h : ∀ u ∈ T, u.did.stmt ≠ .rollback) : NoneClosed T :=
  fun _ _ u _ _ hm _ hr => absurd hr (h u (List.mem_of_getElem? hm))

theorem noneClosed_closing (r : Nat) : NoneClosed [closing r .main, closing r .input] := by
  intro m n u v hmn hm hn _
  have h1 := (List.getElem?_eq_some_iff.1 hn).1
  simp only [List.length_cons, List.length_nil] at h1
  have : m = 0 ∧ n = 1 := by omega
  obtain ⟨rfl, rfl⟩ := this
  cases hm
  cases hn
  simp [closing]

theorem closing_act {uses : Nat → DbId → Bool} {f : File} {r : Nat} {i : DbId} (h : uses r i = true) :
    (closing r i).act uses f = f.leave (whose r i) := by
  unfold Turn.act closing
  simp only [Bool.true_and]
  rw [if_pos h]
  rfl

theorem closing_unused {uses : Nat → DbId → Bool} {f : File} {r : Nat} {i : DbId} (h : uses r i = false) :
    (closing r i).act uses f = f := by
  unfold Turn.act closing
  simp only [Bool.true_and]
  rw [if_neg (by rw [h]; simp)]

/-- The program itself never rolls back. -/
theorem no_rollback {env : Env} {args : InstArgs} (hu : ∀ n, env.undo n = false) :
    ∀ d ∈ (computeThread env args World.start).2.trace, d.stmt ≠ .rollback := by
  obtain ⟨ext, h1, h2⟩ := ext_run (env := env) (args := args) (P := fun d => d.stmt ≠ .rollback) (by simp) (by simp) (by simp)
    (by simp) (by simp) (by simp) (by simp) (by simp) (by simp) (by simp) World.start
  rw [show (computeThread env args World.start).2.trace = ext from h1]
  intro d hd
  rcases h2 d hd with h | h
  · exact h
  · exfalso
    subst h
    obtain ⟨n, hn⟩ := List.mem_iff_getElem?.1 hd
    have hp := phases_take (phases_run hu args) (n + 1)
    rw [show (computeThread env args World.start).2.trace = ext from h1, List.take_add_one, hn] at hp
    exact phases_no_rollback hp rfl rfl

theorem part_whole {r : Nat} {T : List Turn} (h : ∀ u ∈ T, u.run = r ∧ u.did.stmt ≠ .rollback) : part r T = T.map (·.did) := by
  unfold part
  rw [List.filter_eq_self.2]
  intro u hu
  simp [h u hu]

/-- C115: the next run, or as much of it as there is until its process ends, is refused nothing, and leaves the file to
the one after it. -/
theorem C115_next (uses : Nat → DbId → Bool) (f : File) (env : Nat → Env) (args : Nat → InstArgs) (S T : List Turn)
    (hu : ∀ r n, (env r).undo n = false) (hS : OfRuns env args S) (ha : AllAllowed uses f S)
    (hidle : Idle (together uses f S)) (r : Nat) (i : DbId) (hi : ∀ j, uses r j = true ↔ j = i)
    (hnew : ∀ u ∈ S, u.run ≠ r) (hown : ∀ u ∈ T, u.run = r)
    (hrun : ∃ rest, (computeThread (env r) (args r) World.start).2.trace = T.map (·.did) ++ rest) :
    OfRuns env args (S ++ T ++ [closing r .main, closing r .input]) ∧
    AllAllowed uses f (S ++ T ++ [closing r .main, closing r .input]) ∧
    Idle (together uses f (S ++ T ++ [closing r .main, closing r .input])) ∧
    part r (S ++ T ++ [closing r .main, closing r .input]) = T.map (·.did) := by
  have hT : ∀ u ∈ T, u.run = r ∧ u.did.stmt ≠ .rollback := by
    intro u hu'
    refine ⟨hown u hu', no_rollback (hu r) (args := args r) _ ?_⟩
    obtain ⟨rest, h⟩ := hrun
    rw [h]
    exact List.mem_append_left _ (List.mem_map_of_mem hu')
  have hpart : ∀ x, part x (S ++ T ++ [closing r .main, closing r .input]) = part x S ++ part x T := by
    intro x
    rw [part_append, part_append, show [closing r .main, closing r .input] = [closing r .main] ++ [closing r .input] from rfl,
      part_append, part_closing, part_closing, List.append_nil, List.append_nil]
  have e0 : S ++ T ++ [closing r .main, closing r .input] = S ++ T ++ [closing r .main] ++ [closing r .input] := by
    rw [List.append_assoc (S ++ T)]; rfl
  rw [← part_whole hT] at hrun ⊢
  obtain ⟨rest, hrest⟩ := hrun
  have hph := phases_take (phases_run (hu r) (args r)) (part r T).length
  rw [hrest, List.take_left' rfl] at hph
  obtain ⟨P, hP⟩ := Option.isSome_iff_exists.1 hph
  obtain ⟨h1, h2⟩ := only_run hi (idle_only hidle _) ha T hT P hP
  refine ⟨⟨fun x => ?_, ?_⟩, ?_, ?_, ?_⟩
  · rw [hpart]
    by_cases hx : x = r
    · subst hx
      rw [part_absent hnew]
      exact ⟨rest, hrest⟩
    · rw [part_absent (r := x) fun u hu' e => hx (e.symm.trans (hT u hu').1), List.append_nil]
      exact hS.1 x
  · refine noneClosed_append (noneClosed_append hS.2 (noneClosed_open fun u hu' => (hT u hu').2) ?_) (noneClosed_closing r) ?_
    · rintro u hu' v hv - ⟨e, -⟩
      exact hnew u hu' (e.symm.trans (hT v hv).1)
    · rintro u hu' v hv hr ⟨e, -⟩
      have hv' : v.run = r := by
        simp only [List.mem_cons, List.not_mem_nil, or_false] at hv
        rcases hv with rfl | rfl <;> rfl
      rcases List.mem_append.1 hu' with hu' | hu'
      · exact hnew u hu' (e.symm.trans hv')
      · exact (hT u hu').2 hr
  · rw [e0]
    exact all_snoc (all_snoc h2 fun _ _ => rfl) fun _ _ => rfl
  · rw [e0, together_snoc, together_snoc]
    cases i with
    | main =>
      rw [closing_act ((hi _).2 rfl), closing_unused (Bool.eq_false_iff.2 fun e => by cases (hi _).1 e)]
      exact only_leave h1
    | input =>
      rw [closing_unused (i := .main) (Bool.eq_false_iff.2 fun e => by cases (hi _).1 e), closing_act ((hi _).2 rfl)]
      exact only_leave h1
  · rw [hpart, part_absent hnew]; rfl

/-- The next run finds what those before it have left. -/
theorem meets_next {uses : Nat → DbId → Bool} {f : File} {env : Nat → Env} {args : Nat → InstArgs} {S L : List Turn}
    (hu : ∀ r n, (env r).undo n = false) (hf : Idle f) (hS : OfRuns env args (S ++ L)) (ha : AllAllowed uses f (S ++ L))
    (hidle : Idle (together uses f S)) {r : Nat} (hi : uses r .main = true)
    (hnew : ∀ u ∈ S, u.run ≠ r) (hL : ∀ u ∈ L, u.run = r) :
    MeetsAt uses f (S ++ L) r .main (together uses f S).content := by
  obtain ⟨t, hm⟩ := C115_looks uses f env args (S ++ L) hu hS ha r .main hi
  suffices h : ∀ n, (∀ m < n, ¬ GetsLock uses f (S ++ L) r .main m) → n < (S ++ L).length →
      GetsLock uses f (S ++ L) r .main n → (together uses f ((S ++ L).take n)).content = (together uses f S).content by
    have h' : ∀ n, n < (S ++ L).length → GetsLock uses f (S ++ L) r .main n → t = (together uses f S).content := by
      intro n
      induction n using Nat.strongRecOn with
      | ind n ih =>
        intro hn hg
        by_cases he : ∃ m < n, GetsLock uses f (S ++ L) r .main m
        · obtain ⟨m, h1, h2⟩ := he
          exact ih m h1 (by omega) h2
        · rw [← h n (fun m h1 h2 => he ⟨m, h1, h2⟩) hn hg]
          exact (hm n hn hg).symm
    intro n hn hg
    rw [← h' n hn hg]
    exact hm n hn hg
  intro n hfirst hn hg
  have hge : S.length ≤ n := by
    apply Nat.le_of_not_lt
    intro hlt
    have hv : (S ++ L)[n]? = some S[n] := by rw [List.getElem?_append_left hlt, List.getElem?_eq_getElem hlt]
    have hne := hnew S[n] (List.getElem_mem hlt)
    obtain ⟨h1, h2⟩ := hg
    rcases h2 with h2 | ⟨u, h2, h3, -⟩
    · rw [List.take_add_one, hv, show (some S[n]).toList = [S[n]] from rfl, together_snoc] at h2
      exact h1 ((act_other fun e => hne e.1).readers.1 h2)
    · rw [hv] at h2
      cases h2
      exact hne h3
  suffices h : ∀ k, S.length + k ≤ n → (together uses f ((S ++ L).take (S.length + k))).content = (together uses f S).content ∧
      whose r .main ∉ (together uses f ((S ++ L).take (S.length + k))).readers by
    have := (h (n - S.length) (by omega)).1
    rwa [show S.length + (n - S.length) = n by omega] at this
  intro k
  induction k with
  | zero =>
    intro _
    rw [Nat.add_zero, List.take_left' rfl]
    exact ⟨rfl, by rw [hidle.2.1]; simp⟩
  | succ k ih =>
    intro hk
    obtain ⟨h1, h2⟩ := ih (by omega)
    have h3 := hfirst (S.length + k) (by omega)
    unfold GetsLock at h3
    have h4 : whose r .main ∉ (together uses f ((S ++ L).take (S.length + k + 1))).readers := fun e => h3 ⟨h2, .inl e⟩
    refine ⟨?_, h4⟩
    have hlt : S.length + k < (S ++ L).length := by omega
    have hv := List.getElem?_eq_getElem hlt
    have hr : ((S ++ L)[S.length + k]).run = r := by
      refine hL _ ?_
      rw [List.getElem?_append_right (by omega)] at hv
      exact List.mem_of_getElem? hv
    have := C115_quiet uses f env args (S ++ L) hu hf hS ha _ _ hv fun e => h3 ⟨h2, .inr ⟨_, hv, hr, e⟩⟩
    exact this.trans h1

/-- C115: one run after the other, each on its own what it would do alone: a run that comes to its end makes the file
from what those before it have left into what the run makes of that. -/
theorem C115_then (uses : Nat → DbId → Bool) (f : File) (env : Nat → Env) (args : Nat → InstArgs) (S T : List Turn)
    (hu : ∀ r n, (env r).undo n = false) (hf : Idle f) (hS : OfRuns env args S) (ha : AllAllowed uses f S)
    (hidle : Idle (together uses f S)) (r : Nat) (hi : ∀ j, uses r j = true ↔ j = .main)
    (hnew : ∀ u ∈ S, u.run ≠ r) (hT : ∀ u ∈ T, u.run = r)
    (hrun : (computeThread (env r) (args r) World.start).2.trace = T.map (·.did)) (hv : (args r).command ≠ "vacuum")
    (t' : Table) (evs : List Event) (h : Completes (env r) (args r) (together uses f S).content t' evs) :
    (together uses f (S ++ T ++ [closing r .main, closing r .input])).content = t' := by
  obtain ⟨h1, h2, -, h4⟩ := C115_next uses f env args S T hu hS ha hidle r .main hi hnew hT ⟨[], by rw [hrun, List.append_nil]⟩
  have hL : ∀ u ∈ T ++ [closing r .main, closing r .input], u.run = r := by
    intro u hu'
    rcases List.mem_append.1 hu' with hu' | hu'
    · exact hT u hu'
    · simp only [List.mem_cons, List.not_mem_nil, or_false] at hu'
      rcases hu' with rfl | rfl <;> rfl
  rw [List.append_assoc] at h1 h2 h4 ⊢
  generalize T ++ [closing r .main, closing r .input] = L at *
  have hm := meets_next hu hf h1 h2 hidle ((hi _).2 rfl) hnew hL
  obtain ⟨n, u, d1, d2, d3, d4, -, d6⟩ := C115_done uses f env args (S ++ L) hu hf h1 h2 r _ t' evs hv h
    (h4.trans hrun.symm) ((hi _).2 rfl) hm
  have hge : S.length ≤ n := by
    apply Nat.le_of_not_lt
    intro hlt
    rw [List.getElem?_append_left hlt] at d1
    exact hnew u (List.mem_of_getElem? d1) d2
  have hlen : n < (S ++ L).length := (List.getElem?_eq_some_iff.1 d1).1
  have hrest : part r ((S ++ L).drop (n + 1)) = [] := by
    have : part r (S ++ L) = part r ((S ++ L).take (n + 1)) ++ part r ((S ++ L).drop (n + 1)) := by
      rw [← part_append, List.take_append_drop]
    rw [d4] at this
    exact (List.self_eq_append_right.1 this)
  have key : ∀ k, n + 1 + k ≤ (S ++ L).length → (together uses f ((S ++ L).take (n + 1 + k))).content = t' := by
    intro k
    induction k with
    | zero => intro _; exact d6
    | succ k ih =>
      intro hk
      have hlt : n + 1 + k < (S ++ L).length := by omega
      have hx := List.getElem?_eq_getElem hlt
      have hr : ((S ++ L)[n + 1 + k]).run = r := by
        refine hL _ ?_
        rw [List.getElem?_append_right (by omega)] at hx
        exact List.mem_of_getElem? hx
      refine (C115_quiet uses f env args (S ++ L) hu hf h1 h2 _ _ hx fun e => ?_).trans (ih (by omega))
      have hmem : (S ++ L)[n + 1 + k] ∈ (S ++ L).drop (n + 1) := by
        refine List.mem_of_getElem? (i := k) ?_
        rw [List.getElem?_drop]
        exact hx
      unfold part at hrest
      rw [List.map_eq_nil_iff, List.filter_eq_nil_iff] at hrest
      exact hrest _ hmem (by rw [hr, e]; simp)
  have := key ((S ++ L).length - (n + 1)) (by omega)
  rwa [show n + 1 + ((S ++ L).length - (n + 1)) = (S ++ L).length by omega, List.take_length] at this

/-- A whole run, up to the end of its process. -/
def wholeRun (env : Nat → Env) (args : Nat → InstArgs) (r : Nat) : List Turn :=
  (computeThread (env r) (args r) World.start).2.trace.map (⟨r, ·, false, false⟩) ++ [closing r .main, closing r .input]

/-- C115: any number of runs one after the other, each of which comes to its end on what the one before it has made: this
is a schedule as it should be, and what the last one has made is in the file. -/
theorem C115_chain (uses : Nat → DbId → Bool) (f : File) (env : Nat → Env) (args : Nat → InstArgs)
    (hu : ∀ r n, (env r).undo n = false) (hf : Idle f) (made : Nat → Table × Table) (R : List Nat) (hR : R.Nodup)
    (hruns : ∀ r ∈ R, (∀ j, uses r j = true ↔ j = .main) ∧ (args r).command ≠ "vacuum" ∧
      ∃ evs, Completes (env r) (args r) (made r).1 (made r).2 evs)
    (t' : Table) (h : InTurn made f.content R t') :
    OfRuns env args (R.flatMap (wholeRun env args)) ∧ AllAllowed uses f (R.flatMap (wholeRun env args)) ∧
    Idle (together uses f (R.flatMap (wholeRun env args))) ∧
    (together uses f (R.flatMap (wholeRun env args))).content = t' := by
  suffices H : ∀ (R : List Nat) (S : List Turn), R.Nodup → (∀ r ∈ R, (∀ j, uses r j = true ↔ j = .main) ∧
      (args r).command ≠ "vacuum" ∧ ∃ evs, Completes (env r) (args r) (made r).1 (made r).2 evs) →
      (∀ r ∈ R, ∀ u ∈ S, u.run ≠ r) → OfRuns env args S → AllAllowed uses f S → Idle (together uses f S) →
      InTurn made (together uses f S).content R t' →
      OfRuns env args (S ++ R.flatMap (wholeRun env args)) ∧ AllAllowed uses f (S ++ R.flatMap (wholeRun env args)) ∧
      Idle (together uses f (S ++ R.flatMap (wholeRun env args))) ∧
      (together uses f (S ++ R.flatMap (wholeRun env args))).content = t' by
    exact H R [] hR hruns nofun ⟨fun r => ⟨_, rfl⟩, fun m n u v _ h => by simp at h⟩ (by intro n u h; simp at h) hf h
  intro R
  induction R with
  | nil =>
    intro S _ _ _ h1 h2 h3 h4
    rw [List.flatMap_nil, List.append_nil]
    exact ⟨h1, h2, h3, h4.symm⟩
  | cons r R ih =>
    intro S hR hruns hnew h1 h2 h3 h4
    obtain ⟨k1, k2, evs, k3⟩ := hruns r List.mem_cons_self
    obtain ⟨e1, e2⟩ := h4
    rw [e1] at k3
    have hown : ∀ u ∈ (computeThread (env r) (args r) World.start).2.trace.map (fun d => (⟨r, d, false, false⟩ : Turn)),
        u.run = r := by
      intro u hu'
      obtain ⟨d, -, rfl⟩ := List.mem_map.1 hu'
      rfl
    have hdid : (computeThread (env r) (args r) World.start).2.trace =
        ((computeThread (env r) (args r) World.start).2.trace.map (fun d => (⟨r, d, false, false⟩ : Turn))).map (·.did) := by
      rw [List.map_map]
      exact (List.map_id _).symm
    obtain ⟨n1, n2, n3, -⟩ := C115_next uses f env args S _ hu h1 h2 h3 r .main k1 (hnew r List.mem_cons_self) hown
      ⟨[], by rw [List.append_nil]; exact hdid⟩
    have n4 := C115_then uses f env args S _ hu hf h1 h2 h3 r k1 (hnew r List.mem_cons_self) hown hdid k2 _ evs k3
    rw [List.flatMap_cons, ← List.append_assoc]
    rw [List.append_assoc] at n1 n2 n3 n4
    obtain ⟨c1, c2⟩ := List.nodup_cons.1 hR
    refine ih (S ++ wholeRun env args r) c2 (fun x hx => hruns x (List.mem_cons_of_mem _ hx)) ?_ n1 n2 n3 (by
      rw [show (together uses f (S ++ wholeRun env args r)).content = (made r).2 from n4]
      exact e2)
    intro x hx u hu'
    rcases List.mem_append.1 hu' with hu' | hu'
    · exact hnew x (List.mem_cons_of_mem _ hx) u hu'
    · have : u.run = r := by
        rcases List.mem_append.1 hu' with hu' | hu'
        · exact hown u hu'
        · simp only [List.mem_cons, List.not_mem_nil, or_false] at hu'
          rcases hu' with rfl | rfl <;> rfl
      rw [this]
      intro e
      exact c1 (e ▸ hx)

/-- The hypotheses can be met. -/
example : ∃ evs evs', Completes (pairEnv 0) (pairArgs 0) lostFile.table pairFile.table evs ∧
    Completes (pairEnv 1) (pairArgs 1) pairFile.table [(0, [28, 0])] evs' ∧
    (together pairUses (idleFile lostFile.table) ([0, 1].flatMap (wholeRun pairEnv pairArgs))).content = [(0, [28, 0])] := by
  obtain ⟨e0, c0⟩ : ∃ evs, Completes (pairEnv 0) (pairArgs 0) lostFile.table pairFile.table evs :=
    ⟨_, _, _, _, rfl, rfl, rfl, rfl, by decide, rfl, rfl⟩
  obtain ⟨e1, c1⟩ : ∃ evs, Completes (pairEnv 1) (pairArgs 1) pairFile.table [(0, [28, 0])] evs :=
    ⟨_, _, _, _, rfl, rfl, rfl, rfl, by decide, rfl, rfl⟩
  refine ⟨e0, e1, c0, c1, ?_⟩
  refine (C115_chain pairUses (idleFile lostFile.table) pairEnv pairArgs (fun r n => ?_) ⟨by simp [idleFile], by simp [idleFile]⟩
    (fun r => if r = 0 then (lostFile.table, pairFile.table) else (pairFile.table, [(0, [28, 0])])) [0, 1] (by decide)
    (fun r hr => ?_) _ ⟨rfl, rfl, rfl⟩).2.2.2
  · unfold pairEnv
    split <;> rfl
  · simp only [List.mem_cons, List.not_mem_nil, or_false] at hr
    rcases hr with rfl | rfl
    · exact ⟨by simp [pairUses], by decide, e0, c0⟩
    · exact ⟨by simp [pairUses], by decide, e1, c1⟩

/-- The statements of a run, all together. -/
def inOne (r : Nat) : List Turn := (pairTrace r).map (⟨r, ·, false, false⟩)

/-- The hypotheses can be met, again and again: the map after one run and after two. -/
example : let f := idleFile lostFile.table
    let S0 := [] ++ inOne 0 ++ [closing 0 .main, closing 0 .input]
    let S1 := S0 ++ inOne 1 ++ [closing 1 .main, closing 1 .input]
    AllAllowed pairUses f S1 ∧ Idle (together pairUses f S1) ∧ (together pairUses f S0).content = pairFile.table ∧
    (together pairUses f S1).content = [(0, [28, 0])] := by
  intro f S0 S1
  have hu : ∀ r n, (pairEnv r).undo n = false := by
    intro r n
    unfold pairEnv
    split <;> rfl
  have hf : Idle f := ⟨by simp [f, idleFile], by simp [f, idleFile]⟩
  have hi : ∀ r j, pairUses r j = true ↔ j = .main := by intro r j; simp [pairUses]
  have h0 : OfRuns pairEnv pairArgs [] := ⟨fun r => ⟨_, rfl⟩, fun m n u v _ h => by simp at h⟩
  have a0 : AllAllowed pairUses f [] := by intro n u h; simp at h
  have t0 : ∀ u ∈ inOne 0, u.run = 0 := by decide
  have t1 : ∀ u ∈ inOne 1, u.run = 1 := by decide
  obtain ⟨n1, n2, n3, -⟩ := C115_next pairUses f pairEnv pairArgs [] (inOne 0) hu h0 a0 hf 0 .main (hi 0) nofun t0
    ⟨[], by decide⟩
  have c0 := C115_then pairUses f pairEnv pairArgs [] (inOne 0) hu hf h0 a0 hf 0 (hi 0) nofun t0 (by decide) (by decide)
    pairFile.table _ ⟨_, _, _, rfl, rfl, rfl, rfl, by decide, rfl, rfl⟩
  have hnew : ∀ u ∈ S0, u.run ≠ 1 := by decide
  obtain ⟨m1, m2, m3, -⟩ := C115_next pairUses f pairEnv pairArgs S0 (inOne 1) hu n1 n2 n3 1 .main (hi 1) hnew t1
    ⟨[], by decide⟩
  have hc : ∃ evs, Completes (pairEnv 1) (pairArgs 1) (together pairUses f S0).content [(0, [28, 0])] evs := by
    rw [show (together pairUses f S0).content = pairFile.table from c0]
    exact ⟨_, _, _, _, rfl, rfl, rfl, rfl, by decide, rfl, rfl⟩
  obtain ⟨evs, hc⟩ := hc
  exact ⟨m2, m3, c0, C115_then pairUses f pairEnv pairArgs S0 (inOne 1) hu hf n1 n2 n3 1 (hi 1) hnew t1 (by decide)
    (by decide) [(0, [28, 0])] evs hc⟩

end MapEditr
