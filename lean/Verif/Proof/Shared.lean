import Verif.Spec.Shared
/-!
# The lock around the counters: invariant
-/

namespace MapEditr.Shared
open Spec

theorem after_append (s : Status) (a b : List Act) : after s (a ++ b) = after (after s a) b := by
  induction a generalizing s with
  | nil => rfl
  | cons x t ih => cases x <;> exact ih _

theorem tells_append (a b : List Act) : tells (a ++ b) = tells a ++ tells b := by
  induction a with
  | nil => rfl
  | cons x t ih =>
    cases x with
    | count v => exact ih
    | tell e => exact congrArg (e :: ·) ih

theorem counts_append (a b : List Act) : counts (a ++ b) = counts a ++ counts b := by
  induction a with
  | nil => rfl
  | cons x t ih =>
    cases x with
    | tell v => exact ih
    | count e => exact congrArg (e :: ·) ih

theorem tells_prefix {a b : List Act} (h : a <+: b) : tells a <+: tells b := by
  obtain ⟨c, rfl⟩ := h
  exact ⟨tells c, (tells_append a c).symm⟩

/-- The events of some turns. -/
def events (ts : List Turn) : List Event := ts.flatMap fun t => got t.recv

theorem events_snoc (ts : List Turn) (t : Turn) : events (ts ++ [t]) = events ts ++ got t.recv := by
  unfold events
  rw [List.flatMap_append]
  simp

/-- What holds in all states. -/
structure Good (acts done : List Act) (s : State) : Prop where
  split : acts = done ++ s.todo
  holderW : s.holder = some .worker ↔ s.worker ≠ .outside
  holderU : s.holder = some .ui ↔ s.ui = .locked ∨ s.ui = .copied
  head : s.worker ≠ .outside → ∃ v t, s.todo = .count v :: t
  value : s.worker = .outside ∨ s.worker = .locked → s.value = some (after {} done)
  written : s.worker = .written → ∃ v t, s.todo = .count v :: t ∧ s.value = some v
  ev : events s.turns ++ s.queue = tells done
  faith : ∃ n, n ≤ done.length ∧ Faithful acts n s.turns
  some : s.ui ≠ .waiting → s.turns ≠ []

theorem take_done {acts done todo : List Act} (h : acts = done ++ todo) : acts.take done.length = done := by
  rw [h, List.take_left]

theorem Faithful.add {acts done todo : List Act} {n : Nat} {ts : List Turn} (h : acts = done ++ todo)
    (hn : n ≤ done.length) (hf : Faithful acts n ts) {r : Recv} (he : events ts ++ got r <+: tells done) :
    ∃ n, n ≤ done.length ∧ Faithful acts n (ts ++ [⟨r, none⟩]) := by
  refine ⟨done.length, Nat.le_refl _, .turn hf hn ?_ ?_ (.inl rfl)⟩
  · rw [h, List.length_append]; omega
  · rw [take_done h]
    have := events_snoc ts ⟨r, none⟩
    unfold events at this
    rw [this]
    exact he

theorem good_worker {acts done : List Act} {s s' : State} (g : Good acts done s) (h : workerStep s = some s') :
    ∃ done', Good acts done' s' := by
  unfold workerStep at h
  split at h
  · exact absurd h nofun
  · rename_i e t ht
    cases h
    have hw : s.worker = .outside := by
      by_cases hw : s.worker = .outside
      · exact hw
      · obtain ⟨v, t', hv⟩ := g.head hw
        rw [ht] at hv
        cases hv
    obtain ⟨n, hn, hf⟩ := g.faith
    refine ⟨done ++ [.tell e], ?_, g.holderW, g.holderU, fun h => absurd hw h, ?_, ?_, ?_, ⟨n, ?_, hf⟩, g.some⟩
    · rw [g.split, ht, List.append_assoc]
      rfl
    · intro _
      rw [after_append]
      exact g.value (.inl hw)
    · intro h
      exact absurd (hw.symm.trans h) (by decide)
    · rw [tells_append, ← g.ev]
      exact (List.append_assoc ..).symm
    · rw [List.length_append]; omega
  · rename_i v t ht
    split at h
    · rename_i hw
      split at h
      · rename_i hh
        cases h
        refine ⟨done, g.split, ⟨fun _ => nofun, fun _ => rfl⟩, ⟨nofun, fun h => ?_⟩, fun _ => ⟨v, t, ht⟩,
          fun _ => g.value (.inl hw), nofun, g.ev, g.faith, g.some⟩
        have := g.holderU.2 h
        rw [hh] at this
        cases this
      · cases h
    · rename_i hw
      cases h
      have hh := g.holderW.2 (by rw [hw]; decide)
      exact ⟨done, g.split, ⟨fun _ => nofun, fun _ => hh⟩, g.holderU, fun _ => ⟨v, t, ht⟩,
        fun h => (by rcases h with h | h <;> cases h), nofun, g.ev, g.faith, g.some⟩
    · rename_i hw
      cases h
      have hh := g.holderW.2 (by rw [hw]; decide)
      exact ⟨done, g.split, ⟨fun _ => nofun, fun _ => hh⟩, g.holderU, fun _ => ⟨v, t, ht⟩,
        fun h => (by rcases h with h | h <;> cases h), fun _ => ⟨v, t, ht, rfl⟩, g.ev, g.faith, g.some⟩
    · rename_i hw
      cases h
      have hh := g.holderW.2 (by rw [hw]; decide)
      obtain ⟨v', t', h1, h2⟩ := g.written hw
      rw [ht] at h1
      cases h1
      obtain ⟨n, hn, hf⟩ := g.faith
      refine ⟨done ++ [.count v], ?_, ⟨nofun, fun h => absurd rfl h⟩, ⟨nofun, fun h => ?_⟩,
        fun h => absurd rfl h, ?_, nofun, ?_, ⟨n, ?_, hf⟩, g.some⟩
      · rw [g.split, ht, List.append_assoc]
        rfl
      · have := g.holderU.2 h
        rw [hh] at this
        cases this
      · intro _
        rw [after_append]
        exact h2
      · rw [tells_append]
        exact g.ev.trans (List.append_nil _).symm
      · rw [List.length_append]; omega

/-- The last turn reads the counters. -/
theorem Faithful.read {acts done todo : List Act} {n : Nat} {ts : List Turn} {t : Turn} (h : acts = done ++ todo)
    (hn : n ≤ done.length) (hf : Faithful acts n (ts ++ [t])) :
    Faithful acts done.length (ts ++ [{ t with read := some (some (after {} done)) }]) := by
  generalize hl : ts ++ [t] = l at hf
  cases hf with
  | nil => simp at hl
  | @turn n' _ ts' t' h1 h2 h3 h4 h5 =>
    obtain ⟨e1, e2⟩ := List.append_inj' hl rfl
    cases e1
    cases e2
    refine .turn h1 (Nat.le_trans h2 hn) (by rw [h, List.length_append]; omega) ?_ (.inr (by rw [take_done h]))
    have := h4.trans (tells_prefix (List.take_prefix_take_left hn))
    rw [List.flatMap_append] at this ⊢
    exact this

theorem good_ui {acts done : List Act} {s s' : State} (g : Good acts done s) (h : uiStep s = some s') :
    Good acts done s' := by
  obtain ⟨n, hn, hf⟩ := g.faith
  unfold uiStep at h
  split at h
  · rename_i hu
    split at h
    · cases h
    · rename_i e q hq
      cases h
      have he : events s.turns ++ got (.event e) ++ q = tells done := by
        rw [← g.ev, hq, List.append_assoc]
        rfl
      refine ⟨g.split, g.holderW, ⟨fun h => ?_, fun h => (by rcases h with h | h <;> cases h)⟩, g.head, g.value, g.written, ?_,
        Faithful.add g.split hn hf ⟨q, he⟩, fun _ => by simp⟩
      · have := g.holderU.1 h
        rw [hu] at this
        rcases this with h | h <;> cases h
      · rw [events_snoc]
        exact he
  · rename_i hu
    split at h
    · rename_i hh
      cases h
      refine ⟨g.split, ⟨nofun, fun h => ?_⟩, ⟨fun _ => .inl rfl, fun _ => rfl⟩, g.head, g.value, g.written, g.ev,
        g.faith, fun _ => g.some (by rw [hu]; decide)⟩
      have := g.holderW.2 h
      rw [hh] at this
      cases this
    · cases h
  · rename_i hu
    split at h
    · rename_i k hk
      cases h
      have hh := g.holderU.2 (.inl hu)
      have hw : s.worker = .outside := by
        by_cases hw : s.worker = .outside
        · exact hw
        · have := g.holderW.2 hw
          rw [hh] at this
          cases this
      have hts : s.turns = s.turns.dropLast ++ [k] := by
        obtain ⟨ys, e⟩ := List.getLast?_eq_some_iff.1 hk
        rw [e, List.dropLast_concat]
      refine ⟨g.split, g.holderW, ⟨fun _ => .inr rfl, fun _ => hh⟩, g.head, g.value, g.written, ?_, ⟨done.length, Nat.le_refl _, ?_⟩,
        fun _ => by simp⟩
      · rw [events_snoc]
        have := g.ev
        rw [hts, events_snoc] at this
        exact this
      · rw [g.value (.inl hw)]
        rw [hts] at hf
        exact Faithful.read g.split hn hf
    · cases h
  · rename_i hu
    cases h
    have hh := g.holderU.2 (.inr hu)
    refine ⟨g.split, ⟨nofun, fun h => ?_⟩, ⟨nofun, fun h => (by rcases h with h | h <;> cases h)⟩, g.head,
      g.value, g.written, g.ev, g.faith, fun h => absurd rfl h⟩
    have := g.holderW.2 h
    rw [hh] at this
    cases this

theorem good_step {acts done : List Act} {s s' : State} {a : Actor} (g : Good acts done s) (h : step a s = some s') :
    ∃ done', Good acts done' s' := by
  cases a with
  | worker => exact good_worker g h
  | ui => exact ⟨_, good_ui g h⟩
  | timeout =>
    simp only [step] at h
    split at h
    · rename_i hu
      cases h
      obtain ⟨n, hn, hf⟩ := g.faith
      refine ⟨done, g.split, g.holderW, ⟨fun h => ?_, fun h => (by rcases h with h | h <;> cases h)⟩, g.head, g.value, g.written, ?_,
        Faithful.add g.split hn hf (r := .timeout) ⟨s.queue, ?_⟩, fun _ => by simp⟩
      · have := g.holderU.1 h
        rw [hu] at this
        rcases this with h | h <;> cases h
      · rw [events_snoc]
        show events s.turns ++ [] ++ s.queue = _
        rw [List.append_nil]
        exact g.ev
      · show events s.turns ++ [] ++ s.queue = _
        rw [List.append_nil]
        exact g.ev
    · cases h
  | skip =>
    simp only [step] at h
    split at h
    · rename_i hu
      cases h
      refine ⟨done, g.split, g.holderW, ⟨fun h => ?_, fun h => (by rcases h with h | h <;> cases h)⟩, g.head, g.value, g.written,
        g.ev, g.faith, fun h => absurd rfl h⟩
      have := g.holderU.1 h
      rw [hu] at this
      rcases this with h | h <;> cases h
    · cases h

theorem good_reach {acts : List Act} {s : State} (h : Reach acts s) : ∃ done, Good acts done s := by
  induction h with
  | init => exact ⟨[], rfl, ⟨nofun, fun h => absurd rfl h⟩, ⟨nofun, fun h => (by rcases h with h | h <;> cases h)⟩,
      fun h => absurd rfl h, fun _ => rfl, nofun, rfl, ⟨0, Nat.le_refl _, .nil⟩, fun h => absurd rfl h⟩
  | step a _ h ih =>
    obtain ⟨d, g⟩ := ih
    exact good_step g h

end MapEditr.Shared
