import Verif.Proof.Acts
import Verif.Props.Screen
/-!
# The last line of a stage
-/

namespace MapEditr
open Spec Shared

theorem show_cur {u v : Ui} {k : Tick} {f : InstState} (h : u.show k f = .ok v) : v.curState = u.curState := by
  unfold Ui.show at h
  simp only at h
  split at h
  · cases h
    rfl
  · split at h
    · split at h
      · cases h
        rfl
      · cases h
    · cases h
      rfl

theorem newlineIf_cur (u : Ui) : u.newlineIf.curState = u.curState := by
  unfold Ui.newlineIf
  split <;> rfl

/-- The stage the loop takes to be the current one. -/
theorem step_cur {u v : Ui} {k : Tick} (h : u.step k = .ok v) :
    v.curState = ((news (got k.recv)).getLast?).getD u.curState := by
  have h1 : (u.receive k).1.curState = ((news (got k.recv)).getLast?).getD u.curState := by
    unfold Ui.receive
    cases k.recv with
    | timeout => rfl
    | event e =>
      cases e with
      | newState s => rfl
      | log t m => exact newlineIf_cur u
      | confirmRequest => exact newlineIf_cur u
  rw [ui_step_eq] at h
  split at h
  · rename_i x hx
    cases h
    rw [← h1, ← show_cur hx]
    split
    · exact newlineIf_cur x
    · rfl
  · cases h

/-- At the end of a stage the loop reads the counters. -/
theorem reads_end {u : Ui} {k : Tick} (hu : u.curState ≠ .ignore) (hk : k.recv = .event (.newState .ignore)) :
    u.reads k = true := by
  unfold Ui.reads Ui.receive
  rw [hk]
  cases h : u.curState with
  | ignore => exact absurd h hu
  | querying => rfl
  | editing => simp

theorem faithful_snoc {acts : List Act} {n : Nat} {ts : List Turn} {t : Turn} (h : Faithful acts n (ts ++ [t])) :
    (∃ m, Faithful acts m ts) ∧ Shared.events (ts ++ [t]) <+: tells (acts.take n) ∧
      (t.read = none ∨ t.read = some (some (after {} (acts.take n)))) := by
  generalize hl : ts ++ [t] = l at h
  cases h with
  | nil => simp at hl
  | @turn n' _ ts' t' h1 h2 h3 h4 h5 =>
    obtain ⟨e1, e2⟩ := List.append_inj' hl rfl
    cases e1
    cases e2
    exact ⟨⟨n', h1⟩, h4, h5⟩

/-- What the loop has printed after some turns, if the counters are `fin` at the end. -/
structure Lines (fin : Status) (ts : List Turn) (u : Ui) : Prop where
  cur : u.curState = ((news (Shared.events ts)).getLast?).getD .ignore
  query : 2 ≤ (news (Shared.events ts)).length → ∃ a b, u.out = a ++ queryingText fin.total ++ '\n' :: b
  edit : 4 ≤ (news (Shared.events ts)).length → ∃ a b ns ms text,
    editingText fin.done fin.total ns ms fin.showProgress = .ok text ∧ u.out = a ++ text ++ '\n' :: b

theorem news_events_prefix {a b : List Event} (h : a <+: b) : news a <+: news b := by
  obtain ⟨c, rfl⟩ := h
  exact ⟨news c, (news_append a c).symm⟩

theorem lines_plays {acts : List Act} {k : Nat} (hs : Stage k acts) {t0 n : Nat} {ts : List Turn} {u : Ui}
    (hp : Plays t0 ts u) (hf : Faithful acts n ts) : Lines (after {} acts) ts u := by
  induction hp generalizing n with
  | init => exact ⟨rfl, nofun, nofun⟩
  | @turn ts t u v tk hp hr hread hstep ih =>
    obtain ⟨⟨m, hf'⟩, hev, hrd⟩ := faithful_snoc hf
    have L := ih hf'
    have hn : news (Shared.events (ts ++ [t])) = news (Shared.events ts) ++ news (got t.recv) := by
      rw [events_snoc, news_append]
    have hpre : news (Shared.events (ts ++ [t])) <+: STAGES := by
      have h1 := news_events_prefix (hev.trans (tells_prefix (List.take_prefix n acts)))
      rw [hs.news] at h1
      exact h1.trans (List.take_prefix _ _)
    have hlen : (news (Shared.events (ts ++ [t]))).length ≤ (news (tells (acts.take n))).length :=
      (news_events_prefix hev).length_le
    obtain ⟨x, hx⟩ := C75_keep u v tk hstep
    have hcur := step_cur hstep
    rw [hr] at hcur
    have hgot : news (got t.recv) = [] ∨ ∃ s, t.recv = .event (.newState s) := by
      cases t.recv with
      | timeout => exact .inl rfl
      | event e =>
        cases e with
        | newState s => exact .inr ⟨s, rfl⟩
        | log _ _ => exact .inl rfl
        | confirmRequest => exact .inl rfl
    rcases hgot with h0 | ⟨s, hs'⟩
    · rw [h0, List.append_nil] at hn
      rw [h0] at hcur
      refine ⟨by rw [hn, ← L.cur]; exact hcur, fun h => ?_, fun h => ?_⟩
      · rw [hn] at h
        obtain ⟨a, b, e⟩ := L.query h
        exact ⟨a, b ++ x, by rw [← hx, e]; simp⟩
      · rw [hn] at h
        obtain ⟨a, b, ns, ms, text, e1, e⟩ := L.edit h
        exact ⟨a, b ++ x, ns, ms, text, e1, by rw [← hx, e]; simp⟩
    · rw [hs'] at hn hcur hr
      replace hn : news (Shared.events (ts ++ [t])) = news (Shared.events ts) ++ [s] := hn
      replace hcur : v.curState = s := hcur
      -- the counters read at the end of a stage
      have hst : u.curState ≠ .ignore → s = .ignore → tk.status = after {} (acts.take n) := by
        intro h1 h2
        have h3 := hread (reads_end h1 (by rw [hr, h2]))
        rcases hrd with h4 | h4
        · rw [h3] at h4
          cases h4
        · rw [h3] at h4
          injection h4 with h4
          injection h4
      have hcases : ∀ j st, (news (Shared.events ts)).length = j → STAGES[j]? = some st → s = st ∧
          news (Shared.events ts) = STAGES.take j := by
        intro j st hj hst
        rw [hn] at hpre
        have h1 : news (Shared.events ts) <+: STAGES := (List.prefix_append _ _).trans hpre
        have h2 : news (Shared.events ts) = STAGES.take j := by
          rw [← hj]
          exact List.prefix_iff_eq_take.1 h1
        refine ⟨?_, h2⟩
        have h3 := List.prefix_iff_eq_take.1 hpre
        rw [List.length_append, hj, h2] at h3
        rw [show j + [s].length = j + 1 from rfl, List.take_add_one, hst] at h3
        have := List.append_cancel_left h3
        simpa using this
      refine ⟨by rw [hn, hcur, List.getLast?_append]; rfl, fun h => ?_, fun h => ?_⟩
      · rw [hn, List.length_append] at h
        replace h : 2 ≤ (news (Shared.events ts)).length + 1 := h
        rcases Nat.lt_or_ge (news (Shared.events ts)).length 2 with h2 | h2
        · obtain ⟨rfl, e2⟩ := hcases 1 .ignore (by omega) rfl
          have hq : u.curState = .querying := by rw [L.cur, e2]; rfl
          have hi : u.curState ≠ .ignore := by rw [hq]; decide
          obtain ⟨text, e3, e4, -⟩ := C76_end u v tk hi hr hstep
          rw [hq] at e3
          cases e3
          have e5 := hs.total (acts.take n) (List.take_prefix _ _) (by
            have : (news (Shared.events (ts ++ [t]))).length = 2 := by rw [hn, e2]; rfl
            omega)
          rw [hst hi rfl, e5] at e4
          exact ⟨u.out, [], e4⟩
        · obtain ⟨a, b, e⟩ := L.query h2
          exact ⟨a, b ++ x, by rw [← hx, e]; simp⟩
      · rw [hn, List.length_append] at h
        replace h : 4 ≤ (news (Shared.events ts)).length + 1 := h
        rcases Nat.lt_or_ge (news (Shared.events ts)).length 4 with h2 | h2
        · obtain ⟨rfl, e2⟩ := hcases 3 .ignore (by omega) rfl
          have hq : u.curState = .editing := by rw [L.cur, e2]; rfl
          have hi : u.curState ≠ .ignore := by rw [hq]; decide
          obtain ⟨text, e3, e4, -⟩ := C76_end u v tk hi hr hstep
          rw [hq] at e3
          have e5 := hs.all (acts.take n) (List.take_prefix _ _) (by
            have : (news (Shared.events (ts ++ [t]))).length = 4 := by rw [hn, e2]; rfl
            omega)
          simp only [stageText] at e3
          rw [hst hi rfl, e5] at e3
          exact ⟨u.out, [], _, _, text, e3, e4⟩
        · obtain ⟨a, b, ns, ms, text, e1, e⟩ := L.edit h2
          exact ⟨a, b ++ x, ns, ms, text, e1, by rw [← hx, e]; simp⟩

end MapEditr
