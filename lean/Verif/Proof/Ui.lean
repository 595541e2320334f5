import Verif.Model.Screen
import Verif.Spec.Screen
/-!
# The loop of the user interface
-/

namespace MapEditr
open Spec

/-- Executing the loop body once for every tick. -/
def Ui.run (u : Ui) (ks : List Tick) : Res Ui := ks.foldlM Ui.step u

/-- Input typed at the prompt ends with a newline. -/
def Typed (k : Tick) : Prop := k.recv = .event .confirmRequest → k.typed.getLast? = some '\n'

theorem splitNl_spec (m : List Char) : ∀ (sp : List Char),
    List.intercalate ('\n' :: sp) ((splitNl m).1 :: (splitNl m).2) =
      m.flatMap fun c => if c = '\n' then '\n' :: sp else [c] := by
  intro sp
  induction m with
  | nil => rfl
  | cons c m ih =>
    rw [List.flatMap_cons, ← ih]
    by_cases hc : c = '\n'
    · subst hc
      simp [splitNl, List.intercalate]
    · rw [if_neg hc]
      simp only [splitNl, if_neg hc]
      cases h : (splitNl m).2 <;> simp [List.intercalate]

theorem splitNl_mem {m : List Char} {l : List Char} {c : Char} (h : l = (splitNl m).1 ∨ l ∈ (splitNl m).2)
    (hc : c ∈ l) : c ∈ m := by
  induction m generalizing l with
  | nil =>
    rcases h with rfl | h
    · exact hc
    · cases h
  | cons x m ih =>
    by_cases hx : x = '\n'
    · simp only [splitNl, if_pos hx] at h
      rcases h with rfl | h
      · cases hc
      · exact List.mem_cons_of_mem _ (ih (List.mem_cons.1 h) hc)
    · simp only [splitNl, if_neg hx] at h
      rcases h with rfl | h
      · rcases List.mem_cons.1 hc with rfl | hc
        · exact List.mem_cons_self
        · exact List.mem_cons_of_mem _ (ih (.inl rfl) hc)
      · exact List.mem_cons_of_mem _ (ih (.inr h) hc)

/-- The part after the last `\n` is empty only for messages that end with one. -/
theorem splitNl_last {m : List Char} (hm : m ≠ []) (h : m.getLast? ≠ some '\n') :
    ((splitNl m).1 :: (splitNl m).2).getLast? ≠ some [] := by
  induction m with
  | nil => exact absurd rfl hm
  | cons c m ih =>
    by_cases h0 : m = []
    · subst h0
      have hc : c ≠ '\n' := by
        intro hc
        subst hc
        exact h rfl
      simp [splitNl, hc]
    · have h1 : m.getLast? ≠ some '\n' := by
        intro hl
        apply h
        rw [List.getLast?_cons, hl]
        rfl
      have h2 := ih h0 h1
      by_cases hc : c = '\n'
      · simp only [splitNl, if_pos hc]
        rw [List.getLast?_cons_cons]
        exact h2
      · simp only [splitNl, if_neg hc]
        cases h3 : (splitNl m).2 with
        | nil => simp
        | cons a l =>
          rw [h3, List.getLast?_cons_cons] at h2
          rw [List.getLast?_cons_cons]
          exact h2

theorem strLines_eq {m : List Char} (hm : m ≠ []) (hr : '\r' ∉ m) (h : m.getLast? ≠ some '\n') :
    strLines m = (splitNl m).1 :: (splitNl m).2 := by
  unfold strLines
  simp only
  have hl := splitNl_last hm h
  have hc : ∀ l ∈ (splitNl m).1 :: (splitNl m).2, chopCr l = l := by
    intro l hl
    unfold chopCr
    rw [if_neg]
    intro he
    exact hr (splitNl_mem (List.mem_cons.1 hl) (List.mem_of_getLast? he))
  generalize (splitNl m).1 :: (splitNl m).2 = all at *
  have e : all.dropLast.map chopCr = all.dropLast := by
    conv => rhs; rw [← List.map_id all.dropLast]
    exact List.map_congr_left fun l hl => hc l (List.dropLast_subset _ hl)
  rw [e]
  cases h1 : all.getLast? with
  | none =>
    rw [List.getLast?_eq_none_iff] at h1
    subst h1
    rfl
  | some x =>
    obtain ⟨o, rfl⟩ := List.getLast?_eq_some_iff.1 h1
    rw [List.dropLast_concat]
    cases x with
    | nil => exact absurd h1 hl
    | cons => rfl

/-! ## The loop -/

theorem newlineIf_out (u : Ui) : ∃ s, u.newlineIf.out = u.out ++ s ∧ (s = [] ∨ s = ['\n']) := by
  unfold Ui.newlineIf
  split
  · exact ⟨_, rfl, .inr rfl⟩
  · exact ⟨[], by simp, .inl rfl⟩

theorem newlineIf_need (u : Ui) : u.newlineIf.needNewline = false := by
  unfold Ui.newlineIf
  split
  · rfl
  · rename_i h
    simpa using h

/-- Without a pending newline the cursor is at the start of a line. -/
def UiOk (u : Ui) : Prop := u.needNewline = false → AtLineStart u.out

theorem newlineIf_ok {u : Ui} (h : UiOk u) : AtLineStart u.newlineIf.out := by
  unfold Ui.newlineIf
  split
  · exact .inr (by simp)
  · rename_i hn
    exact h (by simpa using hn)

theorem logText_last (t : LogType) (m : List Char) : (logText t m).getLast? = some '\n' := by
  unfold logText
  rw [List.getLast?_append]
  rfl

theorem lineStart_append {a b : List Char} (h : b.getLast? = some '\n') : AtLineStart (a ++ b) := by
  refine .inr ?_
  rw [List.getLast?_append, h]
  rfl

theorem receive_ok {u : Ui} {k : Tick} (h : UiOk u) (hk : Typed k) : UiOk (u.receive k).1 := by
  unfold Ui.receive
  split
  · intro _
    exact lineStart_append (logText_last _ _)
  · intro hn
    simp only at hn ⊢
    split at hn <;> (try split at hn) <;> rename_i hs
    · rw [if_pos hs]; exact h hn
    · rename_i h1
      rw [if_neg h1, if_pos hs]; exact h hn
    · rename_i h1
      rw [if_neg h1, if_neg hs]; exact h hn
  · rename_i hr
    intro _
    exact lineStart_append (hk hr)
  · exact h

/-- The part of the loop body that shows progress. -/
def Ui.show (u : Ui) (k : Tick) (forced : InstState) : Res Ui :=
  let timed := decide (k.now ≥ u.lastUpdate + UPDATE_INTERVAL)
  if forced == .querying || (u.curState == .querying && timed) then
    .ok { u with out := u.out ++ queryingText k.status.total, lastUpdate := k.now, needNewline := true }
  else if forced == .editing || (u.curState == .editing && timed) then
    match editingText k.status.done k.status.total (k.printed - u.queryingStart) (k.printed - u.editingStart)
        k.status.showProgress with
    | .ok text => .ok { u with out := u.out ++ text, lastUpdate := k.now, needNewline := true }
    | .error e => .error e
  else .ok u

theorem ui_step_eq (u : Ui) (k : Tick) : u.step k =
    match (u.receive k).1.show k (u.receive k).2 with
    | .ok u' => .ok (if u'.curState = .ignore then u'.newlineIf else u')
    | .error e => .error e := by
  unfold Ui.step Ui.show
  simp only [bind, Except.bind, pure, Except.pure]
  split
  · rfl
  · split
    · cases editingText k.status.done k.status.total (k.printed - (u.receive k).1.queryingStart)
        (k.printed - (u.receive k).1.editingStart) k.status.showProgress <;> rfl
    · rfl

theorem show_out {u u' : Ui} {k : Tick} {f : InstState} (h : u.show k f = .ok u') :
    (∃ s, u'.out = u.out ++ s) ∧ (UiOk u → UiOk u') := by
  unfold Ui.show at h
  simp only at h
  split at h
  · injection h with h
    subst h
    exact ⟨⟨_, rfl⟩, fun _ hn => by cases hn⟩
  · split at h
    · split at h
      · injection h with h
        subst h
        exact ⟨⟨_, rfl⟩, fun _ hn => by cases hn⟩
      · cases h
    · injection h with h
      subst h
      exact ⟨⟨[], by simp⟩, id⟩

theorem step_out {u u' : Ui} {k : Tick} (h : u.step k = .ok u') :
    (∃ s, u'.out = (u.receive k).1.out ++ s) ∧ (UiOk u → Typed k → UiOk u') ∧
    (u'.curState = .ignore → u'.needNewline = false) := by
  rw [ui_step_eq] at h
  split at h
  · rename_i v hv
    injection h with h
    obtain ⟨⟨s, h1⟩, h2⟩ := show_out hv
    subst h
    split
    · rename_i hi
      obtain ⟨s', h3, _⟩ := newlineIf_out v
      refine ⟨⟨s ++ s', by rw [h3, h1, List.append_assoc]⟩, fun hu hk _ => newlineIf_ok (h2 (receive_ok hu hk)),
        fun _ => newlineIf_need v⟩
    · rename_i hi
      exact ⟨⟨s, h1⟩, fun hu hk => h2 (receive_ok hu hk), fun hn => absurd hn hi⟩
  · cases h

theorem run_ok {ks : List Tick} : ∀ {u u' : Ui}, u.run ks = .ok u' → UiOk u → (∀ k ∈ ks, Typed k) → UiOk u' := by
  induction ks with
  | nil =>
    intro u u' h hu _
    injection h with h
    subst h
    exact hu
  | cons k ks ih =>
    intro u u' h hu hk
    unfold Ui.run at h
    rw [List.foldlM_cons] at h
    cases h1 : u.step k with
    | error e => rw [h1] at h; cases h
    | ok v =>
      rw [h1] at h
      exact ih h ((step_out h1).2.1 hu (hk k List.mem_cons_self)) (fun x hx => hk x (List.mem_cons_of_mem _ hx))

theorem init_ok (t : Nat) : UiOk (Ui.init t) := fun _ => .inl rfl

theorem receive_out (u : Ui) (k : Tick) : ∃ s, (u.receive k).1.out = u.out ++ s := by
  obtain ⟨nl, h2, _⟩ := newlineIf_out u
  unfold Ui.receive
  split
  · exact ⟨nl ++ _, by simp only [h2, List.append_assoc]; rfl⟩
  · refine ⟨[], ?_⟩
    simp only [List.append_nil]
    split <;> (try split) <;> rfl
  · exact ⟨nl ++ ("Proceed? (Y/n): ".toList ++ k.typed), by simp only [h2, List.append_assoc]⟩
  · exact ⟨[], by simp⟩

end MapEditr
