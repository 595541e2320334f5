import Verif.Proof.Oracle
import Verif.Proof.Runs
/-! # Lemmas: in a completed run SQLite never undid the transaction -/

namespace MapEditr
open Spec

/-- If the transaction is undone, it is lost at the end. -/
def Undoes (w : World) (b : Bool) (w' : World) : Prop :=
  Stays w b w' ∧ ∀ dur cur cols, OpenAt w .main dur cur cols → undone ∈ w'.trace → undone ∈ w.trace ∨ Lost w'

theorem undoes_input {m : Run α} (hs : Inv Stays m) (h : Inv OnInput m) : Inv Undoes m := by
  intro w
  refine ⟨hs w, fun _ _ _ _ hu => Or.inl ?_⟩
  obtain ⟨ext, h1, h2⟩ := h w
  rw [h1] at hu
  rcases List.mem_append.1 hu with hu | hu
  · exact hu
  · have := h2 _ hu
    simp [undone] at this

theorem undone_failed {env : Env} {w : World} {s : Sql} {dur cur : Table} {cols : List Col}
    (ho : OpenAt w .main dur cur cols) (h : undone ∈ (w.failed env .main s).trace) :
    undone ∈ w.trace ∨ Lost (w.failed env .main s) := by
  rcases failed_cases w env .main s with h1 | ⟨-, m, h2, -, -, h1⟩ <;> rw [h1] at h ⊢
  · left
    have h : undone ∈ w.trace ++ [⟨.main, s, false⟩] := h
    rcases List.mem_append.1 h with h | h
    · exact h
    · simp [undone] at h
  · rw [ho] at h2
    cases h2
    exact Or.inr ⟨_, setDb_did_self _ _ _ _ _ _, rfl, rfl⟩

theorem undone_did {w : World} {s : Sql} (hs : s ≠ .rollback) (h : undone ∈ w.trace ++ [⟨.main, s, true⟩]) :
    undone ∈ w.trace := by
  rcases List.mem_append.1 h with h | h
  · exact h
  · simp only [undone, List.mem_singleton, Did.mk.injEq, true_and, and_true] at h
    exact absurd h.symm hs

theorem getBlock_undoes {env : Env} {k : Int} {w : World} {dur cur : Table} {cols : List Col}
    (ho : OpenAt w .main dur cur cols) (h : undone ∈ (getBlock env .main k w).2.trace) :
    undone ∈ w.trace ∨ Lost (getBlock env .main k w).2 := by
  rw [getBlock_open ho] at h ⊢
  split at h
  · next hf => rw [if_pos hf]; exact undone_failed ho h
  · exact Or.inl (undone_did (by simp) h)

theorem undoes_frame (env : Env) : CopyFrame env Undoes where
  quiet := fun w b w' h1 h2 h3 => ⟨(stays_frame env).quiet w b w' h1 h2 h3, fun _ _ _ _ h => Or.inl (h2 ▸ h)⟩
  trans := fun w w1 b w2 h h' => ⟨(stays_frame env).trans w w1 b w2 h.1 h'.1, fun dur cur cols ho hu => by
    rcases h.1.1 dur cur cols ho with ⟨c1, h1⟩ | h1
    · rcases h'.2 dur c1 cols h1 hu with h2 | h2
      · exact (h.2 dur cur cols ho h2).imp_right h'.1.2.1
      · exact Or.inr h2
    · exact Or.inr (h'.1.2.1 h1)⟩
  get := fun i k => by
    have hs := (stays_frame env).get i k
    cases i with
    | input => exact undoes_input hs (onInput_bind onInput_getBlock fun _ => onInput_same fun _ => rfl)
    | main =>
      intro w
      refine ⟨hs w, fun dur cur cols ho => ?_⟩
      have := getBlock_undoes (env := env) (k := k) ho
      rw [run_bind]
      rcases h1 : getBlock env .main k w with ⟨r, w1⟩
      rw [h1] at this
      cases r with
      | error e => exact this
      | ok a => exact this
  rows := fun i => by
    have hs := (stays_frame env).rows i
    cases i with
    | input => exact undoes_input hs onInput_iterRows
    | main =>
      intro w
      refine ⟨hs w, fun dur cur cols ho hu => ?_⟩
      rw [iterRows_open ho] at hu ⊢
      split at hu
      · next hf => rw [if_pos hf]; exact undone_failed ho hu
      · exact Or.inl (undone_did (by simp) hu)
  put := fun k d => by
    have hs := (stays_frame env).put k d
    intro w
    refine ⟨hs w, fun dur cur cols ho hu => ?_⟩
    rw [run_bind, setBlock_open ho] at hu ⊢
    cases hf : env.fail w.trace.length with
    | true => rw [hf] at hu; exact undone_failed ho hu
    | false => rw [hf] at hu; exact Or.inl (undone_did (s := .put k d) (by simp) hu)
  del := fun k => by
    have hs := (stays_frame env).del k
    intro w
    refine ⟨hs w, fun dur cur cols ho hu => ?_⟩
    rw [run_bind, deleteBlock_open ho] at hu ⊢
    cases hf : env.fail w.trace.length with
    | true => rw [hf] at hu; exact undone_failed ho hu
    | false => rw [hf] at hu; exact Or.inl (undone_did (s := .del k) (by simp) hu)
  gen := fun i k => by
    have hs := (stays_frame env).gen i k
    cases i with
    | input =>
      refine undoes_input hs ?_
      unfold getGenerated
      refine onInput_bind onInput_getBlock fun r => ?_
      split <;> exact onInput_pure _
    | main =>
      intro w
      refine ⟨hs w, fun dur cur cols ho => ?_⟩
      have := getBlock_undoes (env := env) (k := k) ho
      unfold getGenerated
      rw [run_bind]
      rcases h1 : getBlock env .main k w with ⟨r, w1⟩
      rw [h1] at this
      cases r with
      | error e => exact this
      | ok a => cases a <;> exact this

/-- The same circumstances, but failing statements never undo the transaction. -/
abbrev Env.calm (env : Env) : Env := env.failing env.fail fun _ => false

theorem Env.calm_undo (env : Env) (n : Nat) : env.calm.undo n = false := rfl

/-- The statements of a successful setup all succeeded. -/
theorem setup_trace {env : Env} {args : InstArgs} {w : World} (h : SetupWorld env args World.start w) :
    undone ∉ w.trace := by
  obtain ⟨f, -, -, -, h4⟩ := h
  cases hi : args.inputMapPath with
  | none =>
    rw [hi] at h4
    simp only at h4
    subst h4
    simp [World.opened, World.start, openTrace, undone]
  | some p =>
    rw [hi] at h4
    obtain ⟨g, -, -, -, rfl⟩ := h4
    simp [World.opened, World.start, openTrace, undone]

/-- A run that ended normally never lost its transaction. -/
theorem done_calm {env : Env} {args : InstArgs} {w : World} (hv : args.command ≠ "vacuum")
    (h : computeThread env args World.start = (.ok (.ok ()), w)) : undone ∉ w.trace := by
  rw [computeThread_eq, run_bind_iff] at h
  obtain ⟨r, w0, hs, h⟩ := h
  cases r with
  | error e => simp [run_pure] at h
  | ok r =>
    obtain ⟨cmd, wn⟩ := r
    obtain ⟨-, a2, -, a5⟩ := setup_iff.1 hs
    have h0 := setup_trace a5
    obtain ⟨f', b1, b2, b3, b4, -⟩ := setupWorld_start a5
    simp only at h
    rw [runCommand_eq] at h
    split at h
    · simp only [Prod.mk.injEq] at h
      rw [← h.2]
      exact h0
    · have hu := inv_command (undoes_frame env) a2 hv args (w0.say (preEvents args wn))
      cases hb : cmd.func env args (w0.say (preEvents args wn)) with
      | mk r w2 =>
        rw [hb] at hu
        cases r with
        | error e =>
          unfold finish at h
          rw [run_bind_err hb] at h
          simp at h
        | ok u =>
          have b2' : OpenAt (w0.say (preEvents args wn)) .main _ _ _ := b2
          rcases hu.1.1 _ _ _ b2' with ⟨cur, hcur⟩ | hl
          rotate_left
          · rw [finish_lost hb hl] at h; simp at h
          rw [finish_open hb hcur] at h
          split at h
          · simp at h
          · simp only [Prod.mk.injEq, true_and] at h
            subst h
            intro hd
            have hd : undone ∈ w2.trace ++ [(⟨.main, .commit, true⟩ : Did)] := hd
            exact (hu.2 _ _ _ b2' (undone_did (by simp) hd)).elim h0 (open_not_lost hcur)

/-- So it is also the run in which failing statements never undo the transaction. -/
theorem calm_same {env : Env} {args : InstArgs} {w : World} (hv : args.command ≠ "vacuum")
    (h : computeThread env args World.start = (.ok (.ok ()), w)) :
    computeThread env.calm args World.start = (.ok (.ok ()), w) := by
  have hno := done_calm hv h
  rcases (det_computeThread (env := env) (f := env.fail) (u := fun _ => false) args).same World.start with e | hf
  · rw [← e]; exact h
  · exfalso
    rw [h] at hf
    simp only at hf
    generalize w.trace = t at hf hno
    generalize (computeThread _ args World.start).2.trace = t' at hf
    cases hf with
    | fails p i s r r' h => exact h rfl
    | undoes p s r r' h h' h1 h2 => exact hno (by simp [undone])
    | keeps p s r r' h h' h1 h2 => cases h2

theorem calm_completes {env : Env} {args : InstArgs} {t t' : Table} {evs : List Event}
    (hv : args.command ≠ "vacuum") (hc : Completes env args t t' evs) : Completes env.calm args t t' evs := by
  obtain ⟨f, w, m, h1, h2, h3, h4⟩ := hc
  exact ⟨f, w, m, h1, h2, calm_same hv h3, h4⟩

end MapEditr
