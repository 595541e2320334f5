import Verif.Proof.Instance
import Verif.Spec.Locks
/-! # What `overlay` reads before it writes -/

namespace MapEditr
open Spec

/-- No row of the main map has been written by it. -/
def NoRowWritten (d : Did) : Prop := ¬ (d.db = .main ∧ d.ok = true ∧ WritesRow d.stmt)

/-- The input map has been read. -/
def HasRead (l : List Did) : Prop := ∃ s, ⟨.input, s, true⟩ ∈ l ∧ ReadsRows s

theorem readsFirst_nil : ReadsFirst [] := by intro n s h; simp at h

theorem readsFirst_append {l l' : List Did} (h : ReadsFirst l) (h' : HasRead l ∨ ∀ d ∈ l', NoRowWritten d) :
    ReadsFirst (l ++ l') := by
  intro n s hn hw
  by_cases hlt : n < l.length
  · rw [List.getElem?_append_left hlt] at hn
    obtain ⟨m, hm, s', h1, h2⟩ := h n s hn hw
    exact ⟨m, hm, s', by rw [List.getElem?_append_left (by omega)]; exact h1, h2⟩
  · rcases h' with ⟨s', h1, h2⟩ | h'
    · obtain ⟨m, hm⟩ := List.getElem?_of_mem h1
      have hml := (List.getElem?_eq_some_iff.1 hm).1
      exact ⟨m, by omega, s', by rw [List.getElem?_append_left hml]; exact hm, h2⟩
    · rw [List.getElem?_append_right (by omega)] at hn
      exact absurd ⟨rfl, rfl, hw⟩ (h' _ (List.mem_of_getElem? hn))

theorem noRowWritten_of {i : DbId} {s : Sql} {ok : Bool} (h : ¬ WritesRow s) : NoRowWritten ⟨i, s, ok⟩ := fun e => h e.2.2

theorem readsFirst_ext {w w' : World} {b : Bool} (h : ReadsFirst w.trace) (he : Ext NoRowWritten w b w') :
    ReadsFirst w'.trace := by
  obtain ⟨l, e, hl⟩ := he
  rw [e]
  refine readsFirst_append h (.inr fun d hd => ?_)
  rcases hl d hd with h | rfl
  · exact h
  · exact noRowWritten_of (by simp [WritesRow])

theorem readsFirst_more {w w' : World} {b : Bool} {P : Did → Prop} (h : ReadsFirst w.trace) (hr : HasRead w.trace)
    (he : Ext P w b w') : ReadsFirst w'.trace := by
  obtain ⟨l, e, -⟩ := he
  rw [e]
  exact readsFirst_append h (.inl hr)

theorem ext_rows {env : Env} {i : DbId} : Inv (Ext NoRowWritten) (iterRows env i) := by
  unfold iterRows
  exact ext_bind (ext_begin fun _ => noRowWritten_of (by simp [WritesRow])) fun _ => ext_ite _
    (ext_bind (ext_exec fun _ => noRowWritten_of (by simp [WritesRow])) fun _ => ext_ite _
      (ext_bind (ext_theDb i) fun m => ext_pure _) (ext_same fun _ => rfl)) (ext_same fun _ => rfl)

theorem ext_foldlM {P : Did → Prop} {f : β → α → Run β} (l : List α) (h : ∀ b a, Inv (Ext P) (f b a)) (b : β) :
    Inv (Ext P) (l.foldlM f b) := by
  induction l generalizing b with
  | nil => exact ext_pure _
  | cons a t ih => rw [List.foldlM_cons]; exact ext_bind (h b a) fun _ => ih _

theorem ext_queryStep {P : Did → Prop} (keep : Int → Bytes → Bool) (keys : List Int) (row : (Int × Bytes) × Nat) :
    Inv (Ext P) (queryStep keep keys row) := by
  unfold queryStep
  refine ext_ite _ (ext_ite _ ?_ (ext_pure _)) (ext_pure _)
  exact ext_bind (ext_same fun _ => rfl) fun _ => ext_pure _

theorem ext_query {env : Env} {i : DbId} {strs : List Bytes} {area : Option Area} {invert p : Bool} :
    Inv (Ext NoRowWritten) (queryKeys env i strs area invert p) := by
  unfold queryKeys
  refine ext_bind (ext_same fun _ => rfl) fun _ => ?_
  have hend : ∀ keys : List Int, Inv (Ext NoRowWritten) (do
      setTotal keys.length
      setState .ignore
      return keys : Run (List Int)) := fun keys =>
    ext_bind (ext_same fun _ => rfl) fun _ => ext_bind (ext_same fun _ => rfl) fun _ => ext_pure _
  refine ext_ite _ ?_ ?_
  · exact ext_bind ext_rows fun rows => ext_bind (ext_foldlM _ (fun _ _ => ext_queryStep _ _ _) _) hend
  · exact ext_bind (ext_pure _) hend

theorem exec_ok {env : Env} {i : DbId} {s : Sql} {w w' : World} (h : exec env i s w = (.ok true, w')) :
    ⟨i, s, true⟩ ∈ w'.trace := by
  unfold exec at h
  split at h
  · simp at h
  · split at h
    · simp at h
    · split at h
      · simp at h
      · simp only [Prod.mk.injEq, true_and] at h
        subst h
        simp [World.did]

theorem rows_read {env : Env} {i : DbId} {w w' : World} {rows : Table} (h : iterRows env i w = (.ok rows, w')) :
    ⟨i, .selectAll, true⟩ ∈ w'.trace := by
  unfold iterRows at h
  obtain ⟨ok, w1, -, h⟩ := run_bind_iff.1 h
  cases ok with
  | false => simp [Run.unwrap, unwrap, Run.lift] at h
  | true =>
    simp only [if_true] at h
    obtain ⟨ok, w2, h2, h⟩ := run_bind_iff.1 h
    cases ok with
    | false => simp [Run.unwrap, unwrap, Run.lift] at h
    | true =>
      have := exec_ok h2
      simp only [if_true] at h
      obtain ⟨m, w3, h3, h⟩ := run_bind_iff.1 h
      obtain ⟨l, e, -⟩ := ext_theDb (P := NoRowWritten) i w2
      rw [h3] at e
      simp only [run_pure, Prod.mk.injEq] at h
      rw [← h.2, e]
      exact List.mem_append_left _ this

theorem ext_mem {P : Did → Prop} {w w' : World} {b : Bool} {d : Did} (h : Ext P w b w') (hd : d ∈ w.trace) :
    d ∈ w'.trace := by
  obtain ⟨l, e, -⟩ := h
  rw [e]
  exact List.mem_append_left _ hd

/-- Who finds keys has read. -/
theorem query_read {env : Env} {i : DbId} {strs : List Bytes} {area : Option Area} {invert p : Bool} {w w' : World}
    {keys : List Int} (h : queryKeys env i strs area invert p w = (.ok keys, w')) :
    keys = [] ∨ ⟨i, .selectAll, true⟩ ∈ w'.trace := by
  unfold queryKeys at h
  obtain ⟨_, w1, -, h⟩ := run_bind_iff.1 h
  have hend : ∀ keys : List Int, Inv (Ext NoRowWritten) (do
      setTotal keys.length
      setState .ignore
      return keys : Run (List Int)) := fun keys =>
    ext_bind (ext_same fun _ => rfl) fun _ => ext_bind (ext_same fun _ => rfl) fun _ => ext_pure _
  simp only at h
  split at h
  · obtain ⟨rows, w2, h2, h⟩ := run_bind_iff.1 h
    have h3 := rows_read h2
    have h4 := ext_bind (ext_foldlM (P := NoRowWritten) rows.zipIdx (fun b a => ext_queryStep
      (queryKeeps (strs.map string16) (queryArea area invert p) (area.isSome && (queryArea area invert p).isNone) invert)
      b a) []) hend w2
    rw [h] at h4
    exact .inr (ext_mem h4 h3)
  · obtain ⟨ks, w2, h2, h⟩ := run_bind_iff.1 h
    simp only [run_pure, Prod.mk.injEq, Except.ok.injEq] at h2
    obtain ⟨_, w3, -, h⟩ := run_bind_iff.1 h
    obtain ⟨_, w4, -, h⟩ := run_bind_iff.1 h
    simp only [run_pure, Prod.mk.injEq, Except.ok.injEq] at h
    exact .inl (h.1.symm.trans h2.1.symm)

theorem overlay_first {env : Env} {args : InstArgs} {cap : Nat} (ho : args.offset.getD ⟨0, 0, 0⟩ = ⟨0, 0, 0⟩) (w : World)
    (h : ReadsFirst w.trace) : ReadsFirst (overlay env cap args w).2.trace := by
  have F : CopyFrame env (Ext fun _ => True) := ext_frame (fun _ _ => trivial) (fun _ _ _ => trivial)
    (fun _ _ => trivial) (fun _ _ _ => trivial) (fun _ _ => trivial)
  have e0 : overlay env cap args = (theDb .input >>= fun _ => overlayNoOffset env args) := by
    unfold overlay
    congr 1
    funext _
    rw [if_pos ho]
  rw [e0, run_bind]
  have h1 := readsFirst_ext h (ext_theDb (P := NoRowWritten) .input w)
  rcases hd : theDb .input w with ⟨r, w1⟩
  rw [hd] at h1
  cases r with
  | error e => exact h1
  | ok m =>
    simp only at h1 ⊢
    unfold overlayNoOffset
    rw [run_bind]
    have h2 := readsFirst_ext h1 (ext_query (env := env) (i := .input) (strs := []) (area := args.area)
      (invert := args.invert) (p := true) w1)
    rcases hq : queryKeys env .input [] args.area args.invert true w1 with ⟨r, w2⟩
    rw [hq] at h2
    cases r with
    | error e => exact h2
    | ok keys =>
      simp only at h2 ⊢
      rcases query_read hq with rfl | hr
      · refine readsFirst_ext h2 (ext_bind (ext_same fun _ => rfl) (fun _ => ext_bind (ext_pure _) fun _ =>
          ext_same fun _ => rfl) w2)
      · exact readsFirst_more h2 ⟨_, hr, .inl rfl⟩ (inv_bind F.toFrame (inv_beginEditing F.toFrame) (fun _ =>
          inv_bind F.toFrame (inv_foldlM F.toFrame _ (fun _ key => inv_overlayStep F _ _ _) _) fun _ =>
            inv_endEditing F.toFrame) w2)

/-- A command in the place of another. -/
theorem readsFirst_run {env : Env} {args : InstArgs} (h : ∀ cmd, command? args.command = some cmd → ∀ w : World,
    ReadsFirst w.trace → ReadsFirst (cmd.func env args w).2.trace) :
    ReadsFirst (computeThread env args World.start).2.trace := by
  have nw : ∀ {i : DbId} {s : Sql}, ¬ WritesRow s → ∀ ok, NoRowWritten ⟨i, s, ok⟩ := fun h _ => noRowWritten_of h
  have hs := readsFirst_ext (w := World.start) readsFirst_nil (ext_setup (env := env) (P := NoRowWritten) args
    (fun _ => nw (by simp [WritesRow])) (fun _ => nw (by simp [WritesRow])) (fun _ => nw (by simp [WritesRow]))
    (fun _ => nw (by simp [WritesRow])) World.start)
  rw [computeThread_eq, run_bind]
  rcases e : setup env args World.start with ⟨r, w⟩
  rw [e] at hs
  cases r with
  | error e => exact hs
  | ok r =>
    cases r with
    | error e => exact hs
    | ok r =>
      obtain ⟨cmd, wn⟩ := r
      have hc := (setup_iff.1 e).2.1
      simp only at hs ⊢
      rw [runCommand_eq]
      split
      · exact hs
      · have hf := h cmd hc (w.say (preEvents args wn)) hs
        have ht : Inv (Ext NoRowWritten) (finish env args { cmd with func := fun _ _ => pure () }) :=
          ext_finish (nw (by simp [WritesRow])) (ext_pure ())
        have : finish env args cmd = (cmd.func env args >>= fun _ =>
            finish env args { cmd with func := fun _ _ => pure () }) := rfl
        rw [this, run_bind]
        rcases e2 : cmd.func env args (w.say (preEvents args wn)) with ⟨r, w2⟩
        rw [e2] at hf
        cases r with
        | error e => exact hf
        | ok u => exact readsFirst_ext hf (ht w2)

end MapEditr
