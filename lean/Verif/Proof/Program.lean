import Verif.Spec.Program
import Verif.Props.Rest
import Verif.Props.Whole
import Verif.Props.Rollback
/-! # Lemmas: what a use of the program comes to -/

namespace MapEditr
open Spec

/-- If no failing statement undoes the transaction, then it is not undone. -/
theorem never_undone {env : Env} {args : InstArgs} (hu : ∀ n, env.fail n = true → env.undo n = false)
    (hv : args.command ≠ "vacuum") (pre post : List Did) (k : Int) :
    (computeThread env args World.start).2.trace ≠ pre ++ ⟨.main, .select k, false⟩ :: ⟨.main, .rollback, true⟩ :: post := by
  intro htr
  have hsel : (⟨.main, .select k, false⟩ : Did) ∈ (computeThread env args World.start).2.trace := by
    rw [htr]; simp
  have hund : undone ∈ (computeThread env args World.start).2.trace := by
    rw [htr]; simp [undone]
  have early : ¬ ((∀ r w1, setup env args World.start ≠ (.ok (.ok r), w1)) ∨
      (args.doConfirmation = true ∧ env.answer ≠ some true)) := by
    intro h
    obtain ⟨ext, he, hall⟩ := ext_early h
    rw [he] at hsel
    have := hall _ hsel
    simp at this
  rw [not_or] at early
  obtain ⟨hs, hd⟩ := early
  have hs : ∃ r w1, setup env args World.start = (.ok (.ok r), w1) :=
    Classical.byContradiction fun h => hs fun r w1 e => h ⟨r, w1, e⟩
  obtain ⟨⟨cmd, wn⟩, w0, hs⟩ := hs
  obtain ⟨-, a2, -, a5⟩ := setup_iff.1 hs
  have h0 : undone ∉ w0.trace := setup_trace a5
  obtain ⟨f', b1, b2, b3, b4, -⟩ := setupWorld_start a5
  have hct : computeThread env args World.start = finish env args cmd (w0.say (preEvents args wn)) := by
    rw [computeThread_eq, run_bind_ok hs]
    simp only
    rw [runCommand_eq, if_neg hd]
  rw [hct] at hund
  have ho : OpenAt (w0.say (preEvents args wn)) .main f'.table f'.table f'.cols := b2
  rcases hb : cmd.func env args (w0.say (preEvents args wn)) with ⟨r, w2⟩
  have g1 := inv_command (undoes_frame env) a2 hv args (w0.say (preEvents args wn))
  have g2 := inv_command (open_frame (env := env) hu) a2 hv args (w0.say (preEvents args wn))
  rw [hb] at g1 g2
  obtain ⟨cur, hcur⟩ := g2 _ _ _ ho
  have h2 : undone ∉ w2.trace := fun h => (g1.2 _ _ _ ho h).elim h0 (open_not_lost hcur)
  cases r with
  | error e =>
    have : finish env args cmd (w0.say (preEvents args wn)) = (.error e, w2) := by
      unfold finish
      rw [run_bind_err hb]
    rw [this] at hund
    exact h2 hund
  | ok u =>
    rw [finish_open hb hcur] at hund
    split at hund
    · rename_i hf
      rw [failed_plain (w := w2.say _) (hu _ hf)] at hund
      have hund : undone ∈ w2.trace ++ [⟨.main, .commit, false⟩] := hund
      rcases List.mem_append.1 hund with h | h
      · exact h2 h
      · simp [undone] at h
    · have hund : undone ∈ w2.trace ++ [⟨.main, .commit, true⟩] := hund
      exact h2 (undone_did (by simp) hund)

theorem valueOf_mem {m : Matches} {name v : String} (h : m.valueOf name = some v) : ∃ e ∈ m, v ∈ e.2 := by
  unfold Matches.valueOf Matches.valuesOf at h
  cases hf : m.find? fun e => e.1 == name with
  | none => rw [hf] at h; cases h
  | some e =>
    rw [hf] at h
    refine ⟨e, List.mem_of_find?_eq_some hf, ?_⟩
    exact List.mem_of_mem_head? h

theorem endWord_nil : ¬ endWord <:+: ([] : Bytes) := by decide

/-- The arguments of an accepted command line can be carried out. -/
theorem line_any {l : CmdLine} (hl : LineOk l) (hs : l.name ≠ "setparam2") {args : InstArgs}
    (h : toInstArgs l.yes l.name l.map l.matches_ = .ok args) : Got l args ∧ Parsed args ∧ AnyArgs args := by
  obtain ⟨cm, hc, ha⟩ := hl.accepted
  obtain ⟨c1, c2, -, c4⟩ := C38_partial _ _ _ _ args cm hc ha h
  obtain ⟨c5, c6⟩ := C70_arguments _ _ _ _ args cm hc hs ha h
  have hno := no_param2 hc hs
  obtain ⟨_, _, -, -, -, -, e⟩ := toInstArgs_fields h
  refine ⟨⟨c1, c2, cm, hc, fun t ht => c4 t ht (by rintro rfl; exact hno ht)⟩, c5, c6, c5.area, ?_, ?_⟩
  · intro n hn
    rw [e] at hn
    obtain ⟨x, hx, hv⟩ := valueOf_mem hn
    exact (hl.words x hx n hv).1
  · intro _
    unfold newItemOf
    cases hn : args.newItem with
    | some n =>
      rw [e] at hn
      obtain ⟨x, hx, hv⟩ := valueOf_mem hn
      exact (hl.words x hx n hv).2
    | none =>
      simp only [Option.map_none, Option.getD_none]
      split
      · exact endWord_nil
      · cases hi : args.item with
        | none => exact endWord_nil
        | some n =>
          rw [e] at hi
          obtain ⟨x, hx, hv⟩ := valueOf_mem hi
          exact (hl.words x hx n hv).2

/-- What a use of the program comes to. -/
theorem used_step {c : Codec} {l : CmdLine} {s t t' : Table} {said : Bool} {env : Env} {sys : Sys} {n : Nat}
    (hl : LineOk l) (h : Used c l s said t t' env sys n) :
    (t' = t ∧ (said = true → ∃ args, Got l args ∧ args.command = "vacuum")) ∨
    ∃ args, Got l args ∧ AnyArgs args ∧ Ran c args s t t' := by
  obtain ⟨hE, hcd, ⟨f, hf, rfl⟩, hin, hw, hR, href, hheld, hend⟩ := h
  cases ht : toInstArgs l.yes l.name l.map l.matches_ with
  | error e =>
    refine .inl ⟨href e ht, fun hsaid => ?_⟩
    obtain ⟨-, hd, -⟩ := hend hsaid
    unfold runCmdLine at hR
    rw [ht] at hR
    rw [refused_stays hR] at hd
    simp at hd
  | ok args =>
    have hheld : t' = onDisk f.table ((computeThread (answered env args sys) args World.start).2.trace.take n) :=
      hheld args ht
    have hR' : Reach (Sys.init (workerProg env args)) sys := by
      unfold runCmdLine at hR
      rw [ht] at hR
      exact hR
    obtain ⟨cm, hc, ha⟩ := hl.accepted
    obtain ⟨c1, c2, c3, -⟩ := C38_partial _ _ _ _ args cm hc ha ht
    have hdone : said = true → doneMsg ∈ (worker (answered env args sys) args World.start).2.events := by
      intro hsaid
      obtain ⟨h1, h2, -⟩ := hend hsaid
      rw [C60_printed env args sys hR' h1] at h2
      exact mem_logsOf.1 h2
    by_cases hv : args.command = "vacuum"
    · refine .inl ⟨?_, fun _ => ⟨args, (line_any hl (by rw [← c1, hv]; decide) ht).1, hv⟩⟩
      rw [hheld]
      exact C53_vacuum_any_outcome (answered env args sys) args f hv n
    have hcomp : said = true → ∃ t1 evs, Completes (answered env args sys) args f.table t1 evs := by
      intro hsaid
      obtain ⟨m, -, -, -, h1⟩ := C80_saved (answered env args sys) args hv (hdone hsaid)
      rw [show mapFile (answered env args sys) args.mapPath = some f from by rw [c2]; exact hf] at h1
      exact ⟨_, _, h1⟩
    by_cases hs : l.name = "setparam2"
    · have hno : ∀ env t t' evs, ¬ Completes env args t t' evs := by
        rw [hs] at ht hc
        refine (C38_false _ _ _ args ?_ ht).2
        intro e he
        cases hc
        rcases ha.known e he with h | ⟨d, hd, h, -⟩
        · rw [h]; decide
        · rw [← h]
          clear h
          revert d
          decide
      refine .inl ⟨?_, fun hsaid => ?_⟩
      · rcases C55_all_or_nothing_partial (answered env args sys) args f (by rw [c2]; exact hf)
          (by rw [c1, hs]; rintro (h | h) <;> exact absurd h (by decide)) with h1 | ⟨t1, h1, -⟩
        · rw [hheld]; exact h1 n
        · exact absurd h1 (hno _ _ _ _)
      · obtain ⟨t1, evs, h1⟩ := hcomp hsaid
        exact absurd h1 (hno _ _ _ _)
    obtain ⟨hgot, hpar, hany⟩ := line_any hl hs ht
    have hran : ∀ t1 evs, Completes (answered env args sys) args f.table t1 evs → Ran c args s f.table t1 := by
      intro t1 evs h1
      refine ⟨answered env args sys, evs, ⟨hE.codec, hE.full, hE.ord⟩, hcd, h1, ?_, ?_⟩
      · intro hcl n _
        rw [c1] at hcl
        exact hw hcl n
      · intro ho
        obtain ⟨D⟩ := completes_done h1 hv
        have hneed := hany.needs
        unfold Needs at hneed
        rw [ho] at hneed
        obtain ⟨p, hp⟩ := Option.isSome_iff_exists.1 hneed
        obtain ⟨g, hg, -⟩ := D.input p hp
        refine ⟨p, g, hp, hg, ?_⟩
        refine hin p g ?_ hg
        obtain ⟨_, _, -, -, -, -, e⟩ := toInstArgs_fields ht
        rw [e] at hp
        have hp : l.matches_.valueOf "input_map" = some p := hp
        unfold Matches.valueOf Matches.valuesOf at hp
        cases hfi : l.matches_.find? fun e => e.1 == "input_map" with
        | none => rw [hfi] at hp; cases hp
        | some x =>
          have hx := List.mem_of_find?_eq_some hfi
          have hx1 := List.find?_some hfi
          rw [beq_iff_eq] at hx1
          rw [hfi] at hp
          have hcl : l.name = "overlay" := c1 ▸ ho
          rw [hcl] at hc
          cases hc
          obtain ⟨x1, x2⟩ := x
          simp only at hx1
          subst hx1
          rcases ha.known _ hx with h | ⟨d, hd, h, hk⟩
          · simp at h
          · have : d.values = .exactly 1 := by
              simp only at h
              clear hk
              revert d
              decide
            rw [this] at hk
            match x2, hk with
            | [y], _ =>
              cases hp
              exact hx
    rcases C55_all_or_nothing_partial (answered env args sys) args f (by rw [c2]; exact hf)
      (fun hcl => fun pre k post => never_undone
        (fun n hn => by rw [c1] at hcl; exact absurd hn (by rw [show (answered env args sys).fail n = false from hw hcl n]; decide))
        hv pre post k) with h1 | ⟨t1, h1, h2, h3⟩
    · have htt : t' = f.table := by rw [hheld]; exact h1 n
      by_cases hsaid : said = true
      · obtain ⟨t1, evs, h4⟩ := hcomp hsaid
        have h5 := (C55_done_partial _ _ _ _ _ hv h4).1
        have h6 := h1 (computeThread (answered env args sys) args World.start).2.trace.length
        rw [List.take_length] at h6
        rw [h5] at h6
        refine .inr ⟨args, hgot, hany, ?_⟩
        rw [htt]
        rw [h6] at h4
        exact hran _ _ h4
      · exact .inl ⟨htt, fun h => absurd h hsaid⟩
    · by_cases hn : (computeThread (answered env args sys) args World.start).2.trace.length ≤ n
      · refine .inr ⟨args, hgot, hany, ?_⟩
        have : t' = t1 := by
          rw [hheld]
          refine Eq.trans ?_ h2
          rw [List.take_of_length_le hn]
        rw [this]
        exact hran _ _ h1
      · refine .inl ⟨?_, fun hsaid => ?_⟩
        · rw [hheld]; exact h3 n (by omega)
        · exact absurd ((hend hsaid).2.2 args ht) hn

end MapEditr
