import Verif.Spec.Total
import Verif.Proof.Program
/-! # Lemmas: when the program comes to its end -/

namespace MapEditr
open Spec

/-- The arguments of a command other than `overlay` name no second map. -/
theorem no_input {l : CmdLine} {cm : Command} (hc : command? l.name = some cm) (ha : Accepted cm.args l.matches_)
    (ho : l.name ≠ "overlay") {args : InstArgs} (h : toInstArgs l.yes l.name l.map l.matches_ = .ok args) :
    args.inputMapPath = none := by
  obtain ⟨_, _, _, _, _, _, e⟩ := toInstArgs_fields h
  rw [e]
  refine (holds_valueOf ha.once "input_map").2 ?_
  intro vs hm
  have hall : ∀ n ∈ commands, n.1 = "overlay" ∨ ∀ d ∈ n.2.args.flatMap argDefs, d.name ≠ "input_map" := by decide
  unfold command? at hc
  rw [Option.map_eq_some_iff] at hc
  obtain ⟨e, he, rfl⟩ := hc
  have h1 := List.find?_some he
  rw [beq_iff_eq] at h1
  rcases ha.known _ hm with h | ⟨d, hd, h, -⟩
  · simp at h
  · exact (hall _ (List.mem_of_find?_eq_some he)).elim (fun e => ho (h1 ▸ e)) (fun hn => hn d hd h)

/-- Every command completes. -/
theorem completes_every {env : Env} {args : InstArgs} {K : Nat} {f : DbFile} (hE : EnvOk env)
    (hfail : ∀ n, env.fail n = false) (hf : mapFile env args.mapPath = some f) (hm : MapOk env.codec K f) (hK : K ≤ 7280)
    (hb : ¬ BadArgs args) (hr : ¬ CommandRefuses args) (hany : AnyArgs args)
    (hval : (toBytes (args.value.getD "")).length < 4294967296)
    (hcm : args.command ∈ commandNames) (hv : args.command ≠ "vacuum")
    (hi : args.command ≠ "overlay" → args.inputMapPath = none)
    (hs : args.command = "overlay" → ∃ p g, args.inputMapPath = some p ∧ mapFile env p = some g ∧ MapColumns g.cols ∧
      Source env.codec K g.table)
    (hsp : args.command = "setparam2" → args.area ≠ none ∨ args.node ≠ none)
    (hconf : args.doConfirmation = true → env.answer = some true) :
    ∃ t' evs, Completes env args f.table t' evs := by
  have hneed := hany.needs
  have htame : AllBlocks env.codec f.table Tame := Spec.AllBlocks.mono hm.usual fun b h => usual_tame hK h
  have hmeta : AllBlocks env.codec f.table MetaInside := Spec.AllBlocks.mono hm.place fun b h => h.metas
  have hids : AllBlocks env.codec f.table fun b => ∀ e ∈ b.nimap, e.1 ≤ 65533 :=
    Spec.AllBlocks.mono hm.usual fun b h e he => Nat.le_trans (h.fine.small e he) (by omega)
  unfold Needs at hneed
  have hnames : args.command = "clone" ∨ args.command = "deleteblocks" ∨ args.command = "deletemeta" ∨
      args.command = "deleteobjects" ∨ args.command = "deletetimers" ∨ args.command = "fill" ∨
      args.command = "replacenodes" ∨ args.command = "replaceininv" ∨ args.command = "overlay" ∨
      args.command = "setmetavar" ∨ args.command = "setparam2" ∨ args.command = "vacuum" := by
    simpa [commandNames, commands] using hcm
  rcases hnames with hc | hc | hc | hc | hc | hc | hc | hc | hc | hc | hc | hc
  · rw [hc] at hneed
    obtain ⟨a, h1⟩ := Option.isSome_iff_exists.1 hneed.1
    obtain ⟨o, h2⟩ := Option.isSome_iff_exists.1 hneed.2
    exact C47_clone_completes env args f a o hE hfail hf hm.cols hm.good hb hc h1 (hany.area a h1) h2
      (hi (by rw [hc]; decide)) (fun h => hr (.inl ⟨hc, a, o, h1, h2, h⟩)) hconf htame
  · exact C39_deleteblocks_completes env args f hfail hf hm.cols hb hc (hi (by rw [hc]; decide)) hconf
  · exact C40_deletemeta_completes env args f hE hfail hf hm.cols hm.good hb hc hany.area (hi (by rw [hc]; decide)) hconf
      fun _ => hmeta
  · refine C43_deleteobjects_completes env args f hE hfail hf hm.cols hm.good hb hc hany.area ?_
      (hi (by rw [hc]; decide)) hconf fun _ _ => Spec.AllBlocks.mono hm.place fun b h => h.objects
    by_cases h1 : args.object = none
    · exact .inl h1
    · exact .inr (Classical.byContradiction fun h2 => hr (.inr (.inl ⟨hc, h1, h2⟩)))
  · exact C42_deletetimers_completes env args f hE hfail hf hm.cols hm.good hb hc hany.area (hi (by rw [hc]; decide)) hconf
      fun _ => Spec.AllBlocks.mono hm.place fun b h => h.timers
  · rw [hc] at hneed
    obtain ⟨a, h1⟩ := Option.isSome_iff_exists.1 hneed.1
    obtain ⟨n, h2⟩ := Option.isSome_iff_exists.1 hneed.2
    exact C32_fill_completes env args f a n hE hfail hf hm.cols hm.good hb hc h1 (hany.area a h1) h2 (hany.name n h2)
      (hi (by rw [hc]; decide)) hconf fun k d b h3 h4 => ⟨(htame k d b h3 h4).covered, hids k d b h3 h4⟩
  · rw [hc] at hneed
    obtain ⟨o, h1⟩ := Option.isSome_iff_exists.1 hneed.1
    obtain ⟨n, h2⟩ := Option.isSome_iff_exists.1 hneed.2
    exact C35_replacenodes_completes env args f o n hE hfail hf hm.cols hm.good hb hr hc hany.area h1 h2 (hany.name n h2)
      (hi (by rw [hc]; decide)) hconf hids
  · rw [hc] at hneed
    obtain ⟨item, h1⟩ := Option.isSome_iff_exists.1 hneed
    have hit := hany.item hc
    rw [h1] at hit
    exact C46_replaceininv_completes env args f item hE hfail hf hm.cols hm.good hb hr hc hany.area h1
      (fun h => hit h.isInfix) (hi (by rw [hc]; decide)) hconf (fun _ => hmeta)
      (Spec.AllBlocks.mono hm.place fun b h => plain_invsGood h.plain)
  · obtain ⟨p, g, h1, h2, hgc, hg⟩ := hs hc
    have htame' : AllBlocks env.codec g.table Tame := Spec.AllBlocks.mono hg.usual fun b h => usual_tame hK h
    have hno : ¬ ((args.invert = true ∧ ∃ o, args.offset = some o ∧ o ≠ ⟨0, 0, 0⟩) ∨
       MovedOut (args.area.getD ⟨⟨-31000, -31000, -31000⟩, ⟨31000, 31000, 31000⟩⟩)
         (args.offset.getD ⟨0, 0, 0⟩)) := fun h => hr (.inr (.inr (.inr (.inr (.inl ⟨hc, h⟩)))))
    rw [not_or] at hno
    by_cases hz : args.offset = none ∨ args.offset = some ⟨0, 0, 0⟩
    · cases harea : args.area with
      | none => exact C49_overlay_completes env args f g p hfail hf hm.cols h1 h2 hgc hg.good.nodup hb hc harea hz hconf
      | some a =>
        exact C50_overlay_completes env args f g p a hE hfail hf hm.cols h1 h2 hgc hg.good hb hc harea
          (hany.area a harea) hz htame htame' hconf
    · cases hoff : args.offset with
      | none => exact absurd (.inl hoff) hz
      | some o =>
        have ho : o ≠ ⟨0, 0, 0⟩ := fun e => hz (.inr (by rw [hoff, e]))
        refine C51_overlay_completes env args f g p o hE hfail hf hm.cols h1 h2 hgc hm.good hb hc hany.area hoff ho ?_ ?_
          htame htame' hconf
        · rw [Bool.eq_false_iff]
          exact fun e => hno.1 ⟨e, o, hoff, ho⟩
        · have := hno.2
          rw [hoff] at this
          exact this
  · rw [hc] at hneed
    obtain ⟨k, h1⟩ := Option.isSome_iff_exists.1 hneed
    exact C41_setmetavar_completes env args f k hE hfail hf hm.cols hm.good hb hr hc hany.area h1 hval
      (hi (by rw [hc]; decide)) hconf fun _ => hmeta
  · rw [hc] at hneed
    obtain ⟨v, h1⟩ := Option.isSome_iff_exists.1 hneed
    exact C37_setparam2_completes env args f v hE hfail hf hm.cols hm.good hb hc h1 hany.area (hsp hc)
      (hi (by rw [hc]; decide)) hconf
  · exact absurd hc hv

/-! ## vacuum -/

theorem dbVacuum_ok {env : Env} {w : World} {dur cur : Table} {cols : List Col} (hfail : ∀ n, env.fail n = false)
    (h : OpenAt w .main dur cur cols) :
    ∃ w', dbVacuum env .main w = (.ok (.ok ()), w') ∧ w'.dbs .main = some ⟨⟨cur, cur, false, cols⟩, false⟩ := by
  have h1 : theDb .main w = (.ok ⟨⟨dur, cur, true, cols⟩, true⟩, w) := by unfold theDb; rw [h]
  unfold dbVacuum commitIfNeeded
  rw [run_bind_assoc, run_bind_ok h1]
  simp only [if_true]
  let w1 := (w.setDb .main ⟨⟨cur, cur, false, cols⟩, true⟩).did .main .commit true
  let w2 := w1.setDb .main ⟨⟨cur, cur, false, cols⟩, false⟩
  have h2 : exec env .main .commit w = (.ok true, w1) := by
    unfold exec; rw [h]; simp only [hfail]; rfl
  rw [run_bind_assoc, run_bind_ok h2]
  refine ⟨(w2.setDb .main ⟨⟨cur, cur, false, cols⟩, false⟩).did .main .vacuum true, ?_, ?_⟩
  · have h3 : exec env .main .vacuum w2 =
        (.ok true, (w2.setDb .main ⟨⟨cur, cur, false, cols⟩, false⟩).did .main .vacuum true) := by
      unfold exec; simp [w2, w1, World.setDb, World.did, hfail, Conn.refuses, Conn.step]
    show (exec env .main .vacuum >>= _) _ = _
    rw [run_bind_ok h3]; rfl
  · simp [w2, w1, World.setDb, World.did]

theorem vacuum_ok {env : Env} {w : World} {dur cur : Table} {cols : List Col} (hfail : ∀ n, env.fail n = false)
    (h : OpenAt w .main dur cur cols) :
    ∃ w', vacuum env w = (.ok (), w') ∧ w'.dbs .main = some ⟨⟨cur, cur, false, cols⟩, false⟩ := by
  unfold vacuum
  obtain ⟨w1, h1, h1d⟩ : ∃ w1, (∀ {β : Type} (f : Unit → Run β), (logInfo (.text "Starting vacuum.") >>= fun _ =>
    setShowProgress false >>= fun _ => beginEditing >>= f) w = f () w1) ∧
    w1.dbs = w.dbs := ⟨_, fun _ => rfl, rfl⟩
  rw [h1]
  have ho : OpenAt w1 .main dur cur cols := by unfold OpenAt; rw [h1d]; exact h
  obtain ⟨w2, h2, h3⟩ := dbVacuum_ok hfail ho
  rw [run_bind_ok h2]
  exact ⟨_, rfl, h3⟩

/-- `vacuum` comes to its end if no statement fails. -/
theorem vacuum_completes {env : Env} {args : InstArgs} {f : DbFile} (hfail : ∀ n, env.fail n = false)
    (hf : mapFile env args.mapPath = some f) (hcols : MapColumns f.cols) (hb : ¬ BadArgs args)
    (hc : args.command = "vacuum") (hin : args.inputMapPath = none)
    (hconf : args.doConfirmation = true → env.answer = some true) :
    (computeThread env args World.start).1 = .ok (.ok ()) := by
  have hset : SetupWorld env args World.start (World.start.opened .main f) :=
    ⟨f, hf, (colsOk_iff _).2 hcols, fun _ _ => hfail _, by rw [hin]⟩
  have hcm : command? args.command = some ⟨fun env _ => vacuum env, fun _ => .ok .ok, []⟩ := by rw [hc]; rfl
  have hsu := setup_iff.2 ⟨(verifyArgs_iff args).2 hb, hcm, ⟨.ok, rfl, by simp, rfl⟩, hset⟩
  obtain ⟨f', b1, b2, -⟩ := setupWorld_start hset
  rw [computeThread_eq, run_bind_ok hsu]
  simp only
  rw [runCommand_eq, if_neg (fun h => h.2 (hconf h.1))]
  obtain ⟨w2, h1, h2⟩ := vacuum_ok (env := env) hfail
    (show OpenAt ((World.start.opened .main f).say (preEvents args (warningOf .ok))) .main _ _ _ from b2)
  unfold finish
  rw [run_bind_ok h1]
  have key : ∀ w3 : World, w3.dbs = w2.dbs → ((do
      let m ← theDb .main
      let ok ←
        if m.inTransaction then do
          logInfo (.text "Committing...")
          commitIfNeeded env .main
        else pure true
      if ok then
        logInfo (.text "Done.")
        return .ok ()
      else return .error "database operation failed" : Run (Except String Unit)) w3).1 = .ok (.ok ()) := by
    intro w3 h3
    have h4 : theDb .main w3 = (.ok ⟨⟨f'.table, f'.table, false, f'.cols⟩, false⟩, w3) := by
      unfold theDb; rw [h3, h2]
    rw [run_bind_ok h4]
    rfl
  have hgf : getFailed w2 = (.ok w2.status.failed, w2) := rfl
  rw [run_bind_ok hgf]
  split
  · exact key _ rfl
  · exact key _ rfl

/-! ## What the user has answered -/

theorem step_answers {a : Actor} {s s' : Sys} (h : step a s = some s') :
    s'.answers = s.answers ∨ ∃ b, a = .user b ∧ s'.answers = s.answers ++ [b] := by
  cases a with
  | user b =>
    simp only [step] at h
    split at h
    · split at h <;> cases h <;> exact .inr ⟨b, rfl, rfl⟩
    · cases h
  | worker =>
    simp only [step, workerStep] at h
    repeat' split at h
    all_goals first | (cases h; done) | (cases h; exact .inl rfl)
  | ui =>
    simp only [step, uiStep] at h
    repeat' split at h
    all_goals first | (cases h; done) | (cases h; exact .inl rfl)
  | tick =>
    simp only [step] at h
    repeat' split at h
    all_goals first | (cases h; done) | (cases h; exact .inl rfl)
  | crash =>
    simp only [step] at h
    repeat' split at h
    all_goals first | (cases h; done) | (cases h; exact .inl rfl)

/-- Who never declines has not declined. -/
theorem never_declined {s0 : Sys} (h0 : false ∉ s0.answers) {x : Nat → Sys} {act : Nat → Option Actor}
    (h : Execution s0 x act) (hn : ∀ n, act n ≠ some (.user false)) (n : Nat) : false ∉ (x n).answers := by
  induction n with
  | zero => rw [h.1]; exact h0
  | succ n ih =>
    have hs := h.2 n
    split at hs
    · next a ha =>
      rcases step_answers hs with h1 | ⟨b, rfl, h1⟩
      · rw [h1]; exact ih
      · rw [h1]
        cases b with
        | false => exact absurd ha (hn n)
        | true => simpa using ih
    · rw [hs]; exact ih

end MapEditr
