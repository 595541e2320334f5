import Verif.Props.Report
/-!
# C82: a refusal names its reason
-/

namespace MapEditr
open Spec

/-- The error of a check, if it is one. -/
def errorOf : ArgResult → Option String
  | .error e => some e
  | _ => none

theorem firstOf_at {l : List (Prop × String)} {c : Prop} {t : String} (n : Nat) (hn : l[n]? = some (c, t))
    (hc : c) (h : ∀ x ∈ l.take n, ¬ x.1) : FirstOf l t := by
  obtain ⟨hlt, he⟩ := List.getElem?_eq_some_iff.1 hn
  refine ⟨l.take n, c, l.drop (n + 1), ?_, hc, h⟩
  rw [← he, List.getElem_cons_drop, List.take_append_drop]

/-- The command's own check names the first thing that is wrong. -/
theorem commandVerify_picks (args : InstArgs) (hp : Parsed args) :
    ∃ cmd res, command? args.command = some cmd ∧ cmd.verify args = .ok res ∧
      Picks (commandReasons args) (errorOf res) := by
  have hk := hp.known
  simp only [commandNames, List.mem_cons, List.not_mem_nil, or_false] at hk
  rcases hk with h | h | h | h | h | h | h | h | h | h | h | h
  · obtain ⟨ha, ho⟩ := hp.clone h
    obtain ⟨a, ha⟩ := Option.ne_none_iff_exists'.1 ha
    obtain ⟨o, ho⟩ := Option.ne_none_iff_exists'.1 ho
    refine ⟨_, _, by rw [h]; rfl, by simp only [cloneVerify, ha, ho, unwrap]; rfl, ?_⟩
    have := movedOut_iff a o
    split
    · rename_i hm
      rw [this] at hm
      exact firstOf_at 0 rfl ⟨h, a, o, ha, ho, hm⟩ (by simp)
    · rename_i hm
      rw [this] at hm
      simp [Picks, errorOf, commandReasons, h, ha, ho, hm]
  · exact ⟨_, _, by rw [h]; rfl, rfl, by simp [Picks, errorOf, commandReasons, h]⟩
  · refine ⟨_, _, by rw [h]; rfl, rfl, ?_⟩
    simp only [deleteMetaVerify]
    split <;> simp [Picks, errorOf, commandReasons, h]
  · refine ⟨_, _, by rw [h]; rfl, rfl, ?_⟩
    simp only [deleteObjectsVerify]
    split
    · rename_i hc
      exact firstOf_at 1 rfl ⟨h, by simp_all [Option.isSome_iff_ne_none]⟩ (by simp [commandReasons, h])
    · rename_i hc
      simp only [Picks, errorOf, commandReasons, h]
      simp_all [Option.isSome_iff_ne_none]
  · exact ⟨_, _, by rw [h]; rfl, rfl, by simp [Picks, errorOf, commandReasons, h]⟩
  · exact ⟨_, _, by rw [h]; rfl, rfl, by simp [Picks, errorOf, commandReasons, h]⟩
  · refine ⟨_, _, by rw [h]; rfl, rfl, ?_⟩
    simp only [replaceNodesVerify, beq_iff_eq]
    split
    · rename_i hc
      exact firstOf_at 2 rfl ⟨h, hc⟩ (by simp [commandReasons, h])
    · rename_i hc
      simp [Picks, errorOf, commandReasons, h, hc]
  · refine ⟨_, _, by rw [h]; rfl, rfl, ?_⟩
    simp only [replaceInInvVerify]
    split
    · rename_i hc
      exact firstOf_at 3 rfl ⟨h, by simp_all⟩ (by simp [commandReasons, h])
    · split
      · rename_i hc' hc
        exact firstOf_at 4 rfl ⟨h, by simp_all [Option.isSome_iff_ne_none]⟩ (by simp_all [commandReasons])
      · split
        · rename_i h1 h2 h3
          exact firstOf_at 5 rfl ⟨h, by simp_all⟩ (by simp_all [commandReasons, Option.isSome_iff_ne_none])
        · rename_i h1 h2 h3
          simp_all [Picks, errorOf, commandReasons, Option.isSome_iff_ne_none]
  · refine ⟨_, _, by rw [h]; rfl, rfl, ?_⟩
    simp only [overlayVerify]
    have hm := movedOut_iff (args.area.getD MAP_AREA) (args.offset.getD ⟨0, 0, 0⟩)
    have ho : (args.invert && (args.offset.filter fun o => o != (⟨0, 0, 0⟩ : Vec3)).isSome) = true ↔
        args.invert = true ∧ ∃ o, args.offset = some o ∧ o ≠ ⟨0, 0, 0⟩ := by
      rw [Bool.and_eq_true]
      cases args.offset with
      | none => simp
      | some o => by_cases h : o = ⟨0, 0, 0⟩ <;> simp [h]
    have hpre : ∀ x ∈ (commandReasons args).take 6, ¬ x.1 := by simp [commandReasons, h]
    split
    · rename_i hc
      exact firstOf_at 6 rfl ⟨h, ho.1 hc⟩ hpre
    · rename_i hc
      rw [ho] at hc
      split
      · rename_i hd
        refine firstOf_at 7 rfl ⟨h, hm.1 hd⟩ ?_
        simp only [commandReasons, h]
        simpa using hc
      · rename_i hd
        rw [hm] at hd
        have e : MAP_AREA = ⟨⟨-31000, -31000, -31000⟩, ⟨31000, 31000, 31000⟩⟩ := rfl
        rw [e] at hd
        simp only [Picks, errorOf, commandReasons, h]
        simpa [hd] using hc
  · refine ⟨_, _, by rw [h]; rfl, rfl, ?_⟩
    simp only [setMetaVarVerify]
    split
    · rename_i hc
      exact firstOf_at 8 rfl ⟨h, by simp_all⟩ (by simp [commandReasons, h])
    · split
      · rename_i hc' hc
        exact firstOf_at 9 rfl ⟨h, by simp_all [Option.isSome_iff_ne_none]⟩ (by simp_all [commandReasons])
      · split
        · rename_i h1 h2 h3
          exact firstOf_at 10 rfl ⟨h, by simp_all⟩ (by simp_all [commandReasons, Option.isSome_iff_ne_none])
        · rename_i h1 h2 h3
          simp_all [Picks, errorOf, commandReasons, Option.isSome_iff_ne_none]
  · refine ⟨_, _, by rw [h]; rfl, rfl, ?_⟩
    simp only [setParam2Verify]
    split
    · rename_i hc
      exact firstOf_at 11 rfl ⟨h, by simp_all⟩ (by simp [commandReasons, h])
    · rename_i hc
      simp_all [Picks, errorOf, commandReasons]
  · exact ⟨_, _, by rw [h]; rfl, rfl, by simp [Picks, errorOf, commandReasons, h]⟩

/-- Refused arguments are exactly those about which there is something to say. -/
theorem C82_reasons (args : InstArgs) :
    (BadArgs args ∨ CommandRefuses args) ↔ ∃ x ∈ generalReasons args ++ commandReasons args, x.1 := by
  have hc : CommandRefuses args ↔ ∃ x ∈ commandReasons args, x.1 := by
    unfold CommandRefuses commandReasons
    simp only [List.mem_cons, List.not_mem_nil, or_false, exists_eq_or_imp, exists_eq_left, and_or_left, or_assoc]
  rw [badArgs_iff, hc]
  simp only [List.mem_append, or_and_right, exists_or]

/-- Refused arguments: the user sees one message, the text for the first thing that is wrong, which
quotes the offending value. -/
theorem C82_told (env : Env) (args : InstArgs) (hp : Parsed args) (h : BadArgs args ∨ CommandRefuses args) :
    ∃ t, FirstOf (generalReasons args ++ commandReasons args) t ∧
      (worker env args World.start).2.events = [errMsg t] := by
  have hpk := verifyArgs_picks args
  obtain ⟨cmd, res, h1, h2, h3⟩ := commandVerify_picks args hp
  have hall := picks_append hpk h3
  have key : ∃ t, (verifyArgs args <|> errorOf res) = some t ∧
      computeThread env args World.start = (.ok (.error t), World.start) := by
    rw [computeThread_eq]
    have : ∃ t, (verifyArgs args <|> errorOf res) = some t ∧
        setup env args World.start = (.ok (.error t), World.start) := by
      rw [setup_eq]
      cases hv : verifyArgs args with
      | some e => exact ⟨e, rfl, rfl⟩
      | none =>
        rw [hv] at hall
        cases he : errorOf res with
        | none =>
          rw [he] at hall
          obtain ⟨x, hx, hxc⟩ := (C82_reasons args).1 h
          exact absurd hxc (hall x hx)
        | some t =>
          have : res = .error t := by
            cases res <;> simp_all [errorOf]
          subst this
          refine ⟨t, rfl, ?_⟩
          simp only
          rw [h1, run_bind_ok (run_unwrap_some _ _), h2]
          rfl
    obtain ⟨t, ht, hs⟩ := this
    exact ⟨t, ht, by rw [run_bind_ok hs]; rfl⟩
  obtain ⟨t, ht, hrun⟩ := key
  rw [ht] at hall
  refine ⟨t, hall, ?_⟩
  unfold worker
  rw [run_bind_ok hrun]
  rfl

/-- Concrete case: two names are wrong; the first is named. -/
example (env : Env) : (worker env { runArgs false "replacenodes" "map" none with
      node := some "Stone", newNode := some "dirt" } World.start).2.events =
    [errMsg "Invalid node name: Stone"] := rfl

/-- Concrete case: a corner is too far away. -/
example (env : Env) : (worker env { runArgs false "deleteblocks" "map" none with
      area := some ⟨⟨-5, 0, 0⟩, ⟨31001, 0, 0⟩⟩ } World.start).2.events =
    [errMsg "Area corner is outside map bounds: (31001, 0, 0)."] := rfl

end MapEditr
