import Verif.Proof.AllCommands
import Verif.Props.Runs
import Verif.Spec.Pieces
/-! # Lemmas: what becomes of a row depends on that row only -/

namespace MapEditr
open Spec

/-- All block-editing commands but `replaceininv` are the common loop with one count; the change of a block depends
on the arguments and on the build only. -/
theorem count_form {args : InstArgs} {cmd : Command} (bd : Build)
    (hm : args.command ∈ editNames) (hr : args.command ≠ "replaceininv") (hc : command? args.command = some cmd) :
    ∃ (late : Bool) (strs : List Bytes) (edit : Int → MapBlock → Res (Option MapBlock × Nat)) (what : String),
      what ≠ "Skipped {} invalid/unsupported mapblocks." ∧
      ∀ env w w', env.build = bd → cmd.func env args w = (.ok (), w') →
        cmd.func env args = editCommand env late strs args.area args.invert edit (· + ·) 0 (Msg.count what) := by
  simp only [editNames, List.mem_cons, List.not_mem_nil, or_false] at hm
  rcases hm with e | e | e | e | e | e | e | e <;> rw [e] at hc
  · rw [fill_command] at hc
    cases hc
    cases ha : args.area with
    | none =>
      refine ⟨false, [], fun _ _ => .error (.panic ""), "", by decide, fun env w w' _ h => ?_⟩
      change fill env args w = _ at h
      unfold fill at h
      obtain ⟨a, h1⟩ := unwrap_ok_some h
      rw [ha] at h1
      cases h1
    | some a =>
      cases hn : args.newNode with
      | none =>
        refine ⟨false, [], fun _ _ => .error (.panic ""), "", by decide, fun env w w' _ h => ?_⟩
        change fill env args w = _ at h
        unfold fill at h
        rw [ha] at h
        obtain ⟨n, h1⟩ := unwrap_ok_some (o := args.newNode) h
        rw [hn] at h1
        cases h1
      | some node =>
        refine ⟨false, [], fun k b => (fillBlock bd a args.invert (toBytes node) (Vec3.fromBlockKey k) b).map
          fun r => (some r.1, r.2), "{} nodes filled.", by decide, fun env w w' hb _ => ?_⟩
        subst hb
        rw [← ha]
        exact fill_eq env args a node ha hn
  · rw [replaceNodes_command] at hc
    cases hc
    cases ha : args.node with
    | none =>
      refine ⟨false, [], fun _ _ => .error (.panic ""), "", by decide, fun env w w' _ h => ?_⟩
      change replaceNodes env args w = _ at h
      unfold replaceNodes at h
      obtain ⟨a, h1⟩ := unwrap_ok_some h
      rw [ha] at h1
      cases h1
    | some a =>
      cases hn : args.newNode with
      | none =>
        refine ⟨false, [], fun _ _ => .error (.panic ""), "", by decide, fun env w w' _ h => ?_⟩
        change replaceNodes env args w = _ at h
        unfold replaceNodes at h
        rw [ha] at h
        obtain ⟨n, h1⟩ := unwrap_ok_some (o := args.newNode) h
        rw [hn] at h1
        cases h1
      | some node =>
        refine ⟨true, [toBytes a], replaceEdit bd args (toBytes a) (toBytes node), "{} nodes replaced.", by decide,
          fun env w w' hb _ => ?_⟩
        subst hb
        exact replaceNodes_eq env args ha hn
  · rw [setParam2_command] at hc
    cases hc
    cases ha : args.param2 with
    | none =>
      refine ⟨false, [], fun _ _ => .error (.panic ""), "", by decide, fun env w w' _ h => ?_⟩
      change setParam2 env args w = _ at h
      unfold setParam2 at h
      obtain ⟨a, h1⟩ := unwrap_ok_some h
      rw [ha] at h1
      cases h1
    | some a =>
      exact ⟨false, _, param2Edit args a, "Set param2 of {} nodes.", by decide, fun env w w' _ _ => setParam2_eq env args a ha⟩
  · rw [deleteMeta_command] at hc
    cases hc
    exact ⟨false, _, deleteMetaEdit args, "Deleted metadata from {} nodes.", by decide, fun env w w' _ _ => deleteMetadata_eq env args⟩
  · rw [setMetaVar_command] at hc
    cases hc
    cases ha : args.key with
    | none =>
      refine ⟨false, [], fun _ _ => .error (.panic ""), "", by decide, fun env w w' _ h => ?_⟩
      change setMetaVar env args w = _ at h
      unfold setMetaVar at h
      obtain ⟨a, h1⟩ := unwrap_ok_some h
      rw [ha] at h1
      cases h1
    | some a =>
      exact ⟨false, _, setMetaVarEdit args (toBytes a), "Set metadata variable of {} nodes.", by decide,
        fun env w w' _ _ => setMetaVar_eq env args ha⟩
  · rw [deleteTimers_command] at hc
    cases hc
    exact ⟨false, _, deleteTimersEdit args, "Deleted {} node timers.", by decide, fun env w w' _ _ => deleteTimers_eq env args⟩
  · rw [deleteObjects_command] at hc
    cases hc
    refine ⟨false, toSlice (entityFor args), deleteObjectsEdit bd args, "Deleted {} objects.", by decide,
      fun env w w' hb _ => ?_⟩
    subst hb
    exact deleteObjects_eq env args
  · exact absurd e hr

/-- `replaceininv` is the common loop with two counts. -/
theorem pair_form {args : InstArgs} {cmd : Command}
    (hr : args.command = "replaceininv") (hc : command? args.command = some cmd) :
    ∃ (strs : List Bytes) (edit : Int → MapBlock → Res (Option MapBlock × (Nat × Nat))),
      ∀ env w w', cmd.func env args w = (.ok (), w') →
        cmd.func env args = editCommand env false strs args.area args.invert edit addPair (0, 0)
          (fun c => Msg.count2 "Replaced {} itemstacks in {} nodes." c.1 c.2) := by
  rw [hr, replaceInInv_command] at hc
  cases hc
  cases ha : args.item with
  | none =>
    refine ⟨[], fun _ _ => .error (.panic ""), fun env w w' h => ?_⟩
    change replaceInInv env args w = _ at h
    unfold replaceInInv at h
    obtain ⟨a, h1⟩ := unwrap_ok_some h
    rw [ha] at h1
    cases h1
  | some a => exact ⟨_, _, fun env w w' _ => replaceInInv_eq env args ha⟩

/-- What becomes of a row that was visited: the same in both runs. -/
theorem touched_same {env env' : Env} (ha : SameSetup env env') (hE : ∀ n, (env.ord n).Lawful)
    (hE' : ∀ n, (env'.ord n).Lawful) {edit : Int → MapBlock → Res (Option MapBlock × γ)} {r : Int × Bytes}
    {d d' : Bytes} (h : Touched env edit r d) (h' : Touched env' edit r d') :
    SameUpToOrder env.codec d d' ∧ ((∀ n m, env'.ord n = env.ord m) → d' = d) := by
  unfold Touched at h h'
  rw [ha.1] at h'
  rcases h with ⟨⟨e, h1⟩, rfl⟩ | ⟨b, ob, n, h1, h2, h3⟩
  · rcases h' with ⟨-, rfl⟩ | ⟨b, ob, n, g1, -⟩
    · exact ⟨.inl rfl, fun _ => rfl⟩
    · rw [h1] at g1
      cases g1
  · rcases h' with ⟨⟨e, g1⟩, rfl⟩ | ⟨b', ob', n', g1, g2, g3⟩
    · rw [h1] at g1
      cases g1
    · rw [h1] at g1
      cases g1
      rw [h2] at g2
      cases g2
      rcases h3 with ⟨rfl, rfl⟩ | ⟨b1, m, rfl, h3⟩
      · rcases g3 with ⟨-, rfl⟩ | ⟨_, _, g, -⟩
        · exact ⟨.inl rfl, fun _ => rfl⟩
        · cases g
      · rcases g3 with ⟨g, -⟩ | ⟨b2, m', g, g3⟩
        · cases g
        · cases g
          refine ⟨.inr ⟨_, _, _, hE m, hE' m', h3, g3⟩, fun ho => ?_⟩
          rw [ho m' m, h3] at g3
          cases g3
          rfl

/-- The rows of two runs of the loop. -/
theorem edits_same {env env' : Env} (ha : SameSetup env env') (hE : ∀ n, (env.ord n).Lawful)
    (hE' : ∀ n, (env'.ord n).Lawful) {late : Bool} {strs : List Bytes} {area : Option Area} {invert : Bool}
    {edit : Int → MapBlock → Res (Option MapBlock × γ)} {add : γ → γ → γ} {g0 : γ} {msg : γ → Msg}
    {t t' s s' dur dur' : Table} {cols cols' : List Col} {w w1 w' w1' : World} {g g' : γ}
    (hn : (t.map (·.1)).Nodup) (hn' : (s.map (·.1)).Nodup)
    (e : Edits env late edit add g0 msg (hits strs area invert t) dur t cols w t' g w1)
    (e' : Edits env' late edit add g0 msg (hits strs area invert s) dur' s cols' w' s' g' w1')
    {k : Int} (hk : s.get? k = t.get? k) :
    SameRow env.codec (t'.get? k) (s'.get? k) ∧ ((∀ n m, env'.ord n = env.ord m) → s'.get? k = t'.get? k) := by
  have key : ∀ {u : Table}, (u.map (·.1)).Nodup → (k ∈ (hits strs area invert u).map (·.1) ↔
      ∃ d, u.get? k = some d ∧ areaKeeps area invert true k = true ∧ nameKeeps (strs.map string16) d = true) := by
    intro u hu
    constructor
    · intro h
      obtain ⟨r, h1, rfl⟩ := List.mem_map.1 h
      obtain ⟨h2, h3, h4⟩ := mem_hits.1 h1
      exact ⟨r.2, Table.get?_of_mem hu h2, h3, h4⟩
    · rintro ⟨d, h1, h2, h3⟩
      exact List.mem_map.2 ⟨(k, d), mem_hits.2 ⟨Table.get?_some_mem h1, h2, h3⟩, rfl⟩
  by_cases h : k ∈ (hits strs area invert t).map (·.1)
  · obtain ⟨d, h1, h2, h3⟩ := (key hn).1 h
    obtain ⟨d1, f1, f2⟩ := e.on (k, d) (mem_hits.2 ⟨Table.get?_some_mem h1, h2, h3⟩)
    obtain ⟨d2, f3, f4⟩ := e'.on (k, d) (mem_hits.2 ⟨Table.get?_some_mem (hk.trans h1), h2, h3⟩)
    obtain ⟨q1, q2⟩ := touched_same ha hE hE' f2 f4
    refine ⟨.inr ⟨d1, d2, f1, f3, q1⟩, fun ho => ?_⟩
    rw [f1, f3, q2 ho]
  · have h' : k ∉ (hits strs area invert s).map (·.1) := by
      rw [key hn', hk, ← key hn]
      exact h
    have h1 := e.off k h
    have h2 := e'.off k h'
    rw [hk, ← h1] at h2
    refine ⟨?_, fun _ => h2⟩
    rw [h2]
    cases t'.get? k with
    | none => exact .inl ⟨rfl, rfl⟩
    | some d => exact .inr ⟨d, d, rfl, rfl, .inl rfl⟩

/-- The rows of two runs of any command that works on one map. -/
theorem rows_same {env env' : Env} {args : InstArgs} (ha : SameSetup env env') (hE : ∀ n, (env.ord n).Lawful)
    (hE' : ∀ n, (env'.ord n).Lawful) (hk : args.command ∈ commandNames)
    (h1 : args.command ≠ "clone" ∧ args.command ≠ "overlay")
    {t t' s s' : Table} {evs evs' : List Event} (hn : (t.map (·.1)).Nodup) (hn' : (s.map (·.1)).Nodup)
    (h : Completes env args t t' evs) (h' : Completes env' args s s' evs')
    {k : Int} (he : s.get? k = t.get? k) :
    SameRow env.codec (t'.get? k) (s'.get? k) ∧ ((∀ n m, env'.ord n = env.ord m) → s'.get? k = t'.get? k) := by
  have hsame : ∀ {o o' : Option Bytes}, o' = o → SameRow env.codec o o' := by
    intro o o' h
    subst h
    cases o' with
    | none => exact .inl ⟨rfl, rfl⟩
    | some d => exact .inr ⟨d, d, rfl, rfl, .inl rfl⟩
  by_cases hv : args.command = "vacuum"
  · rw [C53_vacuum env args t t' evs hv h, C53_vacuum env' args s s' evs' hv h']
    exact ⟨hsame he, fun _ => he⟩
  obtain ⟨D⟩ := completes_done h hv
  obtain ⟨D'⟩ := completes_done h' hv
  by_cases hd : args.command = "deleteblocks"
  · have b1 := D.body_of hd deleteBlocks_command
    have b2 := D'.body_of hd deleteBlocks_command
    obtain ⟨q1, -⟩ := deleteBlocks_run D.start b1
    obtain ⟨q2, -⟩ := deleteBlocks_run D'.start b2
    obtain ⟨rfl, -⟩ := openAt_unique D.fin q1
    obtain ⟨rfl, -⟩ := openAt_unique D'.fin q2
    have key : ∀ {u : Table}, (u.map (·.1)).Nodup → ∀ d,
        ((u.delAll (doomed args.area args.invert u)).get? k = some d ↔
          u.get? k = some d ∧ ¬ areaKeeps args.area args.invert false k = true) := by
      intro u hu d
      have hmem : ∀ d, u.get? k = some d →
          (k ∈ doomed args.area args.invert u ↔ areaKeeps args.area args.invert false k = true) := by
        intro d hd
        unfold doomed
        rw [queryHits_eq]
        simp only [List.mem_map, List.mem_filter, Bool.and_eq_true]
        constructor
        · rintro ⟨r, ⟨-, a2, -⟩, rfl⟩
          exact a2
        · intro a
          exact ⟨(k, d), ⟨Table.get?_some_mem hd, a, nameKeeps_nil d⟩, rfl⟩
      constructor
      · intro hx
        obtain ⟨a1, a2⟩ := mem_delAll.1 (Table.get?_some_mem hx)
        have := Table.get?_of_mem hu a1
        exact ⟨this, fun a => a2 ((hmem d this).2 a)⟩
      · rintro ⟨a1, a2⟩
        exact Table.get?_of_mem (nodup_delAll hu)
          (mem_delAll.2 ⟨Table.get?_some_mem a1, fun a => a2 ((hmem d a1).1 a)⟩)
    have : (s.delAll (doomed args.area args.invert s)).get? k =
        (t.delAll (doomed args.area args.invert t)).get? k := by
      refine Option.ext fun d => ?_
      rw [key hn', key hn, he]
    exact ⟨hsame this, fun _ => this⟩
  have hm : args.command ∈ editNames := by
    simp only [commandNames, List.mem_cons, List.not_mem_nil, or_false] at hk
    simp only [editNames, List.mem_cons, List.not_mem_nil, or_false]
    grind
  have hcmd : D'.cmd = D.cmd := by
    have := D'.cmd_ok
    rw [D.cmd_ok] at this
    exact (Option.some.inj this).symm
  have b2 := D'.body
  rw [hcmd] at b2
  by_cases hr : args.command = "replaceininv"
  · obtain ⟨strs, edit, hf⟩ := pair_form hr D.cmd_ok
    have c1 := D.body
    rw [hf env _ _ D.body] at c1
    rw [hf env' _ _ b2] at b2
    obtain ⟨g, e, -⟩ := doneRun_edits D hn c1
    obtain ⟨g', e', -⟩ := doneRun_edits D' hn' b2
    exact edits_same ha hE hE' hn hn' e e' he
  · obtain ⟨late, strs, edit, what, -, hf⟩ := count_form env.build hm hr D.cmd_ok
    have c1 := D.body
    rw [hf env _ _ rfl D.body] at c1
    rw [hf env' _ _ ha.2 b2] at b2
    obtain ⟨g, e, -⟩ := doneRun_edits D hn c1
    obtain ⟨g', e', -⟩ := doneRun_edits D' hn' b2
    exact edits_same ha hE hE' hn hn' e e' he

/-- No row is added. -/
theorem rows_none {env : Env} {args : InstArgs} (hk : args.command ∈ commandNames)
    (h1 : args.command ≠ "clone" ∧ args.command ≠ "overlay") {t t' : Table} {evs : List Event}
    (hn : (t.map (·.1)).Nodup) (h : Completes env args t t' evs) {k : Int} (he : t.get? k = none) :
    t'.get? k = none := by
  by_cases hv : args.command = "vacuum"
  · rw [C53_vacuum env args t t' evs hv h]
    exact he
  obtain ⟨D⟩ := completes_done h hv
  by_cases hd : args.command = "deleteblocks"
  · have b1 := D.body_of hd deleteBlocks_command
    obtain ⟨q1, -⟩ := deleteBlocks_run D.start b1
    obtain ⟨rfl, -⟩ := openAt_unique D.fin q1
    rw [Table.get?_none] at he ⊢
    intro hm
    obtain ⟨r, a1, rfl⟩ := List.mem_map.1 hm
    exact he (List.mem_map.2 ⟨r, (mem_delAll.1 a1).1, rfl⟩)
  have hm : args.command ∈ editNames := by
    simp only [commandNames, List.mem_cons, List.not_mem_nil, or_false] at hk
    simp only [editNames, List.mem_cons, List.not_mem_nil, or_false]
    grind
  obtain ⟨γ, edit, add, g0, msg, -, hf⟩ := editNames_eq hm D.cmd_ok D.body
  have c1 := D.body
  rw [hf] at c1
  obtain ⟨g, e, -⟩ := doneRun_edits D hn c1
  rw [e.off k ?_]
  · exact he
  · intro hx
    obtain ⟨r, a1, rfl⟩ := List.mem_map.1 hx
    exact Table.get?_none.1 he (List.mem_map.2 ⟨r, (mem_hits.1 a1).1, rfl⟩)

/-! ## The counts -/

/-- What is counted with this text. -/
def countIn (m : Msg) (failed : Nat) (what : String) : Nat :=
  if what = "Skipped {} invalid/unsupported mapblocks." then failed
  else match m with | .count w n => if w = what then n else 0 | _ => 0

theorem countIs_iff {args : InstArgs} {wn : Option String} {m : Msg} {failed : Nat} {what : String} {n : Nat}
    (hm : ∀ n, m ≠ .count "Skipped {} invalid/unsupported mapblocks." n) :
    CountIs (allEvents args wn m failed) what n ↔ n = countIn m failed what := by
  unfold CountIs Reported countIn
  by_cases hw : what = "Skipped {} invalid/unsupported mapblocks."
  · have key : ∀ x, .log .info (.count what x) ∈ allEvents args wn m failed ↔ 0 < failed ∧ x = failed := by
      intro x
      unfold allEvents cmdEvents skipEvents
      simp only [List.mem_append]
      constructor
      · rintro (((h | h) | h) | h)
        · exact absurd h preEvents_not_info
        · simp only [List.mem_cons, List.not_mem_nil, or_false] at h
          rcases h with h | h | h | h | h <;> cases h
          exact absurd (hw ▸ rfl) (hm x)
        · split at h
          · simp only [List.mem_singleton] at h
            cases h
            exact ⟨by assumption, rfl⟩
          · cases h
        · simp only [List.mem_cons, List.not_mem_nil, or_false] at h
          rcases h with h | h <;> cases h
      · rintro ⟨h, rfl⟩
        refine .inl (.inr ?_)
        rw [if_pos h, hw]
        simp
    simp only [key, if_pos hw]
    constructor
    · rintro (⟨⟨-, h⟩, -⟩ | ⟨h, rfl⟩)
      · exact h
      · cases failed with
        | zero => rfl
        | succ f => exact absurd ⟨Nat.succ_pos f, rfl⟩ (h (f + 1))
    · rintro rfl
      by_cases h0 : 0 < n
      · exact .inl ⟨⟨h0, rfl⟩, fun x hx => hx.2⟩
      · exact .inr ⟨fun x hx => h0 hx.1, by omega⟩
  · simp only [mem_allEvents hw, if_neg hw]
    constructor
    · rintro (⟨rfl, -⟩ | ⟨h, rfl⟩)
      · simp
      · split
        · split
          · next hh => exact absurd (by rw [hh]) (h _)
          · rfl
        · rfl
    · rintro rfl
      cases m with
      | count w n =>
        simp only
        by_cases hww : w = what
        · subst hww
          rw [if_pos rfl]
          exact .inl ⟨rfl, fun x hx => by injection hx with _ hx; exact hx.symm⟩
        · rw [if_neg hww]
          exact .inr ⟨fun x hx => by injection hx with hx; exact hww hx, rfl⟩
      | _ => exact .inr ⟨fun x hx => by (cases hx), rfl⟩

/-- The same of two counts. -/
def count2In (m : Msg) (what : String) : Nat × Nat :=
  match m with | .count2 w n k => if w = what then (n, k) else (0, 0) | _ => (0, 0)

theorem count2Is_iff {args : InstArgs} {wn : Option String} {m : Msg} {failed : Nat} {what : String} {n k : Nat} :
    Count2Is (allEvents args wn m failed) what n k ↔ (n, k) = count2In m what := by
  have key : ∀ x y, .log .info (.count2 what x y) ∈ allEvents args wn m failed ↔ m = .count2 what x y := by
    intro x y
    unfold allEvents cmdEvents skipEvents
    simp only [List.mem_append]
    constructor
    · rintro (((h | h) | h) | h)
      · exact absurd h preEvents_not_info
      · simp only [List.mem_cons, List.not_mem_nil, or_false] at h
        rcases h with h | h | h | h | h <;> cases h
        rfl
      · split at h
        · simp only [List.mem_singleton] at h
          cases h
        · cases h
      · simp only [List.mem_cons, List.not_mem_nil, or_false] at h
        rcases h with h | h <;> cases h
    · rintro rfl
      exact .inl (.inl (.inr (by simp)))
  unfold Count2Is Reported2 count2In
  simp only [key]
  constructor
  · rintro (⟨rfl, -⟩ | ⟨h, rfl, rfl⟩)
    · simp
    · split
      · split
        · next hh => exact absurd (by rw [hh]) (h _ _)
        · rfl
      · rfl
  · intro h
    cases m with
    | count2 w a b =>
      simp only at h
      by_cases hww : w = what
      · subst hww
        rw [if_pos rfl] at h
        cases h
        exact .inl ⟨rfl, fun x y hx => by injection hx with _ h1 h2; exact ⟨h1.symm, h2.symm⟩⟩
      · rw [if_neg hww] at h
        cases h
        exact .inr ⟨fun x y hx => by injection hx with hx; exact hww hx, rfl, rfl⟩
    | _ =>
      cases h
      exact .inr ⟨fun x y hx => by (cases hx), rfl, rfl⟩

theorem hits_perm {strs : List Bytes} {area : Option Area} {invert : Bool} {t t1 t2 : Table}
    (h : t.Perm (t1 ++ t2)) :
    (hits strs area invert t).Perm (hits strs area invert t1 ++ hits strs area invert t2) := by
  unfold hits
  rw [queryHits_eq, queryHits_eq, queryHits_eq, ← List.filter_append]
  exact h.filter _

theorem sum_perm {edit : Int → MapBlock → Res (Option MapBlock × Nat)} {c : Codec} {r r1 r2 : Table}
    (h : r.Perm (r1 ++ r2)) : (r.filterMap (outOf c edit)).foldl (· + ·) 0 =
      (r1.filterMap (outOf c edit)).foldl (· + ·) 0 + (r2.filterMap (outOf c edit)).foldl (· + ·) 0 := by
  have e : ∀ l : List Nat, l.foldl (· + ·) 0 = l.sum := fun l => (List.sum_eq_foldl).symm
  rw [e, e, e, ← List.sum_append, ← List.filterMap_append]
  exact (h.filterMap _).sum_nat

theorem foldl_addPair (l : List (Nat × Nat)) (x : Nat × Nat) :
    l.foldl addPair x = (x.1 + (l.map (·.1)).sum, x.2 + (l.map (·.2)).sum) := by
  induction l generalizing x with
  | nil => simp
  | cons a l ih =>
    rw [List.foldl_cons, ih]
    simp [addPair, Nat.add_assoc]

theorem pair_perm {edit : Int → MapBlock → Res (Option MapBlock × (Nat × Nat))} {c : Codec} {r r1 r2 : Table}
    (h : r.Perm (r1 ++ r2)) : (r.filterMap (outOf c edit)).foldl addPair (0, 0) =
      addPair ((r1.filterMap (outOf c edit)).foldl addPair (0, 0))
        ((r2.filterMap (outOf c edit)).foldl addPair (0, 0)) := by
  have hp := h.filterMap (outOf c edit)
  rw [List.filterMap_append] at hp
  rw [foldl_addPair, foldl_addPair, foldl_addPair, (hp.map _).sum_nat, (hp.map _).sum_nat]
  simp [addPair]

theorem failed_perm {c : Codec} {r r1 r2 : Table} (h : r.Perm (r1 ++ r2)) :
    (r.filter (unreadable c)).length = (r1.filter (unreadable c)).length + (r2.filter (unreadable c)).length := by
  rw [(h.filter _).length_eq, List.filter_append, List.length_append]

/-- What a run of one of these commands reports. -/
theorem run_counts {args : InstArgs} (bd : Build) (c : Codec) (hm : args.command ∈ editNames) :
    ∃ (F : Table → String → Nat) (G : Table → String → Nat × Nat),
      (∀ t t1 t2, t.Perm (t1 ++ t2) → ∀ what, F t what = F t1 what + F t2 what ∧
        G t what = addPair (G t1 what) (G t2 what)) ∧
      ∀ env t t' evs, env.build = bd → env.codec = c → (t.map (·.1)).Nodup → Completes env args t t' evs →
        ∀ what, (∀ n, CountIs evs what n ↔ n = F t what) ∧ ∀ n m, Count2Is evs what n m ↔ (n, m) = G t what := by
  have hv : args.command ≠ "vacuum" := by
    intro h
    rw [h] at hm
    revert hm
    decide
  obtain ⟨cmd, hcmd⟩ : ∃ cmd, command? args.command = some cmd := by
    simp only [editNames, List.mem_cons, List.not_mem_nil, or_false] at hm
    rcases hm with e | e | e | e | e | e | e | e <;> exact ⟨_, by rw [e]; rfl⟩
  by_cases hr : args.command = "replaceininv"
  · obtain ⟨strs, edit, hf⟩ := pair_form hr hcmd
    refine ⟨fun t what => countIn (.text "") (((hits strs args.area args.invert t).filter (unreadable c)).length) what,
      fun t what => count2In ((fun c : Nat × Nat => Msg.count2 "Replaced {} itemstacks in {} nodes." c.1 c.2)
        (((hits strs args.area args.invert t).filterMap (outOf c edit)).foldl addPair (0, 0))) what, ?_, ?_⟩
    · intro t t1 t2 h what
      have hh := hits_perm (strs := strs) (area := args.area) (invert := args.invert) h
      refine ⟨?_, ?_⟩
      · simp only [failed_perm hh, countIn]
        split <;> simp
      · simp only [pair_perm hh, count2In, addPair]
        split <;> simp
    · intro env t t' evs hb hc hn h what
      subst hc
      obtain ⟨D⟩ := completes_done h hv
      have hb := D.body_of rfl hcmd
      rw [hf env _ _ hb] at hb
      obtain ⟨g, e, he⟩ := doneRun_edits D hn hb
      rw [he, e.sum]
      refine ⟨fun n => ?_, fun n m => count2Is_iff⟩
      rw [countIs_iff (by intro n h; cases h)]
      rfl
  · obtain ⟨late, strs, edit, wh, hw, hf⟩ := count_form bd hm hr hcmd
    refine ⟨fun t what => countIn (.count wh
        (((hits strs args.area args.invert t).filterMap (outOf c edit)).foldl (· + ·) 0))
        (((hits strs args.area args.invert t).filter (unreadable c)).length) what,
      fun t what => (0, 0), ?_, ?_⟩
    · intro t t1 t2 h what
      have hh := hits_perm (strs := strs) (area := args.area) (invert := args.invert) h
      refine ⟨?_, rfl⟩
      simp only [failed_perm hh, sum_perm hh, countIn]
      split
      · rfl
      · split <;> simp
    · intro env t t' evs hb hc hn h what
      subst hc
      obtain ⟨D⟩ := completes_done h hv
      have hbd := D.body_of rfl hcmd
      rw [hf env _ _ hb hbd] at hbd
      obtain ⟨g, e, he⟩ := doneRun_edits D hn hbd
      rw [he, e.sum]
      exact ⟨fun n => countIs_iff (by intro n h; injection h with h; exact hw h), fun n m => count2Is_iff⟩

end MapEditr
