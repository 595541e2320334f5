import Verif.Spec.Crash
import Verif.Props.DeleteMeta
import Verif.Props.SetMetaVar
import Verif.Props.ReplaceInInv
import Verif.Props.DeleteObjects
import Verif.Props.Fill
import Verif.Props.ReplaceNodes
import Verif.Props.DeleteBlocks
import Verif.Proof.Skips
/-! # Lemmas: when a run ends in a panic -/

namespace MapEditr
open Spec
set_option linter.unusedSimpArgs false
set_option linter.unusedVariables false

/-! ## Blocks that can be written -/

/-- Strings are short enough to be written; all else may be out of order. -/
structure Short (b : MapBlock) : Prop where
  ver : 25 ≤ b.version ∧ b.version ≤ 29
  nodes : b.nd.nodes.length = 4096
  metas : ∀ e ∈ b.metas, ∀ v ∈ e.2.vars, v.1.length < 65536 ∧ v.2.1.length < 4294967296
  objs : ∀ o ∈ b.objects, o.data.length < 65536
  names : ∀ e ∈ b.nimap, e.2.length < 65536

theorem Spec.Wf.short {b : MapBlock} (h : Wf b) : Short b :=
  ⟨h.ver, h.nodes.1, fun e he => (h.metas.metas e he).names, fun o ho => (h.objs.2 o ho).2.2.2.2,
    fun e he => (h.nimap.fits.2 e he).2⟩

theorem each_works {α : Type} {f : α → Wr} {l : List α} (h : ∀ x ∈ l, ∃ s, f x = .ok s) : ∃ s, wrEach f l = .ok s := by
  induction l with
  | nil => exact ⟨_, rfl⟩
  | cons x t ih =>
    obtain ⟨s, hs⟩ := h x List.mem_cons_self
    obtain ⟨r, hr⟩ := ih fun y hy => h y (List.mem_cons_of_mem _ hy)
    exact ⟨s ++ r, by rw [wrEach, hs, res_bind_ok, hr, res_bind_ok]; rfl⟩

theorem str16_works {d : Bytes} (h : d.length < 65536) : ∃ s, wrStr16 d = .ok s := ⟨_, if_pos h⟩
theorem str32_works {d : Bytes} (h : d.length < 4294967296) : ∃ s, wrStr32 d = .ok s := ⟨_, if_pos h⟩

theorem Short.saves {b : MapBlock} (h : Short b) (c : Codec) {ord : VarOrd} (ho : ord.Lawful) :
    ∃ s, serialize c ord b = .ok s := by
  have nd1 : ∃ s, b.nd.serialize = .ok s := by
    unfold NodeData.serialize rassert
    rw [h.nodes]
    exact ⟨_, rfl⟩
  have ml1 : ∃ s, wrMetaList ord b.metas b.version = .ok s := by
    unfold wrMetaList
    simp only
    split
    · exact ⟨_, rfl⟩
    · obtain ⟨s, hs⟩ := each_works (f := wrMetaEntry ord (if b.version ≥ 28 then 2 else 1)) (l := b.metas) (by
        intro e he
        unfold wrMetaEntry
        split
        · exact ⟨_, rfl⟩
        · obtain ⟨s, hs⟩ := each_works (f := wrVar (if b.version ≥ 28 then 2 else 1)) (l := ord e.1 e.2.vars) (by
            intro v hv
            obtain ⟨h1, h2⟩ := h.metas e he v ((ho e.1 e.2.vars).subset hv)
            obtain ⟨s1, hs1⟩ := str16_works h1
            obtain ⟨s2, hs2⟩ := str32_works h2
            exact ⟨_, by rw [wrVar, hs1, res_bind_ok, hs2]; rfl⟩)
          exact ⟨_, by rw [NodeMeta.serialize, hs]; rfl⟩)
      exact ⟨_, by rw [hs]; rfl⟩
  have os1 : ∃ s, wrObjects b.objects = .ok s := by
    obtain ⟨s, hs⟩ := each_works (f := wrObject) (l := b.objects) (by
      intro o ho
      obtain ⟨s, hs⟩ := str16_works (h.objs o ho)
      exact ⟨_, by rw [wrObject, hs]; rfl⟩)
    exact ⟨_, by rw [wrObjects, hs]; rfl⟩
  have ni1 : ∃ s, wrNimap b.nimap = .ok s := by
    obtain ⟨s, hs⟩ := each_works (f := wrNimapEntry) (l := b.nimap) (by
      intro e he
      obtain ⟨s, hs⟩ := str16_works (h.names e he)
      exact ⟨_, by rw [wrNimapEntry, hs]; rfl⟩)
    exact ⟨_, by rw [wrNimap, hs]; rfl⟩
  obtain ⟨ts, ts1, _⟩ := writes_timers (l := b.timers)
  obtain ⟨nd, nd1⟩ := nd1
  obtain ⟨ml, ml1⟩ := ml1
  obtain ⟨os, os1⟩ := os1
  obtain ⟨ni, ni1⟩ := ni1
  have hra : rassert (decide (25 ≤ b.version ∧ b.version ≤ 29)) "Invalid mapblock version."
      = .ok () := by simp only [rassert, decide_eq_true h.ver, if_true]
  by_cases h29 : b.version ≥ 29
  · exact ⟨_, by simp only [serialize, hra, res_bind_ok, if_pos h29, wrBody29, nd1, ml1, os1, ni1,
      ts1, res_pure]; rfl⟩
  · exact ⟨_, by simp only [serialize, hra, res_bind_ok, if_neg h29, wrBody28, nd1, ml1, os1, ni1,
      ts1, res_pure]; rfl⟩

/-! ## Completed or crashed -/

theorem crashes_not {env : Env} {args : InstArgs} {t t' : Table} {evs : List Event} (h : Completes env args t t' evs) :
    ¬ Crashes env args := by
  rintro ⟨e, w, hc⟩
  obtain ⟨f, w', m, -, -, h1, -⟩ := h
  rw [h1] at hc
  cases hc

/-- A run that gets as far as its command completes or crashes. -/
theorem completes_or {env : Env} {args : InstArgs} {cmd : Command} {res : ArgResult} {f : DbFile}
    (h1 : verifyArgs args = none) (h2 : command? args.command = some cmd)
    (h3 : cmd.verify args = .ok res) (h4 : ∀ e, res ≠ .error e)
    (hf : mapFile env args.mapPath = some f) (hc : colsOk f.cols = true)
    (hi : ∀ p, args.inputMapPath = some p → ∃ g, mapFile env p = some g ∧ colsOk g.cols = true)
    (hfail : ∀ n, env.fail n = false) (hy : args.doConfirmation = true → env.answer = some true)
    (hv : args.command ≠ "vacuum") :
    (∃ t' evs, Completes env args f.table t' evs) ∨ Crashes env args := by
  have hset : ∃ w0, SetupWorld env args World.start w0 := by
    cases hp : args.inputMapPath with
    | none => exact ⟨World.start.opened .main f, f, hf, hc, fun _ _ => hfail _, by rw [hp]⟩
    | some p =>
      obtain ⟨g, hg, hgc⟩ := hi p hp
      exact ⟨(World.start.opened .main f).opened .input g, f, hf, hc, fun _ _ => hfail _, by
        rw [hp]; exact ⟨g, hg, hgc, fun _ _ => hfail _, rfl⟩⟩
  obtain ⟨w0, hset⟩ := hset
  have hsu := setup_iff.2 ⟨h1, h2, ⟨res, h3, h4, rfl⟩, hset⟩
  obtain ⟨f', b1, b2, b3, b4, b5, b6⟩ := setupWorld_start hset
  rw [hf] at b1
  cases b1
  have hct : computeThread env args World.start =
      finish env args cmd (w0.say (preEvents args (warningOf res))) := by
    rw [computeThread_eq, run_bind_ok hsu]
    simp only
    rw [runCommand_eq, if_neg (fun h => h.2 (hy h.1))]
  cases hb : cmd.func env args (w0.say (preEvents args (warningOf res))) with
  | mk r w2 =>
    cases r with
    | error e =>
      refine .inr ⟨e, w2, ?_⟩
      rw [hct]
      unfold finish
      exact run_bind_err hb
    | ok u =>
      left
      have hs := inv_command (open_frame (env := env) fun n hn => absurd hn (by simp [hfail])) h2 hv args
        (w0.say (preEvents args (warningOf res)))
      rw [hb] at hs
      obtain ⟨cur, hcur⟩ := hs _ _ _ (show OpenAt (w0.say _) .main _ _ _ from b2)
      have hfin := finish_open hb hcur
      rw [hfail] at hfin
      simp only [Bool.false_eq_true, if_false] at hfin
      generalize hw3 : World.did _ _ _ _ = w3 at hfin
      have hdone : w3.dbs .main = some ⟨⟨cur, cur, false, f.cols⟩, false⟩ := by rw [← hw3]; rfl
      refine ⟨cur, w3.events, f, w3, _, hf, rfl, ?_, rfl, ?_, hdone, rfl⟩
      · rw [hct, hfin]
      · rw [← hw3]; simp [World.say, World.did, World.setDb]

/-- The program crashes on exactly the maps with a block whose change fails. -/
theorem crash_iff {env : Env} {args : InstArgs} {f : DbFile} {late : Bool} {strs : List Bytes}
    {edit : Int → MapBlock → Res (Option MapBlock × γ)} {add : γ → γ → γ} {g0 : γ} {msg : γ → Msg} (S : AllSet env args f)
    {name : String} {cmd : Command} (hc : args.command = name) (hcmd : command? name = some cmd)
    (hv : name ≠ "vacuum") {res : ArgResult} (hver : cmd.verify args = .ok res) (hres : ∀ e, res ≠ .error e)
    (heq : cmd.func env args = editCommand env late strs args.area args.invert edit add g0 msg)
    {T : Vec3 → Bytes → MapBlock → Prop}
    (hT : ∀ bp d b, ValidBlockPos bp → (keyOf bp, d) ∈ f.table → Represents env.codec d b → Wf b → T bp d b →
      (∃ p, InBlock bp p ∧ Selected args.area args.invert p) ∧ nameKeeps (strs.map string16) d = true ∧
      ∀ r, edit (keyOf bp) b ≠ .ok r)
    (hN : ∀ bp d b, ValidBlockPos bp → (keyOf bp, d) ∈ f.table → Represents env.codec d b → Wf b → ¬ T bp d b →
      (∃ p, InBlock bp p ∧ Selected args.area args.invert p) → nameKeeps (strs.map string16) d = true →
      ∃ ob n, edit (keyOf bp) b = .ok (ob, n) ∧ ∀ b', ob = some b' → Short b') :
    Crashes env args ↔ SomeBlock env.codec f.table T := by
  have hcol := (colsOk_iff _).2 S.cols
  have hbad := (verifyArgs_iff args).2 S.accepted
  have hin : ∀ p, args.inputMapPath = some p → ∃ g, mapFile env p = some g ∧ colsOk g.cols = true := by
    intro p hp; rw [S.one.one.2.2] at hp; cases hp
  have hor := completes_or hbad (by rw [hc]; exact hcmd) hver hres S.file hcol hin S.works S.confirmed
    (by rw [hc]; exact hv)
  constructor
  · intro hcr
    refine Classical.byContradiction fun hno => ?_
    obtain ⟨t', evs, h⟩ : ∃ t' evs, Completes env args f.table t' evs := by
      refine completes_of hbad (by rw [hc]; exact hcmd) hver hres S.file hcol hin S.works S.confirmed
        (by rw [hc]; exact hv) ?_
      intro w1 ho _
      rw [heq]
      refine editCommand_works ho S.good.nodup S.works S.ok.ord ?_
      intro r hr b hd
      obtain ⟨h0, hsel, hk⟩ := mem_hits.1 hr
      obtain ⟨bp, h1, h2, h3⟩ := row_pos S.good h0
      rw [← h2, areaKeeps_iff S.area args.invert true h1] at hsel
      have hrep := deserialize_iff.1 hd
      have hm : (keyOf bp, r.2) ∈ f.table := by rw [h2]; exact h0
      obtain ⟨ob, n, h4, h5⟩ := hN bp r.2 b h1 hm hrep (wf_of_deserialize hd)
        (fun ht => hno ⟨bp, r.2, b, h1, hm, hrep, ht⟩) hsel hk
      rw [← h2]
      exact ⟨ob, _, h4, fun b' hb' ord hord => (h5 b' hb').saves _ hord⟩
    exact crashes_not h hcr
  · rintro ⟨bp, d, b, h1, h2, h3, h4⟩
    refine hor.resolve_left ?_
    rintro ⟨t', evs, h⟩
    obtain ⟨D, g, e, -⟩ := change_edits h hc hcmd hv S.good.nodup heq
    obtain ⟨h5, h6, h7⟩ := hT bp d b h1 h2 h3 (wf_of_deserialize (deserialize_iff.2 h3)) h4
    have hr : (keyOf bp, d) ∈ hits strs args.area args.invert f.table :=
      mem_hits.2 ⟨h2, (areaKeeps_iff S.area args.invert true h1).2 h5, h6⟩
    obtain ⟨ob, n, h8, -⟩ := edits_ok e hr h3
    exact h7 _ h8

end MapEditr
