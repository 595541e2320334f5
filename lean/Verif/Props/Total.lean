import Verif.Proof.Total
import Verif.Proof.Place
import Verif.Props.Program
/-!
# Properties C99 and C100: the program comes to its end and does what the command line means, again and again
-/

namespace MapEditr
open Spec

/-- The program is started with a command line that is accepted and not refused, on a map as Minetest writes it; the
database works, and so does the terminal, and the user does not decline.  Then, however its threads are interleaved,
it comes to its end with exit status 0 and "Done.", all statements have been executed, and the contents of the map
file are what the command line means. -/
theorem C99_total (env : Env) (l : CmdLine) (K : Nat) (f : DbFile) (s : Table) (x : Nat → Sys)
    (act : Nat → Option Actor) (hl : LineOk l) (hs : l.name ≠ "setparam2") (hr : NotRefused l) (hE : EnvOk env)
    (hfail : ∀ n, env.fail n = false) (hf : mapFile env l.map = some f) (hm : MapOk env.codec K f) (hK : 4095 ≤ K)
    (hK' : K ≤ 7280)
    (hsrc : l.name = "overlay" → ∃ p g, ("input_map", [p]) ∈ l.matches_ ∧ mapFile env p = some g ∧
      MapColumns g.cols ∧ g.table = s ∧ Source env.codec K s ∧ AllBlocks env.codec s PlainInvs)
    (h : Execution (runCmdLine env l.yes l.name l.map l.matches_) x act) (hx : Fair x act)
    (hcr : ∀ n, act n ≠ some .crash) (hno : ∀ n, act n ≠ some (.user false)) :
    ∃ k n t' args, (x k).exit = some 0 ∧ (.info, .text "Done.") ∈ (x k).printed ∧
      (l.yes = false → (x k).answers = [true]) ∧
      Used env.codec l s true f.table t' env (x k) n ∧ Got l args ∧
      nodesOf env.codec t' = meaning args (nodesOf env.codec s) (nodesOf env.codec f.table) ∧
      restsOf env.codec t' = restMeaning args (restsOf env.codec s) (restsOf env.codec f.table) := by
  obtain ⟨cm, hc, ha⟩ := hl.accepted
  obtain ⟨args, e1, e2⟩ := C85_wellformed env l.yes l.name l.map l.matches_ cm hc ha hr.p1 hr.p2 hr.offset
  obtain ⟨hgot, hpar, hany⟩ := line_any hl hs e1
  obtain ⟨hbad, href⟩ := hr.args args e1
  obtain ⟨c1, c2, c3, -⟩ := C38_partial _ _ _ _ args cm hc ha e1
  have h0 := h
  rw [e2] at h0
  obtain ⟨k, h1, h2⟩ := C60_terminates env args x act h0 hx
  have hu := h2 hcr
  have hreach := execution_reach h0 k
  have hnod : false ∉ (x k).answers :=
    never_declined (by rw [e2]; exact List.not_mem_nil) h hno k
  -- the second map
  have hinp : args.command = "overlay" → ∃ p g, args.inputMapPath = some p ∧ mapFile env p = some g ∧
      MapColumns g.cols ∧ Source env.codec K g.table := by
    intro ho
    obtain ⟨p, g, a1, a2, a3, rfl, a4, -⟩ := hsrc (c1 ▸ ho)
    obtain ⟨cm', hc', hcar⟩ := hgot.carries
    rw [show l.name = "overlay" from c1 ▸ ho] at hc'
    cases hc'
    have := hcar .inputMapPath (by decide)
    exact ⟨p, g, this.1 p a1, a2, a3, a4⟩
  have hnoin : args.command ≠ "overlay" → args.inputMapPath = none := fun ho =>
    no_input hc ha (fun e => ho (c1.trans e)) e1
  have hval : (toBytes (args.value.getD "")).length < 4294967296 := by
    obtain ⟨_, _, -, -, -, -, e⟩ := toInstArgs_fields e1
    cases hv : args.value with
    | none => exact by decide
    | some v =>
      rw [e] at hv
      obtain ⟨y, hy, hy'⟩ := valueOf_mem hv
      exact Nat.lt_trans (hl.words y hy v hy').1 (by decide)
  -- with the answer "yes" the compute thread comes to its end
  have hct : ∀ r : Option Bool, r = some true → doneMsg ∈ (worker { env with
      answer := if args.doConfirmation then r else env.answer } args World.start).2.events := by
    rintro _ rfl
    have hans : args.doConfirmation = true →
        (if args.doConfirmation then some true else env.answer) = some true := fun e => by rw [e]; rfl
    refine (C80_done _ _).2 ⟨?_, hans⟩
    by_cases hv : args.command = "vacuum"
    · exact vacuum_completes (env := { env with answer := if args.doConfirmation then some true else env.answer })
        hfail (c2 ▸ hf) hm.cols hbad hv (hnoin (by rw [hv]; decide)) hans
    · obtain ⟨t', evs, fw, w, mm, hh⟩ :=
        completes_every (env := { env with answer := if args.doConfirmation then some true else env.answer })
        ⟨hE.codec, hE.full, hE.ord⟩ hfail (c2 ▸ hf) hm hK' hbad href hany hval hpar.known hv hnoin hinp
        (fun e => absurd (c1 ▸ e) hs) hans
      rw [hh.2.2.1]
  have hans : args.doConfirmation = true → (x k).answers = [true] := by
    intro hcf
    have hcase : (x k).answers = [] ∨ ∃ b, (x k).answers = [b] := by
      cases good_reach (workerProg_ready env args) hreach with
      | before _ _ _ _ h12 => exact .inl h12
      | asked _ _ _ _ h12 => exact .inl h12
      | answered _ _ _ _ h12 => exact .inr ⟨_, h12⟩
      | going _ _ _ _ h12 => exact .inr ⟨_, h12⟩
      | after _ _ _ h12 => exact h12
    rcases hcase with h3 | ⟨b, h3⟩
    · have p1 := printed_with env args (x k) hreach hu (some true) (by rw [h3]; nofun)
      have p2 := printed_with env args (x k) hreach hu none (by rw [h3]; nofun)
      have h4 := mem_logsOf.2 (hct (some true) rfl)
      rw [← p1, p2, mem_logsOf] at h4
      have h5 := ((C80_done _ _).1 h4).2 hcf
      simp [hcf] at h5
    · cases b with
      | true => exact h3
      | false => rw [h3] at hnod; simp at hnod
  have hpr : (.info, .text "Done.") ∈ (x k).printed := by
    rw [printed_with env args (x k) hreach hu (some true) (by
      intro b hb
      cases b with
      | true => rfl
      | false => rw [hb] at hnod; simp at hnod), mem_logsOf]
    exact hct (some true) rfl
  have hused : Used env.codec l s true f.table
      (onDisk f.table ((computeThread (answered env args (x k)) args World.start).2.trace.take
        (computeThread (answered env args (x k)) args World.start).2.trace.length)) env (x k)
      (computeThread (answered env args (x k)) args World.start).2.trace.length := by
    refine ⟨hE, rfl, ⟨f, hf, rfl⟩, ?_, fun _ => hfail, execution_reach h k, ?_, ?_, fun _ => ⟨hu, hpr, ?_⟩⟩
    · intro p g hp hg
      by_cases ho : l.name = "overlay"
      · obtain ⟨p', g', a1, a2, -, a4, -⟩ := hsrc ho
        obtain ⟨cm', hc', hcar⟩ := hgot.carries
        rw [ho] at hc'
        cases hc'
        have h5 := hcar .inputMapPath (by decide)
        have h6 := (h5.1 p hp).symm.trans (h5.1 p' a1)
        cases h6
        rw [hg] at a2
        cases a2
        exact a4
      · have h5 : args.inputMapPath = some p := by
          obtain ⟨_, _, -, -, -, -, e⟩ := toInstArgs_fields e1
          rw [e]
          exact (holds_valueOf ha.once "input_map").1 p hp
        rw [hnoin (by rw [c1]; exact ho)] at h5
        cases h5
    · intro e he
      rw [e1] at he
      cases he
    · intro args' he
      rw [e1] at he
      cases he
      rfl
    · intro args' he
      rw [e1] at he
      cases he
      exact Nat.le_refl _
  obtain ⟨args', g1, g2, g3⟩ := C98_done env.codec l s f.table _ env (x k) _ K hm.good hm.usual
    (Spec.AllBlocks.mono hm.place fun b hb => hb.plain) hl (fun ho => by
      obtain ⟨p, g, -, -, -, -, a5, a6⟩ := hsrc ho
      exact ⟨a5, a6⟩) hK hK' hused
  refine ⟨k, _, _, args', by unfold Sys.exit; rw [hu], hpr, ?_, hused, g1, g2, g3⟩
  intro hy
  exact hans (c3.2 hy)

/-- There always is such an execution. -/
theorem C99_possible (env : Env) (l : CmdLine) : ∃ x act, Execution (runCmdLine env l.yes l.name l.map l.matches_) x act ∧
    Fair x act ∧ (∀ n, act n ≠ some .crash) ∧ ∀ n, act n ≠ some (.user false) := by
  have : ∃ as s, follow (runCmdLine env l.yes l.name l.map l.matches_) as = some s ∧ s.ui = .done ∧
      s.worker.isGone = true ∧ Smooth as := by
    unfold runCmdLine
    split
    · exact can_end (workerProg_ready _ _)
    · exact ⟨[], _, rfl, rfl, rfl, nofun⟩
  obtain ⟨as, s, h1, h2, h3, h4⟩ := this
  obtain ⟨x, act, e1, e2, e3⟩ := follow_fair h1 (finished_cannot h2 h3)
  refine ⟨x, act, e1, e2, fun n hn => ?_, fun n hn => ?_⟩ <;>
    (rw [e3] at hn; have := h4 _ (List.mem_of_getElem? hn); simp at this)

/-- However the program has been used on a map as Minetest writes it, and however these uses ended, the map can be
used again: its blocks are what `C99_total` expects. -/
theorem C100_kept (c : Codec) (ls : List (CmdLine × Table × Bool)) (f f' : DbFile) (K : Nat) (hm : MapOk c K f)
    (hl : ∀ x ∈ ls, LineOk x.1 ∧ (x.1.name = "overlay" → Source c K x.2.1 ∧ AllBlocks c x.2.1 InPlace))
    (hK : 4095 ≤ K) (hK' : K + ls.length ≤ 7281) (hc : MapColumns f'.cols) (h : UsedAll c ls f.table f'.table) :
    MapOk c (K + ls.length) f' := by
  obtain ⟨-, hg, hb, hp⟩ := hm
  obtain ⟨t', cols'⟩ := f'
  obtain ⟨t, cols⟩ := f
  simp only at h hg hb hp
  suffices hx : GoodTable t' ∧ AllBlocks c t' (Usual (K + ls.length)) ∧ AllBlocks c t' InPlace from ⟨hc, hx.1, hx.2.1, hx.2.2⟩
  clear hc
  induction h generalizing K with
  | nil => exact ⟨hg, hb, hp⟩
  | @cons l s said t t1 env sys n ls t' h1 _ ih =>
    rw [List.length_cons] at hK' ⊢
    obtain ⟨a1, a2⟩ := hl _ List.mem_cons_self
    have hl' : ∀ x ∈ ls, LineOk x.1 ∧
        (x.1.name = "overlay" → Source c (K + 1) x.2.1 ∧ AllBlocks c x.2.1 InPlace) := fun x hx =>
      have a := hl x (List.mem_cons_of_mem _ hx)
      ⟨a.1, fun e => ⟨source_mono (by omega) (a.2 e).1, (a.2 e).2⟩⟩
    rw [show K + (ls.length + 1) = K + 1 + ls.length by omega]
    rcases used_step a1 h1 with ⟨rfl, -⟩ | ⟨args, h2, h3, h4⟩
    · exact ih (K + 1) hl' (by omega) (by omega) hg (Spec.AllBlocks.mono hb fun b hx => usual_mono (by omega) hx) hp
    · have hs : args.command = "overlay" → Source c K s ∧ AllBlocks c s InPlace := fun e => a2 (h2.name ▸ e)
      obtain ⟨k, -⟩ := means_every hg hb (Spec.AllBlocks.mono hp fun b h => h.plain)
        (fun e => ⟨(hs e).1, Spec.AllBlocks.mono (hs e).2 fun b h => h.plain⟩) hK (by omega) h3 h4
      exact ih (K + 1) hl' (by omega) (by omega) k.good k.usual (place_every hg hb hp hs hK (by omega) h3 h4)

/-- However the program has been used before, and however these uses ended, the next one comes to its end. -/
theorem C100_next (env : Env) (ls : List (CmdLine × Table × Bool)) (l : CmdLine) (K : Nat) (f0 f : DbFile) (s : Table)
    (x : Nat → Sys) (act : Nat → Option Actor) (hm : MapOk env.codec K f0)
    (hls : ∀ x ∈ ls, LineOk x.1 ∧ (x.1.name = "overlay" → Source env.codec K x.2.1 ∧ AllBlocks env.codec x.2.1 InPlace))
    (hu : UsedAll env.codec ls f0.table f.table) (hcols : MapColumns f.cols)
    (hl : LineOk l) (hs : l.name ≠ "setparam2") (hr : NotRefused l) (hE : EnvOk env)
    (hfail : ∀ n, env.fail n = false) (hf : mapFile env l.map = some f) (hK : 4095 ≤ K) (hK' : K + ls.length ≤ 7280)
    (hsrc : l.name = "overlay" → ∃ p g, ("input_map", [p]) ∈ l.matches_ ∧ mapFile env p = some g ∧
      MapColumns g.cols ∧ g.table = s ∧ Source env.codec K s ∧ AllBlocks env.codec s PlainInvs)
    (h : Execution (runCmdLine env l.yes l.name l.map l.matches_) x act) (hx : Fair x act)
    (hcr : ∀ n, act n ≠ some .crash) (hno : ∀ n, act n ≠ some (.user false)) :
    ∃ k n t' args V, (x k).exit = some 0 ∧ (.info, .text "Done.") ∈ (x k).printed ∧
      Used env.codec l s true f.table t' env (x k) n ∧ Got l args ∧
      Applied env.codec ls (nodesOf env.codec f0.table, restsOf env.codec f0.table) V ∧
      nodesOf env.codec t' = meaning args (nodesOf env.codec s) V.1 ∧
      restsOf env.codec t' = restMeaning args (restsOf env.codec s) V.2 := by
  obtain ⟨hap, -⟩ := C98_uses env.codec ls f0.table f.table K hm.good hm.usual
    (Spec.AllBlocks.mono hm.place fun b h => h.plain)
    (fun x hx => ⟨(hls x hx).1, fun e => ⟨((hls x hx).2 e).1, Spec.AllBlocks.mono ((hls x hx).2 e).2 fun b h => h.plain⟩⟩)
    hK (by omega) hu
  have hm' := C100_kept env.codec ls f0 f K hm hls hK (by omega) hcols hu
  obtain ⟨k, n, t', args, g1, g2, -, g3, g4, g5, g6⟩ := C99_total env l (K + ls.length) f s x act hl hs hr hE hfail hf hm'
    (by omega) (by omega) (fun e => by
      obtain ⟨p, g, a1, a2, a3, a4, a5, a6⟩ := hsrc e
      exact ⟨p, g, a1, a2, a3, a4, source_mono (by omega) a5, a6⟩) h hx hcr hno
  exact ⟨k, n, t', args, _, g1, g2, g3, g4, hap, g5, g6⟩

/-! ## An example -/

/-- `mapeditr map fill ...`, with a question. -/
def askCmd : CmdLine := ⟨false, "fill", "map", fillLine⟩

def askCmdArgs : InstArgs := { fillLineArgs with doConfirmation := true }

theorem askCmd_args : toInstArgs false "fill" "map" fillLine = .ok askCmdArgs := by decide

theorem askCmd_ok : LineOk askCmd := ⟨fillCmd_ok.accepted, fillCmd_ok.words⟩

theorem askCmd_notRefused : NotRefused askCmd := by
  refine ⟨fillLine_ok _ (.inl rfl), fillLine_ok _ (.inr rfl), ?_, ?_⟩
  · show ¬ Malformed fillLine "offset"
    rw [malformed_iff (by decide)]
    rintro ⟨vs, h1, h2⟩
    cases h1
  · intro args ha
    have ha : toInstArgs false "fill" "map" fillLine = .ok args := ha
    rw [askCmd_args] at ha
    cases ha
    refine ⟨by rw [← verifyArgs_iff]; decide, ?_⟩
    unfold CommandRefuses
    simp [askCmdArgs, fillLineArgs, runArgs]

theorem toy_place : InPlace (stored (Toy.block 28)) :=
  ⟨toy_plain, metaInside_stored (toy_metaInside 28), toy_timersInside 28, toy_objectsNear 28⟩

/-- The hypotheses of `C99_total` are met by a map with a readable and an unreadable block. -/
example : ∃ x act f, LineOk askCmd ∧ NotRefused askCmd ∧ EnvOk (editEnv (toyMap (Toy.block 28))) ∧
    (∀ n, (editEnv (toyMap (Toy.block 28))).fail n = false) ∧ mapFile (editEnv (toyMap (Toy.block 28))) askCmd.map = some f ∧
    MapOk (Toy.codec id) 4095 f ∧
    Execution (runCmdLine (editEnv (toyMap (Toy.block 28))) askCmd.yes askCmd.name askCmd.map askCmd.matches_) x act ∧
    Fair x act ∧ (∀ n, act n ≠ some .crash) ∧ (∀ n, act n ≠ some (.user false)) ∧
    ∃ n, (x n).exit = some 0 ∧ (.info, .text "Done.") ∈ (x n).printed ∧ (x n).answers = [true] := by
  have hw := Toy.block_wf 28 (by omega)
  obtain ⟨x, act, e1, e2, e3, e4⟩ := C99_possible (editEnv (toyMap (Toy.block 28))) askCmd
  have hm : MapOk (Toy.codec id) 4095 ⟨toyMap (Toy.block 28), [⟨"pos", "INT", 1⟩, ⟨"data", "BLOB", 0⟩]⟩ :=
    ⟨⟨_, rfl⟩, toyMap_good _, toyMap_all hw toy_usual, toyMap_all hw toy_place⟩
  refine ⟨x, act, _, askCmd_ok, askCmd_notRefused, editEnv_ok _, fun _ => rfl, editEnv_file _, hm, e1, e2, e3, e4, ?_⟩
  obtain ⟨k, n, t', args, g1, g2, g3, -⟩ := C99_total (editEnv (toyMap (Toy.block 28))) askCmd 4095 _ [] x act askCmd_ok
    (by decide) askCmd_notRefused (editEnv_ok _) (fun _ => rfl) (editEnv_file _) hm (by omega) (by omega)
    (fun h => absurd h (by decide)) e1 e2 e3 e4
  exact ⟨k, g1, g2, g3 rfl⟩

/-- The hypotheses of `C100_next` are met after `fillCmd` has been used twice, once killed. -/
example : ∃ t x act f, UsedAll (Toy.codec id) [(fillCmd, [], true), (fillCmd, [], false)] (toyMap (Toy.block 28)) t ∧
    mapFile (editEnv t) askCmd.map = some f ∧ f.table = t ∧
    Execution (runCmdLine (editEnv t) askCmd.yes askCmd.name askCmd.map askCmd.matches_) x act ∧
    Fair x act ∧ (∀ n, act n ≠ some .crash) ∧ (∀ n, act n ≠ some (.user false)) ∧
    ∃ n, (x n).exit = some 0 ∧ (.info, .text "Done.") ∈ (x n).printed := by
  have hw := Toy.block_wf 28 (by omega)
  obtain ⟨t1, evs, hC⟩ := C32_fill_completes (editEnv (toyMap (Toy.block 28))) fillLineArgs _ _ "default:stone"
    (editEnv_ok _) (fun _ => rfl) (editEnv_file _) ⟨_, rfl⟩ (toyMap_good _) (by rw [← verifyArgs_iff]; decide) rfl rfl
    (by decide) rfl (by decide) rfl (by intro h; cases h)
    (toyMap_all hw ⟨named_covered (toy_named 28), fun e he => Nat.le_trans (toy_small 28 e he) (by decide)⟩)
  obtain ⟨s1, n1, u1⟩ := fillCmd_done hC
  obtain ⟨s2, n2, u2, -⟩ := fillCmd_killed t1
  obtain ⟨x, act, e1, e2, e3, e4⟩ := C99_possible (editEnv t1) askCmd
  have hm : MapOk (Toy.codec id) 4095 ⟨toyMap (Toy.block 28), [⟨"pos", "INT", 1⟩, ⟨"data", "BLOB", 0⟩]⟩ :=
    ⟨⟨_, rfl⟩, toyMap_good _, toyMap_all hw toy_usual, toyMap_all hw toy_place⟩
  have hu : UsedAll (Toy.codec id) [(fillCmd, [], true), (fillCmd, [], false)] (toyMap (Toy.block 28)) t1 :=
    .cons u1 (.cons u2 .nil)
  refine ⟨t1, x, act, _, hu, editEnv_file _, rfl, e1, e2, e3, e4, ?_⟩
  obtain ⟨k, n, t', args, V, g1, g2, -⟩ := C100_next (editEnv t1) _ askCmd 4095 _
    ⟨t1, [⟨"pos", "INT", 1⟩, ⟨"data", "BLOB", 0⟩]⟩ [] x act hm (by
      intro y hy
      simp only [List.mem_cons, List.not_mem_nil, or_false] at hy
      rcases hy with rfl | rfl <;> exact ⟨fillCmd_ok, fun h => absurd h (by decide)⟩) hu ⟨_, rfl⟩ askCmd_ok
    (by decide) askCmd_notRefused (editEnv_ok _) (fun _ => rfl) (editEnv_file _) (by omega)
    (by simp only [List.length_cons, List.length_nil]; omega)
    (fun h => absurd h (by decide)) e1 e2 e3 e4
  exact ⟨k, g1, g2⟩

end MapEditr
