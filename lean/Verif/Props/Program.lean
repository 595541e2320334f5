import Verif.Proof.Program
/-!
# Property C98: the whole program as a function of the command lines and the contents of the map
-/

namespace MapEditr
open Spec

theorem vacuum_means {args : InstArgs} (h : args.command = "vacuum") (S W : Nodes) (S' W' : Rests) :
    meaning args S W = W ∧ restMeaning args S' W' = W' := by
  constructor
  · funext p
    unfold meaning
    rw [h]
    show (W p).map (edit args p) = W p
    have : ∀ v, edit args p v = v := by
      intro v
      unfold edit
      rw [h]
      split <;> rfl
    cases W p with
    | none => rfl
    | some v => rw [Option.map_some, this]
  · funext bp
    unfold restMeaning
    rw [h]
    rfl

/-- The program is used any number of times, with command lines that `clap` accepts, and each time it ends in any way:
refused, declined, failed, in a panic, killed after any number of statements, with any interleaving of its threads.
Then the contents of the map are what the command lines mean, of those uses that happened, which include all that
ended with "Done."; there is nothing in between. -/
theorem C98_uses (c : Codec) (ls : List (CmdLine × Table × Bool)) (t t' : Table) (K : Nat) (hg : GoodTable t)
    (hb : AllBlocks c t (Usual K)) (hp : AllBlocks c t PlainInvs)
    (hl : ∀ x ∈ ls, LineOk x.1 ∧ (x.1.name = "overlay" → Source c K x.2.1 ∧ AllBlocks c x.2.1 PlainInvs))
    (hK : 4095 ≤ K) (hK' : K + ls.length ≤ 7281) (h : UsedAll c ls t t') :
    Applied c ls (nodesOf c t, restsOf c t) (nodesOf c t', restsOf c t') ∧
    GoodTable t' ∧ AllBlocks c t' (Usual (K + ls.length)) ∧ AllBlocks c t' PlainInvs := by
  induction h generalizing K with
  | nil => exact ⟨.nil, hg, hb, hp⟩
  | @cons l s said t t1 env sys n ls t' h1 _ ih =>
    rw [List.length_cons] at hK' ⊢
    obtain ⟨a1, a2⟩ := hl _ List.mem_cons_self
    have hl' : ∀ x ∈ ls, LineOk x.1 ∧
        (x.1.name = "overlay" → Source c (K + 1) x.2.1 ∧ AllBlocks c x.2.1 PlainInvs) := fun x hx =>
      have a := hl x (List.mem_cons_of_mem _ hx)
      ⟨a.1, fun e => ⟨source_mono (by omega) (a.2 e).1, (a.2 e).2⟩⟩
    rw [show K + (ls.length + 1) = K + 1 + ls.length by omega]
    rcases used_step a1 h1 with ⟨rfl, h2⟩ | ⟨args, h2, h3, h4⟩
    · obtain ⟨g1, g2⟩ := ih (K + 1) hg (Spec.AllBlocks.mono hb fun b hx => usual_mono (by omega) hx) hp hl' (by omega) (by omega)
      refine ⟨?_, g2⟩
      cases said with
      | false => exact .skip g1
      | true =>
        obtain ⟨args, h3, h4⟩ := h2 rfl
        refine .take h3 ?_
        rw [(vacuum_means h4 _ _ (fun _ => none) (fun _ => none)).1, (vacuum_means h4 (fun _ => none) (fun _ => none) _ _).2]
        exact g1
    · have hs : args.command = "overlay" → Source c K s ∧ AllBlocks c s PlainInvs := fun e => a2 (h2.name ▸ e)
      obtain ⟨k, kp⟩ := means_every hg hb hp hs hK (by omega) h3 h4
      obtain ⟨g1, g2⟩ := ih (K + 1) k.good k.usual kp hl' (by omega) (by omega)
      refine ⟨.take h2 ?_, g2⟩
      rw [k.nodes, rest_every hg hb (fun _ => hp) (fun e => (hs e).1) hK (by omega) h3 h4] at g1
      exact g1

/-- One use of the program, however it ends: the map file is as it was, or its contents are what the command line
means. -/
theorem C98_once (c : Codec) (l : CmdLine) (s t t' : Table) (said : Bool) (env : Env) (sys : Sys) (n K : Nat)
    (hg : GoodTable t) (hb : AllBlocks c t (Usual K)) (hp : AllBlocks c t PlainInvs) (hl : LineOk l)
    (hs : l.name = "overlay" → Source c K s ∧ AllBlocks c s PlainInvs) (hK : 4095 ≤ K) (hK' : K ≤ 7280)
    (h : Used c l s said t t' env sys n) :
    t' = t ∨ ∃ args, Got l args ∧ nodesOf c t' = meaning args (nodesOf c s) (nodesOf c t) ∧
      restsOf c t' = restMeaning args (restsOf c s) (restsOf c t) := by
  rcases used_step hl h with ⟨h1, -⟩ | ⟨args, h2, h3, h4⟩
  · exact .inl h1
  · have hs' : args.command = "overlay" → Source c K s ∧ AllBlocks c s PlainInvs := fun e => hs (h2.name ▸ e)
    exact .inr ⟨args, h2, C96_run c args s t t' K hg hb hp hs' hK hK' h3 h4,
      C97_run c args s t t' K hg hb (fun _ => hp) (fun e => (hs' e).1) hK hK' h3 h4⟩

theorem applied_nil {c : Codec} {V V' : Nodes × Rests} (h : Applied c [] V V') : V = V' := by
  cases h
  rfl

/-- If the program said "Done.", the contents are what the command line means. -/
theorem C98_done (c : Codec) (l : CmdLine) (s t t' : Table) (env : Env) (sys : Sys) (n K : Nat)
    (hg : GoodTable t) (hb : AllBlocks c t (Usual K)) (hp : AllBlocks c t PlainInvs) (hl : LineOk l)
    (hs : l.name = "overlay" → Source c K s ∧ AllBlocks c s PlainInvs) (hK : 4095 ≤ K) (hK' : K ≤ 7280)
    (h : Used c l s true t t' env sys n) :
    ∃ args, Got l args ∧ nodesOf c t' = meaning args (nodesOf c s) (nodesOf c t) ∧
      restsOf c t' = restMeaning args (restsOf c s) (restsOf c t) := by
  obtain ⟨h1, -⟩ := C98_uses c [(l, s, true)] t t' K hg hb hp (by
    intro x hx
    rw [List.mem_singleton] at hx
    subst hx
    exact ⟨hl, hs⟩) hK (by simp only [List.length_cons, List.length_nil]; omega) (.cons h .nil)
  generalize hV : (nodesOf c t', restsOf c t') = V' at h1
  cases h1 with
  | take h2 h3 =>
    have h4 := applied_nil h3
    rw [← hV] at h4
    exact ⟨_, h2, (congrArg Prod.fst h4).symm, (congrArg Prod.snd h4).symm⟩

/-! ## An example

`fillLine` is used and says "Done."; then it is used again, and killed before the last statement. -/

/-- `mapeditr map -y fill ...`. -/
def fillCmd : CmdLine := ⟨true, "fill", "map", fillLine⟩

theorem fillCmd_ok : LineOk fillCmd := by
  refine ⟨⟨_, rfl, fillLine_accepted⟩, ?_⟩
  have h : ∀ e ∈ fillLine, ∀ v ∈ e.2, (toBytes v).length < 65536 ∧ ∀ i, i < 14 → ¬ endWord <+: (toBytes v).drop i := by
    decide
  have h' : ∀ e ∈ fillLine, ∀ v ∈ e.2, (toBytes v).length < 14 := by decide
  intro e he v hv
  refine ⟨(h e he v hv).1, ?_⟩
  rintro ⟨a, b, hab⟩
  have hlen := h' e he v hv
  refine (h e he v hv).2 a.length ?_ ⟨b, ?_⟩
  · rw [← hab] at hlen
    simp only [List.length_append] at hlen
    omega
  · rw [← hab, List.append_assoc, List.drop_left]

theorem fillCmd_run (t : Table) : runCmdLine (editEnv t) true "fill" "map" fillLine =
    Sys.init (workerProg (editEnv t) fillLineArgs) := by
  unfold runCmdLine
  rw [fillLine_args]

theorem fillCmd_args {args : InstArgs}
    (h : toInstArgs fillCmd.yes fillCmd.name fillCmd.map fillCmd.matches_ = .ok args) : args = fillLineArgs := by
  have h : toInstArgs true "fill" "map" fillLine = .ok args := h
  rw [fillLine_args] at h
  cases h
  rfl

theorem fillCmd_refused {e : String} {P : Prop}
    (h : toInstArgs fillCmd.yes fillCmd.name fillCmd.map fillCmd.matches_ = .error e) : P := by
  have h : toInstArgs true "fill" "map" fillLine = .error e := h
  rw [fillLine_args] at h
  cases h

/-- A use that comes to its end. -/
theorem fillCmd_done {t t1 : Table} {evs : List Event} (hC : Completes (editEnv t) fillLineArgs t t1 evs) :
    ∃ sys n, Used (Toy.codec id) fillCmd [] true t t1 (editEnv t) sys n := by
  obtain ⟨as, s, h1, h2, -⟩ := can_end (workerProg_ready (editEnv t) fillLineArgs)
  have hR : Reach (Sys.init (workerProg (editEnv t) fillLineArgs)) s := follow_reach .start h1
  have hdisk := (C55_done_partial _ _ _ _ _ (by decide) hC).1
  refine ⟨s, (computeThread (editEnv t) fillLineArgs World.start).2.trace.length, editEnv_ok _, rfl,
    ⟨_, editEnv_file _, rfl⟩, ?_, fun _ _ => rfl, ?_, fun _ h => fillCmd_refused h, ?_, fun _ => ⟨h2, ?_, ?_⟩⟩
  · intro p g hp
    exact absurd hp (by simp [fillCmd, fillLine])
  · show Reach (runCmdLine _ true "fill" "map" fillLine) s
    rw [fillCmd_run]
    exact hR
  · intro args ha
    rw [fillCmd_args ha, ← hdisk]
    exact congrArg _ (List.take_length).symm
  · rw [C60_printed _ _ s hR h2, mem_logsOf]
    obtain ⟨f', w, mm, hh⟩ := hC
    rw [show fillLineArgs.doConfirmation = false from rfl]
    simp only [Bool.false_eq_true, if_false]
    rw [worker_events, hh.2.2.1, List.append_nil, hh.2.2.2.1]
    exact hh.2.2.2.2.1
  · intro args ha
    rw [fillCmd_args ha]
    exact Nat.le_refl _

/-- A use in which the process is killed before the last statement. -/
theorem fillCmd_killed (t : Table) : ∃ sys n, Used (Toy.codec id) fillCmd [] false t t (editEnv t) sys n ∧
    n = (computeThread (editEnv t) fillLineArgs World.start).2.trace.length - 1 := by
  refine ⟨_, _, ⟨editEnv_ok _, rfl, ⟨_, editEnv_file _, rfl⟩, ?_, fun _ _ => rfl, .start,
    fun _ h => fillCmd_refused h, ?_, fun h => by cases h⟩, rfl⟩
  · intro p g hp
    exact absurd hp (by simp [fillCmd, fillLine])
  · intro args ha
    rw [fillCmd_args ha]
    show t = onDisk t ((computeThread (editEnv t) fillLineArgs World.start).2.trace.take
      ((computeThread (editEnv t) fillLineArgs World.start).2.trace.length - 1))
    have hf : mapFile (editEnv t) fillLineArgs.mapPath = some ⟨t, [⟨"pos", "INT", 1⟩, ⟨"data", "BLOB", 0⟩]⟩ := rfl
    rcases C55_all_or_nothing_partial (editEnv t) fillLineArgs _ hf
      (by rintro (h | h) <;> exact absurd h (by decide)) with h1 | ⟨t1, -, -, h1⟩
    · exact (h1 _).symm
    · by_cases hl : (computeThread (editEnv t) fillLineArgs World.start).2.trace.length = 0
      · rw [hl]
        rfl
      · exact (h1 _ (by omega)).symm

example : ∃ t', UsedAll (Toy.codec id) [(fillCmd, [], true), (fillCmd, [], false)] (toyMap (Toy.block 28)) t' ∧
    GoodTable (toyMap (Toy.block 28)) ∧ AllBlocks (Toy.codec id) (toyMap (Toy.block 28)) (Usual 4095) ∧
    AllBlocks (Toy.codec id) (toyMap (Toy.block 28)) PlainInvs ∧ LineOk fillCmd := by
  have hw := Toy.block_wf 28 (by omega)
  obtain ⟨t1, evs, hC⟩ := C32_fill_completes (editEnv (toyMap (Toy.block 28))) fillLineArgs _ _ "default:stone"
    (editEnv_ok _) (fun _ => rfl) (editEnv_file _) ⟨_, rfl⟩ (toyMap_good _) (by rw [← verifyArgs_iff]; decide) rfl rfl
    (by decide) rfl (by decide) rfl (by intro h; cases h)
    (toyMap_all hw ⟨named_covered (toy_named 28), fun e he => Nat.le_trans (toy_small 28 e he) (by decide)⟩)
  obtain ⟨s1, n1, u1⟩ := fillCmd_done hC
  obtain ⟨s2, n2, u2, -⟩ := fillCmd_killed t1
  exact ⟨t1, .cons u1 (.cons u2 .nil), toyMap_good _, toyMap_all hw toy_usual, toyMap_all hw toy_plain, fillCmd_ok⟩

end MapEditr
