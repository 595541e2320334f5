import Verif.Proof.BuildThreads
import Verif.Props.CrashElse
import Verif.Props.Clone
import Verif.Props.Overlay
/-!
# Property C108: debug and release builds do the same unless an integer overflows
-/

namespace MapEditr
open Spec

/-- The worker of a debug build does what that of a release build does, to the same state, unless it panics because
an integer overflowed.  Then all statements it has executed and all messages it has sent are the first that the
release build executes and sends.  Nothing is assumed about the map, the arguments or the database. -/
theorem C108_worker (env : Env) (args : InstArgs) :
    SameUntilOverflow (worker (built .debug env) args) (worker (built .release env) args) :=
  (pair_worker args).same

/-- The same with machine integers throughout: coordinates, indices, keys, counters and totals. -/
theorem C108_machine (env : Env) (args : InstArgs) :
    SameUntilOverflow (Checked.worker (built .debug env) args) (Checked.worker (built .release env) args) :=
  (Checked.pair_worker args).same

/-- Both threads together, whatever the order in which they run and whatever the user does: every state of the debug
build that can be reached is, apart from what its worker still has to do, one that the release build can reach,
unless the worker has panicked before. -/
theorem C108_program (env : Env) (yes : Bool) (cmd map : String) (m : Matches) (s : Sys)
    (h : Reach (Checked.runCmdLine (built .debug env) yes cmd map m) s) :
    (∃ s', Reach (Checked.runCmdLine (built .release env) yes cmd map m) s' ∧ s = { s' with worker := s.worker } ∧
      ((∃ p p', s.worker = .run p ∧ s'.worker = .run p') ∨ s.worker = s'.worker)) ∨
    ∃ s1, Reach (Checked.runCmdLine (built .debug env) yes cmd map m) s1 ∧ s1.worker = .run .panic ∧ Reach s1 s := by
  have h0 : CutSys (Checked.runCmdLine (built .debug env) yes cmd map m)
      (Checked.runCmdLine (built .release env) yes cmd map m) := by
    unfold Checked.runCmdLine
    split
    · exact ⟨.run (Checked.cut_workerProg env _), rfl⟩
    · exact ⟨cut_same _, rfl⟩
  refine (cut_reach h0 h).imp ?_ fun h => h
  rintro ⟨s', h1, h2, h3⟩
  refine ⟨s', h1, by rw [h3], ?_⟩
  generalize s.worker = v at h2
  generalize s'.worker = v' at h2
  cases h2 with
  | run => exact .inl ⟨_, _, rfl, rfl⟩
  | closing | gone => exact .inr rfl

/-- A run that ends normally in a debug build ends normally in a release build, with the same map and the same
messages. -/
theorem C108_completes (env : Env) (args : InstArgs) (t t' : Table) (evs : List Event)
    (h : Completes (built .debug env) args t t' evs) : Completes (built .release env) args t t' evs := by
  obtain ⟨f, w, m, h1, h2, h3, h4⟩ := h
  refine ⟨f, w, m, h1, h2, ?_, h4⟩
  rcases (pair_computeThread (env := env) args).same World.start with e | ⟨⟨t, -, e⟩, -⟩
  · rw [← e]
    exact h3
  · rw [h3] at e
    cases e

/-- If a debug build does not crash, the release build ends in the same state and with the same result. -/
theorem C108_no_crash (env : Env) (args : InstArgs) (h : ¬ Crashes (built .debug env) args) :
    computeThread (built .debug env) args World.start = computeThread (built .release env) args World.start := by
  rcases (pair_computeThread (env := env) args).same World.start with e | ⟨⟨t, -, e⟩, -⟩
  · exact e
  · exact absurd ⟨_, _, Prod.ext e rfl⟩ h

/-- Whatever crashes a release build crashes a debug build. -/
theorem C108_crash (env : Env) (args : InstArgs) (h : Crashes (built .release env) args) :
    Crashes (built .debug env) args := by
  rcases (pair_computeThread (env := env) args).same World.start with e | ⟨⟨t, -, e⟩, -⟩
  · obtain ⟨x, w, h⟩ := h
    exact ⟨x, w, by rw [e, h]⟩
  · exact ⟨_, _, Prod.ext e rfl⟩

/-- So what is known of debug builds holds for both as long as the debug build does not crash. -/
theorem debug_of {env : Env} {args : InstArgs} {t t' : Table} {evs : List Event} (hno : ¬ Crashes (built .debug env) args)
    (h : Completes env args t t' evs) : Completes (built .debug env) args t t' evs := by
  obtain ⟨f, w, m, h1, h2, h3, h4⟩ := h
  refine ⟨f, w, m, h1, h2, ?_, h4⟩
  cases hb : env.build with
  | debug =>
    have : built .debug env = env := by unfold built; rw [← hb]
    rw [this]
    exact h3
  | release =>
    have : built .release env = env := by unfold built; rw [← hb]
    rw [C108_no_crash env args hno, this]
    exact h3

theorem room_mild {c : Codec} {t : Table} (h : AllBlocks c t MetaRoom) : AllBlocks c t (Mild .debug) :=
  fun k d b h1 h2 => ⟨h k d b h1 h2, nofun⟩

/-- `C47_clone_partial` without bounds on IDs, for both builds, if the debug build does not crash.
`C107_copy_crash_iff_partial` says exactly when it does. -/
theorem C47_clone_builds_partial (env : Env) (args : InstArgs) (t t' : Table) (evs : List Event) (a : Area)
    (o : Vec3) (hE : EnvOk env) (hwork : DbWorks (built .debug env) args) (hg : GoodTable t)
    (hc : args.command = "clone") (harea : args.area = some a) (ha : a.isValid = true)
    (hoff : args.offset = some o) (hb : AllBlocks env.codec t MetaRoom) (hno : ¬ Crashes (built .debug env) args)
    (h : Completes env args t t' evs) :
    Copied env.codec t t t' o (fun p => InBox a.min a.max (unshift p o)) fun q => Within 1937 (blockOf q) :=
  C47_clone_partial (built .debug env) args t t' evs a o ⟨hE.codec, hE.full, hE.ord⟩ hwork hg hc harea ha hoff
    (room_mild hb) (debug_of hno h)

/-- `C50_overlay_partial` likewise. -/
theorem C50_overlay_builds_partial (env : Env) (args : InstArgs) (t t' : Table) (evs : List Event) (p : String)
    (g : DbFile) (a : Area) (hE : EnvOk env) (hwork : DbWorks (built .debug env) args) (hg : GoodTable t)
    (hgs : GoodTable g.table) (hc : args.command = "overlay") (hp : args.inputMapPath = some p)
    (hgf : mapFile env p = some g) (harea : args.area = some a) (ha : a.isValid = true)
    (hoff : args.offset = none ∨ args.offset = some ⟨0, 0, 0⟩) (hb : AllBlocks env.codec t MetaRoom)
    (hbs : AllBlocks env.codec g.table MetaRoom) (hno : ¬ Crashes (built .debug env) args)
    (h : Completes env args t t' evs) :
    Overlaid env.codec g.table t t' (some a) args.invert fun _ => True :=
  C50_overlay_partial (built .debug env) args t t' evs p g a ⟨hE.codec, hE.full, hE.ord⟩ hwork hg hgs hc hp hgf harea
    ha hoff (room_mild hb) (room_mild hbs) (debug_of hno h)

/-- `C51_overlay_offset_partial` likewise. -/
theorem C51_overlay_builds_partial (env : Env) (args : InstArgs) (t t' : Table) (evs : List Event) (p : String)
    (g : DbFile) (o : Vec3) (hE : EnvOk env) (hwork : DbWorks (built .debug env) args) (hg : GoodTable t)
    (hgs : GoodTable g.table) (hc : args.command = "overlay") (hp : args.inputMapPath = some p)
    (hgf : mapFile env p = some g) (hv : ∀ a, args.area = some a → a.isValid = true)
    (hoff : args.offset = some o) (hz : o ≠ ⟨0, 0, 0⟩) (hb : AllBlocks env.codec t MetaRoom)
    (hbs : AllBlocks env.codec g.table MetaRoom) (hno : ¬ Crashes (built .debug env) args)
    (h : Completes env args t t' evs) :
    Copied env.codec g.table t t' o (fun p => Selected args.area false (unshift p o))
      fun q => Within 1937 (blockOf q) :=
  C51_overlay_offset_partial (built .debug env) args t t' evs p g o ⟨hE.codec, hE.full, hE.ord⟩ hwork hg hgs hc hp hgf
    hv hoff hz (room_mild hb) (room_mild hbs) (debug_of hno h)

/-! ## Cases -/

theorem overflow_of {env : Env} {args : InstArgs} {t t' : Table} {evs : List Event}
    (hc : Crashes (built .debug env) args) (h : Completes (built .release env) args t t' evs) :
    Overflow (worker (built .debug env) args World.start).1 := by
  obtain ⟨e, w, he⟩ := hc
  obtain ⟨f, w', m, -, -, h3, -⟩ := h
  rcases (pair_computeThread (env := env) args).same World.start with e2 | ⟨⟨x, hx, h⟩, -⟩
  · rw [he, h3] at e2
    cases e2
  · refine ⟨x, hx, ?_⟩
    rw [he] at h
    simp only at h
    show (Run.bind _ _ _).1 = _
    unfold Run.bind
    rw [he, h]

/-- The builds do differ: with a name for ID 65535 in a block, `replacenodes` on one node overflows in a debug build;
the release build ends normally. -/
theorem C108_differ : ∃ (env : Env) (args : InstArgs), (∃ t t' evs, Completes (built .release env) args t t' evs) ∧
    Overflow (worker (built .debug env) args World.start).1 := by
  have hwf : NimapWf [(0, ascii "air"), (1, ascii "a"), (65535, ascii "b")] :=
    ⟨by unfold SMap.Sorted; decide, by unfold NamesFit NameFits; decide⟩
  obtain ⟨t', evs, d', h1, -⟩ := oneArgs_run (bd := .release) (mx := 65535) (newId := 0)
    hwf ⟨by unfold SMap.Sorted; decide, by unfold NamesFit NameFits; decide⟩ (by decide) (by decide) (by decide) (by decide)
    (by decide) (by decide)
  refine ⟨editEnv (toyMap (namedBlock [(0, ascii "air"), (1, ascii "a"), (65535, ascii "b")])), oneArgs,
    ⟨_, t', evs, h1⟩, ?_⟩
  have S := allSet_toy .debug (namedBlock [(0, ascii "air"), (1, ascii "a"), (65535, ascii "b")]) (args := oneArgs) rfl
    (by rw [← verifyArgs_iff]; decide) (by unfold CommandRefuses; simp [oneArgs, runArgs]) (by intro a h; cases h; decide)
    ⟨by decide, ⟨by decide, by decide, rfl⟩, by decide, by decide, by decide, by decide, by decide, by decide⟩ rfl
    (by intro n h; cases h; decide) nofun
  have hcr : Crashes _ _ := (C107_crash_iff_partial _ _ _ S).2
    ⟨⟨0, 0, 0⟩, _, _, origin_valid, List.mem_cons_self, Toy.data_rep (namedBlock_wf hwf),
      .inr (.inr (.inr (.inr (.inr ⟨rfl, rfl, _, _, rfl, rfl, ⟨(0, ascii "air"), List.mem_cons_self, by decide⟩,
        ⟨⟨1, 0, 0⟩, by unfold InBlock; decide, by decide⟩,
        .inl ⟨show ¬ ∃ e ∈ [(0, ascii "air"), (1, ascii "a"), (65535, ascii "b")], e.2 = toBytes "default:stone" by decide,
          ⟨⟨0, 0, 0⟩, by unfold InBlock; decide, by decide⟩, (65535, ascii "b"),
          show (65535, ascii "b") ∈ [(0, ascii "air"), (1, ascii "a"), (65535, ascii "b")] by decide, rfl⟩⟩))))⟩
  exact overflow_of hcr h1

/-- Cloning a node works in a release build as it should, although the block has a name for ID 20000. -/
example : ∃ t' evs, Completes (toyEnv .release (toyMap (namedBlock [(0, ascii "air"), (1, ascii "a"), (20000, ascii "b")])))
      (cloneArgs 0 1) (toyMap (namedBlock [(0, ascii "air"), (1, ascii "a"), (20000, ascii "b")])) t' evs ∧
    Copied (Toy.codec id) (toyMap (namedBlock [(0, ascii "air"), (1, ascii "a"), (20000, ascii "b")]))
      (toyMap (namedBlock [(0, ascii "air"), (1, ascii "a"), (20000, ascii "b")])) t' ⟨1, 0, 0⟩
      (fun p => InBox ⟨0, 0, 0⟩ ⟨0, 0, 0⟩ (unshift p ⟨1, 0, 0⟩)) fun q => Within 1937 (blockOf q) := by
  have hwf : NimapWf [(0, ascii "air"), (1, ascii "a"), (20000, ascii "b")] :=
    ⟨by unfold SMap.Sorted; decide, by unfold NamesFit NameFits; decide⟩
  obtain ⟨t', evs, h⟩ := clone_wide
  have hr := C108_completes (editEnv _) _ _ _ _ h
  exact ⟨t', evs, hr, C47_clone_builds_partial (toyEnv .release _) _ _ t' evs ⟨⟨0, 0, 0⟩, ⟨0, 0, 0⟩⟩ ⟨1, 0, 0⟩
    (toyEnv_ok _ _) (fun _ _ => rfl) (toyMap_good _) rfl rfl (by decide) rfl
    (toyMap_all (namedBlock_wf hwf) (toy_tame 28).room) (crashes_not h) hr⟩

/-- Overlaying works in both builds. -/
example (bd : Build) (inv : Bool) (t' : Table) (evs : List Event)
    (h : Completes { twoEnv (oneMap (Toy.block 28)) (oneMap (otherBlock 0)) with build := bd } (overlayArgs inv)
      (oneMap (Toy.block 28)) t' evs) :
    Overlaid (Toy.codec id) (oneMap (otherBlock 0)) (oneMap (Toy.block 28)) t' (overlayArgs inv).area inv
      fun _ => True :=
  C50_overlay_builds_partial { twoEnv (oneMap (Toy.block 28)) (oneMap (otherBlock 0)) with build := bd } (overlayArgs inv) _
    t' evs "other" _ _ ⟨Toy.lawful id, Toy.fullWrites, fun _ => Toy.ord_lawful⟩ (fun _ _ => rfl) (oneMap_good _)
    (oneMap_good _) rfl rfl rfl rfl (by decide) (.inl rfl)
    (oneMap_all (Toy.block_wf 28 (by omega)) (toy_tame 28).room)
    (oneMap_all (otherBlock_wf (by decide)) (otherBlock_tame 0).room)
    (C107_copy_room_partial _ _ _ _ (overlay_set .debug inv _ _)
      (oneMap_all (Toy.block_wf 28 (by omega)) ⟨(toy_tame 28).covered, (toy_tame 28).small⟩)
      (oneMap_all (otherBlock_wf (by decide)) ⟨(otherBlock_tame 0).covered, (otherBlock_tame 0).small⟩)) h

/-- Both threads of the two builds start alike. -/
example (env : Env) (map : String) : ∃ s, Reach (Checked.runCmdLine (built .debug env) true "vacuum" map []) s :=
  ⟨_, .start⟩

end MapEditr
