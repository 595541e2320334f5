import Verif.Model.Main
import Verif.Props.CmdLine
import Verif.Props.Threads
import Verif.Props.Report
import Verif.Props.Fill
/-!
# C84, C85, C86: the program from the command line to its exit status
-/

namespace MapEditr
open Spec

/-! ## C85: values that cannot be parsed -/

theorem argToPos_iff (vs : List String) (v : Vec3) : argToPos vs = some v ↔
    ∃ a b c, vs = [a, b, c] ∧ Pos a b c v := by
  rw [C68_positions]
  unfold Pos I32
  constructor
  · rintro ⟨a, b, c, h1, h2, h3, h4, h5, h6, h7⟩
    exact ⟨a, b, c, h1, ⟨h2, h5⟩, ⟨h3, h6⟩, ⟨h4, h7⟩⟩
  · rintro ⟨a, b, c, h1, ⟨h2, h5⟩, ⟨h3, h6⟩, ⟨h4, h7⟩⟩
    exact ⟨a, b, c, h1, h2, h3, h4, h5, h6, h7⟩

theorem argToPos_none (vs : List String) : argToPos vs = none ↔ ¬ ∃ a b c v, vs = [a, b, c] ∧ Pos a b c v := by
  constructor
  · rintro h ⟨a, b, c, v, h'⟩
    rw [(argToPos_iff vs v).2 ⟨a, b, c, h'⟩] at h
    cases h
  · intro h
    cases h1 : argToPos vs with
    | none => rfl
    | some v =>
      obtain ⟨a, b, c, h2⟩ := (argToPos_iff vs v).1 h1
      exact absurd ⟨a, b, c, v, h2⟩ h

theorem optArg_pos {m : Matches} (hn : (m.map (·.1)).Nodup) (e name : String) :
    (Malformed m name ∧ optArg e (m.valuesOf name) argToPos = .error e) ∨
    (¬ Malformed m name ∧ ∃ r, optArg e (m.valuesOf name) argToPos = .ok r) := by
  unfold Malformed
  cases hv : m.valuesOf name with
  | none =>
    right
    refine ⟨?_, none, rfl⟩
    rintro ⟨vs, h, -⟩
    exact (valuesOf_none hn).1 hv vs h
  | some vs =>
    have hm := (valuesOf_iff hn).1 hv
    unfold optArg
    cases ha : argToPos vs with
    | none => exact .inl ⟨⟨vs, hm, (argToPos_none vs).1 ha⟩, by simp [ha]⟩
    | some v =>
      right
      refine ⟨?_, some v, by simp [ha]⟩
      rintro ⟨vs', h, h'⟩
      have : vs' = vs := by
        have := (valuesOf_iff hn).2 h
        rw [hv] at this
        cases this; rfl
      subst this
      rw [(argToPos_none vs').2 h'] at ha
      cases ha

/-- No accepted command line has the name under which `param2` is looked up (see C38). -/
theorem no_param2_val {name : String} {c : Command} {m : Matches} (hc : command? name = some c)
    (ha : Accepted c.args m) : m.valueOf "param2_val" = none := by
  unfold Matches.valueOf
  rw [(valuesOf_none ha.once).2]
  · rfl
  · intro vs h
    have hall : ∀ n ∈ commands, ∀ d ∈ n.2.args.flatMap argDefs, d.name ≠ "param2_val" := by decide
    unfold command? at hc
    rw [Option.map_eq_some_iff] at hc
    obtain ⟨e, he, rfl⟩ := hc
    rcases ha.known _ h with h1 | ⟨d, hd, h1, -⟩
    · simp at h1
    · exact hall _ (List.mem_of_find?_eq_some he) d hd h1

theorem refused_stays {e : String} {s : Sys}
    (h : Reach ⟨.gone, .done, [], [], [], [(.error, .text e)], [], false⟩ s) :
    s = ⟨.gone, .done, [], [], [], [(.error, .text e)], [], false⟩ := by
  induction h with
  | start => rfl
  | step a _ hst ih =>
    rw [ih] at hst
    cases a <;> simp [step, workerStep, uiStep] at hst

/-- If the values of an argument are not a position, the program prints one message, which names the
first such argument, and ends; the compute thread is not started, so nothing is opened or changed. -/
theorem C85_malformed (env : Env) (yes : Bool) (name map : String) (m : Matches) (c : Command)
    (_hc : command? name = some c) (ha : Accepted c.args m)
    (hm : Malformed m "p1" ∨ Malformed m "p2" ∨ Malformed m "offset") (s : Sys)
    (h : Reach (runCmdLine env yes name map m) s) :
    s.ui = .done ∧ s.started = false ∧ s.sent = [] ∧ ∃ e, s.printed = [(.error, .text e)] ∧
      ((Malformed m "p1" ∧ e = "Invalid p1 value.") ∨
       (¬ Malformed m "p1" ∧ Malformed m "p2" ∧ e = "Invalid p2 value.") ∨
       (¬ Malformed m "p1" ∧ ¬ Malformed m "p2" ∧ e = "Invalid offset value.")) := by
  have hn := ha.once
  have he : ∃ e, toInstArgs yes name map m = .error e ∧
      ((Malformed m "p1" ∧ e = "Invalid p1 value.") ∨
       (¬ Malformed m "p1" ∧ Malformed m "p2" ∧ e = "Invalid p2 value.") ∨
       (¬ Malformed m "p1" ∧ ¬ Malformed m "p2" ∧ e = "Invalid offset value.")) := by
    unfold toInstArgs
    rcases optArg_pos hn "Invalid p1 value." "p1" with ⟨h1, h2⟩ | ⟨h1, r1, h2⟩
    · exact ⟨_, by rw [h2]; rfl, .inl ⟨h1, rfl⟩⟩
    · rcases optArg_pos hn "Invalid p2 value." "p2" with ⟨h3, h4⟩ | ⟨h3, r2, h4⟩
      · exact ⟨_, by rw [h2, h4]; rfl, .inr (.inl ⟨h1, h3, rfl⟩)⟩
      · rcases optArg_pos hn "Invalid offset value." "offset" with ⟨h5, h6⟩ | ⟨h5, r3, h6⟩
        · exact ⟨_, by rw [h2, h4, h6]; rfl, .inr (.inr ⟨h1, h3, rfl⟩)⟩
        · rcases hm with hm | hm | hm
          · exact absurd hm h1
          · exact absurd hm h3
          · exact absurd hm h5
  obtain ⟨e, he, hor⟩ := he
  have hs : s = ⟨.gone, .done, [], [], [], [(.error, .text e)], [], false⟩ := by
    unfold runCmdLine at h
    rw [he] at h
    exact refused_stays h
  subst hs
  exact ⟨rfl, rfl, rfl, e, rfl, hor⟩

/-- Otherwise the compute thread is started with the arguments. -/
theorem C85_wellformed (env : Env) (yes : Bool) (name map : String) (m : Matches) (c : Command)
    (hc : command? name = some c) (ha : Accepted c.args m)
    (h1 : ¬ Malformed m "p1") (h2 : ¬ Malformed m "p2") (h3 : ¬ Malformed m "offset") :
    ∃ args, toInstArgs yes name map m = .ok args ∧ runCmdLine env yes name map m = Sys.init (workerProg env args) := by
  have hn := ha.once
  unfold runCmdLine
  have : ∃ args, toInstArgs yes name map m = .ok args := by
    unfold toInstArgs
    obtain ⟨r1, e1⟩ := ((optArg_pos hn "Invalid p1 value." "p1").resolve_left fun h => h1 h.1).2
    obtain ⟨r2, e2⟩ := ((optArg_pos hn "Invalid p2 value." "p2").resolve_left fun h => h2 h.1).2
    obtain ⟨r3, e3⟩ := ((optArg_pos hn "Invalid offset value." "offset").resolve_left fun h => h3 h.1).2
    rw [e1, e2, e3, no_param2_val hc ha]
    exact ⟨_, rfl⟩
  obtain ⟨args, h⟩ := this
  rw [h]
  exact ⟨args, rfl, rfl⟩

/-- `mapeditr map fill --p1 0 0 0 --p2 1 x 1 air`. -/
def badLine : Matches := [("p1", ["0", "0", "0"]), ("p2", ["1", "x", "1"]), ("new_node", ["air"])]

theorem malformed_iff {m : Matches} (hn : (m.map (·.1)).Nodup) (name : String) :
    Malformed m name ↔ ∃ vs, m.valuesOf name = some vs ∧ argToPos vs = none := by
  unfold Malformed
  refine exists_congr fun vs => ?_
  rw [valuesOf_iff hn, argToPos_none]

/-- The hypotheses are met: the second corner is not a position. -/
example : Accepted [.area true, .invert, .newNode] badLine ∧ ¬ Malformed badLine "p1" ∧ Malformed badLine "p2" := by
  refine ⟨⟨by decide, by decide, by decide, by decide⟩, ?_, ?_⟩
  · rw [malformed_iff (by decide)]
    rintro ⟨vs, h1, h2⟩
    cases h1
    revert h2
    decide
  · rw [malformed_iff (by decide)]
    exact ⟨_, rfl, by decide⟩

/-! ## C84: the exit status -/

/-- The program ends like this: state, whether the compute thread is gone, kinds of messages
printed. -/
def endsAs (s0 : Sys) (as : List Actor) : Option (UState × Bool × List LogType) :=
  (follow s0 as).map fun s => (s.ui, s.worker.isGone, s.printed.map (·.1))

theorem endsAs_reach {s0 : Sys} {as : List Actor} {x} (h : endsAs s0 as = some x) :
    ∃ s, Reach s0 s ∧ s.ui = x.1 ∧ s.worker.isGone = x.2.1 ∧ s.printed.map (·.1) = x.2.2 := by
  unfold endsAs at h
  rw [Option.map_eq_some_iff] at h
  obtain ⟨s, h1, rfl⟩ := h
  exact ⟨s, follow_reach .start h1, rfl, rfl, rfl⟩

/-- The exit status should tell failure from success.  It does not: a run that ends with an error message
has status 0. -/
theorem C84_false : ¬ ∀ (env : Env) (yes : Bool) (name map : String) (m : Matches) (c : Command) (s : Sys),
    command? name = some c → Accepted c.args m → Reach (runCmdLine env yes name map m) s → Finished s →
    s.exit = some 0 → ∀ e, (.error, e) ∉ s.printed := by
  intro h
  exact h (runEnv (fun _ => false) none) true "fill" "map" badLine _ _ rfl
    ⟨by decide, by decide, by decide, by decide⟩ .start ⟨.inl rfl, rfl⟩ rfl (.text "Invalid p2 value.")
    (List.mem_singleton.2 rfl)

/-- Neither does it tell that the compute thread has panicked: there is a run, of `deletemeta`, in which
the database cannot be read; no error message is printed by the program itself, and the status is 0. -/
theorem C84_panic_false : ∃ (env : Env) (args : InstArgs) (s : Sys),
    toInstArgs true "deletemeta" "map" [] = .ok args ∧
    Reach (runCmdLine env true "deletemeta" "map" []) s ∧ Finished s ∧
    (∃ r w, computeThread env args World.start = (.error (.panic r), w)) ∧ (∀ e, (.error, e) ∉ s.printed) ∧ s.exit = some 0 := by
  have h : endsAs (runCmdLine failEnv true "deletemeta" "map" []) (.replicate 7 .worker ++ .replicate 6 .ui) =
    some (.done, true, [.warning]) := by decide
  obtain ⟨s, h1, h2, h3, h4⟩ := endsAs_reach h
  refine ⟨failEnv, runArgs false "deletemeta" "map" none, s, rfl, h1, ⟨.inl h2, h3⟩, ⟨_, _, rfl⟩, ?_, ?_⟩
  · intro e he
    have := List.mem_map_of_mem (f := (·.1)) he
    rw [h4] at this
    simp at this
  · unfold Sys.exit
    rw [h2]

/-- What is true of the status: as long as reading from and printing to the terminal work, it is 0 -- of
successful runs as it should be, but also of all others (`C84_false`, `C84_panic_false`). -/
theorem C84_zero_partial (env : Env) (yes : Bool) (name map : String) (m : Matches) (x : Nat → Sys)
    (act : Nat → Option Actor) (h : Execution (runCmdLine env yes name map m) x act) (hf : Fair x act)
    (hc : ∀ n, act n ≠ some .crash) : ∃ n, Finished (x n) ∧ (x n).exit = some 0 := by
  unfold runCmdLine at h
  split at h
  · obtain ⟨n, h1, h2⟩ := C60_terminates env _ x act h hf
    exact ⟨n, h1, by unfold Sys.exit; rw [h2 hc]⟩
  · exact ⟨0, by rw [h.1]; exact ⟨.inl rfl, rfl⟩, by rw [h.1]; rfl⟩

/-- A status other than 0 means that the user interface has failed. -/
theorem C84_nonzero_partial (env : Env) (yes : Bool) (name map : String) (m : Matches) (x : Nat → Sys)
    (act : Nat → Option Actor) (h : Execution (runCmdLine env yes name map m) x act) (n c : Nat)
    (hx : (x n).exit = some c) (hc : c ≠ 0) : c = 101 ∧ ∃ k, k < n ∧ act k = some .crash := by
  have hd : (x n).ui = .dead ∧ c = 101 := by
    unfold Sys.exit at hx
    split at hx
    · cases hx; exact absurd rfl hc
    · next hu => cases hx; exact ⟨hu, rfl⟩
    · cases hx
  refine ⟨hd.2, Classical.byContradiction fun hk => ?_⟩
  replace hk : ∀ k, k < n → act k ≠ some .crash := fun k h1 h2 => hk ⟨k, h1, h2⟩
  have hd := hd.1
  clear hx hc
  unfold runCmdLine at h
  split at h
  · next args _ =>
    have hall : ∀ k, k ≤ n → (x k).ui ≠ .dead := by
      intro k
      induction k with
      | zero => intro _; rw [h.1]; nofun
      | succ k ih =>
        intro hkn
        have hs := h.2 k
        split at hs
        · next a ha =>
          exact not_dead (good_reach (workerProg_ready env args) (execution_reach h k)) hs
            (fun e => hk k (by omega) (by rw [ha, e])) (ih (by omega))
        · rw [hs]; exact ih (by omega)
    exact hall n (Nat.le_refl _) hd
  · have hall : ∀ k, (x k).ui = .done ∧ (x k).worker = .gone := by
      intro k
      induction k with
      | zero => rw [h.1]; exact ⟨rfl, rfl⟩
      | succ k ih =>
        have hs := h.2 k
        split at hs
        · next a ha =>
          cases a <;> simp [step, workerStep, uiStep, ih.1, ih.2] at hs
        · rw [hs]; exact ih
    rw [(hall n).1] at hd
    cases hd

/-- A run that fails because standard input cannot be read. -/
example : ∃ s, Reach (runCmdLine (editEnv [(0, [1])]) false "deletemeta" "map" []) s ∧ s.exit = some 101 := by
  have h : endsAs (runCmdLine (editEnv [(0, [1])]) false "deletemeta" "map" [])
    (.replicate 3 .worker ++ .replicate 3 .ui ++ [.crash]) = some (.dead, false, [.warning, .warning]) := by decide
  obtain ⟨s, h1, h2, -⟩ := endsAs_reach h
  exact ⟨s, h1, by unfold Sys.exit; rw [h2]⟩

/-! ## C86: from the command line to the map -/

/-- The environment of a run in which the user has answered. -/
def answered (env : Env) (args : InstArgs) (s : Sys) : Env :=
  { env with answer := if args.doConfirmation then s.answers.head? else env.answer }

theorem mem_logsOf {t : LogType} {x : Msg} {es : List Event} : (t, x) ∈ logsOf es ↔ .log t x ∈ es := by
  induction es with
  | nil => simp [logsOf]
  | cons e es ih => cases e <;> simp [logsOf, ih]

theorem no_param2 {name : String} {c : Command} (hc : command? name = some c) (hs : name ≠ "setparam2") :
    .param2 ∉ c.args := by
  have hall : ∀ n ∈ commands, n.1 = "setparam2" ∨ .param2 ∉ n.2.args := by decide
  unfold command? at hc
  rw [Option.map_eq_some_iff] at hc
  obtain ⟨e, he, rfl⟩ := hc
  have h1 := List.find?_some he
  rw [beq_iff_eq] at h1
  exact (hall _ (List.mem_of_find?_eq_some he)).resolve_left (by rw [h1]; exact hs)

/-- If the program, started with an accepted command line, ends after printing "Done.", then the user has
confirmed if they were asked, every argument has reached the command, and the command has completed with
exactly the messages that were printed.  (`vacuum` is C53; `setparam2` never gets here, C38.) -/
theorem C86_run (env : Env) (yes : Bool) (name map : String) (m : Matches) (c : Command) (s : Sys)
    (hc : command? name = some c) (hv : name ≠ "vacuum") (hs : name ≠ "setparam2") (ha : Accepted c.args m)
    (h : Reach (runCmdLine env yes name map m) s) (hu : s.ui = .done)
    (hd : (.info, .text "Done.") ∈ s.printed) :
    ∃ args f t' evs, args.command = name ∧ args.mapPath = map ∧ (yes = false → s.answers = [true]) ∧
      (∀ t ∈ c.args, Carries m args t) ∧ Parsed args ∧ mapFile env map = some f ∧
      Completes (answered env args s) args f.table t' evs ∧ s.printed = logsOf evs := by
  unfold runCmdLine at h
  cases ht : toInstArgs yes name map m with
  | error e =>
    rw [ht] at h
    rw [refused_stays h] at hd
    simp at hd
  | ok args =>
    rw [ht] at h
    simp only at h
    obtain ⟨h1, h2, h3, h4⟩ := C38_partial yes name map m args c hc ha ht
    obtain ⟨h5, -⟩ := C70_arguments yes name map m args c hc hs ha ht
    have hp := C60_printed env args s h hu
    rw [hp] at hd
    have hdone : doneMsg ∈ (worker (answered env args s) args World.start).2.events := mem_logsOf.1 hd
    obtain ⟨h6, h7⟩ := (C80_done _ _).1 hdone
    obtain ⟨mm, -, -, -, h8⟩ := C80_saved (answered env args s) args (by rw [h1]; exact hv) hdone
    obtain ⟨f, w, m', h9, h10, h11⟩ := h8
    refine ⟨args, f, _, _, h1, h2, ?_, ?_, h5, ?_, ⟨f, w, m', h9, rfl, h11⟩, hp⟩
    · intro hy
      have hconf := h3.2 hy
      have h7 := h7 hconf
      simp only [answered, hconf, if_true] at h7
      cases good_reach (workerProg_ready env args) h with
      | before _ _ _ _ h12 => rw [h12] at h7; cases h7
      | asked _ _ _ _ h12 => rw [h12] at h7; cases h7
      | answered _ _ _ _ h12 => rw [h12] at h7 ⊢; cases h7; rfl
      | going _ _ _ _ h12 => exact h12
      | after _ _ _ h12 =>
        rcases h12 with h12 | ⟨b, h12⟩
        · rw [h12] at h7; cases h7
        · rw [h12] at h7 ⊢; cases h7; rfl
    · intro t ht
      refine h4 t ht ?_
      rintro rfl
      exact no_param2 hc hs ht
    · rw [h2] at h9
      exact h9

theorem corners_valid {B : Area} {v w : Vec3} (h : Corners B v w) : B.isValid = true := by
  obtain ⟨h1, h2⟩ := h
  rw [isValid_iff, h1, h2]
  simp only
  omega

/-- `mapeditr <map> fill --p1 a b c --p2 d e f [--invert] <node>`: if the program ends after printing
"Done.", the map file holds the same blocks, in which exactly the nodes of the box with the corners written
as `a b c` and `d e f` (all others, with `--invert`) are `node`, and all else is as it was. -/
theorem C86_fill (env : Env) (yes : Bool) (map : String) (m : Matches) (s : Sys) (cm : Command)
    (a b c d e f node : String) (inv : Bool) (file : DbFile)
    (hc : command? "fill" = some cm) (ha : Accepted cm.args m) (h1 : ("p1", [a, b, c]) ∈ m)
    (h2 : ("p2", [d, e, f]) ∈ m) (h3 : ("new_node", [node]) ∈ m) (hi : inv = true ↔ ∃ vs, ("invert", vs) ∈ m)
    (hE : EnvOk env) (hf : mapFile env map = some file) (hg : GoodTable file.table)
    (h : Reach (runCmdLine env yes "fill" map m) s) (hu : s.ui = .done)
    (hd : (.info, .text "Done.") ∈ s.printed) :
    ∃ v w B args t' evs, Pos a b c v ∧ Pos d e f w ∧ Corners B v w ∧ (yes = false → s.answers = [true]) ∧
      Completes (answered env args s) args file.table t' evs ∧ s.printed = logsOf evs ∧
      Edited env.codec (some B) inv file.table t' fun bp b b' =>
        SameHead b b' ∧ SameMeta b b' ∧ b'.objects = b.objects ∧ b'.timers = b.timers ∧
        b'.nd.param1 = b.nd.param1 ∧ b'.nd.param2 = b.nd.param2 ∧
        ∀ i, i < 4096 → (Selected (some B) inv (posAt bp i) → nodeName b' i = some (toBytes node)) ∧
          (¬ Selected (some B) inv (posAt bp i) → ∀ name, nodeName b i = some name →
            nodeName b' i = some name) := by
  obtain ⟨args, f', t', evs, e1, e2, e3, e4, -, e6, e7, e8⟩ :=
    C86_run env yes "fill" map m cm s hc (by decide) (by decide) ha h hu hd
  rw [hf] at e6
  cases e6
  cases hc
  obtain ⟨v, w, B, p1, p2, p3, p4⟩ := (e4 (.area true) (by decide)).1 a b c d e f h1 h2
  have hinv : args.invert = inv := by
    have : Tells m "invert" args.invert := e4 .invert (by decide)
    rw [Bool.eq_iff_iff]
    exact Iff.trans this hi.symm
  have hnode : args.newNode = some node := (e4 .newNode (by decide)).1 node h3
  refine ⟨v, w, B, args, t', evs, p1, p2, p4, e3, e7, e8, ?_⟩
  rw [← hinv]
  exact C32_fill (answered env args s) args file.table t' evs B node ⟨hE.codec, hE.full, hE.ord⟩ hg e1 p3
    (corners_valid p4) hnode e7

/-- Such runs exist: with a working database, arguments that are not refused, and `--yes`, every fair
execution in which the terminal works ends with status 0 after printing "Done.". -/
theorem C86_fill_done (env : Env) (map : String) (m : Matches) (cm : Command) (file : DbFile) (x : Nat → Sys)
    (act : Nat → Option Actor) (node : String)
    (hc : command? "fill" = some cm) (ha : Accepted cm.args m) (h3 : ("new_node", [node]) ∈ m)
    (hp1 : ¬ Malformed m "p1") (hp2 : ¬ Malformed m "p2")
    (hargs : ∀ args, toInstArgs true "fill" map m = .ok args → ¬ BadArgs args)
    (hl : (toBytes node).length < 65536) (hE : EnvOk env) (hfail : ∀ n, env.fail n = false)
    (hf : mapFile env map = some file) (hcols : MapColumns file.cols) (hg : GoodTable file.table)
    (hb : AllBlocks env.codec file.table fun b =>
      (∀ id ∈ b.nd.nodes, ∃ e ∈ b.nimap, id ≤ e.1) ∧ ∀ e ∈ b.nimap, e.1 ≤ 65533)
    (h : Execution (runCmdLine env true "fill" map m) x act) (hx : Fair x act)
    (hcr : ∀ n, act n ≠ some .crash) :
    ∃ n, (x n).ui = .done ∧ (x n).exit = some 0 ∧ (.info, .text "Done.") ∈ (x n).printed := by
  cases hc
  have hoff : ¬ Malformed m "offset" := by
    rintro ⟨vs, hm, -⟩
    rcases ha.known _ hm with h | ⟨d, hd, h, -⟩
    · simp at h
    · simp only at h
      revert d
      decide
  obtain ⟨args, e1, e2⟩ := C85_wellformed env true "fill" map m _ rfl ha hp1 hp2 hoff
  rw [e2] at h
  obtain ⟨n, h1, h2⟩ := C60_terminates env args x act h hx
  have hu := h2 hcr
  refine ⟨n, hu, by unfold Sys.exit; rw [hu], ?_⟩
  obtain ⟨c1, c2, c3, c4⟩ := C38_partial true "fill" map m args _ rfl ha e1
  obtain ⟨c5, c6⟩ := C70_arguments true "fill" map m args _ rfl (by decide) ha e1
  have hconf : args.doConfirmation = false := by
    cases hcf : args.doConfirmation with
    | false => rfl
    | true => exact absurd (c3.1 hcf) (by decide)
  have hp := C60_printed env args (x n) (execution_reach h n) hu
  rw [hconf] at hp
  simp only [Bool.false_eq_true, if_false] at hp
  obtain ⟨B, hB⟩ : ∃ B, args.area = some B := by
    unfold Needs at c6
    rw [c1] at c6
    exact Option.isSome_iff_exists.1 c6.1
  have hin : args.inputMapPath = none := by
    obtain ⟨_, _, _, _, _, _, e⟩ := toInstArgs_fields e1
    rw [e]
    refine (holds_valueOf ha.once "input_map").2 ?_
    intro vs hm
    rcases ha.known _ hm with h | ⟨d, hd, h, -⟩
    · simp at h
    · simp only at h
      revert d
      decide
  obtain ⟨t', evs, f', w, mm, hh⟩ := C32_fill_completes env args file B node hE hfail (by rw [c2]; exact hf) hcols hg
    (hargs args e1) c1 hB (c5.area B hB) ((c4 .newNode (by decide) (by decide)).1 node h3) hl hin
    (by rw [hconf]; nofun) hb
  rw [hp, mem_logsOf, worker_events, hh.2.2.1]
  rw [List.append_nil, hh.2.2.2.1]
  exact hh.2.2.2.2.1

/-- `mapeditr map -y fill --p1 1 1 1 --p2 0 +0 0 air`. -/
def fillLine : Matches := [("p1", ["1", "1", "1"]), ("p2", ["0", "+0", "0"]), ("new_node", ["default:stone"])]

theorem follow_append (as bs : List Actor) (s s1 : Sys) (h : follow s as = some s1) :
    follow s (as ++ bs) = follow s1 bs := by
  induction as generalizing s with
  | nil => cases h; rfl
  | cons a t ih =>
    simp only [List.cons_append, follow] at h ⊢
    cases hs : step a s with
    | none => rw [hs] at h; cases h
    | some s2 => rw [hs] at h; exact ih s2 h

/-- The moves of an execution in which nothing fails and the user agrees. -/
def Smooth (as : List Actor) : Prop := ∀ a ∈ as, a = .worker ∨ a = .ui ∨ a = .user true

/-- The user interface can read everything. -/
theorem ui_reads (l : List Event) (s : Sys) (rest : List Event) (h1 : s.toUi = l ++ rest) (h2 : .confirmRequest ∉ l)
    (h3 : s.ui = .idle) : ∃ as s', follow s as = some s' ∧ s'.toUi = rest ∧ s'.ui = .idle ∧ s'.worker = s.worker ∧
      s'.toWorker = s.toWorker ∧ s'.answers = s.answers ∧ Smooth as := by
  induction l generalizing s with
  | nil => exact ⟨[], s, rfl, h1, h3, rfl, rfl, rfl, nofun⟩
  | cons e l ih =>
    rw [List.mem_cons, not_or] at h2
    have : ∃ s', step .ui s = some s' ∧ s'.toUi = l ++ rest ∧ s'.ui = .idle ∧ s'.worker = s.worker ∧
        s'.toWorker = s.toWorker ∧ s'.answers = s.answers := by
      cases e with
      | confirmRequest => exact absurd rfl h2.1
      | log t x =>
        exact ⟨{ s with toUi := l ++ rest, printed := s.printed ++ [(t, x)] }, by simp [step, uiStep, h3, h1], rfl, h3,
          rfl, rfl, rfl⟩
      | newState x => exact ⟨{ s with toUi := l ++ rest }, by simp [step, uiStep, h3, h1], rfl, h3, rfl, rfl, rfl⟩
    obtain ⟨s', e1, e2, e3, e4, e5, e6⟩ := this
    obtain ⟨as, s2, f1, f2, f3, f4, f5, f6, f7⟩ := ih s' e2 h2.2 e3
    refine ⟨.ui :: as, s2, ?_, f2, f3, f4.trans e4, f5.trans e5, f6.trans e6, ?_⟩
    · simp only [follow, e1]; exact f1
    · intro a ha
      rcases List.mem_cons.1 ha with rfl | ha
      · exact .inr (.inl rfl)
      · exact f7 a ha

/-- The compute thread can run to its end while the user interface waits; if there is a question, the user interface
can read up to it, and the user can agree. -/
theorem worker_ends {conf : Bool} (p : Prog) (s : Sys) (hp : Ready conf p ∨ Plain p) (h1 : s.worker = .run p)
    (h2 : s.ui = .idle) (h3 : .confirmRequest ∉ s.toUi) (h4 : s.toWorker = []) :
    ∃ as s', follow s as = some s' ∧ s'.ui = .idle ∧ s'.worker = .gone ∧ .confirmRequest ∉ s'.toUi ∧ Smooth as := by
  have hcons : ∀ {a : Actor} {s s1 : Sys}, (a = .worker ∨ a = .ui ∨ a = .user true) → step a s = some s1 →
      (∃ as s', follow s1 as = some s' ∧ s'.ui = .idle ∧ s'.worker = .gone ∧ .confirmRequest ∉ s'.toUi ∧ Smooth as) →
      ∃ as s', follow s as = some s' ∧ s'.ui = .idle ∧ s'.worker = .gone ∧ .confirmRequest ∉ s'.toUi ∧ Smooth as := by
    rintro a s s1 ha hs ⟨as, s', g1, g2, g3, g4, g5⟩
    refine ⟨a :: as, s', by simp only [follow, hs]; exact g1, g2, g3, g4, ?_⟩
    intro x hx
    rcases List.mem_cons.1 hx with rfl | hx
    · exact ha
    · exact g5 x hx
  have hend : ∀ (s : Sys), s.worker = .closing none → s.ui = .idle → .confirmRequest ∉ s.toUi →
      ∃ as s', follow s as = some s' ∧ s'.ui = .idle ∧ s'.worker = .gone ∧ .confirmRequest ∉ s'.toUi ∧ Smooth as := by
    intro s h1 h2 h3
    exact hcons (s1 := { s with worker := .gone }) (.inl rfl) (by simp [step, workerStep, h1]) ⟨[], _, rfl, h2, rfl, h3, nofun⟩
  have hplain : ∀ (p : Prog) (s : Sys), Plain p → s.worker = .run p → s.ui = .idle → .confirmRequest ∉ s.toUi →
      ∃ as s', follow s as = some s' ∧ s'.ui = .idle ∧ s'.worker = .gone ∧ .confirmRequest ∉ s'.toUi ∧ Smooth as := by
    intro p
    induction p with
    | ret e =>
      intro s _ h1 h2 h3
      refine hcons (s1 := { s with worker := .closing e }) (.inl rfl) (by simp [step, workerStep, h1]) ?_
      cases e with
      | none => exact hend _ rfl h2 h3
      | some e =>
        refine hcons (s1 := { s.push (.log .error (.text e)) with worker := .closing none }) (.inl rfl)
          (by simp [step, workerStep, h2, UState.open, Sys.push]) (hend _ rfl h2 ?_)
        simp [Sys.push, h3]
    | panic =>
      intro s _ h1 h2 h3
      exact hcons (s1 := { s with worker := .closing none }) (.inl rfl) (by simp [step, workerStep, h1]) (hend _ rfl h2 h3)
    | send e k ih =>
      intro s hr h1 h2 h3
      refine hcons (s1 := { s.push e with worker := .run k }) (.inl rfl)
        (by simp [step, workerStep, h1, h2, UState.open]) (ih _ hr.2 rfl h2 ?_)
      simp only [Sys.push, List.mem_append, List.mem_singleton, not_or]
      exact ⟨h3, fun e => hr.1 e.symm⟩
    | recv f => intro s hr; cases hr
    | start k => intro s hr; cases hr
  induction p generalizing s with
  | ret e => exact hplain (.ret e) s trivial h1 h2 h3
  | panic => exact hplain .panic s trivial h1 h2 h3
  | send e k ih =>
    by_cases he : e = .confirmRequest
    · subst he
      have hk : Asks k := by
        rcases hp with (hp | hp) | hp
        · exact absurd rfl hp.1
        · exact hp.2.2
        · exact absurd rfl hp.1
      refine hcons (s1 := { s.push .confirmRequest with worker := .run k }) (.inl rfl)
        (by simp [step, workerStep, h1, h2, UState.open]) ?_
      obtain ⟨as, s', g1, g2, g3, g4, g5, -, g7⟩ := ui_reads s.toUi { s.push .confirmRequest with worker := .run k }
        [.confirmRequest] rfl h3 h2
      cases k with
      | recv f =>
        obtain ⟨k', e1, e2⟩ := (hk (some true)).1 rfl
        obtain ⟨bs, s'', b1, b2, b3, b4, b5⟩ := hcons (a := .ui) (s := s') (s1 := { s' with toUi := [], ui := .asking })
          (.inr (.inl rfl)) (by simp [step, uiStep, g2, g3])
          (hcons (a := .user true)
            (s1 := { s' with toUi := [], ui := .idle, toWorker := s'.toWorker ++ [true], answers := s'.answers ++ [true] })
            (.inr (.inr rfl)) (by simp [step, g4, WState.isRunning])
          (hcons (a := .worker)
            (s1 := { s' with
              toUi := [], ui := .idle, toWorker := [], answers := s'.answers ++ [true], worker := .run (.start k') })
            (.inl rfl) (by simp [step, workerStep, g4, g5, h4, Sys.push, e1])
          (hcons (a := .worker)
            (s1 := { s' with
              toUi := [], ui := .idle, toWorker := [], answers := s'.answers ++ [true], worker := .run k', started := true })
            (.inl rfl) (by simp [step, workerStep])
          (hplain k' _ e2 rfl rfl nofun))))
        refine ⟨as ++ bs, s'', by rw [follow_append _ _ _ _ g1]; exact b1, b2, b3, b4, ?_⟩
        intro a ha
        exact (List.mem_append.1 ha).elim (g7 a) (b5 a)
      | _ => cases hk
    · have hk : Ready conf k ∨ Plain k := by
        rcases hp with (hp | hp) | hp
        · exact .inl hp.2
        · exact absurd hp.1 he
        · exact .inr hp.2
      refine hcons (s1 := { s.push e with worker := .run k }) (.inl rfl)
        (by simp [step, workerStep, h1, h2, UState.open]) (ih _ hk rfl h2 ?_ h4)
      simp only [Sys.push, List.mem_append, List.mem_singleton, not_or]
      exact ⟨h3, fun e => he e.symm⟩
  | recv f => rcases hp with hp | hp <;> cases hp
  | start k ih =>
    have hk : Plain k := by
      rcases hp with hp | hp
      · exact hp.2
      · cases hp
    exact hcons (s1 := { s with worker := .run k, started := true }) (.inl rfl) (by simp [step, workerStep, h1])
      (hplain k _ hk rfl h2 h3)

/-- The program can come to its end. -/
theorem can_end {conf : Bool} {p : Prog} (hp : Ready conf p) : ∃ as s, follow (Sys.init p) as = some s ∧ s.ui = .done ∧
    s.worker.isGone = true ∧ Smooth as := by
  obtain ⟨as, s1, e1, e2, e3, e4, e5⟩ := worker_ends p (Sys.init p) (.inl hp) rfl rfl (by simp [Sys.init]) rfl
  obtain ⟨bs, s2, f1, f2, f3, f4, -, -, f7⟩ := ui_reads s1.toUi s1 [] (List.append_nil _).symm e4 e2
  refine ⟨as ++ (bs ++ [.ui, .ui]), { s2 with ui := .done }, ?_, rfl, by simp [f4, e3, WState.isGone], ?_⟩
  · rw [follow_append _ _ _ _ e1, follow_append _ _ _ _ f1]
    simp [follow, step, uiStep, f2, f3, f4, e3, WState.isGone]
  · intro a ha
    simp only [List.mem_append, List.mem_cons, List.not_mem_nil, or_false] at ha
    rcases ha with ha | ha | ha | ha
    · exact e5 a ha
    · exact f7 a ha
    · exact .inr (.inl ha)
    · exact .inr (.inl ha)

/-- The arguments of `fillLine`. -/
def fillLineArgs : InstArgs :=
  { runArgs false "fill" "map" none with
    area := some ⟨⟨0, 0, 0⟩, ⟨1, 1, 1⟩⟩, newNode := some "default:stone" }

theorem fillLine_args : toInstArgs true "fill" "map" fillLine = .ok fillLineArgs := by decide

theorem fillLine_accepted : Accepted [.area true, .invert, .newNode] fillLine :=
  ⟨by decide, by decide, by decide, by decide⟩

theorem fillLine_ok (name : String) (h : name = "p1" ∨ name = "p2") : ¬ Malformed fillLine name := by
  rw [malformed_iff (by decide)]
  rcases h with rfl | rfl <;> (rintro ⟨vs, h1, h2⟩; cases h1; revert h2; decide)

/-- The hypotheses of both theorems are met: there is a fair execution for `fillLine` on a map with a readable
and an unreadable block, and it ends as it should. -/
example : ∃ x act, Execution (runCmdLine (editEnv (toyMap (Toy.block 28))) true "fill" "map" fillLine) x act ∧
    Fair x act ∧ (∀ n, act n ≠ some .crash) ∧
    ∃ n, (x n).ui = .done ∧ (.info, .text "Done.") ∈ (x n).printed := by
  have hw := Toy.block_wf 28 (by omega)
  have hr := workerProg_ready (editEnv (toyMap (Toy.block 28))) fillLineArgs
  obtain ⟨as, s, h1, h2, h3, h4⟩ := can_end (p := workerProg (editEnv (toyMap (Toy.block 28))) fillLineArgs) hr
  obtain ⟨x, act, e1, e2, e3⟩ := follow_fair h1 (finished_cannot h2 h3)
  have e4 : ∀ n, act n ≠ some .crash := by
    intro n hn
    rw [e3] at hn
    have := h4 _ (List.mem_of_getElem? hn)
    simp at this
  have e5 : runCmdLine (editEnv (toyMap (Toy.block 28))) true "fill" "map" fillLine =
      Sys.init (workerProg (editEnv (toyMap (Toy.block 28))) fillLineArgs) := by
    unfold runCmdLine
    rw [fillLine_args]
  rw [e5]
  refine ⟨x, act, e1, e2, e4, ?_⟩
  obtain ⟨n, g1, -, g2⟩ := C86_fill_done (editEnv (toyMap (Toy.block 28))) "map" fillLine _ _ x act "default:stone" rfl
    fillLine_accepted (by decide) (fillLine_ok _ (.inl rfl)) (fillLine_ok _ (.inr rfl)) (by
      intro args ha
      rw [fillLine_args] at ha
      cases ha
      rw [← verifyArgs_iff]
      decide) (by decide) (editEnv_ok _) (fun _ => rfl) (editEnv_file _) ⟨_, rfl⟩ (toyMap_good _)
    (toyMap_all hw ⟨named_covered (toy_named 28), fun e he => Nat.le_trans (toy_small 28 e he) (by decide)⟩)
    (by rw [e5]; exact e1) e2 e4
  exact ⟨n, g1, g2⟩

end MapEditr
