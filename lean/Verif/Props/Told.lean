import Verif.Proof.Told
import Verif.Props.Fill
import Verif.Props.ReplaceNodes
import Verif.Props.Param2
import Verif.Props.DeleteMeta
import Verif.Props.SetMetaVar
import Verif.Props.DeleteObjects
import Verif.Props.ReplaceInInv
import Verif.Props.Skips
/-!
# What the user reads (C93)

From the nodes of the map to the characters on the terminal: the commands count what they do, send the
count as a message, and the loop prints it.  `Watched` says that the loop has received all messages of the
run; times, timeouts in between, counters and what the user types are arbitrary.
-/

namespace MapEditr
open Spec

/-- The loop has received everything the run sent, and then `out` is on the terminal. -/
def Watched (env : Env) (args : InstArgs) (out : List Char) : Prop :=
  ∃ t0 ks u, tickEvents ks = (worker env args World.start).2.events ∧ (∀ k ∈ ks, Typed k) ∧
    (Ui.init t0).run ks = .ok u ∧ u.out = out

/-- **C93**: all messages of a run are on the terminal at its end, in order, each from the beginning of a
line, with all their text and their numbers. -/
theorem C93_shown (env : Env) (args : InstArgs) (out : List Char) (h : Watched env args out) :
    Displays out (worker env args World.start).2.events := by
  obtain ⟨t0, ks, u, h1, h2, h3, rfl⟩ := h
  have := displays_run h3 (init_ok t0) h2 (.nil _)
  rw [List.nil_append, h1] at this
  exact this

/-- There is such a terminal, whatever the times and timeouts, as long as the loop reads counters the run
had. -/
theorem C93_watched (env : Env) (args : InstArgs) (t0 : Nat) (ks : List Tick)
    (h : tickEvents ks = (worker env args World.start).2.events) (ht : ∀ k ∈ ks, Typed k)
    (hk : ∀ k ∈ ks, k.status ∈ (worker env args World.start).2.seen ∧ k.status.total < 2 ^ 64 ∧
      k.printed < 10 ^ 9 * 2 ^ 58) : ∃ out, Watched env args out := by
  have : ∀ (l : List Tick) (u : Ui), (∀ k ∈ l, k ∈ ks) → ∃ u', u.run l = .ok u' := by
    intro l
    induction l with
    | nil => exact fun u _ => ⟨u, rfl⟩
    | cons k l ih =>
      intro u hl
      obtain ⟨h1, h2, h3⟩ := hk k (hl k List.mem_cons_self)
      obtain ⟨v, hv⟩ := C76_no_panic env args u k h1 h2 h3
      obtain ⟨u', hu⟩ := ih v fun x hx => hl x (List.mem_cons_of_mem _ hx)
      refine ⟨u', ?_⟩
      rw [run_cons, hv]
      exact hu
  obtain ⟨u, hu⟩ := this ks (Ui.init t0) fun _ h => h
  exact ⟨u.out, t0, ks, u, h, ht, hu, rfl⟩

theorem completes_worker {env : Env} {args : InstArgs} {t t' : Table} {evs : List Event}
    (h : Completes env args t t' evs) : (worker env args World.start).2.events = evs := by
  obtain ⟨f, w, m, -, -, h1, h2, -⟩ := h
  rw [worker_events, h1]
  exact (List.append_nil _).trans h2

/-- A number reported by a run is on a line of the terminal. -/
theorem C93_count (env : Env) (args : InstArgs) (t t' : Table) (evs : List Event) (out : List Char)
    (what a b : String) (n : Nat) (h : Completes env args t t' evs) (hw : Watched env args out)
    (hm : .log .info (.count what n) ∈ evs) (hwhat : what.toList = a.toList ++ ['{', '}'] ++ b.toList)
    (ha : Bland a) (hb : Bland b) : ShowsLine out a n b := by
  have hd := C93_shown env args out hw
  rw [completes_worker h] at hd
  exact tells_of (displays_mem hd hm) hwhat ha hb

/-- The same for two numbers. -/
theorem C93_count2 (env : Env) (args : InstArgs) (t t' : Table) (evs : List Event) (out : List Char)
    (what a b c : String) (m n : Nat) (h : Completes env args t t' evs) (hw : Watched env args out)
    (hm : .log .info (.count2 what m n) ∈ evs)
    (hwhat : what.toList = a.toList ++ ['{', '}'] ++ b.toList ++ ['{', '}'] ++ c.toList)
    (ha : Bland a) (hb : Bland b) (hc : Bland c) : ShowsLine2 out a m b n c := by
  have hd := C93_shown env args out hw
  rw [completes_worker h] at hd
  exact tells2_of (displays_mem hd hm) hwhat ha hb hc

/-! ## The commands -/

/-- The user reads how many nodes `fill` has filled; without `invert`, see `C33_false`. -/
theorem C93_fill (env : Env) (args : InstArgs) (t t' : Table) (evs : List Event) (out : List Char) (a : Area)
    (node : String)
    (bs : List (Vec3 × MapBlock)) (hg : GoodTable t) (hc : args.command = "fill")
    (harea : args.area = some a) (ha : a.isValid = true) (hnode : args.newNode = some node)
    (hinv : args.invert = false)
    (h : Completes env args t t' evs) (hbs : Listed env.codec t bs) (hw : Watched env args out) :
    ShowsLine out "" (bs.map fun e => countNodes fun i => Selected (some a) args.invert (posAt e.1 i)).sum
      " nodes filled." :=
  C93_count env args t t' evs out "{} nodes filled." _ _ _ h hw
    (C33_partial env args t t' evs a node bs hg hc harea ha hnode hinv h hbs).1
    (by decide) (by decide) (by decide)

/-- The user reads how many nodes `replacenodes` has replaced. -/
theorem C93_replacenodes (env : Env) (args : InstArgs) (t t' : Table) (evs : List Event) (out : List Char) (old new : String)
    (bs : List (Vec3 × MapBlock)) (hg : GoodTable t) (hc : args.command = "replacenodes") (ha : AreaOk args.area)
    (ho : args.node = some old) (hn : args.newNode = some new)
    (hu : AllBlocks env.codec t UniqueNames)
    (h : Completes env args t t' evs) (hbs : Listed env.codec t bs) (hw : Watched env args out) :
    ShowsLine out "" (bs.map fun e => countNodes fun i =>
      Selected args.area args.invert (posAt e.1 i) ∧ nodeName e.2 i = some (toBytes old)).sum
      " nodes replaced." :=
  C93_count env args t t' evs out "{} nodes replaced." _ _ _ h hw
    (C36_replacenodes_count env args t t' evs old new bs hg hc ha ho hn hu h hbs).1
    (by decide) (by decide) (by decide)

/-- The user reads how many nodes `setparam2` has set. -/
theorem C93_setparam2 (env : Env) (args : InstArgs) (t t' : Table) (evs : List Event) (out : List Char) (val : UInt8)
    (bs : List (Vec3 × MapBlock)) (hg : GoodTable t) (hc : args.command = "setparam2")
    (hv : args.param2 = some val) (ha : AreaOk args.area)
    (hu : args.node ≠ none → AllBlocks env.codec t UniqueNames)
    (h : Completes env args t t' evs) (hbs : Listed env.codec t bs) (hw : Watched env args out) :
    ShowsLine out "Set param2 of " (bs.map fun e => countNodes fun i =>
      Selected args.area args.invert (posAt e.1 i) ∧ IsNode e.2 (args.node.map toBytes) i).sum
      " nodes." :=
  C93_count env args t t' evs out "Set param2 of {} nodes." _ _ _ h hw
    (C37_setparam2_count env args t t' evs val bs hg hc hv ha hu h hbs).1
    (by decide) (by decide) (by decide)

/-- The user reads how many entries `deletemeta` has removed. -/
theorem C93_deletemeta (env : Env) (args : InstArgs) (t t' : Table) (evs : List Event) (out : List Char)
    (bs : List (Vec3 × MapBlock)) (hg : GoodTable t) (hc : args.command = "deletemeta") (ha : AreaOk args.area)
    (hu : args.node ≠ none → AllBlocks env.codec t UniqueNames)
    (h : Completes env args t t' evs) (hbs : Listed env.codec t bs) (hw : Watched env args out) :
    ShowsLine out "Deleted metadata from " (bs.map fun e => (e.2.metas.filter fun m =>
      Selected args.area args.invert (posAt e.1 (m.1 % 4096)) ∧
        IsNode e.2 (args.node.map toBytes) m.1).length).sum
      " nodes." :=
  C93_count env args t t' evs out "Deleted metadata from {} nodes." _ _ _ h hw
    (C40_deletemeta_count env args t t' evs bs hg hc ha hu h hbs).1
    (by decide) (by decide) (by decide)

/-- The user reads how many timers `deletetimers` has removed. -/
theorem C93_deletetimers (env : Env) (args : InstArgs) (t t' : Table) (evs : List Event) (out : List Char)
    (bs : List (Vec3 × MapBlock)) (hg : GoodTable t) (hc : args.command = "deletetimers") (ha : AreaOk args.area)
    (hu : args.node ≠ none → AllBlocks env.codec t UniqueNames)
    (h : Completes env args t t' evs) (hbs : Listed env.codec t bs) (hw : Watched env args out) :
    ShowsLine out "Deleted " (bs.map fun e => (e.2.timers.filter fun t =>
      Selected args.area args.invert (posAt e.1 (t.pos % 4096)) ∧
        IsNode e.2 (args.node.map toBytes) t.pos).length).sum
      " node timers." :=
  C93_count env args t t' evs out "Deleted {} node timers." _ _ _ h hw
    (C42_deletetimers_count env args t t' evs bs hg hc ha hu h hbs).1
    (by decide) (by decide) (by decide)

/-- The user reads how many variables `setmetavar` has changed. -/
theorem C93_setmetavar (env : Env) (args : InstArgs) (t t' : Table) (evs : List Event) (out : List Char) (key : String)
    (bs : List (Vec3 × MapBlock)) (hE : EnvOk env) (hg : GoodTable t) (hc : args.command = "setmetavar")
    (ha : AreaOk args.area) (hk : args.key = some key)
    (hu : args.nodes ≠ [] → AllBlocks env.codec t UniqueNames)
    (h : Completes env args t t' evs) (hbs : Listed env.codec t bs) (hw : Watched env args out) :
    ShowsLine out "Set metadata variable of " (bs.map fun e => (e.2.metas.filter fun m =>
      (Selected args.area args.invert (posAt e.1 (m.1 % 4096)) ∧ AmongNodes e.2 (args.nodes.map toBytes) m.1) ∧
      HasVar (toBytes key) m.2).length).sum
      " nodes." :=
  C93_count env args t t' evs out "Set metadata variable of {} nodes." _ _ _ h hw
    (C41_setmetavar_count env args t t' evs key bs hE hg hc ha hk hu h hbs).1
    (by decide) (by decide) (by decide)

open Classical in
/-- The user reads how many objects `deleteobjects` has deleted. -/
theorem C93_deleteobjects (env : Env) (args : InstArgs) (t t' : Table) (evs : List Event) (out : List Char)
    (bs : List (Vec3 × MapBlock)) (hg : GoodTable t) (hc : args.command = "deleteobjects")
    (ha : AreaOk args.area)
    (h : Completes env args t t' evs) (hbs : Listed env.codec t bs) (hw : Watched env args out) :
    ShowsLine out "Deleted " (bs.map fun e => (e.2.objects.filter fun o => ObjectGoes args e.1 o).length).sum
      " objects." :=
  C93_count env args t t' evs out "Deleted {} objects." _ _ _ h hw
    (C43_deleteobjects_count env args t t' evs bs hg hc ha h hbs).1
    (by decide) (by decide) (by decide)

/-- The user reads how many stacks `replaceininv` has replaced, and in how many nodes. -/
theorem C93_replaceininv (env : Env) (args : InstArgs) (t t' : Table) (evs : List Event) (out : List Char)
    (item : String) (cnt : Bytes → Nat) (bs : List (Vec3 × MapBlock)) (hg : GoodTable t)
    (hc : args.command = "replaceininv") (ha : AreaOk args.area) (hk : args.item = some item)
    (hend : ¬ endWord <:+ newItemOf args (toBytes item))
    (hu : args.nodes ≠ [] → AllBlocks env.codec t UniqueNames)
    (hv : AllBlocks env.codec t (InvsGood (toBytes item)))
    (hcnt : CountsStacks (toBytes item) cnt)
    (h : Completes env args t t' evs) (hbs : Listed env.codec t bs) (hw : Watched env args out) :
    ShowsLine2 out "Replaced "
      (bs.map fun e => ((e.2.metas.filter fun m => Selected args.area args.invert (posAt e.1 (m.1 % 4096)) ∧
        AmongNodes e.2 (args.nodes.map toBytes) m.1).map fun m => cnt m.2.inv).sum).sum
      " itemstacks in "
      (bs.map fun e => (e.2.metas.filter fun m => (Selected args.area args.invert (posAt e.1 (m.1 % 4096)) ∧
        AmongNodes e.2 (args.nodes.map toBytes) m.1) ∧ cnt m.2.inv > 0).length).sum
      " nodes." :=
  C93_count2 env args t t' evs out "Replaced {} itemstacks in {} nodes." _ _ _ _ _ h hw
    (C46_replaceininv_count env args t t' evs item cnt bs hg hc ha hk hend hu hv hcnt h hbs).1
    (by decide) (by decide) (by decide) (by decide)

/-- The user reads how many blocks were left out because they cannot be decoded. -/
theorem C93_skipped (env : Env) (args : InstArgs) (t t' : Table) (evs : List Event) (out : List Char) (rows : Table)
    (hg : GoodTable t) (ha : AreaOk args.area) (hm : args.command ∈ editNames)
    (hrows : TheRows t (fun r => (RowTouched args.area args.invert r ∧ Mentions (searchNames args) r.2) ∧
      Unreadable env.codec r ∧ True) rows) (hpos : rows ≠ [])
    (h : Completes env args t t' evs) (hw : Watched env args out) :
    ShowsLine out "Skipped " rows.length " invalid/unsupported mapblocks." :=
  C93_count env args t t' evs out "Skipped {} invalid/unsupported mapblocks." _ _ _ h hw
    (((C54_edit_partial env args t t' evs hg ha hm h).counted rows hrows _).2
      ⟨rfl, List.length_pos_iff.2 hpos⟩)
    (by decide) (by decide) (by decide)

/-! ## Examples -/

/-- Ticks for some events, with no time passing and counters at zero. -/
def zeroTicks (es : List Event) : List Tick := es.map fun e => ⟨0, .event e, {}, 0, ['\n']⟩

theorem zeroTicks_run (es : List Event) : ∀ u : Ui, ∃ u', u.run (zeroTicks es) = .ok u' := by
  induction es with
  | nil => exact fun u => ⟨u, rfl⟩
  | cons e es ih =>
    intro u
    have : ∃ v, u.step ⟨0, .event e, {}, 0, ['\n']⟩ = .ok v := by
      rw [ui_step_eq]
      have : ∀ v f, ∃ v', Ui.show v ⟨0, .event e, {}, 0, ['\n']⟩ f = .ok v' := by
        intro v f
        unfold Ui.show
        simp only
        have ht : ∃ x, editingText ({} : Status).done ({} : Status).total (0 - v.queryingStart) (0 - v.editingStart)
            ({} : Status).showProgress = .ok x := by
          unfold editingText
          split
          · have hp : progressF32 ({} : Status).done ({} : Status).total = 0 := rfl
            have hr : ∀ n, remainingSecs n 0 = .ok none := by
              intro n
              unfold remainingSecs
              rw [if_neg (by decide +kernel)]
            simp only [hp, hr]
            exact ⟨_, rfl⟩
          · exact ⟨_, rfl⟩
        obtain ⟨x, hx⟩ := ht
        rw [hx]
        split
        · exact ⟨_, rfl⟩
        · split
          · exact ⟨_, rfl⟩
          · exact ⟨_, rfl⟩
      obtain ⟨v, hv⟩ := this _ _
      rw [hv]
      exact ⟨_, rfl⟩
    obtain ⟨v, hv⟩ := this
    obtain ⟨u', hu⟩ := ih v
    refine ⟨u', ?_⟩
    rw [show zeroTicks (e :: es) = ⟨0, .event e, {}, 0, ['\n']⟩ :: zeroTicks es from rfl, run_cons, hv]
    exact hu

/-- Every run can be watched. -/
theorem watched_exists (env : Env) (args : InstArgs) : ∃ out, Watched env args out := by
  obtain ⟨u, hu⟩ := zeroTicks_run (worker env args World.start).2.events (Ui.init 0)
  refine ⟨u.out, 0, _, u, ?_, ?_, hu, rfl⟩
  · unfold zeroTicks tickEvents
    rw [List.filterMap_map]
    simp [Function.comp_def]
  · intro k hk _
    obtain ⟨e, -, rfl⟩ := List.mem_map.1 hk
    rfl

/-- One node is filled, and the user reads so. -/
example : ∃ (env : Env) (args : InstArgs) (t t' : Table) (evs : List Event) (out : List Char),
    Completes env args t t' evs ∧ Watched env args out ∧ ShowsLine out "" 1 " nodes filled." := by
  have hw := Toy.block_wf 28 (by omega)
  obtain ⟨t', evs, h⟩ := fill_toy false (Toy.block 28) hw (named_covered (toy_named 28)) (toy_small 28)
  obtain ⟨out, ho⟩ := watched_exists (editEnv (toyMap (Toy.block 28))) (fillArgs false)
  have hs := C93_fill _ _ _ t' evs out ⟨⟨0, 0, 0⟩, ⟨0, 0, 0⟩⟩ "default:stone" _ (toyMap_good _) rfl rfl (by decide) rfl rfl h
    (toyMap_listed hw) ho
  refine ⟨_, _, _, t', evs, out, h, ho, ?_⟩
  have e : ∀ {n : Nat}, ShowsLine out "" n " nodes filled." → n = 1 → ShowsLine out "" 1 " nodes filled." := by
    rintro n hs rfl
    exact hs
  refine e hs ?_
  have hi : (fillArgs false).invert = false := rfl
  rw [List.map_cons, List.map_nil, List.sum_cons, List.sum_nil, Nat.add_zero, hi]
  exact (countNodes_congr fun i _ => by rw [selected_iff]; simp).trans count_one

/-- What is on the terminal after a run, if no time passes. -/
example : Watched (runEnv (fun _ => false) none) (runArgs false "deletemeta" "map" none)
    ("warning: No area or node specified. ALL metadata will be deleted!\n" ++
    "\rQuerying mapblocks... 0 found.\rQuerying mapblocks... 0 found.\n" ++
    "\r[                         ] 0.0% | 00:00 elapsed | --:-- remaining" ++
    "\r[                         ] 0.0% | 00:00 elapsed | --:-- remaining\n" ++
    "info: Deleted metadata from 0 nodes.\ninfo: Skipped 1 invalid/unsupported mapblocks.\n" ++
    "info: Committing...\ninfo: Done.\n").toList := by
  refine ⟨0, zeroTicks (worker (runEnv (fun _ => false) none) (runArgs false "deletemeta" "map" none) World.start).2.events,
    (match (Ui.init 0).run (zeroTicks (worker (runEnv (fun _ => false) none) (runArgs false "deletemeta" "map" none)
      World.start).2.events) with | .ok u => u | .error _ => Ui.init 0), ?_, ?_, ?_, ?_⟩
  · decide +kernel
  · intro k hk _
    obtain ⟨e, -, rfl⟩ := List.mem_map.1 hk
    rfl
  · obtain ⟨u, hu⟩ := zeroTicks_run (worker (runEnv (fun _ => false) none) (runArgs false "deletemeta" "map" none)
      World.start).2.events (Ui.init 0)
    rw [hu]
  · decide +kernel

/-- Two numbers. -/
example : (Msg.count2 "Replaced {} itemstacks in {} nodes." 1234 56).render =
    "Replaced 1.23k itemstacks in 56 nodes.".toList := by decide +kernel

end MapEditr
