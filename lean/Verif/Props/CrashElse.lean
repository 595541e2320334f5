import Verif.Props.CrashCopy
/-!
# Property C107, continued: otherwise the program ends normally
-/

namespace MapEditr
open Spec

/-- The commands' own checks let these arguments pass. -/
theorem set_verified {env : Env} {args : InstArgs} {f : DbFile} (S : AllSet env args f) :
    ∃ cmd res, command? args.command = some cmd ∧ cmd.verify args = .ok res ∧ ∀ e, res ≠ .error e := by
  have hk := S.one.known
  simp only [commandNames, List.mem_cons, List.not_mem_nil, or_false] at hk
  rcases hk with h | h | h | h | h | h | h | h | h | h | h | h
  · exact absurd h S.one.one.1
  · exact ⟨_, .ok, by rw [h]; rfl, rfl, by simp⟩
  · refine ⟨_, _, by rw [h]; exact deleteMeta_command, rfl, fun e => ?_⟩
    unfold deleteMetaVerify
    split <;> simp
  · refine ⟨_, _, by rw [h]; exact deleteObjects_command, rfl, fun e he => ?_⟩
    unfold deleteObjectsVerify at he
    split at he
    · next h1 =>
      refine S.command (.inr (.inl ⟨h, ?_⟩))
      simpa [Option.isSome_iff_ne_none] using h1
    · cases he
  · exact ⟨_, .ok, by rw [h]; exact deleteTimers_command, rfl, by simp⟩
  · exact ⟨_, .ok, by rw [h]; exact fill_command, rfl, by simp⟩
  · refine ⟨_, _, by rw [h]; exact replaceNodes_command, rfl, fun e he => ?_⟩
    unfold replaceNodesVerify at he
    rw [if_neg (by simpa using fun he => S.command (.inr (.inr (.inl ⟨h, he⟩))))] at he
    cases he
  · refine ⟨_, _, by rw [h]; exact replaceInInv_command, rfl, fun e he => ?_⟩
    unfold replaceInInvVerify at he
    refine S.command (.inr (.inr (.inr (.inl ⟨h, ?_⟩))))
    split at he
    · next h1 => left; simpa [and_assoc] using h1
    · split at he
      · next h2 => right; left; simpa [Option.isSome_iff_ne_none] using h2
      · split at he
        · next h3 => right; right; simpa using h3
        · cases he
  · exact absurd h S.one.one.2.1
  · refine ⟨_, _, by rw [h]; exact setMetaVar_command, rfl, fun e he => ?_⟩
    unfold setMetaVarVerify at he
    refine S.command (.inr (.inr (.inr (.inr (.inr (.inl ⟨h, ?_⟩))))))
    split at he
    · next h1 => left; simpa using h1
    · split at he
      · next h2 => right; left; simpa [Option.isSome_iff_ne_none] using h2
      · split at he
        · next h3 => right; right; simpa using h3
        · cases he
  · refine ⟨_, _, by rw [h]; exact setParam2_command, rfl, fun e he => ?_⟩
    unfold setParam2Verify at he
    split at he
    · next h1 =>
      refine S.command (.inr (.inr (.inr (.inr (.inr (.inr ⟨h, ?_⟩))))))
      simpa using h1
    · cases he
  · exact ⟨_, .ok, by rw [h]; rfl, rfl, by simp⟩

/-- A command that works on one map (other than `vacuum`) ends normally exactly if no block makes it crash. -/
theorem C107_completes_iff_partial (env : Env) (args : InstArgs) (f : DbFile) (S : AllSet env args f)
    (hv : args.command ≠ "vacuum") :
    (∃ t' evs, Completes env args f.table t' evs) ↔ ¬ SomeBlock env.codec f.table (Stuck env.build args) := by
  rw [← C107_crash_iff_partial env args f S]
  constructor
  · rintro ⟨t', evs, h⟩
    exact crashes_not h
  · intro hn
    obtain ⟨cmd, res, h1, h2, h3⟩ := set_verified S
    exact (completes_or ((verifyArgs_iff args).2 S.accepted) h1 h2 h3 S.file ((colsOk_iff _).2 S.cols)
      (fun p hp => by rw [S.one.one.2.2] at hp; cases hp) S.works S.confirmed hv).resolve_right hn

/-- So do `clone` and `overlay`; see `StuckCopy` for the blocks at which they crash. -/
theorem C107_copy_completes_iff_partial (env : Env) (args : InstArgs) (f g : DbFile) (S : CopySet env args f g) :
    (∃ t' evs, Completes env args f.table t' evs) ↔
    ¬ SomeBlock env.codec f.table fun bp _ b => StuckCopy env.build env.codec g.table args bp b := by
  rw [← C107_copy_crash_iff_partial env args f g S]
  constructor
  · rintro ⟨t', evs, h⟩
    exact crashes_not h
  · intro hn
    have hbad := (verifyArgs_iff args).2 S.accepted
    rcases S.kind with ⟨hc, hin, -, hA, hO⟩ | ⟨hc, ⟨p, hp, hgf⟩, hgc, -⟩
    · obtain ⟨a, hA⟩ := Option.ne_none_iff_exists'.1 hA
      obtain ⟨o, hO⟩ := Option.ne_none_iff_exists'.1 hO
      have hver : cloneVerify args = .ok .ok := by
        simp only [cloneVerify, hA, hO, unwrap]
        have := movedOut_iff a o
        show (Except.ok (if (MAP_AREA.intersection (a.add o)).isNone then _ else _) : Res _) = _
        rw [if_neg (fun h => S.command (.inl ⟨hc, a, o, hA, hO, this.1 h⟩))]
      exact (completes_or hbad (by rw [hc]; exact clone_command) hver (by simp) S.file ((colsOk_iff _).2 S.cols)
        (fun p hp => by rw [hin] at hp; cases hp) S.works S.confirmed (by rw [hc]; decide)).resolve_right hn
    · refine (completes_or hbad (by rw [hc]; exact overlay_command) (res := .ok)
        (by show Except.ok (overlayVerify args) = _; rw [(overlay_verified S hc).1]) (by simp) S.file
        ((colsOk_iff _).2 S.cols) ?_ S.works S.confirmed (by rw [hc]; decide)).resolve_right hn
      intro p' hp'
      rw [hp] at hp'
      cases hp'
      exact ⟨g, hgf, (colsOk_iff _).2 hgc⟩

theorem wide_nodes (i id : Nat) (h : (1 :: List.replicate 4095 0)[i]? = some id) : id ≤ 1 := by
  rcases List.mem_cons.1 (List.mem_of_getElem? h) with h | h
  · omega
  · have := (List.mem_replicate.1 h).2
    omega

theorem wide_joins {b sb : MapBlock} (Moved : Nat → Nat → Prop)
    (hn : b.nimap = [(0, ascii "air"), (1, ascii "a"), (20000, ascii "b")])
    (hid : ∀ (i id : Nat), b.nd.nodes[i]? = some id → id ≤ 1)
    (sn : sb.nimap = [(0, ascii "air"), (1, ascii "a"), (20000, ascii "b")])
    (sid : ∀ (i id : Nat), sb.nd.nodes[i]? = some id → id ≤ 1) :
    ∃ D, Joins .debug sb Moved (draftOf b) D ∧ Tidies D := by
  have hsum : ∀ e ∈ sb.nimap, Sum16 .debug e.1 20001 (e.1 + 20001) ∧ e.1 ≤ 20000 := by
    rw [sn]
    unfold Sum16
    decide
  have htop : ∀ c, (∃ n, (c, n) ∈ b.nimap) → c ≤ 20000 := by
    rintro c ⟨n, hc⟩
    rw [hn] at hc
    have : ∀ e ∈ [(0, ascii "air"), (1, ascii "a"), (20000, ascii "b")], e.1 ≤ 20000 := by decide
    exact this _ hc
  refine ⟨⟨fun c => (draftOf b).ids c ∨ ∃ e ∈ sb.nimap, Sum16 .debug e.1 20001 c,
    fun i c => (∃ j id, Moved i j ∧ sb.nd.nodes[j]? = some id ∧ Sum16 .debug id 20001 c) ∨
      ((∀ j, ¬ Moved i j) ∧ (draftOf b).node i c)⟩,
    ⟨20000, 20001, ⟨⟨ascii "b", by rw [hn]; decide⟩, htop⟩, by unfold Sum16; decide, fun e he => ⟨_, (hsum e he).1⟩, ?_,
      fun c => Iff.rfl, fun i c => Iff.rfl⟩, ?_⟩
  · intro i j x _ hx
    have := sid j x hx
    exact ⟨x + 20001, by rw [Nat.mod_eq_of_lt (by omega)], fun _ => by omega⟩
  · refine ⟨40001, ⟨.inr ⟨(20000, ascii "b"), by rw [sn]; decide, by unfold Sum16; decide⟩, ?_⟩, by decide, ?_⟩
    · rintro c (hc | ⟨e, he, hc, -⟩)
      · have := htop c hc
        omega
      · have := (hsum e he).2
        omega
    · rintro i c (⟨j, x, -, hx, hc, -⟩ | ⟨-, hx⟩)
      · have := sid j x hx
        omega
      · have := hid i c hx
        omega

/-- `clone` of one node to the next ends normally in a debug build although the block has a name for ID 20000. -/
theorem clone_wide : ∃ t' evs, Completes (editEnv (toyMap (namedBlock [(0, ascii "air"), (1, ascii "a"), (20000, ascii "b")])))
    (cloneArgs 0 1) (toyMap (namedBlock [(0, ascii "air"), (1, ascii "a"), (20000, ascii "b")])) t' evs := by
  have hwf : NimapWf [(0, ascii "air"), (1, ascii "a"), (20000, ascii "b")] :=
    ⟨by unfold SMap.Sorted; decide, by unfold NamesFit NameFits; decide⟩
  refine (C107_copy_completes_iff_partial _ _ _ _ (clone_set .debug _)).2 ?_
  rintro ⟨bp, d, b, h1, h2, h3, h4⟩
  have hall := toyMap_all (P := fun b => b.nimap = [(0, ascii "air"), (1, ascii "a"), (20000, ascii "b")] ∧
    ∀ i id, b.nd.nodes[i]? = some id → id ≤ 1) (namedBlock_wf hwf) ⟨rfl, wide_nodes⟩
  obtain ⟨hn, hid⟩ := hall _ _ _ h2 h3
  unfold StuckCopy at h4
  rw [if_neg (fun h => absurd h.1 (by decide))] at h4
  obtain ⟨-, ⟨p, h5, h6⟩, h4⟩ := h4
  have hone : ∀ p, Selected (cloneArgs 0 1).area false (unshift p ((cloneArgs 0 1).offset.getD ⟨0, 0, 0⟩)) ↔
      unshift p ⟨1, 0, 0⟩ = ⟨0, 0, 0⟩ := by
    intro p
    show Selected (some ⟨⟨0, 0, 0⟩, ⟨0, 0, 0⟩⟩) false (unshift p ⟨1, 0, 0⟩) ↔ _
    rw [selected_iff]
    generalize unshift p ⟨1, 0, 0⟩ = u
    obtain ⟨x, y, z⟩ := u
    simp only [Vec3.mk.injEq]
    unfold InBox
    simp only
    constructor
    · intro h
      have := h.2 trivial
      omega
    · rintro ⟨rfl, rfl, rfl⟩
      decide
  have hsrc : Within 1937 (⟨0, 0, 0⟩ : Vec3) ∧ Spec.Shows (Toy.codec id) (toyMap (namedBlock [(0, ascii "air"), (1, ascii "a"), (20000, ascii "b")]))
      (posAt ⟨0, 0, 0⟩ 0) (stored (namedBlock [(0, ascii "air"), (1, ascii "a"), (20000, ascii "b")])) :=
    ⟨by decide, by decide, rfl, _, List.mem_cons_self, Toy.data_rep (namedBlock_wf hwf)⟩
  obtain ⟨sn, sid⟩ := hall 0 _ _ List.mem_cons_self (Toy.data_rep (namedBlock_wf hwf))
  generalize stored (namedBlock [(0, ascii "air"), (1, ascii "a"), (20000, ascii "b")]) = sb at hsrc sn sid
  obtain ⟨D, hj, hT⟩ := wide_joins (fun i j => i < 4096 ∧ j < 4096 ∧
    Selected (cloneArgs 0 1).area false (unshift (posAt bp i) ((cloneArgs 0 1).offset.getD ⟨0, 0, 0⟩)) ∧
    shift (posAt ⟨0, 0, 0⟩ j) ((cloneArgs 0 1).offset.getD ⟨0, 0, 0⟩) = posAt bp i) hn hid sn sid
  refine h4 [⟨0, 0, 0⟩] D (List.pairwise_singleton _ _) ?_ (.join hsrc hj (.nil _)) hT
  · intro q
    rw [List.mem_singleton]
    constructor
    · rintro rfl
      refine ⟨p, h5, h6, ?_⟩
      show InBlock _ (unshift p ⟨1, 0, 0⟩)
      rw [(hone p).1 h6]
      unfold InBlock
      decide
    · rintro ⟨p', -, g2, g3⟩
      have g3 : InBlock q (unshift p' ⟨1, 0, 0⟩) := g3
      rw [(hone p').1 g2] at g3
      obtain ⟨x, y, z⟩ := q
      unfold InBlock at g3
      simp only at g3
      simp only [Vec3.mk.injEq]
      omega

end MapEditr
