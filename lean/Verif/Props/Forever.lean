import Verif.Proof.TidyKeep
import Verif.Props.Total
/-!
# Property C101: however long a map is used

`C98_uses` and `C100_next` bound the number of uses: `replacenodes` may give a block one more ID than it had.  It does
not where the name tables are as Minetest writes them, with the IDs 0, 1, 2, ..., each used by a node: then they stay
so, and a block has at most 4096 IDs, one for each node.
-/

namespace MapEditr
open Spec

/-- Every command leaves the name tables as Minetest writes them, if they were so. -/
theorem C101_tables (c : Codec) (args : InstArgs) (s t t' : Table) (K : Nat) (hg : GoodTable t)
    (hb : AllBlocks c t (Usual K)) (hp : AllBlocks c t PlainInvs) (ht : AllBlocks c t Tidy)
    (hs : args.command = "overlay" → Source c K s ∧ AllBlocks c s Tidy) (hK' : K ≤ 7280)
    (ha : AnyArgs args) (h : Ran c args s t t') : AllBlocks c t' Tidy :=
  tidy_every hg hb hp ht hs hK' ha h

theorem usual_tidy {K : Nat} {b : MapBlock} (h : Usual K b) (ht : Tidy b) (w : Wf b) : Usual 4095 b :=
  ⟨tidy_fine (Nat.le_refl _) ht w h.fine.named, h.gen, h.modern, h.room⟩

/-- The program is used on a map any number of times, each time in any way: the contents are what the command lines
mean, of those uses that happened, and the map stays as it must be for this. -/
theorem C101_uses (c : Codec) (ls : List (CmdLine × Table × Bool)) (f f' : DbFile) (hm : MapOk c 4095 f)
    (ht : AllBlocks c f.table Tidy)
    (hl : ∀ x ∈ ls, LineOk x.1 ∧ (x.1.name = "overlay" →
      Source c 4095 x.2.1 ∧ AllBlocks c x.2.1 InPlace ∧ AllBlocks c x.2.1 Tidy))
    (hc : MapColumns f'.cols) (h : UsedAll c ls f.table f'.table) :
    Applied c ls (nodesOf c f.table, restsOf c f.table) (nodesOf c f'.table, restsOf c f'.table) ∧
      MapOk c 4095 f' ∧ AllBlocks c f'.table Tidy := by
  obtain ⟨-, hg, hb, hp⟩ := hm
  obtain ⟨t', cols'⟩ := f'
  obtain ⟨t, cols⟩ := f
  simp only at h hg hb hp ht ⊢
  suffices hx : Applied c ls (nodesOf c t, restsOf c t) (nodesOf c t', restsOf c t') ∧
      GoodTable t' ∧ AllBlocks c t' (Usual 4095) ∧ AllBlocks c t' InPlace ∧ AllBlocks c t' Tidy from
    ⟨hx.1, ⟨hc, hx.2.1, hx.2.2.1, hx.2.2.2.1⟩, hx.2.2.2.2⟩
  clear hc
  induction h with
  | nil => exact ⟨.nil, hg, hb, hp, ht⟩
  | @cons l s said t t1 env sys n ls t' h1 _ ih =>
    obtain ⟨a1, a2⟩ := hl _ List.mem_cons_self
    have hl' := fun x hx => hl x (List.mem_cons_of_mem _ hx)
    have hs1 : l.name = "overlay" → Source c 4095 s ∧ AllBlocks c s PlainInvs := fun e =>
      ⟨(a2 e).1, Spec.AllBlocks.mono (a2 e).2.1 fun b h => h.plain⟩
    have hplain : AllBlocks c t PlainInvs := Spec.AllBlocks.mono hp fun b h => h.plain
    obtain ⟨u1, -⟩ := C98_uses c [(l, s, said)] t t1 4095 hg hb hplain (by
      intro x hx
      rw [List.mem_singleton] at hx
      subst hx
      exact ⟨a1, hs1⟩) (by omega) (by simp only [List.length_cons, List.length_nil]; omega) (.cons h1 .nil)
    have hrest : GoodTable t1 ∧ AllBlocks c t1 (Usual 4095) ∧ AllBlocks c t1 InPlace ∧ AllBlocks c t1 Tidy := by
      rcases used_step a1 h1 with ⟨rfl, -⟩ | ⟨args, h2, h3, h4⟩
      · exact ⟨hg, hb, hp, ht⟩
      · have hs : args.command = "overlay" → Source c 4095 s ∧ AllBlocks c s InPlace ∧ AllBlocks c s Tidy :=
          fun e => a2 (h2.name ▸ e)
        obtain ⟨k, -⟩ := means_every hg hb hplain (fun e => hs1 (h2.name ▸ e)) (Nat.le_refl _) (by omega) h3 h4
        have kt := tidy_every hg hb hplain ht (fun e => ⟨(hs e).1, (hs e).2.2⟩) (by omega) h3 h4
        exact ⟨k.good, fun q d b hk hd => usual_tidy (k.usual q d b hk hd) (kt q d b hk hd) (wf_of_represents hd),
          place_every hg hb hp (fun e => ⟨(hs e).1, (hs e).2.1⟩) (Nat.le_refl _) (by omega) h3 h4, kt⟩
    obtain ⟨r1, r2⟩ := ih hl' hrest.2.2.2 hrest.1 hrest.2.1 hrest.2.2.1
    refine ⟨?_, r2⟩
    generalize (nodesOf c t1, restsOf c t1) = V1 at u1 r1
    cases u1 with
    | skip h5 => rw [applied_nil h5]; exact .skip r1
    | take h2 h5 =>
      rw [← applied_nil h5] at r1
      exact .take h2 r1

/-- However often the program has been used before, and however these uses ended, the next one comes to its end. -/
theorem C101_next (env : Env) (ls : List (CmdLine × Table × Bool)) (l : CmdLine) (f0 f : DbFile) (s : Table)
    (x : Nat → Sys) (act : Nat → Option Actor) (hm : MapOk env.codec 4095 f0) (ht : AllBlocks env.codec f0.table Tidy)
    (hls : ∀ x ∈ ls, LineOk x.1 ∧ (x.1.name = "overlay" →
      Source env.codec 4095 x.2.1 ∧ AllBlocks env.codec x.2.1 InPlace ∧ AllBlocks env.codec x.2.1 Tidy))
    (hu : UsedAll env.codec ls f0.table f.table) (hcols : MapColumns f.cols)
    (hl : LineOk l) (hs : l.name ≠ "setparam2") (hr : NotRefused l) (hE : EnvOk env)
    (hfail : ∀ n, env.fail n = false) (hf : mapFile env l.map = some f)
    (hsrc : l.name = "overlay" → ∃ p g, ("input_map", [p]) ∈ l.matches_ ∧ mapFile env p = some g ∧
      MapColumns g.cols ∧ g.table = s ∧ Source env.codec 4095 s ∧ AllBlocks env.codec s PlainInvs)
    (h : Execution (runCmdLine env l.yes l.name l.map l.matches_) x act) (hx : Fair x act)
    (hcr : ∀ n, act n ≠ some .crash) (hno : ∀ n, act n ≠ some (.user false)) :
    ∃ k n t' args V, (x k).exit = some 0 ∧ (.info, .text "Done.") ∈ (x k).printed ∧
      Used env.codec l s true f.table t' env (x k) n ∧ Got l args ∧
      Applied env.codec ls (nodesOf env.codec f0.table, restsOf env.codec f0.table) V ∧
      nodesOf env.codec t' = meaning args (nodesOf env.codec s) V.1 ∧
      restsOf env.codec t' = restMeaning args (restsOf env.codec s) V.2 := by
  obtain ⟨hap, hm', -⟩ := C101_uses env.codec ls f0 f hm ht hls hcols hu
  obtain ⟨k, n, t', args, g1, g2, -, g3, g4, g5, g6⟩ := C99_total env l 4095 f s x act hl hs hr hE hfail hf hm'
    (by omega) (by omega) hsrc h hx hcr hno
  exact ⟨k, n, t', args, _, g1, g2, g3, g4, hap, g5, g6⟩

/-! ## An example -/

theorem toy_tidy : Tidy (stored (Toy.block 28)) := by
  refine ⟨rfl, ?_, ?_, ?_⟩
  · show [ascii "air", ascii "a"].Nodup
    decide
  · intro e he
    have he : e ∈ [(0, ascii "air"), (1, ascii "a")] := he
    show e.1 ∈ 1 :: List.replicate 4095 0
    simp only [List.mem_cons, List.not_mem_nil, or_false] at he
    rcases he with rfl | rfl
    · exact List.mem_cons_of_mem _ (List.mem_replicate.2 ⟨by omega, rfl⟩)
    · exact List.mem_cons_self
  · intro _ id hid
    have hid : id ∈ 1 :: List.replicate 4095 0 := hid
    show id < 2
    rcases List.mem_cons.1 hid with rfl | h
    · omega
    · rw [List.eq_of_mem_replicate h]; omega

theorem askCmd_again (n : Nat) (t : Table)
    (hm : MapOk (Toy.codec id) 4095 ⟨t, [⟨"pos", "INT", 1⟩, ⟨"data", "BLOB", 0⟩]⟩)
    (ht : AllBlocks (Toy.codec id) t Tidy) :
    ∃ t', UsedAll (Toy.codec id) (List.replicate n (askCmd, [], true)) t t' := by
  induction n generalizing t with
  | zero => exact ⟨t, .nil⟩
  | succ n ih =>
    obtain ⟨x, act, e1, e2, e3, e4⟩ := C99_possible (editEnv t) askCmd
    obtain ⟨k, i, t1, args, -, -, -, g1, -⟩ := C99_total (editEnv t) askCmd 4095 _ [] x act askCmd_ok
      (by decide) askCmd_notRefused (editEnv_ok _) (fun _ => rfl) (editEnv_file _) hm (by omega) (by omega)
      (fun h => absurd h (by decide)) e1 e2 e3 e4
    obtain ⟨-, k1, k2⟩ := C101_uses (Toy.codec id) [(askCmd, [], true)] _
      ⟨t1, [⟨"pos", "INT", 1⟩, ⟨"data", "BLOB", 0⟩]⟩ hm ht (by
        intro y hy
        rw [List.mem_singleton] at hy
        subst hy
        exact ⟨askCmd_ok, fun h => absurd h (by decide)⟩) ⟨_, rfl⟩ (.cons g1 .nil)
    obtain ⟨t', h'⟩ := ih t1 k1 k2
    exact ⟨t', .cons g1 h'⟩

/-- The hypotheses of `C101_next` are met after `askCmd` has been used a million times, each time to its end. -/
example : ∃ t x act f f0, UsedAll (Toy.codec id) (List.replicate 1000000 (askCmd, [], true)) (toyMap (Toy.block 28)) t ∧
    f0.table = toyMap (Toy.block 28) ∧ MapOk (Toy.codec id) 4095 f0 ∧ AllBlocks (Toy.codec id) f0.table Tidy ∧
    mapFile (editEnv t) askCmd.map = some f ∧ f.table = t ∧
    Execution (runCmdLine (editEnv t) askCmd.yes askCmd.name askCmd.map askCmd.matches_) x act ∧
    Fair x act ∧ (∀ n, act n ≠ some .crash) ∧ (∀ n, act n ≠ some (.user false)) ∧
    ∃ n, (x n).exit = some 0 ∧ (.info, .text "Done.") ∈ (x n).printed := by
  have hw := Toy.block_wf 28 (by omega)
  have hm : MapOk (Toy.codec id) 4095 ⟨toyMap (Toy.block 28), [⟨"pos", "INT", 1⟩, ⟨"data", "BLOB", 0⟩]⟩ :=
    ⟨⟨_, rfl⟩, toyMap_good _, toyMap_all hw toy_usual, toyMap_all hw toy_place⟩
  have ht : AllBlocks (Toy.codec id) (toyMap (Toy.block 28)) Tidy := toyMap_all hw toy_tidy
  generalize 1000000 = m
  obtain ⟨t, hu⟩ := askCmd_again m _ hm ht
  obtain ⟨x, act, e1, e2, e3, e4⟩ := C99_possible (editEnv t) askCmd
  refine ⟨t, x, act, _, _, hu, rfl, hm, ht, editEnv_file _, rfl, e1, e2, e3, e4, ?_⟩
  obtain ⟨k, n, t', args, V, g1, g2, -⟩ := C101_next (editEnv t) _ askCmd _
    ⟨t, [⟨"pos", "INT", 1⟩, ⟨"data", "BLOB", 0⟩]⟩ [] x act hm ht (by
      intro y hy
      rw [List.eq_of_mem_replicate hy]
      exact ⟨askCmd_ok, fun h => absurd h (by decide)⟩) hu ⟨_, rfl⟩ askCmd_ok
    (by decide) askCmd_notRefused (editEnv_ok _) (fun _ => rfl) (editEnv_file _)
    (fun h => absurd h (by decide)) e1 e2 e3 e4
  exact ⟨k, g1, g2⟩

end MapEditr
