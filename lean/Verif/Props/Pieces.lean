import Verif.Proof.PiecesCopy
/-!
# Property C109: a map may be done in pieces

The commands that work on one map treat each block by itself.  The commands that copy take from each block that the
copied nodes are in, and from no other.
-/

namespace MapEditr
open Spec

/-- What becomes of a row depends only on what is in that row: on its key and its bytes.  It does not depend on the
other rows, nor on their order, nor on which statements failed or what else differs between two runs. -/
theorem C109_local (env env' : Env) (args : InstArgs) (t t' s s' : Table) (evs evs' : List Event)
    (ha : SameSetup env env') (hE : EnvOk env) (hE' : EnvOk env') (hk : args.command ∈ commandNames)
    (h1 : args.command ≠ "clone" ∧ args.command ≠ "overlay")
    (hn : GoodTable t) (hn' : GoodTable s)
    (h : Completes env args t t' evs) (h' : Completes env' args s s' evs')
    (k : Int) (he : s.get? k = t.get? k) : SameRow env.codec (t'.get? k) (s'.get? k) :=
  (rows_same ha hE.ord hE'.ord hk h1 hn.nodup hn'.nodup h h' he).1

/-- If hash maps are always gone through in the same order, the row holds the same bytes. -/
theorem C109_local_bytes (env env' : Env) (args : InstArgs) (t t' s s' : Table) (evs evs' : List Event)
    (ha : SameSetup env env') (hE : EnvOk env) (hE' : EnvOk env') (hk : args.command ∈ commandNames)
    (h1 : args.command ≠ "clone" ∧ args.command ≠ "overlay")
    (hn : GoodTable t) (hn' : GoodTable s) (ho : ∀ n m, env'.ord n = env.ord m)
    (h : Completes env args t t' evs) (h' : Completes env' args s s' evs')
    (k : Int) (he : s.get? k = t.get? k) : s'.get? k = t'.get? k :=
  (rows_same ha hE.ord hE'.ord hk h1 hn.nodup hn'.nodup h h' he).2 ho

theorem get?_append_perm {t t1 t2 : Table} (hn : (t.map (·.1)).Nodup) (hp : t.Perm (t1 ++ t2)) (k : Int) :
    (t2.get? k = none ∧ t1.get? k = t.get? k) ∨ (t1.get? k = none ∧ t2.get? k = t.get? k) := by
  have hn' : ((t1 ++ t2).map (·.1)).Nodup := (hp.map _).nodup_iff.1 hn
  rw [List.map_append, List.nodup_append] at hn'
  obtain ⟨n1, n2, n3⟩ := hn'
  cases e1 : t1.get? k with
  | some d =>
    have m1 := Table.get?_some_mem e1
    refine .inl ⟨?_, ?_⟩
    · rw [Table.get?_none]
      exact fun h => n3 k (List.mem_map.2 ⟨_, m1, rfl⟩) k h rfl
    · exact (Table.get?_of_mem hn (hp.mem_iff.2 (List.mem_append_left _ m1))).symm
  | none =>
    refine .inr ⟨rfl, ?_⟩
    refine Option.ext fun d => ⟨fun h => ?_, fun h => ?_⟩
    · exact Table.get?_of_mem hn (hp.mem_iff.2 (List.mem_append_right _ (Table.get?_some_mem h)))
    · rcases List.mem_append.1 (hp.mem_iff.1 (Table.get?_some_mem h)) with m | m
      · exact absurd (List.mem_map.2 ⟨_, m, rfl⟩) (Table.get?_none.1 e1)
      · exact Table.get?_of_mem n2 m

/-- A map that is done in two pieces ends up as when it is done at once. -/
theorem C109_pieces (env env1 env2 : Env) (args : InstArgs) (t t' t1 t1' t2 t2' : Table) (evs evs1 evs2 : List Event)
    (ha1 : SameSetup env env1) (ha2 : SameSetup env env2) (hE : EnvOk env) (hE1 : EnvOk env1) (hE2 : EnvOk env2)
    (hk : args.command ∈ commandNames) (hcmd : args.command ≠ "clone" ∧ args.command ≠ "overlay")
    (hg : GoodTable t) (hp : t.Perm (t1 ++ t2))
    (h : Completes env args t t' evs) (h1 : Completes env1 args t1 t1' evs1) (h2 : Completes env2 args t2 t2' evs2)
    (k : Int) : SameRow env.codec (t'.get? k) ((t1'.get? k).or (t2'.get? k)) := by
  have hn' : ((t1 ++ t2).map (·.1)).Nodup := (hp.map _).nodup_iff.1 hg.nodup
  rw [List.map_append, List.nodup_append] at hn'
  obtain ⟨n1, n2, -⟩ := hn'
  rcases get?_append_perm hg.nodup hp k with ⟨e2, e1⟩ | ⟨e1, e2⟩
  · rw [rows_none hk hcmd n2 h2 e2, Option.or_none]
    exact (rows_same ha1 hE.ord hE1.ord hk hcmd hg.nodup n1 h h1 e1).1
  · rw [rows_none hk hcmd n1 h1 e1, Option.none_or]
    exact (rows_same ha2 hE.ord hE2.ord hk hcmd hg.nodup n2 h h2 e2).1

/-- The counts of the two pieces, of blocks that were skipped too, add up to the count of the whole. -/
theorem C109_counts (env env1 env2 : Env) (args : InstArgs) (t t' t1 t1' t2 t2' : Table) (evs evs1 evs2 : List Event)
    (ha1 : SameSetup env env1) (ha2 : SameSetup env env2) (hm : args.command ∈ editNames)
    (hg : GoodTable t) (hp : t.Perm (t1 ++ t2))
    (h : Completes env args t t' evs) (h1 : Completes env1 args t1 t1' evs1) (h2 : Completes env2 args t2 t2' evs2)
    (what : String) :
    (∀ n1 n2, CountIs evs1 what n1 → CountIs evs2 what n2 → CountIs evs what (n1 + n2)) ∧
    ∀ n1 m1 n2 m2, Count2Is evs1 what n1 m1 → Count2Is evs2 what n2 m2 →
      Count2Is evs what (n1 + n2) (m1 + m2) := by
  have hn' : ((t1 ++ t2).map (·.1)).Nodup := (hp.map _).nodup_iff.1 hg.nodup
  rw [List.map_append, List.nodup_append] at hn'
  obtain ⟨q1, q2, -⟩ := hn'
  obtain ⟨F, G, hadd, hF⟩ := run_counts (args := args) env.build env.codec hm
  obtain ⟨f, g⟩ := hF env t t' evs rfl rfl hg.nodup h what
  obtain ⟨f1, g1⟩ := hF env1 t1 t1' evs1 ha1.2 ha1.1 q1 h1 what
  obtain ⟨f2, g2⟩ := hF env2 t2 t2' evs2 ha2.2 ha2.1 q2 h2 what
  obtain ⟨a1, a2⟩ := hadd t t1 t2 hp what
  refine ⟨fun n1 n2 c1 c2 => ?_, fun n1 m1 n2 m2 c1 c2 => ?_⟩
  · rw [f, a1, ← (f1 n1).1 c1, ← (f2 n2).1 c2]
  · rw [g, a2, ← (g1 n1 m1).1 c1, ← (g2 n2 m2).1 c2]
    rfl

/-- Each text stands for one count. -/
theorem C109_count_unique (env : Env) (args : InstArgs) (t t' : Table) (evs : List Event)
    (hm : args.command ∈ editNames) (hg : GoodTable t) (h : Completes env args t t' evs) (what : String) :
    (∃ n, CountIs evs what n ∧ ∀ n', CountIs evs what n' → n' = n) ∧
    ∃ n m, Count2Is evs what n m ∧ ∀ n' m', Count2Is evs what n' m' → n' = n ∧ m' = m := by
  obtain ⟨F, G, -, hF⟩ := run_counts (args := args) env.build env.codec hm
  obtain ⟨f, g⟩ := hF env t t' evs rfl rfl hg.nodup h what
  refine ⟨⟨F t what, (f _).2 rfl, fun n' h => (f _).1 h⟩, (G t what).1, (G t what).2, (g _ _).2 rfl, ?_⟩
  intro n' m' h
  have := (g _ _).1 h
  rw [← this]
  exact ⟨rfl, rfl⟩

/-- The counts do not depend on the order of the rows. -/
theorem C109_order (env env' : Env) (args : InstArgs) (t t' s s' : Table) (evs evs' : List Event)
    (ha : SameSetup env env') (hm : args.command ∈ editNames) (hg : GoodTable t) (hp : t.Perm s)
    (h : Completes env args t t' evs) (h' : Completes env' args s s' evs') (what : String) :
    (∀ n, CountIs evs' what n ↔ CountIs evs what n) ∧ ∀ n m, Count2Is evs' what n m ↔ Count2Is evs what n m := by
  obtain ⟨F, G, hadd, hF⟩ := run_counts (args := args) env.build env.codec hm
  obtain ⟨f, g⟩ := hF env t t' evs rfl rfl hg.nodup h what
  obtain ⟨f', g'⟩ := hF env' s s' evs' ha.2 ha.1 ((hp.map _).nodup_iff.1 hg.nodup) h' what
  obtain ⟨a1, a2⟩ := hadd t s [] (by simpa using hp) what
  obtain ⟨b1, b2⟩ := hadd s s [] (by simp) what
  have e1 : F t what = F s what := by rw [a1, ← b1]
  have e2 : G t what = G s what := by rw [a2, ← b2]
  exact ⟨fun n => by rw [f, f', e1], fun n m => by rw [g, g', e2]⟩

/-- If all is in order beside the blocks, the whole can be done exactly if both pieces can. -/
theorem C109_completes (env env1 env2 : Env) (args : InstArgs) (f f1 f2 : DbFile)
    (ha1 : SameSetup env env1) (ha2 : SameSetup env env2)
    (S : AllSet env args f) (S1 : AllSet env1 args f1) (S2 : AllSet env2 args f2) (hv : args.command ≠ "vacuum")
    (hp : f.table.Perm (f1.table ++ f2.table)) :
    (∃ t' evs, Completes env args f.table t' evs) ↔
      (∃ t' evs, Completes env1 args f1.table t' evs) ∧ ∃ t' evs, Completes env2 args f2.table t' evs := by
  rw [C107_completes_iff_partial _ _ _ S hv, C107_completes_iff_partial _ _ _ S1 hv, C107_completes_iff_partial _ _ _ S2 hv,
    ha1.1, ha2.1, ha1.2, ha2.2, ← not_or]
  refine not_congr ?_
  constructor
  · rintro ⟨bp, d, b, a1, a2, a3, a4⟩
    rcases List.mem_append.1 (hp.mem_iff.1 a2) with m | m
    · exact .inl ⟨bp, d, b, a1, m, a3, a4⟩
    · exact .inr ⟨bp, d, b, a1, m, a3, a4⟩
  · rintro (⟨bp, d, b, a1, a2, a3, a4⟩ | ⟨bp, d, b, a1, a2, a3, a4⟩)
    · exact ⟨bp, d, b, a1, hp.mem_iff.2 (List.mem_append_left _ a2), a3, a4⟩
    · exact ⟨bp, d, b, a1, hp.mem_iff.2 (List.mem_append_right _ a2), a3, a4⟩

/-! ## Copying -/

/-- What becomes of a row when copying depends only on what is in that row and in the rows of the blocks that nodes of
this block come from: at most eight blocks, of the same map (`clone`) or of the other one (`overlay`). -/
theorem C109_copy_local (env env' : Env) (args : InstArgs) (f g f' g' : DbFile) (t' s' : Table) (evs evs' : List Event)
    (ha : SameSetup env env') (S : CopySet env args f g) (S' : CopySet env' args f' g')
    (h : Completes env args f.table t' evs) (h' : Completes env' args f'.table s' evs')
    (bp : Vec3) (hbp : ValidBlockPos bp) (hk : f'.table.get? (keyOf bp) = f.table.get? (keyOf bp))
    (hs : ∀ q, ValidBlockPos q → ComesFrom (args.offset.getD ⟨0, 0, 0⟩) bp q →
      g'.table.get? (keyOf q) = g.table.get? (keyOf q)) :
    SameRow env.codec (t'.get? (keyOf bp)) (s'.get? (keyOf bp)) :=
  (copy_same ha S S' h h' hbp hk hs).1

/-- The same, to the byte. -/
theorem C109_copy_local_bytes (env env' : Env) (args : InstArgs) (f g f' g' : DbFile) (t' s' : Table)
    (evs evs' : List Event) (ha : SameSetup env env') (S : CopySet env args f g) (S' : CopySet env' args f' g')
    (ho : ∀ n m, env'.ord n = env.ord m)
    (h : Completes env args f.table t' evs) (h' : Completes env' args f'.table s' evs')
    (bp : Vec3) (hbp : ValidBlockPos bp) (hk : f'.table.get? (keyOf bp) = f.table.get? (keyOf bp))
    (hs : ∀ q, ValidBlockPos q → ComesFrom (args.offset.getD ⟨0, 0, 0⟩) bp q →
      g'.table.get? (keyOf q) = g.table.get? (keyOf q)) :
    s'.get? (keyOf bp) = t'.get? (keyOf bp) :=
  (copy_same ha S S' h h' hbp hk hs).2 ho

/-! ## Examples -/

theorem metaArgs_completes (t : Table) (hg : GoodTable t) :
    ∃ t' evs, Completes (editEnv t) (metaArgs "deletemeta") t t' evs :=
  C40_deletemeta_completes (editEnv t) (metaArgs "deletemeta") _ (editEnv_ok _) (fun _ => rfl) (editEnv_file _)
    ⟨_, rfl⟩ hg (by rw [← verifyArgs_iff]; decide) rfl (by intro a h; cases h; decide) rfl (by intro h; cases h)
    (fun h => absurd rfl h)

/-- A map of three rows, the middle one unreadable, and two pieces of it: the second row; and the others, in reverse
order. -/
example (b : MapBlock) :
    let t : Table := [(0, Toy.data b), (1, [25]), (2, Toy.data b)]
    let t1 : Table := [(1, [25])]
    let t2 : Table := [(2, Toy.data b), (0, Toy.data b)]
    SameSetup (editEnv t) (editEnv t1) ∧ SameSetup (editEnv t) (editEnv t2) ∧ GoodTable t ∧ t.Perm (t1 ++ t2) ∧
    "deletemeta" ∈ editNames ∧ (∃ t' evs, Completes (editEnv t) (metaArgs "deletemeta") t t' evs) ∧
    (∃ t' evs, Completes (editEnv t1) (metaArgs "deletemeta") t1 t' evs) ∧
    ∃ t' evs, Completes (editEnv t2) (metaArgs "deletemeta") t2 t' evs := by
  have key : ∀ d : Bytes, GoodTable [(0, d), (1, [25]), (2, d)] ∧ GoodTable [((1 : Int), ([25] : Bytes))] ∧
      GoodTable [(2, d), (0, d)] ∧
      ([(0, d), (1, [25]), (2, d)] : Table).Perm ([(1, [25])] ++ [(2, d), (0, d)]) := by
    intro d
    refine ⟨⟨by show [(0 : Int), 1, 2].Nodup; decide, ?_⟩, ⟨by decide, ?_⟩, ⟨by show [(2 : Int), 0].Nodup; decide, ?_⟩, ?_⟩
    · intro r hr
      simp only [List.mem_cons, List.not_mem_nil, or_false] at hr
      rcases hr with rfl | rfl | rfl
      · exact (by decide : ValidKey 0)
      · exact (by decide : ValidKey 1)
      · exact (by decide : ValidKey 2)
    · intro r hr
      simp only [List.mem_cons, List.not_mem_nil, or_false] at hr
      subst hr
      exact (by decide : ValidKey 1)
    · intro r hr
      simp only [List.mem_cons, List.not_mem_nil, or_false] at hr
      rcases hr with rfl | rfl
      · exact (by decide : ValidKey 2)
      · exact (by decide : ValidKey 0)
    · exact (List.Perm.swap _ _ _).trans (.cons _ (.swap _ _ _))
  obtain ⟨k1, k2, k3, k4⟩ := key (Toy.data b)
  exact ⟨⟨rfl, rfl⟩, ⟨rfl, rfl⟩, k1, k4, by decide, metaArgs_completes _ k1, metaArgs_completes _ k2, metaArgs_completes _ k3⟩

theorem cloneOne_set (t : Table) (hg : GoodTable t) : CopySet (editEnv t) (cloneArgs 0 1)
    ⟨t, [⟨"pos", "INT", 1⟩, ⟨"data", "BLOB", 0⟩]⟩ ⟨t, [⟨"pos", "INT", 1⟩, ⟨"data", "BLOB", 0⟩]⟩ where
  ok := editEnv_ok _
  works := fun _ => rfl
  file := rfl
  cols := ⟨_, rfl⟩
  good := hg
  accepted := by rw [← verifyArgs_iff]; decide
  command := (clone_set .debug (Toy.block 28)).command
  area := by intro a h; cases h; decide
  confirmed := nofun
  kind := .inl ⟨rfl, rfl, rfl, nofun, nofun⟩

theorem cloneOne_completes (t : Table) (hg : GoodTable t) (ht : AllBlocks (Toy.codec id) t Tame) :
    ∃ t' evs, Completes (editEnv t) (cloneArgs 0 1) t t' evs := by
  refine C47_clone_completes _ (cloneArgs 0 1) _ ⟨⟨0, 0, 0⟩, ⟨0, 0, 0⟩⟩ ⟨1, 0, 0⟩ (editEnv_ok _) (fun _ => rfl)
    (editEnv_file _) ⟨_, rfl⟩ hg (cloneOne_set t hg).accepted rfl rfl (by decide) rfl rfl ?_ (by intro h; cases h) ht
  intro h
  exact h ⟨0, 0, 0⟩ (by unfold InBox; decide) (by decide)

/-- A map of one block, and the same with an unreadable block beside it: copying a node within the first block needs
none of the second. -/
example : ∃ t' s' evs evs', SameSetup (editEnv (toyMap (Toy.block 28))) (editEnv (oneMap (Toy.block 28))) ∧
    CopySet (editEnv (toyMap (Toy.block 28))) (cloneArgs 0 1) ⟨toyMap (Toy.block 28), [⟨"pos", "INT", 1⟩, ⟨"data", "BLOB", 0⟩]⟩
      ⟨toyMap (Toy.block 28), [⟨"pos", "INT", 1⟩, ⟨"data", "BLOB", 0⟩]⟩ ∧
    CopySet (editEnv (oneMap (Toy.block 28))) (cloneArgs 0 1) ⟨oneMap (Toy.block 28), [⟨"pos", "INT", 1⟩, ⟨"data", "BLOB", 0⟩]⟩
      ⟨oneMap (Toy.block 28), [⟨"pos", "INT", 1⟩, ⟨"data", "BLOB", 0⟩]⟩ ∧
    Completes (editEnv (toyMap (Toy.block 28))) (cloneArgs 0 1) (toyMap (Toy.block 28)) t' evs ∧
    Completes (editEnv (oneMap (Toy.block 28))) (cloneArgs 0 1) (oneMap (Toy.block 28)) s' evs' ∧
    s'.get? 0 = t'.get? 0 := by
  have hw := Toy.block_wf 28 (by omega)
  have S := cloneOne_set (toyMap (Toy.block 28)) (toyMap_good _)
  have S' := cloneOne_set (oneMap (Toy.block 28)) (oneMap_good _)
  obtain ⟨t', evs, h⟩ := cloneOne_completes _ (toyMap_good _) (toyMap_all hw (toy_tame 28))
  obtain ⟨s', evs', h'⟩ := cloneOne_completes _ (oneMap_good _) (oneMap_all hw (toy_tame 28))
  refine ⟨t', s', evs, evs', ⟨rfl, rfl⟩, S, S', h, h', ?_⟩
  have key : ∀ (d : Bytes) (q : Vec3), ComesFrom ⟨1, 0, 0⟩ ⟨0, 0, 0⟩ q →
      Table.get? [(0, d)] (keyOf q) = Table.get? [(0, d), (1, [25])] (keyOf q) := by
    rintro d q ⟨p, h1, h2⟩
    have e : q = ⟨0, 0, 0⟩ ∨ q = ⟨-1, 0, 0⟩ := by
      obtain ⟨x, y, z⟩ := q
      simp only [Vec3.mk.injEq]
      unfold InBlock unshift at h2
      unfold InBlock at h1
      simp only at h1 h2
      omega
    rcases e with rfl | rfl <;> rfl
  exact C109_copy_local_bytes (editEnv (toyMap (Toy.block 28))) (editEnv (oneMap (Toy.block 28))) _ _ _ _ _ _ _ _ _
    ⟨rfl, rfl⟩ S S' (fun _ _ => rfl) h h' ⟨0, 0, 0⟩ origin_valid rfl
    fun q _ hq => key _ q hq

end MapEditr
