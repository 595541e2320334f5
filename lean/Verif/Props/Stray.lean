import Verif.Proof.DeleteBlocks
import Verif.Proof.Machine
import Verif.Props.DeleteBlocks
import Verif.Props.Query
import Verif.Props.Spatial
import Verif.Spec.Stray
/-!
# C116: rows whose key belongs to no block

Other properties assume that all keys belong to blocks (`GoodTable`).  Nothing checks that.
-/

namespace MapEditr
open Spec

/-- C116: what a key is taken for, for all keys: whatever the key, it is taken for exactly one block. -/
theorem C116_taken (k : Int) (bp : Vec3) : Vec3.fromBlockKey k = bp ↔ TakenFor k bp := by
  rw [fromBlockKey_eq]
  obtain ⟨x, y, z⟩ := bp
  unfold TakenFor keyOf wrapI32
  simp only [Vec3.mk.injEq]
  constructor
  · rintro ⟨rfl, rfl, rfl⟩
    refine ⟨by omega, by omega, by omega, by omega⟩
  · rintro ⟨hx, hy, hz, h⟩
    have e1 : (k + 2048) % 4096 - 2048 = x := by omega
    have e2 : ((k - x) / 4096 + 2048) % 4096 - 2048 = y := by omega
    rw [e1, e2]
    refine ⟨rfl, rfl, by omega⟩

/-- C116: the 64-bit arithmetic of a debug build panics for the last 2048 keys; otherwise both builds compute that. -/
theorem C116_machine (b : Build) (k : Int) (hk : Is64 k) : Checked.fromBlockKey b k =
    if b = .debug ∧ 9223372036854773760 ≤ k then .error (.panic "i64 overflow") else .ok (Vec3.fromBlockKey k) := by
  unfold Is64 at hk
  rw [fromBlockKey_eq]
  unfold Checked.fromBlockKey
  by_cases h : 9223372036854773760 ≤ k
  · cases b with
    | debug =>
      rw [if_pos ⟨rfl, h⟩]
      unfold i64
      rw [if_neg (by omega)]
      rfl
    | release =>
      rw [if_neg (by simp)]
      have w1 : i64 .release (k + 2048) = .ok (k + 2048 - 18446744073709551616) := by
        unfold i64; rw [if_neg (by omega)]; exact congrArg Except.ok (by omega)
      rw [w1]
      simp only [res_bind_ok]
      rw [i64_ok .release _ (by omega) (by omega)]
      simp only [res_bind_ok]
      have e1 : (k + 2048 - 18446744073709551616) % 4096 - 2048 = k - 9223372036854775808 := by omega
      have e1' : (k + 2048) % 4096 - 2048 = k - 9223372036854775808 := by omega
      rw [e1, e1']
      have e2 : k - (k - 9223372036854775808) = 9223372036854775808 := by omega
      rw [e2, show wrapI32 (k - 9223372036854775808) = k - 9223372036854775808 from wrapI32_id (by omega) (by omega)]
      rfl
  · rw [if_neg fun e => h e.2]
    rw [i64_ok b (k + 2048) (by omega) (by omega)]
    simp only [res_bind_ok]
    rw [i64_ok b _ (by omega) (by omega)]
    simp only [res_bind_ok]
    generalize hx : (k + 2048) % 4096 - 2048 = x
    rw [i64_ok b (k - x) (by omega) (by omega)]
    simp only [res_bind_ok]
    rw [tdiv_exact _ _ (by omega) (by omega)]
    generalize hr : (k - x) / 4096 = r
    rw [i64_ok b r (by omega) (by omega)]
    simp only [res_bind_ok]
    rw [i64_ok b (r + 2048) (by omega) (by omega)]
    simp only [res_bind_ok]
    rw [i64_ok b _ (by omega) (by omega)]
    simp only [res_bind_ok]
    generalize hy : (r + 2048) % 4096 - 2048 = y
    rw [i64_ok b (r - y) (by omega) (by omega)]
    simp only [res_bind_ok]
    rw [tdiv_exact _ _ (by omega) (by omega), i64_ok b _ (by omega) (by omega)]
    simp only [res_bind_ok]
    rw [wrapI32_id (n := x) (by omega) (by omega), wrapI32_id (n := y) (by omega) (by omega)]
    rfl

/-- C116: the query, for all tables: it selects rows by the blocks they are taken for. -/
theorem C116_query (env : Env) (w w' : World) (i : DbId) (t : Table) (area : Option Area)
    (invert includePartial : Bool) (keys : List Int) (ho : OpenMap w i t)
    (ha : AreaOk area) (h : queryKeys env i [] area invert includePartial w = (.ok keys, w')) :
    ∀ k bp, TakenFor k bp → (k ∈ keys ↔ (∃ d, (k, d) ∈ t) ∧
      (if includePartial then ∃ p, InBlock bp p ∧ Selected area invert p
       else ∀ p, InBlock bp p → Selected area invert p)) := by
  obtain ⟨dur, cols, ho⟩ := openMap_at ho
  obtain ⟨rfl, _⟩ := queryKeys_iff ho h
  intro k bp hk
  have hw := areaKeeps_key ha invert includePartial ((C116_taken k bp).2 hk)
  rw [queryHits_eq]
  simp only [List.map_nil, nameKeeps_nil, Bool.and_true, List.mem_map, List.mem_filter]
  constructor
  · rintro ⟨⟨k, d⟩, ⟨h1, h2⟩, rfl⟩
    exact ⟨⟨d, h1⟩, hw.1 h2⟩
  · rintro ⟨⟨d, h1⟩, h2⟩
    exact ⟨(k, d), ⟨h1, hw.2 h2⟩, rfl⟩

/-- C116: `deleteblocks`, for all tables with different keys: a row is gone iff all nodes of the block it is taken for are
selected; every other row keeps its bytes. -/
theorem C116_deleteblocks (env : Env) (args : InstArgs) (t t' : Table) (evs : List Event)
    (hg : (t.map (·.1)).Nodup) (hc : args.command = "deleteblocks") (ha : AreaOk args.area)
    (h : Completes env args t t' evs) :
    (t'.map (·.1)).Nodup ∧ (∀ r ∈ t', r ∈ t) ∧ ∀ k bp d, TakenFor k bp → (k, d) ∈ t →
      ((∀ p, InBlock bp p → Selected args.area args.invert p) → k ∉ t'.map (·.1)) ∧
      ((∃ p, InBlock bp p ∧ ¬ Selected args.area args.invert p) → (k, d) ∈ t') := by
  obtain ⟨D⟩ := completes_done h (by rw [hc]; decide)
  have hb := D.body_of hc deleteBlocks_command
  obtain ⟨h1, -⟩ := deleteBlocks_run D.start hb
  obtain ⟨h2, -⟩ := openAt_unique D.fin h1
  subst h2
  refine ⟨nodup_delAll hg, fun r hr => (mem_delAll.1 hr).1, ?_⟩
  intro k bp d hk hd
  have hm : k ∈ doomed args.area args.invert t ↔ ∀ p, InBlock bp p → Selected args.area args.invert p := by
    unfold doomed
    rw [queryHits_eq]
    have hw := areaKeeps_key ha args.invert false ((C116_taken k bp).2 hk)
    simp only [Wanted, Bool.false_eq_true, if_false] at hw
    rw [← hw]
    simp only [List.mem_map, List.mem_filter, Bool.and_eq_true]
    constructor
    · rintro ⟨r, ⟨h1, h2, h3⟩, h4⟩
      rw [← h4]
      exact h2
    · intro h
      exact ⟨_, ⟨hd, h, nameKeeps_nil d⟩, rfl⟩
  constructor
  · intro hall hk
    obtain ⟨r, hr, hrk⟩ := List.mem_map.1 hk
    have := (mem_delAll.1 hr).2
    rw [hrk] at this
    exact this (hm.2 hall)
  · rintro ⟨p, hp, hns⟩
    exact mem_delAll.2 ⟨hd, fun hk => hns (hm.1 hk p hp)⟩

/-- C116: with machine integers the query does the same, unless there is one of the last 2048 keys and the build is a debug
one. -/
theorem C116_query_machine (env : Env) (i : DbId) (strs : List Bytes) (area : Option Area) (invert p : Bool) (w : World)
    (h : ∀ a, area = some a → Checked.NearArea a) (hw : ∀ m, w.dbs i = some m → ∀ r ∈ m.conn.cur ++ m.conn.durable,
      Is64 r.1 ∧ ¬ (env.build = .debug ∧ 9223372036854773760 ≤ r.1)) :
    Checked.queryKeys env i strs area invert p w = queryKeys env i strs area invert p w := by
  have hw : Checked.KeysFit (fun t => ∀ r ∈ t, Is64 r.1 ∧ ¬ (env.build = .debug ∧ 9223372036854773760 ≤ r.1)) i w :=
    fun m hm => ⟨fun r hr => hw m hm r (List.mem_append_left _ hr), fun r hr => hw m hm r (List.mem_append_right _ hr)⟩
  unfold Checked.queryKeys queryKeys
  rw [Checked.queryArea_eq env.build invert p h]
  refine Checked.run_bind_same rfl fun _ w1 h1 => ?_
  have hw1 : Checked.KeysFit (fun t => ∀ r ∈ t, Is64 r.1 ∧ ¬ (env.build = .debug ∧ 9223372036854773760 ≤ r.1)) i w1 := by
    have e : w1 = (setState .querying w).2 := by rw [h1]
    rw [e]
    exact hw.same rfl
  rw [Checked.run_lift_ok]
  simp only
  split
  · refine Checked.run_bind_same rfl fun rows w2 h2 => ?_
    have hf := Checked.iterRows_fit hw1 h2
    refine Checked.run_bind_same ?_ fun _ _ _ => rfl
    refine congrFun (foldlM_same _ (fun keys row hr => ?_) _) _
    have hv := hf _ (List.fst_mem_of_mem_zipIdx hr)
    unfold Checked.queryStep queryStep
    have hq : Checked.queryKeeps env.build (strs.map string16) (queryArea area invert p)
        (area.isSome && (queryArea area invert p).isNone) invert row.1.1 row.1.2 = .ok (queryKeeps (strs.map string16)
          (queryArea area invert p) (area.isSome && (queryArea area invert p).isNone) invert row.1.1 row.1.2) := by
      unfold Checked.queryKeeps queryKeeps
      rw [C116_machine env.build _ hv.1, if_neg hv.2]
      generalize (area.isSome && (queryArea area invert p).isNone) = e
      generalize queryArea area invert p = ba
      cases e <;> cases ba <;> rfl
    rw [hq]
    rfl
  · rfl

/-- C116: in a debug build, a query with an area that holds a whole block does not get past one of the last 2048 keys. -/
theorem C116_stops (env : Env) (i : DbId) (t : Table) (strs : List Bytes) (a : Area) (invert p : Bool) (w : World)
    (k : Int) (d : Bytes) (hb : env.build = .debug) (ho : OpenMap w i t) (ha : Checked.NearArea a)
    (hf : ∃ bp, ∀ q, InBlock bp q → InBox a.min a.max q) (hd : (k, d) ∈ t) (hk : Is64 k) (hl : 9223372036854773760 ≤ k) :
    ∀ keys w', Checked.queryKeys env i strs (some a) invert p w ≠ (.ok keys, w') := by
  intro keys w' h
  obtain ⟨c, hc⟩ : ∃ c, queryArea (some a) invert p = some c := by
    unfold queryArea
    simp only [Option.bind_some]
    split
    · cases e : a.toContainedBlockArea with
      | some c => exact ⟨c, rfl⟩
      | none =>
        obtain ⟨bp, hbp⟩ := hf
        exact absurd hbp ((C06_contained_area_none a).1 e bp)
    · exact ⟨_, rfl⟩
  unfold Checked.queryKeys at h
  rw [Checked.queryArea_eq env.build invert p (by rintro _ ⟨⟩; exact ha), hc] at h
  obtain ⟨_, w1, h1, h⟩ := run_bind_iff.1 h
  obtain ⟨dur, cols, ho⟩ := openMap_at ho
  have ho1 : OpenAt w1 i dur t cols := by
    have e : w1 = (setState .querying w).2 := by rw [h1]
    rw [e]
    exact ho
  rw [Checked.run_lift_ok] at h
  simp only [Option.isSome_some, Option.isNone_some, Bool.and_false, Bool.not_false, Bool.true_or, if_true] at h
  obtain ⟨rows, w3, h3, h⟩ := run_bind_iff.1 h
  obtain ⟨_, _, h4, -⟩ := run_bind_iff.1 h
  rw [iterRows_open ho1] at h3
  split at h3
  · cases h3
  · cases h3
    obtain ⟨n, hn⟩ : ∃ n, ((k, d), n) ∈ t.zipIdx := by
      obtain ⟨n, hn, e⟩ := List.getElem_of_mem hd
      refine ⟨n, List.mem_zipIdx_iff_getElem?.2 ?_⟩
      rw [List.getElem?_eq_getElem hn, e]
    revert h4 hn
    generalize t.zipIdx = l
    generalize ([] : List Int) = acc
    generalize w1.did i .selectAll true = v
    intro h4 hn
    induction l generalizing acc v with
    | nil => cases hn
    | cons r l ih =>
      rw [List.foldlM_cons] at h4
      obtain ⟨acc', v', h5, h6⟩ := run_bind_iff.1 h4
      rcases List.mem_cons.1 hn with rfl | hn
      · have hq : Checked.queryKeeps env.build (strs.map string16) (some c) false invert k d =
            .error (.panic "i64 overflow") := by
          have e := C116_machine env.build k hk
          rw [if_pos ⟨hb, hl⟩] at e
          unfold Checked.queryKeeps
          rw [e]
          rfl
        unfold Checked.queryStep at h5
        rw [hq] at h5
        cases h5
      · exact ih _ _ h6 hn

/-- The key 2⁵⁶ + 1 belongs to no block, and is taken for that next to the origin. -/
example : ¬ ValidKey 72057594037927937 ∧ Is64 72057594037927937 ∧ TakenFor 72057594037927937 ⟨1, 0, 0⟩ := by
  refine ⟨by decide, ⟨by decide, by decide⟩, ?_⟩
  exact (C116_taken _ _).1 rfl

/-- A block, and a row that belongs to none. -/
def strayMap : Table := [(0, [1]), (72057594037927937, [2])]

/-- Rows that belong to no block are not left alone by commands that are given an area: `deleteblocks` deletes one
because it takes it for a block in the area, with machine integers too. -/
theorem C116_false : ∃ env args t t' evs k d, EnvOk env ∧ AreaOk args.area ∧ args.area.isSome = true ∧
    (t.map (·.1)).Nodup ∧ args.command = "deleteblocks" ∧ args.invert = false ∧ Completes env args t t' evs ∧
    Checked.worker env args World.start = worker env args World.start ∧
    Is64 k ∧ ¬ ValidKey k ∧ (k, d) ∈ t ∧ k ∉ t'.map (·.1) :=
  ⟨editEnv strayMap, rowArgs false, strayMap, [(0, [1])],
    (computeThread (editEnv strayMap) (rowArgs false) World.start).2.events, 72057594037927937, [2], editEnv_ok _,
    by rintro _ ⟨⟩; decide, rfl, by decide, rfl, rfl, ⟨_, _, _, rfl, rfl, rfl, rfl, by decide, rfl, rfl⟩, rfl,
    ⟨by decide, by decide⟩, by decide, by decide, by decide⟩

/-- A row with one of the last keys stops a debug build with a panic before anything is done, whatever the area. -/
theorem C116_panics_false : ∃ env args t k d, EnvOk env ∧ (∀ n, env.fail n = false) ∧ args.area.isSome = true ∧
    mapFile env args.mapPath = some ⟨t, [⟨"pos", "INT", 1⟩, ⟨"data", "BLOB", 0⟩]⟩ ∧ (t.map (·.1)).Nodup ∧
    (k, d) ∈ t ∧ Is64 k ∧ (Checked.worker env args World.start).1 = .error (.panic "i64 overflow") ∧
    ∃ w, worker env args World.start = (.ok (), w) :=
  ⟨editEnv [(0, [1]), (9223372036854775807, [2])], rowArgs false, _, 9223372036854775807, [2], editEnv_ok _,
    fun _ => rfl, rfl, rfl, by decide, by decide, ⟨by decide, by decide⟩, rfl, _, rfl⟩

/-- A map opened by a run, with a row that belongs to no block. -/
def strayWorld : World := { exWorld with dbs := fun
  | .main => some ⟨⟨strayMap, strayMap, true, [⟨"pos", "INT", 1⟩, ⟨"data", "BLOB", 0⟩]⟩, true⟩
  | .input => none }

/-- The hypotheses of `C116_query` and `C116_query_machine` can be met, and the row is found. -/
example : OpenMap strayWorld .main strayMap ∧ AreaOk (some ⟨⟨16, 0, 0⟩, ⟨40, 15, 15⟩⟩) ∧
    Checked.NearArea ⟨⟨16, 0, 0⟩, ⟨40, 15, 15⟩⟩ ∧
    (∀ m, strayWorld.dbs .main = some m → ∀ r ∈ m.conn.cur ++ m.conn.durable,
      Is64 r.1 ∧ ¬ (exEnv.build = .debug ∧ 9223372036854773760 ≤ r.1)) ∧
    (queryKeys exEnv .main [] (some ⟨⟨16, 0, 0⟩, ⟨40, 15, 15⟩⟩) false false strayWorld).1 = .ok [72057594037927937] := by
  refine ⟨⟨_, rfl, rfl, rfl, rfl⟩, by rintro _ ⟨⟩; decide, ⟨by decide, by unfold Checked.NearPos; decide, by unfold Checked.NearPos; decide⟩, ?_, by decide⟩
  rintro _ ⟨⟩ r hr
  have : r = (0, [1]) ∨ r = (72057594037927937, [2]) := by
    simp only [strayMap, List.cons_append, List.nil_append, List.mem_cons, List.not_mem_nil, or_false] at hr
    grind
  rcases this with rfl | rfl
  · exact ⟨⟨by decide, by decide⟩, fun h => absurd h.2 (by decide)⟩
  · exact ⟨⟨by decide, by decide⟩, fun h => absurd h.2 (by decide)⟩

/-- The area of this example holds a whole block, as `C116_stops` asks for. -/
example : ∀ q, InBlock ⟨1, 0, 0⟩ q → InBox ⟨16, 0, 0⟩ ⟨40, 15, 15⟩ q := by
  intro q h
  unfold InBlock at h
  unfold InBox
  simp only at *
  omega

end MapEditr
