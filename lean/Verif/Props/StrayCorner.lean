import Verif.Props.StrayEdits
/-!
# C116: positions of the nodes of far rows

`from_block_key` gives any 32-bit number for z; the corner of the block, `pos * 16`, need not fit.
-/

namespace MapEditr
open Spec

/-- C116: the corner of the block that a key is taken for, for all keys but the last 2048. -/
theorem C116_corner (b : Build) (k : Int) (bp : Vec3) (hk : Is64 k) (hl : k < 9223372036854773760) (ht : TakenFor k bp) :
    Checked.blockCorner b k = if -134217728 ≤ bp.z ∧ bp.z < 134217728 then .ok ⟨bp.x * 16, bp.y * 16, bp.z * 16⟩
      else match b with
        | .debug => .error (.panic "i32 overflow")
        | .release => .ok ⟨bp.x * 16, bp.y * 16, wrapI32 (bp.z * 16)⟩ := by
  have h := C116_machine b k hk
  rw [if_neg (by omega), (C116_taken k bp).2 ht] at h
  unfold Checked.blockCorner
  rw [h]
  obtain ⟨⟨x1, x2⟩, ⟨y1, y2⟩, -, -⟩ := ht
  show Checked.vmulS b bp 16 = _
  unfold Checked.vmulS
  rw [i32_ok b (bp.x * 16) (by omega) (by omega), i32_ok b (bp.y * 16) (by omega) (by omega)]
  simp only [res_bind_ok]
  by_cases hz : -134217728 ≤ bp.z ∧ bp.z < 134217728
  · rw [if_pos hz, i32_ok b (bp.z * 16) (by omega) (by omega)]
    rfl
  · rw [if_neg hz]
    unfold i32
    rw [if_neg (by omega)]
    cases b <;> rfl

/-- All keys of the file are below the last 2048. -/
private def KeysOk (w : World) : Prop :=
  ∀ m, w.dbs .main = some m → ∀ r ∈ m.conn.cur ++ m.conn.durable, Is64 r.1 ∧ r.1 < 9223372036854773760

private theorem far_query {env : Env} {w : World} {k : Int} {d : Bytes} {t : Table} (invert : Bool)
    (hf : ∀ n, env.fail n = false) (ho : OpenMap w .main ((k, d) :: t)) (hkeys : KeysOk w) (hs : w.status.done = 0) :
    ∃ w1 ks dur cols, Checked.queryKeys env .main [] none invert true w = (.ok (k :: ks), w1) ∧
      OpenAt w1 .main dur ((k, d) :: t) cols ∧ w1.status.done = 0 := by
  obtain ⟨dur, cols, ho⟩ := openMap_at ho
  have hq := C116_query_machine env .main [] none invert true w nofun
    (fun m hm r hr => ⟨(hkeys m hm r hr).1, fun h => by have := (hkeys m hm r hr).2; omega⟩)
  rcases queryKeys_open ho [] none invert true (env := env) with ⟨w1, h1, q⟩ | ⟨h, _⟩
  · rw [← hq] at h1
    have hhits : (queryHits [] none invert true ((k, d) :: t)).map (·.1) =
        k :: (queryHits [] none invert true t).map (·.1) := by
      rw [queryHits_eq, queryHits_eq, List.filter_cons_of_pos]
      · rfl
      · simp only [List.map_nil, nameKeeps_nil, Bool.and_true]
        rfl
    rw [hhits] at h1
    refine ⟨w1, _, dur, cols, h1, ?_, ?_⟩
    · show w1.dbs .main = _
      rw [q.dbs]
      exact ho
    · rw [q.status]
      exact hs
  · rw [hf] at h
    cases h

/-- The first steps of every loop body: the block is read, and the rest goes on with it. -/
private theorem far_step {env : Env} {v : World} {k : Int} {d : Bytes} {t : Table} {b : MapBlock} {dur : Table}
    {cols : List Col} (hf : ∀ n, env.fail n = false) (ho1 : OpenAt v .main dur ((k, d) :: t) cols)
    (hd : v.status.done = 0) (hr : Represents env.codec d b) :
    ∃ v3, ∀ {α : Type} (f : Option MapBlock → Run α), (do
      Checked.incDone env.build
      let data ← expect (← getBlock env .main k)
      f (← Run.okOr (deserialize env.codec data)) : Run α) v = f (some b) v3 := by
  have hi : Checked.incDone env.build v = (.ok (), v.setStatus fun st => { st with done := 1 }) := by
    unfold Checked.incDone
    rw [hd, Checked.u64_ok _ _ (by omega)]
  have ho2 : OpenAt (v.setStatus fun st => { st with done := 1 }) .main dur ((k, d) :: t) cols := ho1
  have hget : getBlock env .main k (v.setStatus fun st => { st with done := 1 }) =
      (.ok (.ok d), (v.setStatus fun st => { st with done := 1 }).did .main (.select k) true) := by
    rw [getBlock_open ho2, hf]
    simp only [Bool.false_eq_true, if_false]
    have : Table.get? ((k, d) :: t) k = some d := by simp [Table.get?]
    rw [this]
  refine ⟨(v.setStatus fun st => { st with done := 1 }).did .main (.select k) true, fun f => ?_⟩
  rw [run_bind_ok hi, run_bind_ok hget, run_bind_ok (expect_ok d _)]
  have hdes : Run.okOr (deserialize env.codec d) ((v.setStatus fun st => { st with done := 1 }).did .main (.select k) true) =
      (.ok (some b), (v.setStatus fun st => { st with done := 1 }).did .main (.select k) true) := by
    rw [deserialize_iff.2 hr]
    rfl
  rw [run_bind_ok hdes]

/-- The row a far key is found in, and what a debug build makes of it. -/
structure FarRow (env : Env) (w : World) (k : Int) (d : Bytes) (t : Table) : Prop where
  debug : env.build = .debug
  works : ∀ n, env.fail n = false
  opened : OpenMap w .main ((k, d) :: t)
  keys : ∀ m, w.dbs .main = some m → ∀ r ∈ m.conn.cur ++ m.conn.durable, Is64 r.1 ∧ r.1 < 9223372036854773760
  fresh : w.status.done = 0
  readable : ∃ b, Represents env.codec d b
  far : ∃ bp, TakenFor k bp ∧ ¬ (-134217728 ≤ bp.z ∧ bp.z < 134217728)

private theorem far_corner {env : Env} {w : World} {k : Int} {d : Bytes} {t : Table} (h : FarRow env w k d t) :
    Checked.blockCorner env.build k = .error (.panic "i32 overflow") := by
  obtain ⟨bp, ht, hz⟩ := h.far
  have hk : Is64 k ∧ k < 9223372036854773760 := by
    obtain ⟨m, h1, h2, -⟩ := h.opened
    exact h.keys m h1 (k, d) (List.mem_append_left _ (by rw [h2]; exact List.mem_cons_self))
  have hc := C116_corner env.build k bp hk.1 hk.2 ht
  rw [if_neg hz, h.debug] at hc
  rw [h.debug]
  exact hc

/-- A command that goes over all rows and computes the corner of each readable block panics. -/
private theorem far_panics {env : Env} {w : World} {k : Int} {d : Bytes} {t : Table} (h : FarRow env w k d t)
    {σ : Type} {s0 : σ} {invert : Bool} {step : σ → Int → Run σ} {fin : σ → Run Unit}
    (hstep : ∀ b v v3, (∀ {α : Type} (f : Option MapBlock → Run α), (do
        Checked.incDone env.build
        let data ← expect (← getBlock env .main k)
        f (← Run.okOr (deserialize env.codec data)) : Run α) v = f (some b) v3) →
      Checked.blockCorner env.build k = .error (.panic "i32 overflow") →
      step s0 k v = (.error (.panic "i32 overflow"), v3)) :
    ((do
      let keys ← Checked.queryKeys env .main [] none invert true
      beginEditing
      let c ← keys.foldlM step s0
      fin c : Run Unit) w).1 = .error (.panic "i32 overflow") := by
  obtain ⟨w1, ks, dur, cols, h1, ho1, hd⟩ := far_query invert h.works h.opened h.keys h.fresh
  obtain ⟨b, hr⟩ := h.readable
  rw [run_bind_ok h1]
  have hbe : beginEditing w1 = (.ok (), w1.inState .editing) := rfl
  rw [run_bind_ok hbe, List.foldlM_cons]
  obtain ⟨v3, h3⟩ := far_step (v := w1.inState .editing) h.works ho1 hd hr
  have := hstep b _ v3 h3 (far_corner h)
  rw [run_bind, run_bind, this]

/-- C116: a debug build panics in `deletemeta` of a whole map, at a readable row with a far z. -/
theorem C116_deletemeta_far (env : Env) (args : InstArgs) (w : World) (k : Int) (d : Bytes) (t : Table)
    (h : FarRow env w k d t) (harea : args.area = none) (hnode : args.node = none) :
    (Checked.deleteMetadata env args w).1 = .error (.panic "i32 overflow") := by
  unfold Checked.deleteMetadata
  rw [harea, hnode]
  refine far_panics h (step := Checked.deleteMetaStep env args none) ?_
  intro b v v3 h3 hc
  refine (h3 _).trans ?_
  simp only [Option.bind_none, Option.isSome_none, Option.isNone_none, List.filterMap_nil, List.isEmpty_nil,
    Bool.not_true, Bool.false_and, Bool.false_eq_true, if_false]
  rw [hc]
  rfl

/-- C116: so it does in `deletetimers`. -/
theorem C116_deletetimers_far (env : Env) (args : InstArgs) (w : World) (k : Int) (d : Bytes) (t : Table)
    (h : FarRow env w k d t) (harea : args.area = none) (hnode : args.node = none) :
    (Checked.deleteTimers env args w).1 = .error (.panic "i32 overflow") := by
  unfold Checked.deleteTimers
  rw [harea, hnode]
  refine far_panics h (step := Checked.deleteTimersStep env args none) ?_
  intro b v v3 h3 hc
  refine (h3 _).trans ?_
  simp only [Option.bind_none, Option.isSome_none, Option.isNone_none, List.filterMap_nil, List.isEmpty_nil,
    Bool.not_true, Bool.false_and, Bool.false_eq_true, if_false]
  rw [hc]
  rfl

/-- C116: so it does in `setmetavar`. -/
theorem C116_setmetavar_far (env : Env) (args : InstArgs) (w : World) (k : Int) (d : Bytes) (t : Table)
    (h : FarRow env w k d t) (harea : args.area = none) (hnodes : args.nodes = []) (name : String)
    (hkey : args.key = some name) :
    (Checked.setMetaVar env args w).1 = .error (.panic "i32 overflow") := by
  unfold Checked.setMetaVar
  rw [harea, hnodes, hkey]
  refine far_panics h (step := Checked.setMetaVarStep env args (toBytes name) (toBytes (args.value.getD "")) []) ?_
  intro b v v3 h3 hc
  refine (h3 _).trans ?_
  simp only [Option.bind_none, Option.isSome_none, Option.isNone_none, List.filterMap_nil, List.isEmpty_nil,
    Bool.not_true, Bool.false_and, Bool.false_eq_true, if_false]
  rw [hc]
  rfl

/-- C116: so it does in `replaceininv`. -/
theorem C116_replaceininv_far (env : Env) (args : InstArgs) (w : World) (k : Int) (d : Bytes) (t : Table)
    (h : FarRow env w k d t) (harea : args.area = none) (hnodes : args.nodes = []) (name : String)
    (hitem : args.item = some name) :
    (Checked.replaceInInv env args w).1 = .error (.panic "i32 overflow") := by
  unfold Checked.replaceInInv
  rw [harea, hnodes, hitem]
  refine far_panics h (step := Checked.replaceInInvStep env args (toBytes name)
    ((args.newItem.map toBytes).getD (if args.delete then [] else toBytes name)) []) ?_
  intro b v v3 h3 hc
  refine (h3 _).trans ?_
  simp only [Option.bind_none, Option.isSome_none, Option.isNone_none, List.filterMap_nil, List.isEmpty_nil,
    Bool.not_true, Bool.false_and, Bool.false_eq_true, if_false]
  rw [hc]
  rfl

/-- A map with one readable row, whose key is taken for a block 2²⁷ blocks away. -/
def farMap : Table := [(2251799813685248, Toy.data (Toy.block 29))]
def farWorld : World := { World.start with dbs := fun _ => some ⟨⟨farMap, farMap, true, []⟩, true⟩ }

/-- The hypotheses can be met. -/
theorem farWorld_row : FarRow (editEnv []) farWorld 2251799813685248 (Toy.data (Toy.block 29)) [] where
  debug := rfl
  works := fun _ => rfl
  opened := ⟨_, rfl, rfl, rfl, rfl⟩
  keys := by
    intro m hm r hr
    cases hm
    have : r = (2251799813685248, Toy.data (Toy.block 29)) := by
      rcases List.mem_append.1 hr with h | h <;> exact List.mem_singleton.1 h
    subst this
    exact ⟨⟨by decide, by decide⟩, by decide⟩
  fresh := rfl
  readable := ⟨_, Toy.data_rep (Toy.block_wf 29 (by omega))⟩
  far := ⟨⟨0, 0, 134217728⟩, (C116_taken _ _).1 (by decide), by decide⟩

/-- The debug build stops, although nothing is wrong with the data of any row. -/
theorem C116_far_false : ∃ env args w t k d b, EnvOk env ∧ (∀ n, env.fail n = false) ∧ OpenMap w .main t ∧
    (t.map (·.1)).Nodup ∧ (k, d) ∈ t ∧ Is64 k ∧ k < 9223372036854773760 ∧ Represents env.codec d b ∧ args.area = none ∧
    args.node = none ∧ (Checked.deleteMetadata env args w).1 = .error (.panic "i32 overflow") :=
  ⟨editEnv [], runArgs false "deletemeta" "map" none, farWorld, _, 2251799813685248, _, _, editEnv_ok _, fun _ => rfl,
    farWorld_row.opened, by show [(2251799813685248 : Int)].Nodup; simp, List.mem_singleton.2 rfl,
    ⟨by decide, by decide⟩, by decide, Toy.data_rep (Toy.block_wf 29 (by omega)), rfl, rfl,
    C116_deletemeta_far _ _ _ _ _ _ farWorld_row rfl rfl⟩

/-- The other commands stop as well. -/
example : (Checked.deleteTimers (editEnv []) (runArgs false "deletetimers" "map" none) farWorld).1 =
      .error (.panic "i32 overflow") ∧
    (Checked.setMetaVar (editEnv []) { runArgs false "setmetavar" "map" none with key := some "k" } farWorld).1 =
      .error (.panic "i32 overflow") ∧
    (Checked.replaceInInv (editEnv []) { runArgs false "replaceininv" "map" none with item := some "i" } farWorld).1 =
      .error (.panic "i32 overflow") :=
  ⟨C116_deletetimers_far _ _ _ _ _ _ farWorld_row rfl rfl,
    C116_setmetavar_far _ _ _ _ _ _ farWorld_row rfl rfl "k" rfl,
    C116_replaceininv_far _ _ _ _ _ _ farWorld_row rfl rfl "i" rfl⟩

end MapEditr
