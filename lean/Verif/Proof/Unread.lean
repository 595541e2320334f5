import Verif.Proof.Runs
/-! # Copying commands none of whose reads succeed -/

namespace MapEditr

/-- No block of the main map was read. -/
def NoRead (ds : List Did) : Prop := ∀ d ∈ ds, d.db = .main → (∃ k, d.stmt = .select k) → d.ok = false

/-- Nothing was written, not even in vain. -/
def NoPut (ds : List Did) : Prop := ∀ d ∈ ds, (∀ k v, d.stmt ≠ .put k v) ∧ ∀ k, d.stmt ≠ .del k

theorem noRead_append {a b : List Did} : NoRead (a ++ b) ↔ NoRead a ∧ NoRead b := by
  unfold NoRead
  simp only [List.mem_append]
  exact ⟨fun h => ⟨fun d hd => h d (.inl hd), fun d hd => h d (.inr hd)⟩,
    fun h d hd => hd.elim (h.1 d) (h.2 d)⟩

theorem noPut_append {a b : List Did} (h : NoPut a) (h' : NoPut b) : NoPut (a ++ b) := fun d hd =>
  (List.mem_append.mp hd).elim (h d) (h' d)

/-- If no block of the main map is read, nothing is written, no block is counted as failed, and the result is such. -/
def Idles (m : Run α) (p : α → Prop) : Prop := ∀ w, ∃ ds, (m w).2.trace = w.trace ++ ds ∧
  (NoRead ds → NoPut ds ∧ (m w).2.status.failed = w.status.failed ∧ ∀ a, (m w).1 = .ok a → p a)

/-- Statements are added to the trace. -/
def Grows (m : Run α) : Prop := ∀ w, ∃ ds, (m w).2.trace = w.trace ++ ds

theorem grows_ext {m : Run α} (h : Inv (Ext fun _ => True) m) : Grows m := fun w => (h w).elim fun ds h => ⟨ds, h.1⟩

theorem idles_bind {m : Run α} {k : α → Run β} {p : α → Prop} {q : β → Prop} (hm : Idles m p)
    (hg : ∀ a, Grows (k a)) (hk : ∀ a, p a → Idles (k a) q) : Idles (m >>= k) q := by
  intro w
  obtain ⟨ds, h1, h2⟩ := hm w
  rw [run_bind]
  revert h1 h2
  rcases m w with ⟨r, w1⟩
  intro h1 h2
  cases r with
  | error e => exact ⟨ds, h1, fun h => ⟨(h2 h).1, (h2 h).2.1, fun a ha => nomatch ha⟩⟩
  | ok a =>
    by_cases hn : NoRead ds
    · obtain ⟨h3, h4, h5⟩ := h2 hn
      obtain ⟨ds', h6, h7⟩ := hk a (h5 a rfl) w1
      refine ⟨ds ++ ds', ?_, fun h => ?_⟩
      · show (k a w1).2.trace = _
        rw [h6]
        show w1.trace ++ ds' = _
        rw [show w1.trace = _ from h1, List.append_assoc]
      · obtain ⟨h8, h9, h10⟩ := h7 (noRead_append.mp h).2
        exact ⟨noPut_append h3 h8, h9.trans h4, h10⟩
    · obtain ⟨ds', h6⟩ := hg a w1
      refine ⟨ds ++ ds', ?_, fun h => absurd (noRead_append.mp h).1 hn⟩
      show (k a w1).2.trace = _
      rw [h6]
      show w1.trace ++ ds' = _
      rw [show w1.trace = _ from h1, List.append_assoc]

theorem idles_weaken {m : Run α} {p q : α → Prop} (h : Idles m p) (hpq : ∀ a, p a → q a) : Idles m q := fun w => by
  obtain ⟨ds, h1, h2⟩ := h w
  exact ⟨ds, h1, fun h => ⟨(h2 h).1, (h2 h).2.1, fun a ha => hpq a ((h2 h).2.2 a ha)⟩⟩

/-- No statement is executed. -/
theorem idles_still {m : Run α} {p : α → Prop} (h : ∀ w, (m w).2.trace = w.trace ∧
    (m w).2.status.failed = w.status.failed ∧ ∀ a, (m w).1 = .ok a → p a) : Idles m p := fun w =>
  ⟨[], by rw [(h w).1, List.append_nil], fun _ => ⟨fun d hd => (nomatch hd), (h w).2⟩⟩

theorem idles_pure {a : α} {p : α → Prop} (h : p a) : Idles (pure a) p :=
  idles_still fun w => ⟨rfl, rfl, fun b hb => by cases hb; exact h⟩

theorem idles_lift (r : Res α) : Idles (Run.lift r) fun _ => True := idles_still fun _ => ⟨rfl, rfl, fun _ _ => trivial⟩

theorem idles_foldlM {f : β → α → Run β} {p : β → Prop} (hg : ∀ b a, Grows (f b a)) (h : ∀ b a, p b → Idles (f b a) p)
    (l : List α) (b : β) (hb : p b) : Idles (l.foldlM f b) p := by
  have hgl : ∀ (l : List α) b, Grows (l.foldlM f b) := by
    intro l
    induction l with
    | nil => exact fun b w => ⟨[], (List.append_nil _).symm⟩
    | cons a l ih =>
      intro b w
      rw [List.foldlM_cons, run_bind]
      obtain ⟨ds, h1⟩ := hg b a w
      revert h1
      rcases f b a w with ⟨r, w1⟩
      intro h1
      cases r with
      | error e => exact ⟨ds, h1⟩
      | ok x =>
        obtain ⟨ds', h2⟩ := ih x w1
        refine ⟨ds ++ ds', ?_⟩
        show (List.foldlM f x l w1).2.trace = _
        rw [h2, show w1.trace = _ from h1, List.append_assoc]
  induction l generalizing b with
  | nil => exact idles_pure hb
  | cons a l ih =>
    rw [List.foldlM_cons]
    exact idles_bind (h b a hb) (fun x => hgl l x) fun x hx => ih x hx

/-- Statements that neither read a block nor write. -/
def Aloof (s : Sql) : Prop := (∀ k, s ≠ .select k) ∧ (∀ k v, s ≠ .put k v) ∧ ∀ k, s ≠ .del k

theorem exec_trace (env : Env) (i : DbId) (s : Sql) (w : World) : ((exec env i s w).1 = .error (.panic "no such database") ∧
      (exec env i s w).2.trace = w.trace ∨ (exec env i s w).1 = .ok true ∧ (exec env i s w).2.trace = w.trace ++ [⟨i, s, true⟩] ∨
    (exec env i s w).1 = .ok false ∧ ∃ l, (exec env i s w).2.trace = w.trace ++ ⟨i, s, false⟩ :: l ∧
      (l = [] ∨ l = [⟨.main, .rollback, true⟩])) ∧ (exec env i s w).2.status = w.status := by
  unfold exec
  split
  · exact ⟨.inl ⟨rfl, rfl⟩, rfl⟩
  · split
    · exact ⟨.inr (.inr ⟨rfl, [], rfl, .inl rfl⟩), rfl⟩
    · split
      · refine ⟨.inr (.inr ⟨rfl, ?_⟩), ?_⟩
        · obtain ⟨l, h, hl⟩ := failed_trace w env i s
          exact ⟨l, h, hl.imp_right (·.2)⟩
        · rcases failed_cases w env i s with h | ⟨hi, m, -, -, -, h⟩ <;> rw [h] <;> rfl
      · exact ⟨.inr (.inl ⟨rfl, rfl⟩), rfl⟩

theorem noPut_rollback : NoPut [⟨.main, .rollback, true⟩] := fun d hd => by
  rw [List.mem_singleton.mp hd]; exact ⟨nofun, nofun⟩

theorem idles_exec (env : Env) (i : DbId) {s : Sql} (hs : Aloof s) : Idles (exec env i s) fun _ => True := fun w => by
  obtain ⟨h, h2⟩ := exec_trace env i s w
  have hst : ∀ ok, NoPut [⟨i, s, ok⟩] := fun ok d hd => by rw [List.mem_singleton.mp hd]; exact hs.2
  rcases h with h | h | ⟨h, l, h1, hl⟩
  · exact ⟨[], by rw [h.2, List.append_nil], fun _ => ⟨nofun, by rw [h2], fun _ _ => trivial⟩⟩
  · exact ⟨_, h.2, fun _ => ⟨hst _, by rw [h2], fun _ _ => trivial⟩⟩
  · refine ⟨_, h1, fun _ => ⟨?_, by rw [h2], fun _ _ => trivial⟩⟩
    rcases hl with rfl | rfl
    · exact hst _
    · exact noPut_append (hst false) noPut_rollback

/-- A read of a block that does not work. -/
theorem idles_select (env : Env) (k : Int) : Idles (exec env .main (.select k)) fun b => b = false := fun w => by
  obtain ⟨h, h2⟩ := exec_trace env .main (.select k) w
  have hst : ∀ ok, NoPut [⟨.main, .select k, ok⟩] := fun ok d hd => by
    rw [List.mem_singleton.mp hd]; exact ⟨nofun, nofun⟩
  rcases h with h | h | ⟨h, l, h1, hl⟩
  · exact ⟨[], by rw [h.2, List.append_nil], fun _ => ⟨nofun, by rw [h2], fun a ha => by rw [h.1] at ha; cases ha⟩⟩
  · exact ⟨_, h.2, fun hn => absurd (hn _ (List.mem_singleton.mpr rfl) rfl ⟨k, rfl⟩) (by simp)⟩
  · refine ⟨_, h1, fun _ => ⟨?_, by rw [h2], fun a ha => by rw [h] at ha; cases ha; rfl⟩⟩
    rcases hl with rfl | rfl
    · exact hst _
    · exact noPut_append (hst false) noPut_rollback

theorem idles_begin (env : Env) (i : DbId) : Idles (beginIfNeeded env i) fun _ => True := by
  unfold beginIfNeeded
  have hg : ∀ m : MapDb, Grows (if (!m.inTransaction) = true then exec env i .begin else pure true) := fun m w => by
    split
    · obtain ⟨ds, h, -⟩ := idles_exec env i (s := .begin) ⟨nofun, nofun, nofun⟩ w
      exact ⟨ds, h⟩
    · exact ⟨[], (List.append_nil _).symm⟩
  refine idles_bind (p := fun _ => True) (idles_still fun w => ?_) hg fun m _ => ?_
  · unfold theDb
    split <;> exact ⟨rfl, rfl, fun _ _ => trivial⟩
  · split
    · exact idles_exec env i ⟨nofun, nofun, nofun⟩
    · exact idles_pure trivial

theorem grows_bind {m : Run α} {k : α → Run β} (hm : Grows m) (hk : ∀ a, Grows (k a)) : Grows (m >>= k) := by
  intro w
  obtain ⟨ds, h⟩ := hm w
  rw [run_bind]
  revert h
  rcases m w with ⟨r, w1⟩
  intro h
  cases r with
  | error e => exact ⟨ds, h⟩
  | ok a =>
    obtain ⟨ds', h'⟩ := hk a w1
    refine ⟨ds ++ ds', ?_⟩
    show (k a w1).2.trace = _
    rw [h', show w1.trace = _ from h, List.append_assoc]

theorem idles_grows {m : Run α} {p : α → Prop} (h : Idles m p) : Grows m := fun w => (h w).elim fun ds h => ⟨ds, h.1⟩

theorem grows_pure (a : α) : Grows (pure a : Run α) := fun _ => ⟨[], (List.append_nil _).symm⟩

theorem idles_theDb (i : DbId) : Idles (theDb i) fun _ => True := idles_still fun w => by
  unfold theDb
  split <;> exact ⟨rfl, rfl, fun _ _ => trivial⟩

theorem idles_getBlock (env : Env) (k : Int) : Idles (getBlock env .main k) fun r => r = .error .databaseError := by
  unfold getBlock
  have h2 : ∀ ok : Bool, Grows (if ok = true then theDb .main >>= fun m => match m.conn.cur.get? k with
      | some d => pure (.ok d)
      | none => pure (.error .missingData) else pure (.error DbErr.databaseError) : Run (Except DbErr Bytes)) := fun ok => by
    split
    · refine grows_bind (idles_grows (idles_theDb _)) fun m => ?_
      split <;> exact grows_pure _
    · exact grows_pure _
  refine idles_bind (idles_begin env .main) (fun ok => ?_) fun ok _ => ?_
  · split
    · exact grows_bind (idles_grows (idles_select env k)) h2
    · exact grows_pure _
  · split
    · refine idles_bind (idles_select env k) h2 fun ok hok => ?_
      subst hok
      exact idles_pure rfl
    · exact idles_pure rfl

theorem idles_getGenerated (env : Env) (k : Int) : Idles (getGenerated env .main k) fun r => r = none := by
  unfold getGenerated
  refine idles_bind (idles_getBlock env k) (fun r => ?_) fun r hr => ?_
  · split <;> exact grows_pure _
  · subst hr
    exact idles_pure rfl

/-- A cache of blocks that are not there. -/
def NoneIn (c : CacheMap (Option β)) : Prop := ∀ e ∈ c.map, e.2 = none

theorem noneIn_get {c : CacheMap (Option β)} (h : NoneIn c) {k : Int} {r : Option β} (hr : c.get k = some r) : r = none := by
  unfold CacheMap.get at hr
  rcases hf : c.map.find? (fun e => e.1 == k) with - | e
  · rw [hf] at hr; cases hr
  · rw [hf] at hr
    cases hr
    exact h e (List.mem_of_find?_eq_some hf)

theorem noneIn_insert {c : CacheMap (Option β)} (h : NoneIn c) (k : Int) : NoneIn (c.insert k none) := by
  have hr : ∀ (m : List (Int × Option β)) k, (∀ e ∈ m, e.2 = none) → ∀ e ∈ CacheMap.remove m k, e.2 = none :=
    fun m k h e he => h e (List.mem_filter.mp he).1
  intro e he
  unfold CacheMap.insert at he
  have : ∀ (q : List Int) (m : List (Int × Option β)), (∀ e ∈ m, e.2 = none) →
      e ∈ (k, none) :: CacheMap.remove m k → e.2 = none := by
    intro q m hm he
    rcases List.mem_cons.mp he with rfl | he
    · rfl
    · exact hr m k hm e he
  split at he
  rename_i q m hq
  refine this q m ?_ he
  split at hq
  · split at hq
    · cases hq; exact hr _ _ h
    · cases hq; exact h
  · cases hq; exact h

theorem idles_cloneCached (env : Env) (c : CacheMap BlockResult) (hc : NoneIn c) (k : Int) :
    Idles (cloneCached env c k) fun r => r.1 = none ∧ NoneIn r.2 := by
  unfold cloneCached
  rcases hg : c.get k with - | r
  · refine idles_bind (idles_getGenerated env k) (fun o => ?_) fun o ho => ?_
    · cases o with
      | none => exact grows_pure _
      | some d => exact grows_bind (grows_ext (inv_deser (ext_all env).toFrame d)) fun _ => grows_pure _
    · subst ho
      exact idles_pure ⟨rfl, noneIn_insert hc k⟩
  · exact idles_pure ⟨noneIn_get hc hg, hc⟩

/-- `cloneStep` after the first read. -/
theorem ext_cloneRest (env : Env) (dst : Area) (off : Vec3) (k : Int) (r : BlockResult × CacheMap BlockResult) :
    Inv (Ext fun _ => True) (match r.1 with
      | none => pure r.2
      | some (.error _) => incFailed >>= fun _ => pure r.2
      | some (.ok b) => Run.unwrap (dst.absBlockOverlap (Vec3.fromBlockKey k)) >>= fun part =>
        (part.sub off).toTouchingBlockArea.positions.foldlM (cloneSrc env (part.sub off) off (Vec3.fromBlockKey k)) (b, r.2)
          >>= fun st => Run.lift (cleanNimap env.build st.1) >>= fun b => ser env b >>= fun s =>
            setBlock env .main k s >>= fun x => expect x >>= fun _ => pure st.2) := by
  have C := ext_all env
  have F := C.toFrame
  split
  · exact inv_pure F _
  · exact inv_bind F (inv_incFailed F) fun _ => inv_pure F _
  · refine inv_bind F (inv_unwrap F _) fun part => inv_bind F (inv_foldlM F _ (fun st pos => ?_) _) fun st =>
      inv_bind F (inv_lift F _) fun b => inv_save F _ _ (inv_pure F _)
    unfold cloneSrc
    refine inv_ite _ (inv_pure F _) (inv_bind F (inv_lift F _) fun k =>
      inv_bind F (inv_cloneCached C _ _) fun ⟨r, cache⟩ => ?_)
    simp only
    split
    · exact inv_bind F (inv_lift F _) fun _ => inv_pure F _
    · exact inv_pure F _

theorem ext_cloneStep (env : Env) (dst : Area) (off : Vec3) (c : CacheMap BlockResult) (k : Int) :
    Inv (Ext fun _ => True) (cloneStep env dst off c k) :=
  inv_bind (ext_all env).toFrame (inv_incDone (ext_all env).toFrame) fun _ =>
    inv_bind (ext_all env).toFrame (inv_cloneCached (ext_all env) _ _) fun r => ext_cloneRest env dst off k r

theorem idles_cloneStep (env : Env) (dst : Area) (off : Vec3) (c : CacheMap BlockResult) (hc : NoneIn c) (k : Int) :
    Idles (cloneStep env dst off c k) NoneIn := by
  unfold cloneStep
  refine idles_bind (p := fun _ => True) (idles_still fun w => ⟨rfl, rfl, fun _ _ => trivial⟩) (fun _ =>
    grows_bind (idles_grows (idles_cloneCached env c hc k)) fun r => grows_ext (ext_cloneRest env dst off k r)) fun _ _ =>
    idles_bind (idles_cloneCached env c hc k) (fun r => grows_ext (ext_cloneRest env dst off k r)) fun r hr => ?_
  obtain ⟨r, c'⟩ := r
  obtain ⟨hr, hc'⟩ := hr
  cases hr
  exact idles_pure hc'

/-- `overlayOffsetStep` after the first read. -/
theorem ext_offsetRest (env : Env) (dst : Option Area) (off : Vec3) (cache : CacheMap (Option MapBlock)) (k : Int)
    (o : Option Bytes) : Inv (Ext fun _ => True) (match o with
      | none => pure cache
      | some d => deser env d >>= fun r => match r with
        | .error _ => incFailed >>= fun _ => pure cache
        | .ok b => (match dst with
            | none => (pure ⟨(Vec3.fromBlockKey k).mulS 16, ((Vec3.fromBlockKey k).mulS 16).addS 15⟩ : Run Area)
            | some a => Run.unwrap (a.absBlockOverlap (Vec3.fromBlockKey k))) >>= fun part =>
          (part.sub off).toTouchingBlockArea.positions.foldlM (overlaySrc env (part.sub off) off (Vec3.fromBlockKey k))
            (b, cache) >>= fun st => Run.lift (cleanNimap env.build st.1) >>= fun b => ser env b >>= fun s =>
            setBlock env .main k s >>= fun x => expect x >>= fun _ => pure st.2) := by
  have C := ext_all env
  have F := C.toFrame
  split
  · exact inv_pure F _
  · refine inv_bind F (inv_deser F _) fun r => ?_
    cases r with
    | error e => exact inv_bind F (inv_incFailed F) fun _ => inv_pure F _
    | ok b =>
      refine inv_bind F ?_ fun part => ?_
      · split
        · exact inv_pure F _
        · exact inv_unwrap F _
      · refine inv_bind F (inv_foldlM F _ (fun st pos => ?_) _) fun st =>
          inv_bind F (inv_lift F _) fun b => inv_save F _ _ (inv_pure F _)
        unfold overlaySrc
        refine inv_ite _ (inv_pure F _) (inv_bind F (inv_lift F _) fun k =>
          inv_bind F (inv_overlayCached C _ _) fun ⟨r, cache⟩ => ?_)
        simp only
        split
        · exact inv_bind F (inv_lift F _) fun _ => inv_pure F _
        · exact inv_pure F _

theorem offsetStep_eq (env : Env) (dst : Option Area) (off : Vec3) (cache : CacheMap (Option MapBlock)) (k : Int) :
    overlayOffsetStep env dst off cache k = incDone >>= fun _ => getGenerated env .main k >>= fun o => match o with
      | none => pure cache
      | some d => deser env d >>= fun r => match r with
        | .error _ => incFailed >>= fun _ => pure cache
        | .ok b => (match dst with
            | none => (pure ⟨(Vec3.fromBlockKey k).mulS 16, ((Vec3.fromBlockKey k).mulS 16).addS 15⟩ : Run Area)
            | some a => Run.unwrap (a.absBlockOverlap (Vec3.fromBlockKey k))) >>= fun part =>
          (part.sub off).toTouchingBlockArea.positions.foldlM (overlaySrc env (part.sub off) off (Vec3.fromBlockKey k))
            (b, cache) >>= fun st => Run.lift (cleanNimap env.build st.1) >>= fun b => ser env b >>= fun s =>
            setBlock env .main k s >>= fun x => expect x >>= fun _ => pure st.2 := by
  unfold overlayOffsetStep
  cases dst <;> rfl

theorem ext_offsetStep (env : Env) (dst : Option Area) (off : Vec3) (cache : CacheMap (Option MapBlock)) (k : Int) :
    Inv (Ext fun _ => True) (overlayOffsetStep env dst off cache k) := by
  rw [offsetStep_eq]
  exact inv_bind (ext_all env).toFrame (inv_incDone (ext_all env).toFrame) fun _ =>
    inv_bind (ext_all env).toFrame ((ext_all env).gen _ _) fun r => ext_offsetRest env dst off cache k r

theorem idles_offsetStep (env : Env) (dst : Option Area) (off : Vec3) (cache : CacheMap (Option MapBlock)) (k : Int) :
    Idles (overlayOffsetStep env dst off cache k) fun _ => True := by
  rw [offsetStep_eq]
  refine idles_bind (p := fun _ => True) (idles_still fun w => ⟨rfl, rfl, fun _ _ => trivial⟩) (fun _ =>
    grows_bind (idles_grows (idles_getGenerated env k)) fun r => grows_ext (ext_offsetRest env dst off cache k r))
    fun _ _ => idles_bind (idles_getGenerated env k) (fun r => grows_ext (ext_offsetRest env dst off cache k r)) fun r hr => ?_
  subst hr
  exact idles_pure trivial

theorem idles_iterRows (env : Env) (i : DbId) : Idles (iterRows env i) fun _ => True := by
  unfold iterRows
  have h2 : ∀ ok : Bool, Idles (if ok = true then theDb i >>= fun m => pure m.conn.cur else Run.unwrap none)
      fun _ => True := fun ok => by
    split
    · exact idles_bind (idles_theDb i) (fun _ => grows_pure _) fun _ _ => idles_pure trivial
    · exact idles_lift _
  have h1 : ∀ ok : Bool, Idles (if ok = true then exec env i .selectAll >>= fun ok => if ok = true then theDb i >>= fun m =>
      pure m.conn.cur else Run.unwrap none else Run.unwrap none) fun _ => True := fun ok => by
    split
    · exact idles_bind (idles_exec env i ⟨nofun, nofun, nofun⟩) (fun ok => idles_grows (h2 ok)) fun ok _ => h2 ok
    · exact idles_lift _
  exact idles_bind (idles_begin env i) (fun ok => idles_grows (h1 ok)) fun ok _ => h1 ok

theorem idles_then {m : Run α} {k : α → Run β} {p : α → Prop} {q : β → Prop} (hm : Idles m p) (hk : ∀ a, Idles (k a) q) :
    Idles (m >>= k) q := idles_bind hm (fun a => idles_grows (hk a)) fun a _ => hk a

theorem idles_queryKeys (env : Env) (i : DbId) (strs : List Bytes) (area : Option Area) (inv part : Bool) :
    Idles (queryKeys env i strs area inv part) fun _ => True := by
  unfold queryKeys
  have hs : ∀ s, Idles (setState s) fun _ => True := fun s => idles_still fun w => ⟨rfl, rfl, fun _ _ => trivial⟩
  have ht : ∀ n, Idles (setTotal n) fun _ => True := fun n => idles_still fun w => ⟨rfl, rfl, fun _ _ => trivial⟩
  have hend : ∀ keys : List Int, Idles (do
      setTotal keys.length
      setState .ignore
      return keys : Run (List Int)) fun _ => True := fun keys =>
    idles_then (ht _) fun _ => idles_then (hs _) fun _ => idles_pure trivial
  refine idles_then (hs _) fun _ => ?_
  dsimp only
  split
  · refine idles_then (idles_iterRows env i) fun rows => idles_then (p := fun _ => True) ?_ hend
    refine idles_foldlM (fun b a => ?_) (fun b a _ => ?_) _ _ trivial
    · unfold queryStep
      split
      · split
        · exact grows_bind (idles_grows (ht _)) fun _ => grows_pure _
        · exact grows_pure _
      · exact grows_pure _
    · unfold queryStep
      split
      · split
        · exact idles_then (ht _) fun _ => idles_pure trivial
        · exact idles_pure trivial
      · exact idles_pure trivial
  · exact idles_then (p := fun _ => True) (idles_pure trivial) hend

theorem idles_setState (s : InstState) : Idles (setState s) fun _ => True :=
  idles_still fun w => ⟨rfl, rfl, fun _ _ => trivial⟩

theorem idles_clone (env : Env) (cap : Nat) (args : InstArgs) : Idles (clone env cap args) fun _ => True := by
  unfold clone
  refine idles_then (p := fun _ => True) (idles_lift _) fun src => idles_then (p := fun _ => True) (idles_lift _) fun off =>
    idles_then (idles_queryKeys env _ _ _ _ _) fun keys => idles_then (p := fun _ => True) (idles_lift _) fun keys =>
    idles_then (idles_setState _) fun _ => ?_
  have hstart : NoneIn (CacheMap.withCapacity cap : CacheMap BlockResult) := nofun
  exact idles_then (idles_foldlM (fun c k => grows_ext (ext_cloneStep env _ off c k))
    (fun c k hc => idles_cloneStep env _ off c hc k) keys _ hstart) fun _ => idles_setState _

theorem idles_overlayWithOffset (env : Env) (cap : Nat) (args : InstArgs) :
    Idles (overlayWithOffset env cap args) fun _ => True := by
  unfold overlayWithOffset
  refine idles_then (p := fun _ => True) (idles_lift _) fun off =>
    idles_then (idles_queryKeys env _ _ _ _ _) fun keys => idles_then (idles_setState _) fun _ => ?_
  exact idles_then (idles_foldlM (p := fun _ => True) (fun c k => grows_ext (ext_offsetStep env _ off c k))
    (fun c k _ => idles_offsetStep env _ off c k) keys _ trivial) fun _ => idles_setState _

/-! ## The whole run -/

theorem idles_open (env : Env) (i : DbId) (path : String) : Idles (openMap env i path) fun _ => True := fun w => by
  unfold openMap
  have h : ∀ ok, NoPut [⟨i, .open, ok⟩] := fun ok d hd => by rw [List.mem_singleton.mp hd]; exact ⟨nofun, nofun⟩
  split
  · exact ⟨[], (List.append_nil _).symm, fun _ => ⟨nofun, rfl, fun _ _ => trivial⟩⟩
  · split
    · exact ⟨_, rfl, fun _ => ⟨h _, rfl, fun _ _ => trivial⟩⟩
    · exact ⟨_, rfl, fun _ => ⟨h _, rfl, fun _ _ => trivial⟩⟩

theorem idles_setFlag (i : DbId) (b : Bool) : Idles (setFlag i b) fun _ => True := by
  unfold setFlag
  exact idles_then (idles_theDb i) fun _ => idles_still fun _ => ⟨rfl, rfl, fun _ _ => trivial⟩

theorem idles_verify (env : Env) (i : DbId) : Idles (verifyDatabase env i) fun _ => True := by
  unfold verifyDatabase
  refine idles_then (idles_exec env i ⟨nofun, nofun, nofun⟩) fun ok => ?_
  split
  · refine idles_then (idles_theDb i) fun m => ?_
    split <;> exact idles_pure trivial
  · exact idles_pure trivial

theorem idles_new (env : Env) (i : DbId) : Idles (MapDb.new env i) fun _ => True := by
  unfold MapDb.new
  refine idles_then (idles_exec env i ⟨nofun, nofun, nofun⟩) fun ok => ?_
  split
  · refine idles_then (idles_verify env i) fun r => ?_
    split
    · exact idles_pure trivial
    · refine idles_then (idles_exec env i ⟨nofun, nofun, nofun⟩) fun ok => ?_
      split
      · exact idles_then (idles_setFlag i true) fun _ => idles_pure trivial
      · exact idles_pure trivial
  · exact idles_pure trivial

theorem idles_commit (env : Env) (i : DbId) : Idles (commitIfNeeded env i) fun _ => True := by
  unfold commitIfNeeded
  refine idles_then (idles_theDb i) fun m => ?_
  split
  · refine idles_then (idles_exec env i ⟨nofun, nofun, nofun⟩) fun ok => ?_
    split
    · exact idles_then (idles_setFlag i _) fun _ => idles_pure trivial
    · exact idles_pure trivial
  · exact idles_pure trivial

theorem idles_send (e : Event) : Idles (send e) fun _ => True := idles_still fun _ => ⟨rfl, rfl, fun _ _ => trivial⟩
theorem idles_log (t : LogType) (m : Msg) : Idles (log t m) fun _ => True := idles_send _

theorem idles_ite (c : Prop) [Decidable c] {m m' : Run α} {p : α → Prop} (h : Idles m p) (h' : Idles m' p) :
    Idles (if c then m else m') p := by split <;> assumption

theorem idles_runCommand (env : Env) (args : InstArgs) (cmd : Command) (warning : Option String)
    (h : Idles (cmd.func env args) fun _ => True) : Idles (runCommand env args cmd warning) fun _ => True := by
  have hrest : Idles (do
      cmd.func env args
      let fails ← getFailed
      if fails > 0 then logInfo (.count "Skipped {} invalid/unsupported mapblocks." fails)
      let m ← theDb .main
      let ok ←
        if m.inTransaction then do
          logInfo (.text "Committing...")
          commitIfNeeded env .main
        else pure true
      if ok then
        logInfo (.text "Done.")
        return .ok ()
      else return .error "database operation failed" : Run (Except String Unit)) fun _ => True := by
    refine idles_then h fun _ => idles_then (p := fun _ => True) (idles_still fun _ => ⟨rfl, rfl, fun _ _ => trivial⟩) fun n => ?_
    have h2 : Idles (do
      let m ← theDb .main
      let ok ←
        if m.inTransaction then do
          logInfo (.text "Committing...")
          commitIfNeeded env .main
        else pure true
      if ok then
        logInfo (.text "Done.")
        return .ok ()
      else return .error "database operation failed" : Run (Except String Unit)) fun _ => True := by
      have h3 : ∀ ok : Bool, Idles (if ok = true then logInfo (.text "Done.") >>= fun _ => pure (.ok ())
          else pure (.error "database operation failed") : Run (Except String Unit)) fun _ => True := fun ok =>
        idles_ite _ (idles_then (idles_log _ _) fun _ => idles_pure trivial) (idles_pure trivial)
      refine idles_then (idles_theDb _) fun m => ?_
      dsimp only
      split
      · exact idles_then (idles_log _ _) fun _ => idles_then (idles_commit env _) h3
      · exact idles_then (p := fun _ => True) (idles_pure trivial) h3
    dsimp only
    split
    · exact idles_then (idles_log _ _) fun _ => h2
    · exact h2
  have hgo : ∀ go : Bool, Idles (if (!go) = true then pure (.ok ()) else (do
      cmd.func env args
      let fails ← getFailed
      if fails > 0 then logInfo (.count "Skipped {} invalid/unsupported mapblocks." fails)
      let m ← theDb .main
      let ok ←
        if m.inTransaction then do
          logInfo (.text "Committing...")
          commitIfNeeded env .main
        else pure true
      if ok then
        logInfo (.text "Done.")
        return .ok ()
      else return .error "database operation failed") : Run (Except String Unit)) fun _ => True := fun go =>
    idles_ite _ (idles_pure trivial) hrest
  have hc : Idles (getConfirmation env) fun _ => True := idles_then (idles_send _) fun _ => idles_pure trivial
  unfold runCommand
  dsimp only
  split
  · refine idles_then (idles_log _ _) fun _ => ?_
    cases warning with
    | none => exact idles_then hc hgo
    | some t => exact idles_then (idles_log _ _) fun _ => idles_then hc hgo
  · cases warning with
    | none => exact idles_then (p := fun _ => True) (idles_pure trivial) hgo
    | some t => exact idles_then (idles_log _ _) fun _ => idles_then (p := fun _ => True) (idles_pure trivial) hgo

theorem idles_computeThread (env : Env) (args : InstArgs)
    (h : ∀ cmd, command? args.command = some cmd → Idles (cmd.func env args) fun _ => True) :
    Idles (computeThread env args) fun _ => True := by
  unfold computeThread
  split
  · exact idles_pure trivial
  · cases hc : command? args.command with
    | none => exact idles_still fun _ => ⟨rfl, rfl, fun _ _ => trivial⟩
    | some cmd =>
      have hr := fun wn => idles_runCommand env args cmd wn (h cmd hc)
      have hk : ∀ wn, Idles (do
          let ok ← openMap env .main args.mapPath
          if !ok then return .error "Failed to open main world/map."
          else
            match ← MapDb.new env .main with
            | .error _ => return .error "Main world or map database is invalid."
            | .ok _ =>
              match args.inputMapPath with
              | none => runCommand env args cmd wn
              | some p =>
                let ok ← openMap env .input p
                if !ok then return .error "Failed to open input world/map."
                else
                  match ← MapDb.new env .input with
                  | .error _ => return .error "Input world or map database is invalid."
                  | .ok _ => runCommand env args cmd wn : Run (Except String Unit)) fun _ => True := by
        intro wn
        refine idles_then (idles_open _ _ _) fun ok => idles_ite _ (idles_pure trivial) (idles_then (idles_new _ _) fun r => ?_)
        split
        · exact idles_pure trivial
        · split
          · exact hr _
          · refine idles_then (idles_open _ _ _) fun ok => idles_ite _ (idles_pure trivial)
              (idles_then (idles_new _ _) fun r => ?_)
            split
            · exact idles_pure trivial
            · exact hr _
      have e : ∀ k : Command → Run (Except String Unit), (Run.unwrap (some cmd) >>= k) = k cmd := fun k => rfl
      rw [e]
      refine idles_then (p := fun _ => True) (idles_lift _) fun r => ?_
      cases r with
      | error e => exact idles_pure trivial
      | ok => exact hk none
      | warning t => exact hk (some t)

end MapEditr
