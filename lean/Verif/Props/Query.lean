import Verif.Proof.Query
import Verif.Spec.Toy
/-!
# Properties C12–C14: which blocks a command looks at
-/

namespace MapEditr
open Spec

/-! ## C12 -/

/-- The query returns exactly the stored blocks that have a selected node (`includePartial`), or all
of whose nodes are selected (otherwise).  "Selected" is: in the area, outside it with `invert`,
everywhere without area. -/
theorem C12_query_exact (env : Env) (w w' : World) (i : DbId) (t : Table) (area : Option Area)
    (invert includePartial : Bool) (keys : List Int) (ho : OpenMap w i t) (ht : GoodTable t)
    (ha : AreaOk area) (h : queryKeys env i [] area invert includePartial w = (.ok keys, w')) :
    ∀ k, k ∈ keys ↔ ∃ bp d, ValidBlockPos bp ∧ k = keyOf bp ∧ (k, d) ∈ t ∧
      (if includePartial then ∃ p, InBlock bp p ∧ Selected area invert p
       else ∀ p, InBlock bp p → Selected area invert p) := by
  obtain ⟨dur, cols, ho⟩ := openMap_at ho
  obtain ⟨rfl, _⟩ := queryKeys_iff ho h
  intro k
  rw [queryHits_eq]
  simp only [List.map_nil, nameKeeps_nil, Bool.and_true, List.mem_map, List.mem_filter]
  constructor
  · rintro ⟨⟨k, d⟩, ⟨h1, h2⟩, rfl⟩
    have hv := keyOf_fromBlockKey k (ht.valid _ h1)
    simp only at h2
    rw [← hv.2, areaKeeps_iff ha invert includePartial hv.1] at h2
    exact ⟨_, d, hv.1, hv.2.symm, h1, h2⟩
  · rintro ⟨bp, d, h1, rfl, h2, h3⟩
    exact ⟨_, ⟨h2, (areaKeeps_iff ha invert includePartial h1).2 h3⟩, rfl⟩

/-- The query succeeds unless reading the table fails. -/
theorem C12_query_succeeds (env : Env) (w : World) (i : DbId) (t : Table) (strs : List Bytes)
    (area : Option Area) (invert includePartial : Bool) (ho : OpenMap w i t)
    (hf : env.fail w.trace.length = false) :
    ∃ keys w', queryKeys env i strs area invert includePartial w = (.ok keys, w') := by
  obtain ⟨dur, cols, ho⟩ := openMap_at ho
  rcases queryKeys_open ho strs area invert includePartial (env := env) with ⟨w', h, _⟩ | ⟨h, _⟩
  · exact ⟨_, w', h⟩
  · rw [hf] at h; cases h

/-- A small table: one block inside, one cut, one outside the area. -/
def exTable : Table := [(0, [29]), (1, [1]), (-4096, [])]
def exWorld : World := { World.start with dbs := fun _ => some ⟨⟨[], exTable, true, []⟩, true⟩ }
def exEnv : Env := ⟨.debug, Toy.codec id, fun _ => Toy.ord, fun _ => false, fun _ => false, fun _ => none, none⟩

example : OpenMap exWorld .main exTable ∧ GoodTable exTable ∧
    AreaOk (some ⟨⟨0, 0, 0⟩, ⟨17, 15, 15⟩⟩) ∧
    (queryKeys exEnv .main [] (some ⟨⟨0, 0, 0⟩, ⟨17, 15, 15⟩⟩) false true exWorld).1 = .ok [0, 1] ∧
    (queryKeys exEnv .main [] (some ⟨⟨0, 0, 0⟩, ⟨17, 15, 15⟩⟩) false false exWorld).1 = .ok [0] ∧
    (queryKeys exEnv .main [] (some ⟨⟨0, 0, 0⟩, ⟨17, 15, 15⟩⟩) true true exWorld).1 = .ok [1, -4096] ∧
    (queryKeys exEnv .main [] (some ⟨⟨0, 0, 0⟩, ⟨17, 15, 15⟩⟩) true false exWorld).1 = .ok [-4096] := by
  refine ⟨⟨_, rfl, rfl, rfl, rfl⟩, ⟨by decide, by decide⟩, ?_, ?_⟩
  · intro a h; cases h; decide
  · decide

/-! ## C13 -/

/-- A block with a searched name in its name table is never dropped by the text search. -/
theorem C13_node_names (env : Env) (w w' : World) (i : DbId) (t : Table) (names : List Bytes)
    (area : Option Area) (invert includePartial : Bool) (keys keys' : List Int) (w'' : World)
    (ho : OpenMap w i t) (hn : (t.map (·.1)).Nodup)
    (h0 : queryKeys env i [] area invert includePartial w = (.ok keys, w'))
    (h : queryKeys env i names area invert includePartial w = (.ok keys', w''))
    (k : Int) (d : Bytes) (b : MapBlock) (hk : (k, d) ∈ t) (hb : Represents env.codec d b)
    (name : Bytes) (hname : name ∈ names) (id : Nat) (hid : SMap.get? b.nimap id = some name)
    (hin : k ∈ keys) : k ∈ keys' := by
  obtain ⟨dur, cols, ho⟩ := openMap_at ho
  obtain ⟨rfl, _⟩ := queryKeys_iff ho h0
  obtain ⟨rfl, _⟩ := queryKeys_iff ho h
  rw [queryHits_eq] at hin ⊢
  obtain ⟨⟨k', d'⟩, h1, rfl⟩ := List.mem_map.1 hin
  obtain ⟨h1, h2⟩ := List.mem_filter.1 h1
  have : d' = d := by
    have e1 := Table.get?_of_mem hn h1
    rw [Table.get?_of_mem hn hk] at e1
    cases e1; rfl
  subst this
  refine List.mem_map.2 ⟨_, List.mem_filter.2 ⟨h1, ?_⟩, rfl⟩
  rw [Bool.and_eq_true] at h2 ⊢
  refine ⟨h2.1, ?_⟩
  by_cases hv : b.version ≤ 28
  · exact nameKeeps_of_infix hname (by rw [string16_eq]; exact name_infix hb hv hid)
  · exact nameKeeps_29 hb hv _

/-- A block holding an object with a searched entity name is never dropped either. -/
theorem C13_object_names (env : Env) (w w' : World) (i : DbId) (t : Table) (names : List Bytes)
    (area : Option Area) (invert includePartial : Bool) (keys keys' : List Int) (w'' : World)
    (ho : OpenMap w i t) (hn : (t.map (·.1)).Nodup)
    (h0 : queryKeys env i [] area invert includePartial w = (.ok keys, w'))
    (h : queryKeys env i names area invert includePartial w = (.ok keys', w''))
    (k : Int) (d : Bytes) (b : MapBlock) (hk : (k, d) ∈ t) (hb : Represents env.codec d b)
    (o : StaticObject) (hob : o ∈ b.objects) (le : LuaEntity) (hle : LuaEntity.deserialize o = .ok le)
    (hname : le.name ∈ names) (hin : k ∈ keys) : k ∈ keys' := by
  obtain ⟨dur, cols, ho⟩ := openMap_at ho
  obtain ⟨rfl, _⟩ := queryKeys_iff ho h0
  obtain ⟨rfl, _⟩ := queryKeys_iff ho h
  rw [queryHits_eq] at hin ⊢
  obtain ⟨⟨k', d'⟩, h1, rfl⟩ := List.mem_map.1 hin
  obtain ⟨h1, h2⟩ := List.mem_filter.1 h1
  have : d' = d := by
    have e1 := Table.get?_of_mem hn h1
    rw [Table.get?_of_mem hn hk] at e1
    cases e1; rfl
  subst this
  refine List.mem_map.2 ⟨_, List.mem_filter.2 ⟨h1, ?_⟩, rfl⟩
  rw [Bool.and_eq_true] at h2 ⊢
  refine ⟨h2.1, ?_⟩
  by_cases hv : b.version ≤ 28
  · obtain ⟨_, _, _, junk, he⟩ := luaEntity_iff.1 hle
    refine nameKeeps_of_infix hname ?_
    rw [string16_eq]
    refine List.IsInfix.trans ⟨[1], str32 le.data ++ junk, ?_⟩ (object_infix hb hv hob)
    rw [he]; simp
  · exact nameKeeps_29 hb hv _

/-- The text search only removes: it never adds a block. -/
theorem C13_only_removes (env : Env) (w w' : World) (i : DbId) (t : Table) (names : List Bytes)
    (area : Option Area) (invert includePartial : Bool) (keys keys' : List Int) (w'' : World)
    (ho : OpenMap w i t)
    (h0 : queryKeys env i [] area invert includePartial w = (.ok keys, w'))
    (h : queryKeys env i names area invert includePartial w = (.ok keys', w''))
    (k : Int) (hin : k ∈ keys') : k ∈ keys := by
  obtain ⟨dur, cols, ho⟩ := openMap_at ho
  obtain ⟨rfl, _⟩ := queryKeys_iff ho h0
  obtain ⟨rfl, _⟩ := queryKeys_iff ho h
  rw [queryHits_eq] at hin ⊢
  obtain ⟨r, h1, rfl⟩ := List.mem_map.1 hin
  obtain ⟨h1, h2⟩ := List.mem_filter.1 h1
  refine List.mem_map.2 ⟨r, List.mem_filter.2 ⟨h1, ?_⟩, rfl⟩
  rw [Bool.and_eq_true] at h2 ⊢
  exact ⟨h2.1, nameKeeps_nil _⟩

/-- A stored sample block (version 28), in a table. -/
theorem exStored (v : Nat) (hv : 25 ≤ v ∧ v ≤ 29) : ∃ d, Represents (Toy.codec id) d (stored (Toy.block v)) := by
  obtain ⟨s, _, h⟩ := serialize_spec (Toy.lawful id) Toy.fullWrites Toy.ord_lawful (Toy.block_wf v hv)
  exact ⟨s, h⟩

example : ∃ d, Represents (Toy.codec id) d (stored (Toy.block 28)) ∧
    SMap.get? (stored (Toy.block 28)).nimap 1 = some (ascii "a") := by
  obtain ⟨d, h⟩ := exStored 28 (by omega)
  exact ⟨d, h, by decide⟩

/-- An entity called `a`. -/
example : LuaEntity.deserialize ⟨7, ⟨0, 0, 0⟩, [1, 0, 1, 97, 0, 0, 0, 0, 9]⟩ = .ok ⟨[97], []⟩ := by
  decide

/-! ## C14 -/

/-- The result lists rows of the table in their order, each at most once, and the query changes
neither database: the only statement executed is a `SELECT`. -/
theorem C14_query_reads_only (env : Env) (w w' : World) (i : DbId) (t : Table) (names : List Bytes)
    (area : Option Area) (invert includePartial : Bool) (keys : List Int) (ho : OpenMap w i t)
    (hn : (t.map (·.1)).Nodup)
    (h : queryKeys env i names area invert includePartial w = (.ok keys, w')) :
    keys.Sublist (t.map (·.1)) ∧ keys.Nodup ∧ w'.dbs = w.dbs ∧
      (w'.trace = w.trace ∨ w'.trace = w.trace ++ [⟨i, .selectAll, true⟩]) := by
  obtain ⟨dur, cols, ho⟩ := openMap_at ho
  obtain ⟨rfl, hw⟩ := queryKeys_iff ho h
  have hs : ((queryHits names area invert includePartial t).map (·.1)).Sublist (t.map (·.1)) := by
    rw [queryHits_eq]
    exact List.filter_sublist.map _
  exact ⟨hs, hn.sublist hs, hw.dbs, hw.trace⟩

/-- When the query fails, no file is changed: nothing but the `SELECT` is executed, unless SQLite then
undoes the open transaction. -/
theorem C14_query_failing (env : Env) (w w' : World) (i : DbId) (t : Table) (names : List Bytes)
    (area : Option Area) (invert includePartial : Bool) (e : Stop) (ho : OpenMap w i t)
    (h : queryKeys env i names area invert includePartial w = (.error e, w')) :
    (∀ j m, w.dbs j = some m → ∃ m', w'.dbs j = some m' ∧ m'.conn.durable = m.conn.durable) ∧
    ((w'.dbs = w.dbs ∧ w'.trace = w.trace ++ [⟨i, .selectAll, false⟩]) ∨
      env.undo w.trace.length = true ∧
        w'.trace = w.trace ++ [⟨i, .selectAll, false⟩, ⟨i, .rollback, true⟩]) := by
  obtain ⟨dur, cols, ho⟩ := openMap_at ho
  rcases queryKeys_open ho names area invert includePartial (env := env) with ⟨w1, h1, _⟩ | ⟨_, h1⟩
  · rw [h1] at h; cases h
  · rw [h1] at h
    cases h
    rcases failed_cases (w.inState .querying) env i .selectAll with h2 | ⟨rfl, m0, h3, h4, h5, h2⟩
    · rw [h2]
      exact ⟨fun j m hj => ⟨m, hj, rfl⟩, Or.inl ⟨rfl, rfl⟩⟩
    · rw [h2]
      refine ⟨fun j m hj => ?_, Or.inr ⟨h5, List.append_assoc _ _ _⟩⟩
      cases j with
      | main =>
        have h3 : w.dbs .main = some m0 := h3
        rw [h3] at hj
        cases hj
        exact ⟨⟨m0.conn.step .rollback, m0.inTransaction⟩, by rw [did_dbs, setDb_self], rfl⟩
      | input => exact ⟨m, by rw [did_dbs, setDb_other _ (by decide)]; exact hj, rfl⟩

example : (exTable.map (·.1)).Nodup ∧
    (queryKeys { exEnv with fail := fun _ => true } .main [] none false true exWorld).1
      = .error (.panic "unwrap") ∧
    (queryKeys { exEnv with fail := fun _ => true, undo := fun _ => true } .main [] none false true exWorld).2.trace
      = exWorld.trace ++ [⟨.main, .selectAll, false⟩, ⟨.main, .rollback, true⟩] := by decide

end MapEditr
