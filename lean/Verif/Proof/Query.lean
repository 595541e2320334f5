import Verif.Proof.World
import Verif.Proof.Block
import Verif.Proof.BlockMore
import Verif.Props.Spatial
import Verif.Spec.Map
/-! # Lemmas: querying block keys -/

namespace MapEditr
open Spec
set_option linter.unusedSimpArgs false

theorem openMap_at {w : World} {i : DbId} {t : Table} (h : OpenMap w i t) :
    ∃ dur cols, OpenAt w i dur t cols := by
  obtain ⟨⟨⟨dur, cur, inTx, cols⟩, fl⟩, h1, h2, h3, h4⟩ := h
  simp only at h2 h3 h4
  subst h2 h3 h4
  exact ⟨dur, cols, h1⟩

theorem setTotal_run (n : Nat) (w : World) :
    setTotal n w = (.ok (), w.setStatus fun s => { s with total := n }) := rfl

/-- The world after `setState`. -/
def World.inState (w : World) (s : InstState) : World :=
  { w.setStatus fun st => { st with state := s } with
    events := w.events ++ [.newState s]
    acts := w.acts ++ [.count { w.status with state := s }] ++ [.tell (.newState s)] }

theorem setState_run (s : InstState) (w : World) : setState s w = (.ok (), w.inState s) := rfl

theorem queryStep_fold (keep : Int → Bytes → Bool) (rows : List ((Int × Bytes) × Nat))
    (acc : List Int) (w : World) : ∃ n l as, rows.foldlM (queryStep keep) acc w =
      (.ok (acc ++ (rows.filter fun r => keep r.1.1 r.1.2).map (·.1.1)),
        { w with status := { w.status with total := n }, seen := l, acts := as }) := by
  induction rows generalizing acc w with
  | nil => exact ⟨w.status.total, w.seen, w.acts, by simp [run_pure]⟩
  | cons r t ih =>
    have h1 : ∃ n l as, queryStep keep acc r w =
        (.ok (if keep r.1.1 r.1.2 then acc ++ [r.1.1] else acc),
          { w with status := { w.status with total := n }, seen := l, acts := as }) := by
      unfold queryStep
      cases hk : keep r.1.1 r.1.2 with
      | false => exact ⟨w.status.total, w.seen, w.acts, rfl⟩
      | true =>
        simp only [if_true]
        by_cases hm : (r.2 &&& 1023 == 0) = true
        · rw [if_pos hm]
          exact ⟨_, _, _, rfl⟩
        · rw [if_neg hm]
          exact ⟨w.status.total, w.seen, w.acts, rfl⟩
    obtain ⟨n, l, as, h1⟩ := h1
    obtain ⟨n', l', as', h2⟩ := ih (if keep r.1.1 r.1.2 then acc ++ [r.1.1] else acc)
      { w with status := { w.status with total := n }, seen := l, acts := as }
    refine ⟨n', l', as', ?_⟩
    rw [List.foldlM_cons, run_bind_ok h1, h2]
    cases hk : keep r.1.1 r.1.2 <;> simp [List.filter_cons, hk]

/-- The rows `query_keys` keeps. -/
def queryHits (strs : List Bytes) (area : Option Area) (invert partial_ : Bool) (t : Table) : Table :=
  let ba := queryArea area invert partial_
  let e := area.isSome && ba.isNone
  if !e || invert then t.filter fun r => queryKeeps (strs.map string16) ba e invert r.1 r.2 else []

/-- The world after a query. -/
structure QueryWorld (i : DbId) (n : Nat) (w w' : World) : Prop where
  dbs : w'.dbs = w.dbs
  events : w'.events = w.events ++ [.newState .querying, .newState .ignore]
  status : w'.status = { w.status with total := n, state := .ignore }
  trace : w'.trace = w.trace ∨ w'.trace = w.trace ++ [⟨i, .selectAll, true⟩]

theorem filter_zipIdx (p : α → Bool) (l : List α) (n : Nat) :
    ((l.zipIdx n).filter fun r => p r.1).map (·.1) = l.filter p := by
  induction l generalizing n with
  | nil => rfl
  | cons a t ih =>
    rw [List.zipIdx_cons, List.filter_cons, List.filter_cons]
    split <;> simp [ih]

theorem queryKeys_open {env : Env} {i : DbId} {w : World} {dur cur : Table} {cols : List Col}
    (h : OpenAt w i dur cur cols) (strs : List Bytes) (area : Option Area) (invert partial_ : Bool) :
    (∃ w', queryKeys env i strs area invert partial_ w =
      (.ok ((queryHits strs area invert partial_ cur).map (·.1)), w') ∧
      QueryWorld i (queryHits strs area invert partial_ cur).length w w') ∨
    (env.fail w.trace.length = true ∧ queryKeys env i strs area invert partial_ w =
      (.error (.panic "unwrap"), (w.inState .querying).failed env i .selectAll)) := by
  unfold queryKeys queryHits
  rw [run_bind_ok (setState_run .querying w)]
  simp only
  generalize (area.isSome && (queryArea area invert partial_).isNone) = e
  generalize queryKeeps (strs.map string16) (queryArea area invert partial_) e invert = keep
  by_cases hc : (!e || invert) = true
  · rw [if_pos hc, if_pos hc]
    have ho : OpenAt (w.inState .querying) i dur cur cols := h
    have ht : (w.inState .querying).trace.length = w.trace.length := rfl
    rw [run_bind, iterRows_open ho, ht]
    cases hf : env.fail w.trace.length with
    | true =>
      right
      simp only [hf, if_true]
      exact ⟨trivial, trivial⟩
    | false =>
      left
      simp only [hf, Bool.false_eq_true, if_false]
      obtain ⟨n, l, as, h1⟩ := queryStep_fold keep cur.zipIdx []
        (World.did (w.inState .querying) i .selectAll true)
      rw [run_bind_ok h1, run_bind_ok (setTotal_run _ _), run_bind_ok (setState_run _ _), run_pure]
      have hl : (cur.zipIdx.filter fun r => keep r.1.1 r.1.2).map (·.1.1) =
          (cur.filter fun r => keep r.1 r.2).map (·.1) := by
        rw [← filter_zipIdx (fun r : Int × Bytes => keep r.1 r.2) cur 0, List.map_map]; rfl
      rw [List.nil_append, hl]
      refine ⟨_, rfl, rfl, by simp [World.did, World.inState, World.setStatus], ?_, .inr rfl⟩
      rw [List.length_map]; rfl
  · left
    rw [if_neg hc, if_neg hc]
    rw [run_pure_bind, run_bind_ok (setTotal_run _ _), run_bind_ok (setState_run _ _), run_pure]
    exact ⟨_, rfl, rfl, by simp [World.inState, World.setStatus], rfl, .inl rfl⟩

theorem queryKeys_iff {env : Env} {i : DbId} {w w' : World} {dur cur : Table} {cols : List Col}
    (h : OpenAt w i dur cur cols) {strs : List Bytes} {area : Option Area} {invert partial_ : Bool}
    {keys : List Int} (hr : queryKeys env i strs area invert partial_ w = (.ok keys, w')) :
    keys = (queryHits strs area invert partial_ cur).map (·.1) ∧ QueryWorld i keys.length w w' := by
  rcases queryKeys_open h strs area invert partial_ (env := env) with ⟨w1, h1, h2⟩ | ⟨_, h1⟩
  · rw [h1] at hr
    cases hr
    exact ⟨rfl, by rw [List.length_map]; exact h2⟩
  · rw [h1] at hr; cases hr

/-! ## The area test -/

theorem exists_inBlock (bp : Vec3) : ∃ p, InBlock bp p :=
  ⟨⟨bp.x * 16, bp.y * 16, bp.z * 16⟩, by unfold InBlock; simp only; omega⟩

/-- The block at `bp` is asked for. -/
def Wanted (area : Option Area) (invert partial_ : Bool) (bp : Vec3) : Prop :=
  if partial_ then ∃ p, InBlock bp p ∧ Selected area invert p
  else ∀ p, InBlock bp p → Selected area invert p

/-- Whether the area tests of `query_keys` keep a key. -/
def areaKeeps (area : Option Area) (invert partial_ : Bool) (key : Int) : Bool :=
  let ba := queryArea area invert partial_
  let e := area.isSome && ba.isNone
  (!e || invert) && (e || !(match ba with
    | some a => a.contains (Vec3.fromBlockKey key) == invert
    | none => false))

/-- Whether the name test of `query_keys` keeps a row. -/
def nameKeeps (pats : List Bytes) (data : Bytes) : Bool :=
  match data with
  | v :: _ => !(decide (v.toNat ≤ 28) && !pats.isEmpty && !(pats.any fun s => (searchIn s data).isSome))
  | [] => true

theorem queryHits_eq (strs : List Bytes) (area : Option Area) (invert partial_ : Bool) (t : Table) :
    queryHits strs area invert partial_ t = t.filter fun r =>
      areaKeeps area invert partial_ r.1 && nameKeeps (strs.map string16) r.2 := by
  unfold queryHits areaKeeps
  simp only
  generalize (area.isSome && (queryArea area invert partial_).isNone) = e
  split
  · next h =>
    apply List.filter_congr
    intro r _
    unfold queryKeeps nameKeeps
    simp only [h, Bool.true_and]
    generalize queryArea area invert partial_ = ba
    cases e <;> cases r.2 <;> cases ba <;> simp
  · next h =>
    symm
    rw [List.filter_eq_nil_iff]
    intro r _
    simp [h]

theorem areaKeeps_key {area : Option Area} (ha : AreaOk area) (invert partial_ : Bool) {bp : Vec3} {k : Int}
    (hk : Vec3.fromBlockKey k = bp) :
    areaKeeps area invert partial_ k = true ↔ Wanted area invert partial_ bp := by
  unfold areaKeeps
  cases area with
  | none =>
    have hw : Wanted none invert partial_ bp := by
      unfold Wanted
      split
      · obtain ⟨p, hp⟩ := exists_inBlock bp
        exact ⟨p, hp, trivial⟩
      · exact fun _ _ => trivial
    simp [queryArea, hw]
  | some a =>
    have hv := ha a rfl
    simp only [queryArea, Option.bind_some, hk, Option.isSome_some, Bool.true_and]
    have ht := C06_touching_area a hv bp
    have hc := C06_contained_area a bp
    have hcn := C06_contained_area_none a
    obtain ⟨q, hq⟩ := exists_inBlock bp
    unfold Wanted Selected
    by_cases hi : (invert == partial_) = true
    · rw [if_pos hi]
      have he : invert = partial_ := beq_iff_eq.1 hi
      subst he
      cases hca : a.toContainedBlockArea with
      | none =>
        have hno := hcn.1 hca bp
        cases invert with
        | true =>
          simp
          exact Classical.not_forall.1 hno |>.imp fun p h => Classical.not_imp.1 h
        | false =>
          simp only [Option.isNone_none, Bool.not_true, Bool.or_self, Bool.false_and,
            Bool.false_eq_true, if_false, iff_true, false_iff]
          exact hno
      | some c =>
        have hc' : c.contains bp = true ↔ ∀ p, InBlock bp p → InBox a.min a.max p := by
          rw [← hc]
          constructor
          · intro h; exact ⟨c, hca, h⟩
          · rintro ⟨c', h1, h2⟩; rw [hca] at h1; cases h1; exact h2
        cases invert with
        | true =>
          simp
          rw [← Bool.not_eq_true, hc']
          constructor
          · intro h
            exact Classical.not_forall.1 h |>.imp fun p h => Classical.not_imp.1 h
          · rintro ⟨p, h1, h2⟩ h
            exact h2 (h p h1)
        | false =>
          simp
          exact hc'
    · rw [if_neg hi]
      cases invert with
      | true =>
        have : partial_ = false := by cases partial_ <;> simp_all
        subst this
        simp
        rw [← Bool.not_eq_true, ht]
        constructor
        · intro h p h1 h2; exact h ⟨p, h1, h2⟩
        · rintro h ⟨p, h1, h2⟩; exact h p h1 h2
      | false =>
        have : partial_ = true := by cases partial_ <;> simp_all
        subst this
        simp
        exact ht

theorem areaKeeps_iff {area : Option Area} (ha : AreaOk area) (invert partial_ : Bool) {bp : Vec3}
    (hb : ValidBlockPos bp) :
    areaKeeps area invert partial_ (keyOf bp) = true ↔ Wanted area invert partial_ bp :=
  areaKeeps_key ha invert partial_ (fromBlockKey_keyOf bp hb)

/-! ## The name test -/

theorem string16_eq (s : Bytes) : string16 s = str16 s := by
  unfold string16 str16
  rfl

theorem string16_ne (s : Bytes) : string16 s ≠ [] := by
  rw [string16_eq]; unfold str16 be16; simp

theorem nameKeeps_of_infix {names : List Bytes} {n : Bytes} (hn : n ∈ names) {d : Bytes}
    (h : string16 n <:+: d) : nameKeeps (names.map string16) d = true := by
  unfold nameKeeps
  cases d with
  | nil => rfl
  | cons v t =>
    have : (names.map string16).any (fun s => (searchIn s (v :: t)).isSome) = true := by
      rw [List.any_eq_true]
      exact ⟨_, List.mem_map.2 ⟨n, hn, rfl⟩, (isSome_searchIn_iff (string16_ne n)).2 h⟩
    simp only [this]; simp

theorem nameKeeps_nil (d : Bytes) : nameKeeps [] d = true := by
  unfold nameKeeps
  cases d <;> simp

theorem mem_flatMap_infix {f : α → Bytes} {a : α} {l : List α} (h : a ∈ l) : f a <:+: l.flatMap f := by
  obtain ⟨s, t, rfl⟩ := List.append_of_mem h
  rw [List.flatMap_append, List.flatMap_cons]
  exact ⟨_, _, by rw [List.append_assoc]⟩

theorem get?_insertAll_mem (l : List (Nat × Bytes)) (m : NameIdMap) {k : Nat} {v : Bytes}
    (h : SMap.get? (l.foldl (fun m e => SMap.insert m e.1 e.2) m) k = some v) :
    (k, v) ∈ l ∨ SMap.get? m k = some v := by
  induction l generalizing m with
  | nil => exact .inr h
  | cons e t ih =>
    rw [List.foldl_cons] at h
    rcases ih _ h with h1 | h1
    · exact .inl (List.mem_cons_of_mem _ h1)
    · rw [SMap.get?_insert] at h1
      split at h1
      · next he =>
        cases h1
        have he := beq_iff_eq.1 he
        subst he
        exact .inl List.mem_cons_self
      · exact .inr h1

/-- The names of a block, as they appear in a version 25..28 file. -/
theorem name_infix {c : Codec} {d : Bytes} {b : MapBlock} (h : Represents c d b)
    (hv : b.version ≤ 28) {id : Nat} {n : Bytes} (hn : SMap.get? b.nimap id = some n) :
    str16 n <:+: d := by
  rcases h with ⟨h29, _⟩ | ⟨_, d', rfl, h⟩
  · omega
  obtain ⟨names, metas, z, n1, n2, junk, junk', -, -, -, -, -, -, -, -, -, -, hm, -, rfl, -, -, htail⟩ := h
  rw [hm] at hn
  have hmem : (id, n) ∈ names := by
    rcases get?_insertAll_mem names [] hn with h | h
    · exact h
    · cases h
  have h1 : str16 n <:+: nameBytes (id, n) := ⟨be16 id, [], by simp [nameBytes]⟩
  have h2 : str16 n <:+: namesBytes names := by
    refine h1.trans ((mem_flatMap_infix (f := nameBytes) hmem).trans ?_)
    exact ⟨0 :: be16 names.length, [], by simp [namesBytes]⟩
  have h3 : str16 n <:+: (z.drop n1).drop n2 := by
    rw [htail]
    exact h2.trans ⟨objsBytes b.objects ++ be32 b.timestamp, timersBytes b.timers ++ junk, by simp⟩
  have h4 : (z.drop n1).drop n2 <:+: z := by
    rw [List.drop_drop]
    exact (List.drop_suffix _ _).isInfix
  refine (h3.trans h4).trans ⟨UInt8.ofNat b.version :: UInt8.ofNat b.flags ::
    ((if 27 ≤ b.version then be16 b.lighting else []) ++ [2, 2]), [], by simp⟩

/-- The object data of a block, as they appear in a version 25..28 file. -/
theorem object_infix {c : Codec} {d : Bytes} {b : MapBlock} (h : Represents c d b)
    (hv : b.version ≤ 28) {o : StaticObject} (ho : o ∈ b.objects) : o.data <:+: d := by
  rcases h with ⟨h29, _⟩ | ⟨_, d', rfl, h⟩
  · omega
  obtain ⟨names, metas, z, n1, n2, junk, junk', -, -, -, -, -, -, -, -, -, -, -, -, rfl, -, -, htail⟩ := h
  have h1 : o.data <:+: objBytes o :=
    ⟨UInt8.ofNat o.objType :: (beI32 o.fPos.x ++ beI32 o.fPos.y ++ beI32 o.fPos.z ++
      be16 o.data.length), [], by simp [objBytes, str16]⟩
  have h2 : o.data <:+: objsBytes b.objects := by
    refine h1.trans ((mem_flatMap_infix (f := objBytes) ho).trans ?_)
    exact ⟨0 :: be16 b.objects.length, [], by simp [objsBytes]⟩
  have h3 : o.data <:+: (z.drop n1).drop n2 := by
    rw [htail]
    exact h2.trans (List.prefix_append _ _).isInfix
  have h4 : (z.drop n1).drop n2 <:+: z := by
    rw [List.drop_drop]
    exact (List.drop_suffix _ _).isInfix
  refine (h3.trans h4).trans ⟨UInt8.ofNat b.version :: UInt8.ofNat b.flags ::
    ((if 27 ≤ b.version then be16 b.lighting else []) ++ [2, 2]), [], by simp⟩

/-- What a `LuaEntity` name says about the object's data. -/
theorem luaEntity_iff {o : StaticObject} {le : LuaEntity} :
    LuaEntity.deserialize o = .ok le ↔ o.objType = 7 ∧ le.name.length < 65536 ∧
      le.data.length < 4294967296 ∧
      ∃ junk, o.data = 1 :: (str16 le.name ++ (str32 le.data ++ junk)) := by
  unfold LuaEntity.deserialize
  constructor
  · intro h
    split at h
    · cases h
    · next ht =>
      obtain ⟨⟨v, s⟩, h1, h⟩ := bind_ok_iff.1 h
      obtain ⟨_, h1⟩ := rdU8_iff.1 h1
      simp only at h
      split at h
      · cases h
      · next hv =>
        obtain ⟨⟨n, s1⟩, h2, h⟩ := bind_ok_iff.1 h
        obtain ⟨⟨e, s2⟩, h3, h⟩ := bind_ok_iff.1 h
        obtain ⟨h4, h5⟩ := rdStr16_iff.1 h2
        obtain ⟨h6, h7⟩ := rdStr32_iff.1 h3
        simp only [res_pure, ok_inj] at h
        subst h
        refine ⟨by omega, h4, h6, s2, ?_⟩
        have : v = 1 := by omega
        subst this
        have h7 : s1 = str32 e ++ s2 := h7
        rw [h1, h5, h7]; rfl
  · rintro ⟨h1, h2, h3, junk, h4⟩
    rw [if_neg (by omega)]
    refine bind_ok_iff.2 ⟨(1, str16 le.name ++ (str32 le.data ++ junk)),
      rdU8_iff.2 ⟨by omega, by rw [h4]; rfl⟩, ?_⟩
    simp only [ne_eq, not_true, if_false]
    refine bind_ok_iff.2 ⟨(le.name, str32 le.data ++ junk), rdStr16_iff.2 ⟨h2, rfl⟩, ?_⟩
    exact bind_ok_iff.2 ⟨(le.data, junk), rdStr32_iff.2 ⟨h3, rfl⟩, rfl⟩

theorem nameKeeps_29 {c : Codec} {d : Bytes} {b : MapBlock} (h : Represents c d b)
    (hv : ¬ b.version ≤ 28) (pats : List Bytes) : nameKeeps pats d = true := by
  rcases h with ⟨_, z, x, rfl, _⟩ | ⟨h, _⟩
  · unfold nameKeeps
    have : ¬ (29 : UInt8).toNat ≤ 28 := by decide
    simp [this]
  · omega

end MapEditr
