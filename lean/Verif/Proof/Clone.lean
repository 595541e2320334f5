import Verif.Proof.CopyRun
import Verif.Proof.Change
/-! # Lemmas: the order in which `clone` works, and its loop -/

namespace MapEditr
open Spec
set_option linter.unusedSimpArgs false
set_option linter.unusedVariables false

/-- The position `clone` sorts by. -/
def sortPos (o v : Vec3) : Vec3 :=
  ⟨if o.x > 0 then -v.x - 1 else v.x, if o.y > 0 then -v.y - 1 else v.y, if o.z > 0 then -v.z - 1 else v.z⟩

theorem sortPos_valid {o v : Vec3} (h : ValidBlockPos v) : ValidBlockPos (sortPos o v) := by
  unfold ValidBlockPos at h ⊢
  unfold sortPos
  simp only
  omega

theorem sortKey_eq {o : Vec3} {k : Int} (h : ValidKey k) :
    sortKey o k = .ok (keyOf (sortPos o (Vec3.fromBlockKey k))) := by
  obtain ⟨h1, h2⟩ := keyOf_fromBlockKey k h
  rw [← toBlockKey_valid _ (sortPos_valid h1)]
  unfold sortKey
  congr 1
  have hx : ∀ a b : Int, b * (if a > 0 then (-1 : Int) else 1) +
      (if ((if a > 0 then (-1 : Int) else 1) == -1) = true then -1 else 0) = if a > 0 then -b - 1 else b := by
    intro a b
    by_cases h : a > 0
    · simp only [h, if_true]; rw [if_pos (by decide)]; omega
    · simp only [h, if_false]; rw [if_neg (by decide)]; omega
  unfold sortPos Vec3.add Vec3.mul Vec3.map
  simp only
  rw [hx, hx, hx]

theorem mapM_ok {f : α → Res β} {g : α → β} {l : List α} (h : ∀ a ∈ l, f a = .ok (g a)) :
    l.mapM f = .ok (l.map g) := by
  induction l with
  | nil => rfl
  | cons a l ih =>
    rw [List.mapM_cons, h a List.mem_cons_self]
    show (do let bs ← l.mapM f; pure (g a :: bs) : Res _) = _
    rw [ih fun b hb => h b (List.mem_cons_of_mem _ hb)]
    rfl

/-- Key `a` is sorted before key `b`. -/
def Before (o : Vec3) (a b : Int) : Prop :=
  keyOf (sortPos o (Vec3.fromBlockKey a)) ≤ keyOf (sortPos o (Vec3.fromBlockKey b))

theorem sortKeys_run {o : Vec3} {keys : List Int} (h : ∀ k ∈ keys, ValidKey k) :
    ∃ ks, sortKeys o keys = .ok ks ∧ ks.Perm keys ∧ ks.Pairwise (Before o) := by
  by_cases hl : keys.length < 2
  · refine ⟨keys, by unfold sortKeys; rw [if_pos hl], List.Perm.refl _, ?_⟩
    match keys, hl with
    | [], _ => exact .nil
    | [a], _ => exact List.pairwise_singleton ..
  let f : Int → Int × Int := fun k => (keyOf (sortPos o (Vec3.fromBlockKey k)), k)
  have h1 : (keys.mapM fun k => do
      let s ← sortKey o k
      pure (s, k) : Res _) = .ok (keys.map f) := by
    refine mapM_ok fun k hk => ?_
    rw [sortKey_eq (h k hk)]
    rfl
  refine ⟨((keys.map f).mergeSort fun a b => decide (a.1 ≤ b.1)).map (·.2), ?_, ?_, ?_⟩
  · unfold sortKeys
    rw [if_neg hl, h1]
    rfl
  · have hp := (List.mergeSort_perm (keys.map f) fun a b => decide (a.1 ≤ b.1)).map (·.2)
    rw [List.map_map] at hp
    have : ((fun x => x.2) ∘ f) = id := rfl
    rw [this, List.map_id] at hp
    exact hp
  · rw [List.pairwise_map]
    have hs := List.pairwise_mergeSort (le := fun a b : Int × Int => decide (a.1 ≤ b.1))
      (fun a b c => by simp only [decide_eq_true_eq]; omega)
      (fun a b => by simp only [Bool.or_eq_true, decide_eq_true_eq]; omega) (keys.map f)
    refine hs.imp_of_mem ?_
    intro a b ha hb hab
    rw [List.mem_mergeSort] at ha hb
    obtain ⟨x, -, rfl⟩ := List.mem_map.1 ha
    obtain ⟨y, -, rfl⟩ := List.mem_map.1 hb
    simp only [decide_eq_true_eq] at hab
    exact hab

/-- A block that is written before `b` is not read for `b`. -/
theorem not_source {o : Vec3} {a b : Int} (ha : ValidKey a) (hb : ValidKey b) (hne : a ≠ b)
    (hab : Before o a b) {area part : Area} (hp : area.absBlockOverlap (Vec3.fromBlockKey b) = some part)
    {q : Vec3} (hq : q ∈ (part.sub o).toTouchingBlockArea.positions) (hv : Within 1937 q) : keyOf q ≠ a := by
  intro he
  obtain ⟨p1, p2, -⟩ := absOverlap_part (o := o) hp
  obtain ⟨t1, -⟩ := touching_le p1 p2
  rw [(C04_each_once _ t1).2, C06_touching_area _ p1] at hq
  obtain ⟨p, h1, h2⟩ := hq
  have h3 := p2 p h2
  obtain ⟨v1, e1⟩ := keyOf_fromBlockKey a ha
  obtain ⟨v2, e2⟩ := keyOf_fromBlockKey b hb
  have hqa : q = Vec3.fromBlockKey a := keyOf_inj _ _ (within_valid hv) v1 (by rw [he, e1])
  subst hqa
  unfold Before at hab
  have s1 := sortPos_valid (o := o) v1
  have s2 := sortPos_valid (o := o) v2
  apply hne
  rw [← e1, ← e2]
  generalize Vec3.fromBlockKey a = u at *
  generalize Vec3.fromBlockKey b = v at *
  obtain ⟨ux, uy, uz⟩ := u
  obtain ⟨vx, vy, vz⟩ := v
  obtain ⟨px, py, pz⟩ := p
  obtain ⟨ox, oy, oz⟩ := o
  unfold InBlock at h1 h3
  unfold shift at h3
  unfold ValidBlockPos at s1 s2
  unfold keyOf at hab ⊢
  unfold sortPos at hab s1 s2
  simp only at *
  clear he e1 e2 hp hv p1 p2 t1 h2 ha hb hne v1 v2
  have hx : (if ox > 0 then -vx - 1 else vx) ≤ if ox > 0 then -ux - 1 else ux := by omega
  have hy : (if oy > 0 then -vy - 1 else vy) ≤ if oy > 0 then -uy - 1 else uy := by omega
  have hz : (if oz > 0 then -vz - 1 else vz) ≤ if oz > 0 then -uz - 1 else uz := by omega
  omega

/-- Rows that are counted as failed. -/
def isBad (c : Codec) (t : Table) (k : Int) : Bool :=
  match orig c t k with
  | some (.error _) => true
  | _ => false

/-- The result of a copying loop over the blocks `ks`; `part k` is the part of block `k` that is
copied to. -/
structure Looped (c : Codec) (t : Table) (find : Vec3 → Option MapBlock) (part : Int → Area) (o : Vec3)
    (ks : List Int) (dur cur : Table) (cols : List Col) (w : World) (cur' : Table) (w' : World) :
    Prop where
  isOpen : OpenAt w' .main dur cur' cols
  nodup : (cur.map (·.1)).Nodup → (cur'.map (·.1)).Nodup
  off : ∀ k, k ∉ ks → cur'.get? k = cur.get? k
  on : ∀ k ∈ ks, ∃ d', cur'.get? k = some d' ∧ DestRow c t find ((part k).sub o) o k d'
  events : w'.events = w.events
  input : w'.dbs .input = w.dbs .input
  total : w'.status.total = w.status.total
  done : w'.status.done = w.status.done + ks.length
  failed : w'.status.failed = w.status.failed + (ks.filter (isBad c t)).length

theorem looped_nil {c : Codec} {t : Table} {find : Vec3 → Option MapBlock} {part : Int → Area} {o : Vec3}
    {dur cur : Table} {cols : List Col} {w : World} (ho : OpenAt w .main dur cur cols) :
    Looped c t find part o [] dur cur cols w cur w :=
  ⟨ho, id, fun _ _ => rfl, by simp, rfl, rfl, rfl, rfl, rfl⟩

theorem looped_cons {c : Codec} {t : Table} {find : Vec3 → Option MapBlock} {part : Int → Area} {o : Vec3}
    {k : Int} {ks : List Int} {dur cur cur1 cur2 : Table} {cols : List Col} {w w1 w2 : World} {d' : Bytes}
    (hn : k ∉ ks) (s : Stepped c t find ((part k).sub o) o k dur cur cols w cur1 d' w1)
    (l : Looped c t find part o ks dur cur1 cols w1 cur2 w2) :
    Looped c t find part o (k :: ks) dur cur cols w cur2 w2 := by
  refine ⟨l.isOpen, fun h => l.nodup (s.nodup h), ?_, ?_, l.events.trans s.events, l.input.trans s.input,
    l.total.trans s.total, ?_, ?_⟩
  · intro q hq
    rw [List.mem_cons, not_or] at hq
    rw [l.off q hq.2, s.get, if_neg hq.1]
  · intro q hq
    rcases List.mem_cons.1 hq with rfl | hq
    · exact ⟨d', by rw [l.off q hn, s.get, if_pos rfl], s.row⟩
    · exact l.on q hq
  · rw [l.done, s.done, List.length_cons]
    omega
  · rw [l.failed, s.failed, List.filter_cons]
    unfold isBad
    cases orig c t k with
    | none => simp
    | some r => cases r <;> simp <;> omega

theorem cloneLoop_run {env : Env} (hE : EnvOk env) (hf : ∀ n, env.fail n = false) {w : World}
    {t dur cur : Table} {cols : List Col} (ho : OpenAt w .main dur cur cols)
    (ha : AllBlocks env.codec t Tame)
    {cache : CacheMap BlockResult} (hc : CacheOk (orig env.codec t) cache) {area : Area} {o : Vec3}
    {part : Int → Area} {ks : List Int} (hnd : ks.Nodup) (hbe : ks.Pairwise (Before o))
    (hv : ∀ k ∈ ks, ValidKey k) (hrow : ∀ k ∈ ks, cur.get? k = t.get? k ∧ ∃ d, t.get? k = some d)
    (hpart : ∀ k ∈ ks, area.absBlockOverlap (Vec3.fromBlockKey k) = some (part k))
    (hs : ∀ k ∈ ks, ∀ q ∈ ((part k).sub o).toTouchingBlockArea.positions, Within 1937 q →
      cur.get? (keyOf q) = t.get? (keyOf q)) :
    ∃ cache' w' cur', ks.foldlM (cloneStep env area o) cache w = (.ok cache', w') ∧
      Looped env.codec t (findIn env.codec t) part o ks dur cur cols w cur' w' := by
  induction ks generalizing cache w cur with
  | nil => exact ⟨cache, w, cur, rfl, looped_nil ho⟩
  | cons k ks ih =>
    rw [List.nodup_cons] at hnd
    rw [List.pairwise_cons] at hbe
    obtain ⟨r1, d, r2⟩ := hrow k List.mem_cons_self
    obtain ⟨c1, w1, cur1, d', h1, h2, h3⟩ := cloneStep_run hE hf ho ha hc r1 r2
      (hpart k List.mem_cons_self) (hs k List.mem_cons_self)
    obtain ⟨c2, w2, cur2, g1, g2⟩ := ih (cur := cur1) h3.isOpen h2 hnd.2 hbe.2
      (fun q hq => hv q (List.mem_cons_of_mem _ hq))
      (fun q hq => by
        have hne : q ≠ k := fun e => hnd.1 (e ▸ hq)
        rw [h3.get, if_neg hne]
        exact hrow q (List.mem_cons_of_mem _ hq))
      (fun q hq => hpart q (List.mem_cons_of_mem _ hq))
      (fun q hq p hp hw => by
        rw [h3.get, if_neg (not_source (hv k List.mem_cons_self) (hv q (List.mem_cons_of_mem _ hq))
          (fun e => hnd.1 (e ▸ hq)) (hbe.1 q hq) (hpart q (List.mem_cons_of_mem _ hq)) hp hw)]
        exact hs q (List.mem_cons_of_mem _ hq) p hp hw)
    refine ⟨c2, w2, cur2, ?_, looped_cons hnd.1 h3 g2⟩
    rw [List.foldlM_cons, run_bind_ok h1]
    exact g1

/-- The blocks a copying command visits. -/
def dests (area : Option Area) (invert : Bool) (t : Table) : List Int :=
  (hits [] area invert t).map (·.1)

theorem mem_dests {area : Option Area} {invert : Bool} {t : Table} (hg : GoodTable t) (ha : AreaOk area)
    {bp : Vec3} (hb : ValidBlockPos bp) : keyOf bp ∈ dests area invert t ↔
      keyOf bp ∈ t.map (·.1) ∧ ∃ p, InBlock bp p ∧ Selected area invert p := by
  unfold dests
  have hw := areaKeeps_iff ha invert true hb
  simp only [Wanted, if_true] at hw
  simp only [List.mem_map, mem_hits, List.map_nil]
  constructor
  · rintro ⟨r, ⟨h1, h2, -⟩, h3⟩
    rw [h3, hw] at h2
    exact ⟨⟨r, h1, h3⟩, h2⟩
  · rintro ⟨⟨r, h1, h3⟩, h2⟩
    exact ⟨r, ⟨h1, by rw [h3, hw]; exact h2, nameKeeps_nil _⟩, h3⟩

theorem dests_nodup {area : Option Area} {invert : Bool} {t : Table} (hg : GoodTable t) :
    (dests area invert t).Nodup := hits_nodup hg.nodup

theorem dests_row {area : Option Area} {invert : Bool} {t : Table} (hg : GoodTable t) {k : Int}
    (hk : k ∈ dests area invert t) : ValidKey k ∧ ∃ d, t.get? k = some d := by
  obtain ⟨r, h1, rfl⟩ := List.mem_map.1 hk
  have := (mem_hits.1 h1).1
  exact ⟨hg.valid r this, r.2, Table.get?_of_mem hg.nodup this⟩

theorem addArea_valid {a : Area} {o : Vec3} (h : a.isValid = true) : (a.add o).isValid = true := by
  rw [isValid_iff] at h ⊢
  unfold Area.add Vec3.add
  simp only
  omega

/-- The part of block `k` in an area. -/
def partIn (a : Area) (k : Int) : Area := (a.absBlockOverlap (Vec3.fromBlockKey k)).getD a

theorem partIn_some {a : Area} (hv : a.isValid = true) {t : Table} (hg : GoodTable t) {k : Int}
    (hk : k ∈ dests (some a) false t) :
    a.absBlockOverlap (Vec3.fromBlockKey k) = some (partIn a k) := by
  have hao : AreaOk (some a) := by intro x hx; cases hx; exact hv
  obtain ⟨h1, -⟩ := dests_row hg hk
  obtain ⟨v, e⟩ := keyOf_fromBlockKey k h1
  rw [← e] at hk
  obtain ⟨-, p, hp, hs⟩ := (mem_dests hg hao v).1 hk
  unfold partIn
  cases h : a.absBlockOverlap (Vec3.fromBlockKey k) with
  | some x => rfl
  | none =>
    refine absurd ⟨p, hp, ?_⟩ ((C07_abs_overlap a _).2.1 h)
    exact hs.2 rfl

/-- The world after a copying command. -/
structure CopyDone (c : Codec) (find : Vec3 → Option MapBlock) (part : Int → Area) (o : Vec3)
    (ks : List Int) (dur cur : Table) (cols : List Col) (w : World) (cur' : Table) (w' : World) : Prop where
  isOpen : OpenAt w' .main dur cur' cols
  nodup : (cur'.map (·.1)).Nodup
  off : ∀ k, k ∉ ks → cur'.get? k = cur.get? k
  on : ∀ k ∈ ks, ∃ d', cur'.get? k = some d' ∧ DestRow c cur find ((part k).sub o) o k d'
  events : w'.events = w.events ++
    [.newState .querying, .newState .ignore, .newState .editing, .newState .ignore]
  input : w'.dbs .input = w.dbs .input
  total : w'.status.total = ks.length
  done : w'.status.done = w.status.done + ks.length
  failed : w'.status.failed = w.status.failed + (ks.filter (isBad c cur)).length

theorem clone_run {env : Env} (hE : EnvOk env) (hf : ∀ n, env.fail n = false) {w : World}
    {t dur : Table} {cols : List Col} (ho : OpenAt w .main dur t cols) (hg : GoodTable t)
    (ha : AllBlocks env.codec t Tame) (cap : Nat) {args : InstArgs} {a : Area}
    {o : Vec3} (hA : args.area = some a) (hO : args.offset = some o) (hv : a.isValid = true) :
    ∃ w' cur' ks, clone env cap args w = (.ok (), w') ∧ ks.Perm (dests (some (a.add o)) false t) ∧
      CopyDone env.codec (findIn env.codec t) (partIn (a.add o)) o ks dur t cols w cur' w' := by
  unfold clone
  rw [hA, hO]
  show ∃ w' cur' ks, (do
    let keys ← queryKeys env .main [] (some (a.add o)) false true
    let keys ← Run.lift (sortKeys o keys)
    beginEditing
    let _ ← keys.foldlM (cloneStep env (a.add o) o) (CacheMap.withCapacity cap)
    endEditing : Run Unit) w = _ ∧ _
  rcases queryKeys_open ho [] (some (a.add o)) false true (env := env) with ⟨w1, h1, q⟩ | ⟨h, _⟩
  · rw [run_bind_ok h1]
    have hd : (queryHits [] (some (a.add o)) false true t).map (·.1) = dests (some (a.add o)) false t := rfl
    rw [hd]
    obtain ⟨ks, k1, k2, k3⟩ := sortKeys_run (o := o) (keys := dests (some (a.add o)) false t)
      (fun k hk => (dests_row hg hk).1)
    rw [k1]
    have hmem : ∀ k, k ∈ ks ↔ k ∈ dests (some (a.add o)) false t := fun k => k2.mem_iff
    obtain ⟨c2, w2, cur2, l1, l2⟩ := cloneLoop_run hE hf (w := w1.inState .editing) (dur := dur) (cur := t)
      (cols := cols) (show w1.dbs .main = _ by rw [q.dbs]; exact ho) ha
      (cacheOk_empty (orig env.codec t) cap) (area := a.add o) (o := o) (part := partIn (a.add o))
      (ks := ks) (k2.nodup_iff.2 (dests_nodup hg)) k3
      (fun k hk => (dests_row hg ((hmem k).1 hk)).1)
      (fun k hk => ⟨rfl, (dests_row hg ((hmem k).1 hk)).2⟩)
      (fun k hk => partIn_some (addArea_valid hv) hg ((hmem k).1 hk))
      (fun _ _ _ _ _ => rfl)
    refine ⟨w2.inState .ignore, cur2, ks, ?_, k2, l2.isOpen, l2.nodup hg.nodup, l2.off, l2.on, ?_, ?_, ?_,
      ?_, ?_⟩
    · show (do
        beginEditing
        let _ ← ks.foldlM (cloneStep env (a.add o) o) (CacheMap.withCapacity cap)
        endEditing : Run Unit) w1 = _
      have hb : beginEditing w1 = (.ok (), w1.inState .editing) := rfl
      rw [run_bind_ok hb, run_bind_ok l1]
      rfl
    · show w2.events ++ _ = _
      rw [l2.events]
      show (w1.events ++ _) ++ _ = _
      rw [q.events]
      simp
    · show w2.dbs .input = _
      rw [l2.input]
      show w1.dbs .input = _
      rw [q.dbs]
    · show w2.status.total = _
      rw [l2.total]
      show w1.status.total = _
      rw [q.status]
      show (queryHits [] (some (a.add o)) false true t).length = _
      rw [k2.length_eq, ← hd, List.length_map]
    · show w2.status.done = _
      rw [l2.done]
      show w1.status.done + _ = _
      rw [q.status]
    · show w2.status.failed = _
      rw [l2.failed]
      show w1.status.failed + _ = _
      rw [q.status]
  · rw [hf] at h; cases h

end MapEditr
