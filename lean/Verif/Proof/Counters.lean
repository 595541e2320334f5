import Verif.Proof.Machine
import Verif.Proof.Progress
/-! # Lemmas: counters stay far below the limits of their types -/

namespace MapEditr
open Spec

/-! ## How many blocks a map can have -/

/-- Distinct integers of an interval. -/
theorem nodup_interval (n : Nat) (lo : Int) (l : List Int) (hd : l.Nodup) (h : ∀ k ∈ l, lo ≤ k ∧ k < lo + n) :
    l.length ≤ n := by
  induction n generalizing l with
  | zero =>
    cases l with
    | nil => exact Nat.le_refl _
    | cons a t =>
      have := h a (by simp)
      omega
  | succ n ih =>
    have h1 := ih (l.filter fun k => decide (k < lo + n)) (hd.filter _) fun k hk => by
      rw [List.mem_filter] at hk
      exact ⟨(h k hk.1).1, of_decide_eq_true hk.2⟩
    have h2 : (l.filter fun k => !decide (k < lo + n)).length ≤ 1 := by
      have hn : (l.filter fun k => !decide (k < lo + n)).Nodup := hd.filter _
      have he : ∀ k ∈ l.filter fun k => !decide (k < lo + n), k = lo + n := by
        intro k hk
        rw [List.mem_filter] at hk
        have h3 := h k hk.1
        have h4 : lo + n ≤ k := by simpa using hk.2
        omega
      generalize (l.filter fun k => !decide (k < lo + n)) = q at hn he
      match q, hn, he with
      | [], _, _ => simp
      | [_], _, _ => simp
      | a :: b :: t, hn, he =>
        exfalso
        rw [List.nodup_cons] at hn
        exact hn.1 (by rw [he a (by simp), ← he b (by simp)]; simp)
    have h3 : l.length = (l.filter fun k => decide (k < lo + n)).length +
        (l.filter fun k => !decide (k < lo + n)).length := by
      rw [← List.countP_eq_length_filter, ← List.countP_eq_length_filter]
      have := List.length_eq_countP_add_countP (fun k => decide (k < lo + n)) (l := l)
      rw [this]
      congr 2
      funext k
      show (decide ¬(decide (k < lo + n) = true)) = !decide (k < lo + n)
      cases decide (k < lo + n) <;> rfl
    omega

/-- A map has at most 4096³ blocks. -/
theorem keys_bound {l : List Int} (hd : l.Nodup) (h : ∀ k ∈ l, ValidKey k) : l.length ≤ 68719476736 :=
  nodup_interval 68719476736 (-34368129024) l hd fun k hk => by
    have := h k hk
    unfold ValidKey at this
    omega

/-! ## What is counted in one block -/

theorem res_foldlM_count {α β : Type} {f : α × Nat → β → Res (α × Nat)}
    (h : ∀ st b st', f st b = .ok st' → st'.2 ≤ st.2 + 1) (l : List β) (st st' : α × Nat)
    (e : l.foldlM f st = .ok st') : st'.2 ≤ st.2 + l.length := by
  induction l generalizing st with
  | nil => cases e; exact Nat.le_refl _
  | cons a t ih =>
    rw [List.foldlM_cons] at e
    obtain ⟨s1, e1, e2⟩ := bind_ok_iff.1 e
    have h1 := h _ _ _ e1
    have h2 := ih _ e2
    rw [List.length_cons]
    omega

theorem replaceAt_count {old new : Nat} {st st' : List Nat × Nat} {i : Nat} (h : replaceAt old new st i = .ok st') :
    st'.2 ≤ st.2 + 1 := by
  unfold replaceAt at h
  obtain ⟨v, -, h⟩ := bind_ok_iff.1 h
  split at h
  · obtain ⟨l, -, h⟩ := bind_ok_iff.1 h
    cases h
    exact Nat.le_refl _
  · cases h
    omega

theorem param2At_count {nodes : List Nat} {id : Option Nat} {val : UInt8} {st st' : Bytes × Nat} {i : Nat}
    (h : param2At nodes id val st i = .ok st') : st'.2 ≤ st.2 + 1 := by
  have go : ∀ hit : Bool, (if hit = true then (do
      let l ← setIdx st.1 i val
      pure (l, st.2 + 1) : Res (Bytes × Nat)) else pure st) = .ok st' → st'.2 ≤ st.2 + 1 := by
    intro hit h
    split at h
    · obtain ⟨l, -, h⟩ := bind_ok_iff.1 h
      cases h
      exact Nat.le_refl _
    · cases h
      omega
  unfold param2At at h
  cases id with
  | none => exact go true h
  | some id =>
    obtain ⟨v, -, h⟩ := bind_ok_iff.1 h
    exact go _ h

theorem part_local {a : Area} {bp : Vec3} {o : Area} (h : a.relBlockOverlap bp = some o) :
    LocalArea o ∧ o.volume ≤ 4096 := by
  have hp := Checked.relBlockOverlap_part h
  refine ⟨?_, Checked.volume_le hp⟩
  unfold Checked.BlockPart at hp
  unfold LocalArea
  simp only [isValid_iff] at hp
  omega

theorem inverse_length {a : Area} (h : LocalArea a) {is : List Nat} (e : inverseIndices a = .ok is) :
    is.length ≤ 4096 := by
  rw [inverseIndices_sel h] at e
  rw [← Except.ok.inj e]
  unfold selIdx
  rw [if_pos rfl]
  refine Nat.le_trans (List.length_filter_le ..) ?_
  rw [List.length_range]
  exact Nat.le_refl _

theorem fillBlock_count {bd : Build} {area : Area} {invert : Bool} {node : Bytes} {pos : Vec3} {b b' : MapBlock} {n : Nat}
    (hb : Wf b) (h : fillBlock bd area invert node pos b = .ok (b', n)) : n ≤ 4096 := by
  unfold fillBlock at h
  split at h
  · obtain ⟨part, e1, h⟩ := bind_ok_iff.1 h
    cases hr : area.relBlockOverlap pos with
    | none => rw [hr] at e1; cases e1
    | some o =>
      rw [hr] at e1
      cases e1
      obtain ⟨_, -, h⟩ := bind_ok_iff.1 h
      obtain ⟨_, -, h⟩ := bind_ok_iff.1 h
      obtain ⟨_, -, h⟩ := bind_ok_iff.1 h
      cases h
      exact (part_local hr).2
  · cases h
    exact Nat.le_of_eq hb.nodes.1

theorem doReplace_le {bd : Build} {b b' : MapBlock} {key : Int} {old n : Nat} {new : Bytes} {area : Option Area}
    {invert : Bool} (hb : Wf b) (h : doReplace bd b key old new area invert = .ok (b', n)) : n ≤ 4096 := by
  unfold doReplace at h
  simp only at h
  split at h
  · rename_i a _
    obtain ⟨part, e1, h⟩ := bind_ok_iff.1 h
    cases hr : a.relBlockOverlap (Vec3.fromBlockKey key) with
    | none => rw [hr] at e1; cases e1
    | some o =>
      rw [hr] at e1
      cases e1
      obtain ⟨hl, hv⟩ := part_local hr
      have go : ∀ (newId : Nat) (needed : Bool) (is : List Nat), is.length ≤ 4096 → (do
          let (nodes, replaced) ← is.foldlM (replaceAt old newId) (b.nd.nodes, 0)
          let nimap := if needed && decide (replaced > 0) then SMap.insert b.nimap newId new else b.nimap
          if !(nodes.contains old) then do
            let nodes := nodes.map fun id => if id > old then id - 1 else id
            let nimap ← NameIdMap.removeShift bd nimap old
            return ({ b with nimap, nd := { b.nd with nodes } }, replaced)
          else return ({ b with nimap, nd := { b.nd with nodes } }, replaced) : Res (MapBlock × Nat)) = .ok (b', n) →
          n ≤ 4096 := by
        intro newId needed is hi h
        obtain ⟨st, e2, h⟩ := bind_ok_iff.1 h
        have h1 := res_foldlM_count (fun _ _ _ => replaceAt_count) _ _ _ e2
        simp only at h
        split at h
        · obtain ⟨_, -, h⟩ := bind_ok_iff.1 h
          cases h
          simp only at h1
          omega
        · cases h
          simp only at h1
          omega
      have go2 : ∀ (newId : Nat) (needed : Bool), (if invert then (do
            let is ← inverseIndices part
            let (nodes, replaced) ← is.foldlM (replaceAt old newId) (b.nd.nodes, 0)
            let nimap := if needed && decide (replaced > 0) then SMap.insert b.nimap newId new else b.nimap
            if !(nodes.contains old) then do
              let nodes := nodes.map fun id => if id > old then id - 1 else id
              let nimap ← NameIdMap.removeShift bd nimap old
              return ({ b with nimap, nd := { b.nd with nodes } }, replaced)
            else return ({ b with nimap, nd := { b.nd with nodes } }, replaced) : Res (MapBlock × Nat)) else do
            let is ← (.ok (part.positions.map fun p => asUsize (p.x + 16 * (p.y + 16 * p.z))) : Res (List Nat))
            let (nodes, replaced) ← is.foldlM (replaceAt old newId) (b.nd.nodes, 0)
            let nimap := if needed && decide (replaced > 0) then SMap.insert b.nimap newId new else b.nimap
            if !(nodes.contains old) then do
              let nodes := nodes.map fun id => if id > old then id - 1 else id
              let nimap ← NameIdMap.removeShift bd nimap old
              return ({ b with nimap, nd := { b.nd with nodes } }, replaced)
            else return ({ b with nimap, nd := { b.nd with nodes } }, replaced)) = .ok (b', n) → n ≤ 4096 := by
        intro newId needed h
        split at h
        · obtain ⟨is, e2, h⟩ := bind_ok_iff.1 h
          exact go newId needed is (inverse_length hl e2) h
        · refine go newId needed _ ?_ h
          rw [List.length_map, positions_eq part (Checked.relBlockOverlap_part hr).1, length_zyx]
          exact hv
      unfold replacePart at h
      simp only at h
      split at h
      · exact go2 _ _ h
      · obtain ⟨mx, -, h⟩ := bind_ok_iff.1 h
        obtain ⟨m, -, h⟩ := bind_ok_iff.1 h
        exact go2 _ _ h
  · have hr : (b.nd.nodes.filter fun id => id == old).length ≤ 4096 := by
      rw [← hb.nodes.1]
      exact List.length_filter_le ..
    unfold replaceWhole at h
    simp only at h
    split at h
    · obtain ⟨_, -, h⟩ := bind_ok_iff.1 h
      cases h
      exact hr
    · cases h
      exact hr

theorem param2Block_count {area : Option Area} {invert : Bool} {id : Option Nat} {val : UInt8} {pos : Vec3}
    {b b' : MapBlock} {n : Nat} (hb : Wf b) (h : param2Block area invert id val pos b = .ok (b', n)) : n ≤ 4096 := by
  unfold param2Block at h
  simp only at h
  split at h
  · rename_i a _
    obtain ⟨part, e1, h⟩ := bind_ok_iff.1 h
    cases hr : a.relBlockOverlap pos with
    | none => rw [hr] at e1; cases e1
    | some o =>
      rw [hr] at e1
      cases e1
      obtain ⟨hl, hv⟩ := part_local hr
      obtain ⟨st, e2, h⟩ := bind_ok_iff.1 h
      cases h
      unfold setParam2Partial at e2
      split at e2
      · split at e2
        · obtain ⟨is, e3, e2⟩ := bind_ok_iff.1 e2
          have h1 := res_foldlM_count (fun _ _ _ => param2At_count) _ _ _ e2
          have h2 := inverse_length hl e3
          simp only at h1 ⊢
          omega
        · obtain ⟨is, -, e2⟩ := bind_ok_iff.1 e2
          obtain ⟨_, -, e2⟩ := bind_ok_iff.1 e2
          cases e2
          exact Nat.sub_le ..
      · have h1 := res_foldlM_count (fun _ _ _ => param2At_count) _ _ _ e2
        rw [length_zyx] at h1
        simp only at h1 ⊢
        omega
  · split at h
    · obtain ⟨st, e2, h⟩ := bind_ok_iff.1 h
      cases h
      have h1 := res_foldlM_count (fun _ _ _ => param2At_count) _ _ _ e2
      rw [List.length_range] at h1
      have := hb.nodes.2.2.2
      simp only at h1 ⊢
      omega
    · cases h
      exact Nat.le_of_eq hb.nodes.2.2.2

theorem metaToDelete_count {args : InstArgs} {id : Option Nat} {key : Int} {nodes : List Nat} {l : MetaList}
    {del : List Nat} (h : metaToDelete args id key nodes l = .ok del) : del.length ≤ l.length := by
  induction l generalizing del with
  | nil => cases h; exact Nat.le_refl _
  | cons e t ih =>
    obtain ⟨i, m⟩ := e
    rw [metaToDelete_cons] at h
    obtain ⟨hit, -, h⟩ := bind_ok_iff.1 h
    obtain ⟨rest, e2, h⟩ := bind_ok_iff.1 h
    have := ih e2
    cases h
    rw [List.length_cons]
    split
    · rw [List.length_cons]
      omega
    · omega

theorem removeRev_count {α : Type} {del : α → Res Bool} {l l' : List α} {n : Nat} (h : removeRev del l = .ok (l', n)) :
    n ≤ l.length := by
  induction l generalizing l' n with
  | nil => cases h; exact Nat.le_refl _
  | cons a t ih =>
    unfold removeRev at h
    obtain ⟨⟨t', k⟩, e1, h⟩ := bind_ok_iff.1 h
    obtain ⟨d, -, h⟩ := bind_ok_iff.1 h
    have := ih e1
    rw [List.length_cons]
    cases d <;> cases h <;> omega

theorem editMetas_count {args : InstArgs} {ids : List Nat} {key : Int} {nodes : List Nat}
    {edit : NodeMeta → NodeMeta × Nat} {size : NodeMeta → Nat} (he : ∀ m, (edit m).2 ≤ size m) {l l' : MetaList} {ns : List Nat}
    (h : editMetas args ids key nodes edit l = .ok (l', ns)) :
    ns.sum ≤ (l.map fun e => size e.2).sum ∧ ns.length ≤ l.length := by
  induction l generalizing l' ns with
  | nil => cases h; exact ⟨Nat.le_refl _, Nat.le_refl _⟩
  | cons e t ih =>
    obtain ⟨i, m⟩ := e
    have go : ∀ hit : Bool, (do
        let (rest, ns) ← editMetas args ids key nodes edit t
        if hit then
          let (m', n) := edit m
          return ((i, m') :: rest, n :: ns)
        else return ((i, m) :: rest, ns) : Res (MetaList × List Nat)) = .ok (l', ns) →
        ns.sum ≤ (((i, m) :: t).map fun e => size e.2).sum ∧ ns.length ≤ ((i, m) :: t).length := by
      intro hit h
      obtain ⟨⟨rest, ks⟩, e1, h⟩ := bind_ok_iff.1 h
      have h1 := ih e1
      have h2 := he m
      cases hit <;> cases h <;>
        simp only [List.map_cons, List.sum_cons, List.length_cons] <;> omega
    unfold editMetas at h
    simp only at h
    split at h
    · obtain ⟨hit, -, h⟩ := bind_ok_iff.1 h
      exact go hit h
    · exact go false h

theorem editVar_count (key value : Bytes) (delete : Bool) (m : NodeMeta) : (editVar key value delete m).2 ≤ 1 := by
  unfold editVar
  split
  · split <;> exact Nat.le_refl _
  · exact Nat.zero_le _

theorem splitOn_length (sep : UInt8) (s : Bytes) : (splitOn sep s).length ≤ s.length + 1 := by
  induction s with
  | nil => exact Nat.le_refl _
  | cons c t ih =>
    unfold splitOn
    split
    · simp only [List.length_cons]
      omega
    · split
      · rename_i p ps e
        rw [e] at ih
        simp only [List.length_cons] at ih ⊢
        omega
      · simp only [List.length_cons, List.length_nil]
        omega

theorem replaceLine_count (item newItem : Bytes) (d : Bool) (line : Bytes) : (replaceLine item newItem d line).2 ≤ 1 := by
  unfold replaceLine
  split
  · exact Nat.zero_le _
  · split
    · split
      · exact Nat.le_refl _
      · exact Nat.zero_le _
    · exact Nat.zero_le _

theorem sum_le_length (l : List Nat) (h : ∀ n ∈ l, n ≤ 1) : l.sum ≤ l.length := by
  induction l with
  | nil => exact Nat.le_refl _
  | cons a t ih =>
    have h1 := h a (by simp)
    have h2 := ih fun n hn => h n (by simp [hn])
    simp only [List.sum_cons, List.length_cons]
    omega

theorem editInv_count (item newItem : Bytes) (d : Bool) (m : NodeMeta) :
    (editInv item newItem d m).2 ≤ m.inv.length + 1 := by
  have h : (((splitOn 10 m.inv).map (replaceLine item newItem d)).map (·.2)).sum ≤ m.inv.length + 1 := by
    refine Nat.le_trans (sum_le_length _ ?_) ?_
    · intro n hn
      simp only [List.map_map, List.mem_map] at hn
      obtain ⟨line, -, rfl⟩ := hn
      exact replaceLine_count ..
    · simp only [List.length_map]
      exact splitOn_length ..
  unfold editInv invReplace
  simp only
  split <;> exact h

/-! ## Steps that agree -/

namespace Checked

/-- Both do the same from `w`, and what a successful end leaves satisfies `P`. -/
def Agree {α : Type} (P : α → World → Prop) (m' m : Run α) (w : World) : Prop :=
  m' w = m w ∧ ∀ a w', m w = (.ok a, w') → P a w'

theorem agree_bind {α β : Type} {P : α → World → Prop} {R : β → World → Prop} {m' m : Run α} {f' f : α → Run β} {w : World}
    (h : Agree P m' m w) (hf : ∀ a w1, P a w1 → Agree R (f' a) (f a) w1) : Agree R (m' >>= f') (m >>= f) w := by
  refine ⟨run_bind_same h.1 fun a w1 e => (hf a w1 (h.2 a w1 e)).1, fun b w' e => ?_⟩
  obtain ⟨a, w1, e1, e2⟩ := run_bind_iff.1 e
  exact (hf a w1 (h.2 a w1 e1)).2 b w' e2

theorem agree_rfl {α : Type} {P : α → World → Prop} {m : Run α} {w : World} (h : ∀ a w', m w = (.ok a, w') → P a w') :
    Agree P m m w := ⟨rfl, h⟩

theorem agree_pure {α : Type} {P : α → World → Prop} {a : α} {w : World} (h : P a w) : Agree P (pure a) (pure a) w :=
  agree_rfl fun _ _ e => by cases e; exact h

theorem agree_mono {α : Type} {P R : α → World → Prop} {m' m : Run α} {w : World} (h : Agree P m' m w)
    (hi : ∀ a w', P a w' → R a w') : Agree R m' m w := ⟨h.1, fun a w' e => hi a w' (h.2 a w' e)⟩

theorem agree_still {α β : Type} {R : β → World → Prop} {m : Run α} {f' f : α → Run β} {w : World} (h : Still m)
    (hf : ∀ a w1, m w = (.ok a, w1) → w1.status = w.status → Agree R (f' a) (f a) w1) : Agree R (m >>= f') (m >>= f) w := by
  refine agree_bind (P := fun a w1 => m w = (.ok a, w1) ∧ w1.status = w.status) (agree_rfl fun a w1 e => ⟨e, ?_⟩)
    fun a w1 h => hf a w1 h.1 h.2
  have := (h w).1
  rw [e] at this
  exact this

/-- The counters are far below the limits. -/
def Low (w : World) : Prop := w.status.done < 1152921504606846976 ∧ w.status.failed < 1152921504606846976

/-- At most one more block done, at most one more failed. -/
def Rise (w w' : World) : Prop := w'.status.done ≤ w.status.done + 1 ∧ w'.status.failed ≤ w.status.failed + 1

theorem u64_small (b : Build) {n : Nat} (h : n < 18446744073709551616) : u64 b n = .ok n := if_pos h

theorem incDone_low (b : Build) {w : World} (h : Low w) :
    incDone b w = MapEditr.incDone w := by
  unfold incDone
  rw [u64_small b (Nat.lt_of_le_of_lt (Nat.succ_le_of_lt h.1) (by omega))]
  rfl

theorem incFailed_low (b : Build) {w : World} (h : Low w) :
    incFailed b w = MapEditr.incFailed w := by
  unfold incFailed
  rw [u64_small b (Nat.lt_of_le_of_lt (Nat.succ_le_of_lt h.2) (by omega))]
  rfl

/-- One more done, then the rest. -/
theorem agree_done {β : Type} {R : β → World → Prop} {b : Build} {f' f : Unit → Run β} {w : World} (h : Low w)
    (hf : ∀ w1, w1.status.done = w.status.done + 1 → w1.status.failed = w.status.failed → w1.dbs = w.dbs →
      Agree R (f' ()) (f ()) w1) :
    Agree R (incDone b >>= f') (MapEditr.incDone >>= f) w :=
  agree_bind (P := fun _ w1 => w1.status.done = w.status.done + 1 ∧ w1.status.failed = w.status.failed ∧ w1.dbs = w.dbs)
    ⟨incDone_low b h, fun _ _ e => by cases e; exact ⟨rfl, rfl, rfl⟩⟩ fun _ w1 h1 => hf w1 h1.1 h1.2.1 h1.2.2

/-- One more failed, then the rest. -/
theorem agree_failed {β : Type} {R : β → World → Prop} {b : Build} {f' f : Unit → Run β} {w : World}
    (h : w.status.failed < 1152921504606846976)
    (hf : ∀ w1, w1.status.failed = w.status.failed + 1 → w1.status.done = w.status.done → w1.dbs = w.dbs →
      Agree R (f' ()) (f ()) w1) :
    Agree R (incFailed b >>= f') (MapEditr.incFailed >>= f) w := by
  refine agree_bind (P := fun _ w1 => w1.status.failed = w.status.failed + 1 ∧ w1.status.done = w.status.done ∧ w1.dbs = w.dbs)
    ⟨?_, fun _ _ e => by cases e; exact ⟨rfl, rfl, rfl⟩⟩ fun _ w1 h1 => hf w1 h1.1 h1.2.1 h1.2.2
  unfold incFailed
  rw [u64_small b (Nat.lt_of_le_of_lt (Nat.succ_le_of_lt h) (by omega))]
  rfl

theorem addTo_small {β : Type} (b : Build) {c n : Nat} (h : c + n < 18446744073709551616) (f : Nat → Run β) :
    (addTo b c n >>= f) = f (c + n) := by
  unfold addTo
  rw [u64_small b h]
  rfl

/-- Counting, then something the exact version does too. -/
theorem agree_add {β : Type} {R : β → World → Prop} {b : Build} {c n : Nat} {f' : Nat → Run β} {m : Run β} {w : World}
    (h : c + n < 18446744073709551616) (hf : Agree R (f' (c + n)) m w) : Agree R (addTo b c n >>= f') m w := by
  rw [addTo_small b h]
  exact hf

/-- A result of the library that is `Ok`, then the rest. -/
theorem agree_lift {α β : Type} {R : β → World → Prop} {r' r : Res α} {f' f : α → Run β} {w : World} (h : r' = r)
    (hf : ∀ a, r = .ok a → Agree R (f' a) (f a) w) : Agree R (Run.lift r' >>= f') (Run.lift r >>= f) w := by
  subst h
  cases r' with
  | error e => exact ⟨rfl, fun a w' e' => by cases e'⟩
  | ok a => exact hf a rfl

/-- Writing a block, then what does not count. -/
theorem agree_save {β : Type} {R : β → World → Prop} {env : Env} {b : MapBlock} {k : Int} {f : Unit → Run β}
    {w : World} (hf : Still (f ())) (h : ∀ a w1 w2, f () w1 = (.ok a, w2) → w2.status = w.status → R a w2) :
    Agree R (ser env b >>= fun s => setBlock env .main k s >>= fun r => expect r >>= f)
      (ser env b >>= fun s => setBlock env .main k s >>= fun r => expect r >>= f) w := by
  refine agree_rfl fun a w' e => ?_
  have hs := ((still_save env b k hf) w).1
  rw [e] at hs
  obtain ⟨_, _, -, e⟩ := run_bind_iff.1 e
  obtain ⟨_, _, -, e⟩ := run_bind_iff.1 e
  obtain ⟨_, _, -, e⟩ := run_bind_iff.1 e
  exact h a _ w' e hs

/-- Reading a block: if that fails it is counted, otherwise `f` goes on with a block that fits the format. -/
theorem agree_read {β : Type} {R : β → World → Prop} {env : Env} {k : Int}
    {f' f : Option MapBlock → Run β} {w : World}
    (h0 : ∀ w1, w1.status = w.status → Agree R (f' none) (f none) w1)
    (hf : ∀ b w1, Wf b → w1.status = w.status → Agree R (f' (some b)) (f (some b)) w1) :
    Agree R (getBlock env .main k >>= fun r => expect r >>= fun d => Run.okOr (deserialize env.codec d) >>= f')
      (getBlock env .main k >>= fun r => expect r >>= fun d => Run.okOr (deserialize env.codec d) >>= f) w := by
  refine agree_still (still_getBlock _ _ _) fun r w1 _ s1 => agree_still (still_expect _) fun d w2 _ s2 =>
    agree_still (still_okOr _) fun o w3 e3 s3 => ?_
  have s : w3.status = w.status := s3.trans (s2.trans s1)
  cases o with
  | none => exact h0 w3 s
  | some b =>
    refine hf b w3 ?_ s
    unfold Run.okOr at e3
    cases hd : deserialize env.codec d with
    | ok b' =>
      rw [hd] at e3
      cases e3
      exact wf_of_represents (deserialize_iff.1 hd)
    | error e =>
      rw [hd] at e3
      cases e with
      | err x => cases e3
      | panic x => cases e3

/-- The loop of a command. -/
theorem agree_fold {β : Type} (size : β → Nat) {F' F : β → Int → Run β} {ok : List Int → World → Prop}
    (step : ∀ k rest b w, ok (k :: rest) w → Low w → size b ≤ 9223372036854775808 →
      Agree (fun b' w' => size b' ≤ size b + 134217728 ∧ Rise w w' ∧ ok rest w') (F' b k) (F b k) w)
    (keys : List Int) (b : β) (w : World) (h : ok keys w) (hb : size b + keys.length * 134217728 ≤ 9223372036854775808)
    (hd : w.status.done + keys.length ≤ 68719476736) (hf : w.status.failed + keys.length ≤ 68719476736) :
    keys.foldlM F' b w = keys.foldlM F b w := by
  induction keys generalizing b w with
  | nil => rfl
  | cons k t ih =>
    rw [List.length_cons] at hb hd hf
    rw [List.foldlM_cons, List.foldlM_cons]
    have hs := step k t b w h ⟨by omega, by omega⟩ (by omega)
    refine run_bind_same hs.1 fun b' w' e => ?_
    obtain ⟨h1, h2, h3⟩ := hs.2 b' w' e
    obtain ⟨h4, h5⟩ := h2
    exact ih b' w' h3 (by omega) (by omega) (by omega)

end Checked
end MapEditr
