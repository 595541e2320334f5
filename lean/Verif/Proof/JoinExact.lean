import Verif.Spec.CrashCopy
import Verif.Proof.CopyAny
import Verif.Proof.Crash
import Verif.Proof.CrashNodes
/-! # Lemmas: when blocks can be merged, exactly -/

namespace MapEditr
open Spec
set_option linter.unusedSimpArgs false
set_option linter.unusedVariables false

theorem u16_iff {bd : Build} {a b c : Nat} : u16 bd (a + b) = .ok c ↔ Sum16 bd a b c := by
  unfold u16 Sum16
  split
  · next h =>
    rw [Nat.mod_eq_of_lt h]
    constructor
    · intro e; cases e; exact ⟨rfl, fun _ => h⟩
    · rintro ⟨rfl, -⟩; rfl
  · next h =>
    cases bd with
    | debug => simp [h]
    | release =>
      simp only [reduceCtorEq, false_implies, and_true]
      constructor
      · intro e; cases e; rfl
      · rintro rfl; rfl

theorem Spec.Sum16.unique {bd : Build} {a b c d : Nat} (h : Sum16 bd a b c) (h' : Sum16 bd a b d) : c = d :=
  h.1.trans h'.1.symm

theorem Spec.Sum16.lt {bd : Build} {a b c : Nat} (h : Sum16 bd a b c) : c < 65536 := by
  rw [h.1]; exact Nat.mod_lt _ (by decide)

theorem Spec.Top.unique {ids : Nat → Prop} {m n : Nat} (h : Top ids m) (h' : Top ids n) : m = n :=
  Nat.le_antisymm (h'.2 m h.1) (h.2 n h'.1)

theorem top_maxId {m : NameIdMap} (hs : SMap.Sorted m) {k : Nat} :
    NameIdMap.maxId m = some k ↔ Top (fun id => ∃ n, (id, n) ∈ m) k := by
  constructor
  · intro h
    obtain ⟨h1, h2⟩ := maxId_spec hs h
    exact ⟨h2, fun id ⟨n, hn⟩ => h1 _ hn⟩
  · intro h
    have hne : m ≠ [] := by
      rintro rfl
      obtain ⟨n, hn⟩ := h.1
      cases hn
    obtain ⟨k', hk⟩ := maxId_exists hne
    obtain ⟨h1, h2⟩ := maxId_spec hs hk
    have h' : Top (fun id => ∃ n, (id, n) ∈ m) k' := ⟨h2, fun id ⟨n, hn⟩ => h1 _ hn⟩
    rw [hk, h'.unique h]

/-- Keys of the map. -/
abbrev HasId (m : NameIdMap) (id : Nat) : Prop := ∃ n, (id, n) ∈ m

theorem hasId_insert {m : NameIdMap} {k : Nat} {v : Bytes} {id : Nat} :
    HasId (SMap.insert m k v) id ↔ HasId m id ∨ id = k := by
  constructor
  · rintro ⟨n, hn⟩
    rcases SMap.mem_insert hn with h | h
    · cases h; exact .inr rfl
    · exact .inl ⟨n, h⟩
  · rintro (⟨n, hn⟩ | rfl)
    · by_cases h : id = k
      · subst h; exact ⟨v, SMap.mem_insert_self _ _ _⟩
      · cases hg : SMap.get? m id with
        | none =>
          exfalso
          clear h
          induction m with
          | nil => cases hn
          | cons e m ih =>
            rw [SMap.get?_cons] at hg
            split at hg
            · cases hg
            · next he =>
              rcases List.mem_cons.1 hn with h | h
              · subst h; simp at he
              · exact ih h hg
        | some w =>
          refine ⟨w, SMap.get?_some_mem ?_⟩
          rw [SMap.get?_insert, if_neg (fun e => h (by simpa using e : k = id).symm)]
          exact hg
    · exact ⟨v, SMap.mem_insert_self _ _ _⟩

theorem names_fold {bd : Build} {d : Nat} {l : List (Nat × Bytes)} {m m' : NameIdMap} (hs : SMap.Sorted m)
    (h : l.foldlM (copyName bd d) m = .ok m') :
    (∀ e ∈ l, ∃ c, Sum16 bd e.1 d c) ∧ SMap.Sorted m' ∧
      (∀ id, HasId m' id ↔ HasId m id ∨ ∃ e ∈ l, Sum16 bd e.1 d id) ∧
      ∀ x ∈ m', x ∈ m ∨ ∃ e ∈ l, e.2 = x.2 := by
  induction l generalizing m with
  | nil =>
    cases h
    exact ⟨by simp, hs, by simp, fun x hx => .inl hx⟩
  | cons e l ih =>
    rw [List.foldlM_cons] at h
    obtain ⟨m1, h1, h2⟩ := bind_ok_iff.1 h
    unfold copyName at h1
    obtain ⟨c, h3, h4⟩ := bind_ok_iff.1 h1
    cases h4
    rw [u16_iff] at h3
    obtain ⟨i1, i2, i3, i4⟩ := ih (SMap.sorted_insert hs _ _) h2
    refine ⟨?_, i2, ?_, ?_⟩
    · intro x hx
      rcases List.mem_cons.1 hx with rfl | hx
      · exact ⟨c, h3⟩
      · exact i1 x hx
    · intro id
      rw [i3, hasId_insert]
      simp only [List.mem_cons, exists_eq_or_imp]
      have : Sum16 bd e.1 d id ↔ id = c := ⟨fun h => h.unique h3, fun h => h ▸ h3⟩
      rw [this, or_assoc]
    · intro x hx
      rcases i4 x hx with hx | ⟨y, hy, hxy⟩
      · rcases SMap.mem_insert hx with hx | hx
        · subst hx
          exact .inr ⟨e, List.mem_cons_self, rfl⟩
        · exact .inl hx
      · exact .inr ⟨y, List.mem_cons_of_mem _ hy, hxy⟩

theorem names_fold_ok {bd : Build} {d : Nat} {l : List (Nat × Bytes)} (m : NameIdMap)
    (h : ∀ e ∈ l, ∃ c, Sum16 bd e.1 d c) : ∃ m', l.foldlM (copyName bd d) m = .ok m' := by
  induction l generalizing m with
  | nil => exact ⟨m, rfl⟩
  | cons e l ih =>
    obtain ⟨c, hc⟩ := h e List.mem_cons_self
    obtain ⟨m', hm⟩ := ih (SMap.insert m c e.2) fun x hx => h x (List.mem_cons_of_mem _ hx)
    refine ⟨m', ?_⟩
    rw [List.foldlM_cons]
    unfold copyName
    rw [u16_iff.2 hc]
    exact hm

/-- Node `j` of the one block becomes node `i` of the other. -/
def MovedBy (sa da : Area) (i j : Nat) : Prop :=
  i < 4096 ∧ da.contains (Vec3.fromU16Key i) = true ∧ ((i : Int) - dif sa da).toNat = j

theorem moved_zyx {sa da : Area} (hs : LocalArea sa) (hd : LocalArea da) (hsz : SameSize sa da) {i : Nat} :
    (∃ p ∈ sa.zyx, (i : Int) = linIdx p + dif sa da) ↔ i < 4096 ∧ da.contains (Vec3.fromU16Key i) = true := by
  have hdif : dif sa da = (da.min.x - sa.min.x) + (da.min.y - sa.min.y) * 16
      + (da.min.z - sa.min.z) * 256 := rfl
  obtain ⟨a1, a2, a3, a4, a5, a6, a7, a8, a9⟩ := hs
  obtain ⟨b1, b2, b3, b4, b5, b6, b7, b8, b9⟩ := hd
  obtain ⟨c1, c2, c3⟩ := hsz
  rw [contains_idx]
  constructor
  · rintro ⟨⟨x, y, z⟩, hp, h⟩
    rw [mem_zyx] at hp
    unfold InBox at hp
    have hlin : linIdx ⟨x, y, z⟩ = x + y * 16 + z * 256 := rfl
    simp only at hp
    have e : (i : Int) = (x + (da.min.x - sa.min.x)) + (y + (da.min.y - sa.min.y)) * 16
      + (z + (da.min.z - sa.min.z)) * 256 := by omega
    omega
  · rintro ⟨hi, h⟩
    refine ⟨⟨((i % 16 : Nat) : Int) - (da.min.x - sa.min.x),
      ((i / 16 % 16 : Nat) : Int) - (da.min.y - sa.min.y),
      ((i / 256 % 16 : Nat) : Int) - (da.min.z - sa.min.z)⟩, ?_, ?_⟩
    · rw [mem_zyx]; unfold InBox; simp only; omega
    · unfold linIdx; simp only; omega

/-- Copying the nodes of an area. -/
theorem nodes_fold {bd : Build} {d : Nat} {src dst dst' : List Nat} {sa da : Area} (hs : LocalArea sa)
    (hd : LocalArea da) (hsz : SameSize sa da) (ls : src.length = 4096) (ld : dst.length = 4096)
    (h : sa.zyx.foldlM (copyNode bd src (dif sa da) d) dst = .ok dst') :
    (∀ i j id, MovedBy sa da i j → src[j]? = some id → ∃ c, Sum16 bd id d c) := by
  have key : ∀ ps : List Vec3, (∀ p ∈ ps, 0 ≤ linIdx p ∧ linIdx p < 4096) → ∀ dst dst',
      ps.foldlM (copyNode bd src (dif sa da) d) dst = .ok dst' →
      ∀ p ∈ ps, ∀ id, src[(linIdx p).toNat]? = some id → ∃ c, Sum16 bd id d c := by
    intro ps hps
    induction ps with
    | nil => intro _ _ _ p hp; cases hp
    | cons q ps ih =>
      intro dst dst' h p hp id hid
      rw [List.foldlM_cons] at h
      obtain ⟨d1, h1, h2⟩ := bind_ok_iff.1 h
      rcases List.mem_cons.1 hp with rfl | hp
      · unfold copyNode at h1
        simp only at h1
        have := hps p List.mem_cons_self
        rw [asUsize_nonneg (by omega) (by omega), idx_ok hid] at h1
        simp only [res_bind_ok] at h1
        obtain ⟨c, h3, -⟩ := bind_ok_iff.1 h1
        exact ⟨c, u16_iff.1 h3⟩
      · exact ih (fun p hp => hps p (List.mem_cons_of_mem _ hp)) _ _ h2 p hp id hid
  have hps : ∀ p ∈ sa.zyx, 0 ≤ linIdx p ∧ linIdx p < 4096 := by
    rintro ⟨x, y, z⟩ hp
    rw [mem_zyx] at hp
    unfold InBox at hp
    have hlin : linIdx ⟨x, y, z⟩ = x + y * 16 + z * 256 := rfl
    obtain ⟨a1, a2, a3, a4, a5, a6, a7, a8, a9⟩ := hs
    simp only at hp
    omega
  rintro i j id ⟨h0, h1, rfl⟩ hid
  obtain ⟨p, hp, e⟩ := (moved_zyx hs hd hsz).2 ⟨h0, h1⟩
  refine key _ hps _ _ h p hp id ?_
  rw [← hid]
  congr 1
  omega

theorem nodes_fold_ok {bd : Build} {d : Nat} {src dst : List Nat} {sa da : Area} (hs : LocalArea sa)
    (hd : LocalArea da) (hsz : SameSize sa da) (ls : src.length = 4096) (ld : dst.length = 4096)
    (h : ∀ i j id, MovedBy sa da i j → src[j]? = some id → ∃ c, Sum16 bd id d c) :
    ∃ dst', sa.zyx.foldlM (copyNode bd src (dif sa da) d) dst = .ok dst' ∧ dst'.length = 4096 ∧
      ∀ i c, dst'[i]? = some c ↔ (∃ j id, MovedBy sa da i j ∧ src[j]? = some id ∧ Sum16 bd id d c) ∨
        ((∀ j, ¬ MovedBy sa da i j) ∧ dst[i]? = some c) := by
  have hm := fun i => moved_zyx (i := i) hs hd hsz
  have hdif : dif sa da = (da.min.x - sa.min.x) + (da.min.y - sa.min.y) * 16
      + (da.min.z - sa.min.z) * 256 := rfl
  have hs' := hs
  have hd' := hd
  obtain ⟨a1, a2, a3, a4, a5, a6, a7, a8, a9⟩ := hs
  obtain ⟨b1, b2, b3, b4, b5, b6, b7, b8, b9⟩ := hd
  obtain ⟨c1, c2, c3⟩ := hsz
  obtain ⟨nodes, hn, hnl, hnv⟩ := foldlM_pointwise
    (copyNode bd src (dif sa da) d)
    (fun p i => (i : Int) = linIdx p + dif sa da)
    (fun i => (src[((i : Int) - dif sa da).toNat]?).map fun id => (id + d) % 65536) 4096 sa.zyx (by
      rintro ⟨x, y, z⟩ hp l hl
      have hp' := hp
      rw [mem_zyx] at hp
      unfold InBox at hp
      simp only at hp
      have hlin : linIdx ⟨x, y, z⟩ = x + y * 16 + z * 256 := rfl
      have hlt : (linIdx ⟨x, y, z⟩).toNat < src.length := by omega
      have hto : 0 ≤ linIdx ⟨x, y, z⟩ + dif sa da := by
        have e : linIdx ⟨x, y, z⟩ + dif sa da = (x + (da.min.x - sa.min.x)) + (y + (da.min.y - sa.min.y)) * 16
          + (z + (da.min.z - sa.min.z)) * 256 := by omega
        omega
      have e1 : (((linIdx ⟨x, y, z⟩ + dif sa da).toNat : Int) - dif sa da).toNat = (linIdx ⟨x, y, z⟩).toNat := by omega
      obtain ⟨c, hc⟩ := h (linIdx ⟨x, y, z⟩ + dif sa da).toNat (linIdx ⟨x, y, z⟩).toNat src[(linIdx ⟨x, y, z⟩).toNat]
        ⟨((hm _).1 ⟨_, hp', by omega⟩).1, ((hm _).1 ⟨_, hp', by omega⟩).2, e1⟩ (List.getElem?_eq_getElem hlt)
      refine ⟨l.set (linIdx ⟨x, y, z⟩ + dif sa da).toNat c, ?_, ?_, ?_⟩
      · unfold copyNode
        simp only
        rw [asUsize_nonneg (by omega) (by omega), asUsize_nonneg (by omega) (by omega),
          idx_ok (List.getElem?_eq_getElem hlt)]
        simp only [res_bind_ok]
        rw [u16_iff.2 hc]
        simp only [res_bind_ok]
        rw [setIdx_ok (by omega)]
      · simp [hl]
      · intro i
        constructor
        · intro hi
          have e1 : (linIdx ⟨x, y, z⟩ + dif sa da).toNat = i := by omega
          have e2 : ((i : Int) - dif sa da).toNat = (linIdx ⟨x, y, z⟩).toNat := by omega
          rw [e1, e2, List.getElem?_eq_getElem hlt, List.getElem?_set_self (by omega), hc.1]
          rfl
        · intro hi
          rw [List.getElem?_set_ne]
          omega) dst ld
  refine ⟨nodes, hn, hnl, ?_⟩
  intro i c
  by_cases hi : ∃ p ∈ sa.zyx, (i : Int) = linIdx p + dif sa da
  · obtain ⟨g1, g2⟩ := (hm i).1 hi
    have hmv : MovedBy sa da i ((i : Int) - dif sa da).toNat := ⟨g1, g2, rfl⟩
    rw [(hnv i).1 hi]
    simp only [Option.map_eq_some_iff]
    constructor
    · rintro ⟨id, e1, e2⟩
      left
      obtain ⟨c', hc'⟩ := h _ _ _ hmv e1
      refine ⟨_, id, hmv, e1, ?_⟩
      rw [← e2, ← hc'.1]
      exact hc'
    · rintro (⟨j, id, ⟨-, -, rfl⟩, e1, e2⟩ | ⟨e, -⟩)
      · exact ⟨id, e1, e2.1.symm⟩
      · exact absurd hmv (e _)
  · rw [(hnv i).2 hi]
    have hno : ∀ j, ¬ MovedBy sa da i j := fun j hj => hi ((hm i).2 ⟨hj.1, hj.2.1⟩)
    constructor
    · exact fun h => .inr ⟨hno, h⟩
    · rintro (⟨j, id, e, -⟩ | ⟨-, e⟩)
      · exact absurd e (hno j)
      · exact e

/-- Copying `param1` and `param2` works. -/
theorem rows_fold_ok {sp dp : Bytes} {sa da : Area} (hs : LocalArea sa)
    (hd : LocalArea da) (hsz : SameSize sa da) (hsp : sp.length = 4096) (hdp : dp.length = 4096) :
    ∃ l', sa.rows.foldlM (copyRow sp sa (dif sa da)) dp = .ok l' ∧ l'.length = 4096 := by
  have hdif : dif sa da = (da.min.x - sa.min.x) + (da.min.y - sa.min.y) * 16
      + (da.min.z - sa.min.z) * 256 := rfl
  obtain ⟨a1, a2, a3, a4, a5, a6, a7, a8, a9⟩ := hs
  obtain ⟨b1, b2, b3, b4, b5, b6, b7, b8, b9⟩ := hd
  obtain ⟨c1, c2, c3⟩ := hsz
  have key : ∀ ps : List (Int × Int), (∀ p ∈ ps, p ∈ sa.rows) → ∀ l : Bytes, l.length = 4096 →
      ∃ l', ps.foldlM (copyRow sp sa (dif sa da)) l = .ok l' ∧ l'.length = 4096 := by
    intro ps
    induction ps with
    | nil => exact fun _ l hl => ⟨l, rfl, hl⟩
    | cons p ps ih =>
      intro hps l hl
      obtain ⟨y, z⟩ := p
      have hp := hps _ List.mem_cons_self
      rw [mem_rows] at hp
      obtain ⟨l', h1, h2, h3⟩ := getElem?_copySlice (dst := l) (src := sp)
        (ds := (y * 16 + z * 256 + sa.min.x + dif sa da).toNat)
        (de := (y * 16 + z * 256 + sa.max.x + dif sa da).toNat)
        (ss := (y * 16 + z * 256 + sa.min.x).toNat) (se := (y * 16 + z * 256 + sa.max.x).toNat)
        (by omega) (by omega) (by omega) (by omega) (by omega)
      obtain ⟨l'', g1, g2⟩ := ih (fun p hp => hps p (List.mem_cons_of_mem _ hp)) l' (by omega)
      refine ⟨l'', ?_, g2⟩
      rw [List.foldlM_cons]
      have e : copyRow sp sa (dif sa da) l (y, z) = .ok l' := by
        unfold copyRow
        simp only
        rw [asUsize_nonneg (by omega) (by omega), asUsize_nonneg (by omega) (by omega),
          asUsize_nonneg (by omega) (by omega), asUsize_nonneg (by omega) (by omega)]
        exact h1
      rw [e]
      exact g1
  exact key _ (fun p hp => hp) dp hdp

/-! ## Blocks that take nodes -/

/-- What all blocks have while they take nodes. -/
structure Half (b : MapBlock) : Prop where
  fit : NodesFit b.nd
  nimap : SMap.Sorted b.nimap
  ids : ∀ e ∈ b.nimap, e.1 < 65536
  metas : SMap.Sorted b.metas
  short : Short b

theorem Spec.Wf.half {b : MapBlock} (h : Wf b) : Half b :=
  ⟨h.nodes, h.nimap.sorted, fun e he => (h.nimap.fits.2 e he).1, h.metas.sorted, h.short⟩

theorem mergeBlocks_joins {bd : Build} {src b b1 : MapBlock} {sa da : Area} (hs : LocalArea sa)
    (hd : LocalArea da) (hsz : SameSize sa da) (ws : Wf src) (hb : Half b)
    (h : mergeBlocks bd src b sa da = .ok b1) :
    Half b1 ∧ b1.metas = b.metas ∧ Joins bd src (MovedBy sa da) (draftOf b) (draftOf b1) := by
  have hpv := parts_valid hs hd hsz
  have hd' : linIdx (da.min.sub sa.min) = dif sa da := rfl
  unfold mergeBlocks rassert at h
  rw [if_pos hpv] at h
  simp only [res_bind_ok] at h
  rw [hd'] at h
  obtain ⟨mx, e1, h⟩ := bind_ok_iff.1 h
  have e1 : NameIdMap.maxId b.nimap = some mx := by
    unfold unwrap at e1
    split at e1
    · next hm => rw [hm]; cases e1; rfl
    · cases e1
  obtain ⟨base, e2, h⟩ := bind_ok_iff.1 h
  rw [u16_iff] at e2
  obtain ⟨nimap, e3, h⟩ := bind_ok_iff.1 h
  obtain ⟨nodes, e4, h⟩ := bind_ok_iff.1 h
  obtain ⟨p1, e5, h⟩ := bind_ok_iff.1 h
  obtain ⟨p2, e6, h⟩ := bind_ok_iff.1 h
  cases h
  obtain ⟨n1, n2, n3, n4⟩ := names_fold hb.nimap e3
  have o1 := nodes_fold hs hd hsz ws.nodes.1 hb.fit.1 e4
  obtain ⟨nodes', o2, o3, o4⟩ := nodes_fold_ok hs hd hsz ws.nodes.1 hb.fit.1 o1
  rw [e4] at o2
  cases o2
  obtain ⟨p1', r1, r2⟩ := rows_fold_ok hs hd hsz ws.nodes.2.2.1 hb.fit.2.2.1
  rw [e5] at r1
  cases r1
  obtain ⟨p2', r3, r4⟩ := rows_fold_ok hs hd hsz ws.nodes.2.2.2 hb.fit.2.2.2
  rw [e6] at r3
  cases r3
  refine ⟨⟨⟨o3, ?_, r2, r4⟩, n2, ?_, hb.metas, ⟨hb.short.ver, o3, hb.short.metas, hb.short.objs, ?_⟩⟩, rfl,
    mx, base, (top_maxId hb.nimap).1 e1, e2, n1, o1, n3, o4⟩
  · intro n hn
    obtain ⟨i, hi⟩ := List.getElem?_of_mem hn
    rcases (o4 i n).1 hi with ⟨j, id, -, -, e⟩ | ⟨-, e⟩
    · exact e.lt
    · exact hb.fit.2.1 n (List.mem_of_getElem? e)
  · intro e he
    rcases (n3 e.1).1 ⟨e.2, he⟩ with ⟨n, hn⟩ | ⟨x, -, hx⟩
    · exact hb.ids (e.1, n) hn
    · exact hx.lt
  · intro e he
    rcases n4 e he with he | ⟨x, hx, e'⟩
    · exact hb.short.names e he
    · rw [← e']; exact ws.short.names x hx

theorem joins_mergeBlocks {bd : Build} {src b : MapBlock} {sa da : Area} (hs : LocalArea sa)
    (hd : LocalArea da) (hsz : SameSize sa da) (ws : Wf src) (hb : Half b) {D : Draft}
    (h : Joins bd src (MovedBy sa da) (draftOf b) D) : ∃ b1, mergeBlocks bd src b sa da = .ok b1 := by
  have hpv := parts_valid hs hd hsz
  have hd' : linIdx (da.min.sub sa.min) = dif sa da := rfl
  obtain ⟨m, base, h1, h2, h3, h4, -⟩ := h
  obtain ⟨nimap, n1⟩ := names_fold_ok b.nimap h3
  obtain ⟨nodes, n2, -⟩ := nodes_fold_ok (dst := b.nd.nodes) hs hd hsz ws.nodes.1 hb.fit.1 h4
  obtain ⟨p1, r1, -⟩ := rows_fold_ok hs hd hsz ws.nodes.2.2.1 hb.fit.2.2.1
  obtain ⟨p2, r2, -⟩ := rows_fold_ok hs hd hsz ws.nodes.2.2.2 hb.fit.2.2.2
  refine ⟨{ b with nimap, nd := ⟨nodes, p1, p2⟩ }, ?_⟩
  unfold mergeBlocks rassert
  rw [if_pos hpv]
  simp only [res_bind_ok]
  rw [(top_maxId hb.nimap).2 h1]
  simp only [unwrap, res_bind_ok]
  rw [u16_iff.2 h2]
  simp only [res_bind_ok]
  rw [n1]
  simp only [res_bind_ok]
  rw [hd', n2]
  simp only [res_bind_ok]
  rw [r1]
  simp only [res_bind_ok]
  rw [r2]
  rfl

/-- What taking nodes gives is determined. -/
theorem Spec.Joins.unique {bd : Build} {src : MapBlock} {M : Nat → Nat → Prop} {D D1 D2 : Draft}
    (h : Joins bd src M D D1) (h' : Joins bd src M D D2) : D1 = D2 := by
  obtain ⟨m, base, h1, h2, -, -, h3, h4⟩ := h
  obtain ⟨m', base', h1', h2', -, -, h3', h4'⟩ := h'
  cases h1.unique h1'
  cases h2.unique h2'
  obtain ⟨i1, n1⟩ := D1
  obtain ⟨i2, n2⟩ := D2
  have e1 : i1 = i2 := funext fun c => propext ((h3 c).trans (h3' c).symm)
  have e2 : n1 = n2 := funext fun i => funext fun c => propext ((h4 i c).trans (h4' i c).symm)
  rw [e1, e2]

theorem Spec.Joins.congr {bd : Build} {src : MapBlock} {M M' : Nat → Nat → Prop} {D D1 : Draft}
    (he : ∀ i j, M i j ↔ M' i j) (h : Joins bd src M D D1) : Joins bd src M' D D1 := by
  have : M = M' := funext fun i => funext fun j => propext (he i j)
  exact this ▸ h

theorem mergeMetadata_ok {src dst : MetaList} {sa da : Area} (hs : LocalArea sa)
    (hd : LocalArea da) (hsz : SameSize sa da) (ws : MetasWf src) (sd : SMap.Sorted dst)
    (hsh : ∀ e ∈ dst, ∀ v ∈ e.2.vars, v.1.length < 65536 ∧ v.2.1.length < 4294967296) :
    ∃ r, mergeMetadata src dst sa da = .ok r ∧ SMap.Sorted r ∧
      ∀ e ∈ r, ∀ v ∈ e.2.vars, v.1.length < 65536 ∧ v.2.1.length < 4294967296 := by
  obtain ⟨r, h1, h2, h3, -⟩ := mergeMetadata_spec hs hd hsz ws.sorted sd ws.keys
  refine ⟨r, h1, h2, fun e he => ?_⟩
  rcases h3 e he with he | ⟨y, hy, e', -⟩
  · exact hsh e he
  · rw [← e']; exact (ws.metas y hy).names

/-- `merge_blocks` and `merge_metadata`. -/
def mergeBoth (bd : Build) (src b : MapBlock) (sa da : Area) : Res MapBlock := do
  let b ← mergeBlocks bd src b sa da
  let metas ← mergeMetadata src.metas b.metas sa da
  return { b with metas }

theorem mergeBoth_joins {bd : Build} {src b b1 : MapBlock} {sa da : Area} (hs : LocalArea sa)
    (hd : LocalArea da) (hsz : SameSize sa da) (ws : Wf src) (hb : Half b)
    (h : mergeBoth bd src b sa da = .ok b1) :
    Half b1 ∧ Joins bd src (MovedBy sa da) (draftOf b) (draftOf b1) := by
  unfold mergeBoth at h
  obtain ⟨b2, h1, h⟩ := bind_ok_iff.1 h
  obtain ⟨g1, g2, g3⟩ := mergeBlocks_joins hs hd hsz ws hb h1
  obtain ⟨metas, h2, h⟩ := bind_ok_iff.1 h
  cases h
  obtain ⟨r, e1, e2, e3⟩ := mergeMetadata_ok hs hd hsz ws.metas g1.metas g1.short.metas
  rw [h2] at e1
  cases e1
  exact ⟨⟨g1.fit, g1.nimap, g1.ids, e2, ⟨g1.short.ver, g1.short.nodes, e3, g1.short.objs, g1.short.names⟩⟩, g3⟩

theorem joins_mergeBoth {bd : Build} {src b : MapBlock} {sa da : Area} (hs : LocalArea sa)
    (hd : LocalArea da) (hsz : SameSize sa da) (ws : Wf src) (hb : Half b) {D : Draft}
    (h : Joins bd src (MovedBy sa da) (draftOf b) D) :
    ∃ b1, mergeBoth bd src b sa da = .ok b1 ∧ Half b1 ∧ draftOf b1 = D := by
  obtain ⟨b2, h1⟩ := joins_mergeBlocks hs hd hsz ws hb h
  obtain ⟨g1, -, g3⟩ := mergeBlocks_joins hs hd hsz ws hb h1
  obtain ⟨metas, h2, -⟩ := mergeMetadata_ok hs hd hsz ws.metas g1.metas g1.short.metas
  have e : mergeBoth bd src b sa da = .ok { b2 with metas } := by
    unfold mergeBoth
    rw [h1, res_bind_ok, h2]
    rfl
  obtain ⟨e1, e2⟩ := mergeBoth_joins hs hd hsz ws hb e
  exact ⟨_, e, e1, e2.unique h⟩

/-! ## Tidying -/

theorem clean_tidies {bd : Build} {b b' : MapBlock} (hb : Half b) (h : cleanNimap bd b = .ok b') :
    Tidies (draftOf b) ∧ Short b' := by
  have hc := covered_of_clean hb.nimap hb.ids h
  obtain ⟨names, nodes, e1, e2, -, -, -, e3, -, -, e4, -⟩ := clean_full hb.nimap hb.fit h
  have hne : b.nimap ≠ [] := by
    intro e
    have := hb.fit.1
    cases hnd : b.nd.nodes with
    | nil => rw [hnd] at this; cases this
    | cons a l =>
      obtain ⟨x, hx, -⟩ := hc a (by rw [hnd]; exact List.mem_cons_self)
      rw [e] at hx
      cases hx
  obtain ⟨m, hm⟩ := maxId_exists hne
  have ht := (top_maxId hb.nimap).1 hm
  constructor
  · refine ⟨m, ht, ?_, ?_⟩
    · obtain ⟨n, hn⟩ := ht.1
      have := e4 _ hn
      simp only at this
      omega
    · intro i id hi
      obtain ⟨x, hx, hle⟩ := hc id (List.mem_of_getElem? hi)
      exact Nat.le_trans hle (ht.2 x.1 ⟨x.2, hx⟩)
  · subst e1
    refine ⟨hb.short.ver, e2, hb.short.metas, hb.short.objs, ?_⟩
    intro e he
    have : ∃ x ∈ names, x = e.2 := by
      refine ⟨e.2, ?_, rfl⟩
      rw [← names_dense 0 names]
      exact List.mem_map_of_mem he
    obtain ⟨x, hx, hxe⟩ := this
    obtain ⟨y, hy, hyx⟩ := e3 x hx
    rw [← hxe, ← hyx]
    exact hb.short.names y hy

theorem tidies_clean {bd : Build} {b : MapBlock} (hb : Half b) (h : Tidies (draftOf b)) :
    ∃ b', cleanNimap bd b = .ok b' := by
  obtain ⟨m, ⟨⟨n, hn⟩, h1⟩, h2, h3⟩ := h
  refine clean_works bd hb.nimap ?_ ?_ ?_
  · intro e he
    have := h1 e.1 ⟨e.2, he⟩
    have := hb.ids _ hn
    simp only at this
    omega
  · intro id hid
    obtain ⟨i, hi⟩ := List.getElem?_of_mem hid
    exact ⟨_, hn, h3 i id hi⟩
  · intro e
    have := hb.fit.1
    rw [e] at this
    cases this

end MapEditr
