import Verif.Model.Copy
import Verif.Proof.Local
import Verif.Proof.MergeAny
import Verif.Spec.Copy
import Verif.Props.Spatial
/-! # Lemmas: copying parts of blocks into one block -/

namespace MapEditr
open Spec
set_option linter.unusedSimpArgs false
set_option linter.unusedVariables false

/-- Node `i` of `b'` is node `j` of `b`: name, parameters and metadata. -/
def NodeFrom (b' : MapBlock) (i : Nat) (b : MapBlock) (j : Nat) : Prop :=
  (∀ n, nodeName b j = some n → nodeName b' i = some n) ∧ b'.nd.param1[i]? = b.nd.param1[j]? ∧
  b'.nd.param2[i]? = b.nd.param2[j]? ∧
  ∀ q, q < 16 → SMap.get? b'.metas (4096 * q + i) = SMap.get? b.metas (4096 * q + j)

/-- `b` was made from `b0` by copying nodes: node `i` is that given by `F i`. -/
structure CopyState (b0 b : MapBlock) (F : Nat → MapBlock × Nat) : Prop where
  fit : NodesFit b.nd
  sorted : SMap.Sorted b.nimap
  names : ∀ e ∈ b.nimap, e.2.length < 65536
  form : ∃ nimap nd metas, b = { b0 with nimap, nd, metas }
  metas : MetasWf b.metas
  room : MetaRoom b
  nodes : ∀ i, i < 4096 → NodeFrom b i (F i).1 (F i).2

theorem tame_joinable {b : MapBlock} (w : Wf b) (s : Tame b) : Joinable 7280 b :=
  ⟨w.nodes, w.nimap.sorted, s.covered, s.small⟩

theorem copyState_start {b : MapBlock} (w : Wf b) (hm : MetaRoom b) : CopyState b b fun i => (b, i) :=
  ⟨w.nodes, w.nimap.sorted, fun e he => (w.nimap.fits.2 e he).2, ⟨_, _, _, rfl⟩, w.metas, hm,
    fun _ _ => ⟨fun _ h => h, rfl, rfl, fun _ _ => rfl⟩⟩

theorem fromU16Key_layer (q : Nat) {i : Nat} (hi : i < 4096) :
    Vec3.fromU16Key (4096 * q + i) = Vec3.fromU16Key i := by
  rw [fromU16Key_eq, fromU16Key_eq]
  simp only [Vec3.mk.injEq]
  omega

theorem mergeBlocks_bound {bd : Build} {src dst r : MapBlock} {sa da : Area} {K S : Nat}
    (hs : LocalArea sa) (hd : LocalArea da) (hsz : SameSize sa da) (fs : NodesFit src.nd)
    (fd : NodesFit dst.nd) (ss : SMap.Sorted src.nimap) (sd : SMap.Sorted dst.nimap)
    (hK : ∀ e ∈ dst.nimap, e.1 ≤ K) (hS : ∀ e ∈ src.nimap, e.1 ≤ S) (hb : K + 1 + S < 65536)
    (h : mergeBlocks bd src dst sa da = .ok r) : ∀ e ∈ r.nimap, e.1 ≤ K + 1 + S := by
  obtain ⟨nimap, nd, rfl, -, -, ⟨M, v, h1, h2⟩, -⟩ :=
    mergeBlocks_any hs hd hsz fs fd ss sd (.inr ⟨K, S, hK, hS, hb⟩) h
  have hM := hK _ h1
  simp only at hM
  intro e he
  rcases h2 e he with he | ⟨x, hx, rfl, -⟩
  · have := hK e he; omega
  · have := hS x hx; simp only; omega

/-- One merge: nodes in `da` come from `src`. -/
theorem copyState_merge {bd : Build} {b0 b src b1 : MapBlock} {F : Nat → MapBlock × Nat} {sa da : Area}
    (h : CopyState b0 b F) (ws : Wf src) (hm : MetaRoom src) (hsa : LocalArea sa)
    (hda : LocalArea da) (hsz : SameSize sa da) (hw : NoWrap bd src.nimap b.nimap)
    (hr : mergeBlocks bd src b sa da = .ok b1) :
    ∃ metas, mergeMetadata src.metas b1.metas sa da = .ok metas ∧
      CopyState b0 { b1 with metas } fun i =>
        if InBox da.min da.max (Vec3.fromU16Key i) then (src, idxOf (back sa da (Vec3.fromU16Key i))) else F i := by
  obtain ⟨nimap, nd, rfl, h1, h2, ⟨M, v, -, h3⟩, h4⟩ :=
    mergeBlocks_any hsa hda hsz ws.nodes h.fit ws.nimap.sorted h.sorted hw hr
  obtain ⟨r, g1, g2, g3, g4, g5⟩ := mergeMetadata_spec hsa hda hsz ws.metas.sorted h.metas.sorted ws.metas.keys
  have hin : ∀ e ∈ r, e.1 < 61440 := by
    intro e he
    rcases g3 e he with hx | ⟨y, hy, -, -, hlt⟩
    · exact h.room e hx
    · have := hm y hy
      omega
  refine ⟨r, g1, ⟨h1, h2, ?_, ?_, ?_, ?_, ?_⟩⟩
  · intro e he
    rcases h3 e he with he | ⟨x, hx, rfl, -⟩
    · exact h.names e he
    · exact (ws.nimap.fits.2 x hx).2
  · obtain ⟨n', d', m', he⟩ := h.form
    rw [he]
    exact ⟨_, _, _, rfl⟩
  · refine ⟨g2, ?_, fun e he => ?_, fun e he => ?_⟩
    · have := length_le_of_sorted g2 0 61440 (fun e he => ⟨Nat.zero_le _, hin e he⟩)
      show r.length < 65536
      omega
    · have := hin e he
      omega
    · rcases g3 e he with hx | ⟨y, hy, hyx, -⟩
      · exact h.metas.metas e hx
      · rw [← hyx]; exact ws.metas.metas y hy
  · exact hin
  · intro i hi
    have m1 := h4 i hi
    have m2 := fun q (hq : q < 16) => g5 (4096 * q + i) (by omega)
    simp only [fromU16Key_layer _ hi] at m2
    have hl := local_fromU16Key i
    have hix := idxOf_fromU16Key hi
    split
    · next hbox =>
      have hc := contains_inBox.2 hbox
      have hbk := back_idx hsa hda hsz hbox
      have e' : (i : Int) - dif sa da = (idxOf (back sa da (Vec3.fromU16Key i)) : Int) := by
        have := hbk.2.1
        rw [hix] at this
        exact this
      have e : ((i : Int) - dif sa da).toNat = idxOf (back sa da (Vec3.fromU16Key i)) := by
        rw [e', Int.toNat_natCast]
      obtain ⟨a1, a2, a3⟩ := m1.1 hc
      rw [e] at a1 a2 a3
      refine ⟨a1, a2, a3, fun q hq => ?_⟩
      have := m2 q hq
      rw [if_pos hc] at this
      rw [show (((4096 * q + i : Nat) : Int) - dif sa da).toNat
        = 4096 * q + idxOf (back sa da (Vec3.fromU16Key i)) by omega] at this
      exact this
    · next hbox =>
      have hc : ¬ da.contains (Vec3.fromU16Key i) = true := fun hc => hbox (contains_inBox.1 hc)
      obtain ⟨a1, a2, a3⟩ := m1.2 hc
      obtain ⟨n1, n2, n3, n4⟩ := h.nodes i hi
      refine ⟨fun n hn => a1 n (n1 n hn), a2.trans n2, a3.trans n3, fun q hq => ?_⟩
      have := m2 q hq
      rw [if_neg hc] at this
      exact this.trans (n4 q hq)

theorem copyState_congr {b0 b : MapBlock} {F G : Nat → MapBlock × Nat}
    (h : CopyState b0 b F) (he : ∀ i, i < 4096 → F i = G i) : CopyState b0 b G :=
  ⟨h.fit, h.sorted, h.names, h.form, h.metas, h.room, fun i hi => he i hi ▸ h.nodes i hi⟩

/-- Node `i` of the block at `dp`, moved back by `o`. -/
def srcAt (dp o : Vec3) (i : Nat) : Vec3 := unshift (posAt dp i) o

/-- The boxes that `merge_blocks` is called with. -/
theorem mergeFrag_spec {sp : Area} {o dp q : Vec3} (hsp : sp.isValid = true)
    (hin : ∀ p, InBox sp.min sp.max p → InBlock dp (shift p o))
    (hq : sp.toTouchingBlockArea.contains q = true) :
    ∃ sa da, LocalArea sa ∧ LocalArea da ∧ SameSize sa da ∧
      (∀ bd src b, mergeFrag bd sp o dp q src b = (do
        let b ← mergeBlocks bd src b sa da
        let metas ← mergeMetadata src.metas b.metas sa da
        return { b with metas })) ∧
      ∀ i, i < 4096 → (InBox da.min da.max (Vec3.fromU16Key i) ↔
          InBox sp.min sp.max (srcAt dp o i) ∧ blockOf (srcAt dp o i) = q) ∧
        (InBox da.min da.max (Vec3.fromU16Key i) →
          idxOf (back sa da (Vec3.fromU16Key i)) = idxOf (srcAt dp o i)) := by
  obtain ⟨⟨sx, sy, sz⟩, ⟨tx, ty, tz⟩⟩ := sp
  obtain ⟨ox, oy, oz⟩ := o
  obtain ⟨dx, dy, dz⟩ := dp
  obtain ⟨qx, qy, qz⟩ := q
  have hv := (isValid_iff _).1 hsp
  have h1 := hin ⟨sx, sy, sz⟩ (by unfold InBox; simp only at hv ⊢; omega)
  have h2 := hin ⟨tx, ty, tz⟩ (by unfold InBox; simp only at hv ⊢; omega)
  have h3 := (contains_iff _ _).1 hq
  unfold InBlock shift at h1 h2
  unfold Area.toTouchingBlockArea at h3
  simp only at hv h1 h2 h3
  clear hin
  let frag : Area := ⟨⟨max sx (qx * 16), max sy (qy * 16), max sz (qz * 16)⟩,
    ⟨min tx (qx * 16 + 15), min ty (qy * 16 + 15), min tz (qz * 16 + 15)⟩⟩
  have e1 : Area.absBlockOverlap ⟨⟨sx, sy, sz⟩, ⟨tx, ty, tz⟩⟩ ⟨qx, qy, qz⟩ = some frag := by
    unfold Area.absBlockOverlap
    rw [filterValid_some]
    refine ⟨?_, rfl⟩
    rw [isValid_iff]
    simp only [Vec3.mulS, Vec3.addS]
    omega
  let da : Area := ⟨⟨frag.min.x + ox - dx * 16, frag.min.y + oy - dy * 16, frag.min.z + oz - dz * 16⟩,
    ⟨frag.max.x + ox - dx * 16, frag.max.y + oy - dy * 16, frag.max.z + oz - dz * 16⟩⟩
  let sa : Area := frag.sub (Vec3.mulS ⟨qx, qy, qz⟩ 16)
  have e2 : (frag.add ⟨ox, oy, oz⟩).relBlockOverlap ⟨dx, dy, dz⟩ = some da := by
    unfold Area.relBlockOverlap
    rw [filterValid_some]
    have : (⟨⟨max ((frag.add ⟨ox, oy, oz⟩).min.sub (Vec3.mulS ⟨dx, dy, dz⟩ 16)).x 0,
        max ((frag.add ⟨ox, oy, oz⟩).min.sub (Vec3.mulS ⟨dx, dy, dz⟩ 16)).y 0,
        max ((frag.add ⟨ox, oy, oz⟩).min.sub (Vec3.mulS ⟨dx, dy, dz⟩ 16)).z 0⟩,
        ⟨min ((frag.add ⟨ox, oy, oz⟩).max.sub (Vec3.mulS ⟨dx, dy, dz⟩ 16)).x 15,
        min ((frag.add ⟨ox, oy, oz⟩).max.sub (Vec3.mulS ⟨dx, dy, dz⟩ 16)).y 15,
        min ((frag.add ⟨ox, oy, oz⟩).max.sub (Vec3.mulS ⟨dx, dy, dz⟩ 16)).z 15⟩⟩ : Area) = da := by
      simp only [Area.add, Vec3.add, Vec3.sub, Vec3.mulS, frag, da, Area.mk.injEq, Vec3.mk.injEq]
      omega
    rw [this]
    refine ⟨?_, rfl⟩
    rw [isValid_iff]
    simp only [da, frag]
    omega
  have hda : LocalArea da := by
    unfold LocalArea
    simp only [da, frag]
    omega
  have hsa : LocalArea sa := by
    unfold LocalArea
    simp only [sa, Area.sub, Vec3.sub, Vec3.mulS, frag]
    omega
  have hsz : SameSize sa da := by
    unfold SameSize
    simp only [sa, Area.sub, Vec3.sub, Vec3.mulS, frag, da]
    omega
  refine ⟨sa, da, hsa, hda, hsz, ?_, ?_⟩
  · intro bd src b
    unfold mergeFrag
    rw [e1]
    show (do let dstRel ← unwrap _ ((frag.add ⟨ox, oy, oz⟩).relBlockOverlap ⟨dx, dy, dz⟩); _) = _
    rw [e2]
    rfl
  · intro i hi
    have hc : InBox da.min da.max (Vec3.fromU16Key i) ↔
        InBox ⟨sx, sy, sz⟩ ⟨tx, ty, tz⟩ (srcAt ⟨dx, dy, dz⟩ ⟨ox, oy, oz⟩ i) ∧
          blockOf (srcAt ⟨dx, dy, dz⟩ ⟨ox, oy, oz⟩ i) = ⟨qx, qy, qz⟩ := by
      rw [fromU16Key_eq]
      unfold InBox srcAt blockOf unshift posAt
      simp only [da, frag, Vec3.mk.injEq]
      have : i / 256 % 16 = i / 256 := by omega
      rw [this]
      generalize (i % 16 : Nat) = a
      generalize (i / 16 % 16 : Nat) = b
      generalize (i / 256 : Nat) = c
      omega
    refine ⟨hc, fun hh => ?_⟩
    have hbk := hc.1 hh
    rw [fromU16Key_eq]
    unfold idxOf srcAt unshift posAt back
    simp only [sa, Area.sub, Vec3.sub, Vec3.mulS, da]
    have : i / 256 % 16 = i / 256 := by omega
    rw [this]
    generalize (i % 16 : Nat) = a
    generalize (i / 16 % 16 : Nat) = b
    generalize (i / 256 : Nat) = c
    omega

/-- One source block: the nodes of the wanted part whose source is in it are copied. -/
theorem copyState_frag {bd : Build} {b0 b src b1 : MapBlock} {F : Nat → MapBlock × Nat} {sp : Area}
    {o dp q : Vec3} (h : CopyState b0 b F) (ws : Wf src)
    (hm : MetaRoom src) (hsp : sp.isValid = true)
    (hin : ∀ p, InBox sp.min sp.max p → InBlock dp (shift p o))
    (hq : sp.toTouchingBlockArea.contains q = true) (hw : NoWrap bd src.nimap b.nimap)
    (hr : mergeFrag bd sp o dp q src b = .ok b1) :
    CopyState b0 b1 (fun i =>
      if InBox sp.min sp.max (srcAt dp o i) ∧ blockOf (srcAt dp o i) = q then
        (src, idxOf (srcAt dp o i)) else F i) ∧
    ∀ K S, (∀ e ∈ b.nimap, e.1 ≤ K) → (∀ e ∈ src.nimap, e.1 ≤ S) → K + 1 + S < 65536 →
      ∀ e ∈ b1.nimap, e.1 ≤ K + 1 + S := by
  obtain ⟨sa, da, h1, h2, h3, h4, h5⟩ := mergeFrag_spec hsp hin hq
  rw [h4] at hr
  obtain ⟨b2, g1, hr⟩ := bind_ok_iff.1 hr
  obtain ⟨metas, g2, g3⟩ := copyState_merge h ws hm h1 h2 h3 hw g1
  rw [g2] at hr
  have hbound : ∀ K S, (∀ e ∈ b.nimap, e.1 ≤ K) → (∀ e ∈ src.nimap, e.1 ≤ S) → K + 1 + S < 65536 →
      ∀ e ∈ b2.nimap, e.1 ≤ K + 1 + S := fun K S hK hS hb =>
    mergeBlocks_bound h1 h2 h3 ws.nodes h.fit ws.nimap.sorted h.sorted hK hS hb g1
  cases hr
  refine ⟨copyState_congr g3 fun i hi => ?_, hbound⟩
  obtain ⟨e1, e2⟩ := h5 i hi
  by_cases hh : InBox da.min da.max (Vec3.fromU16Key i)
  · rw [if_pos hh, if_pos (e1.1 hh), e2 hh]
  · rw [if_neg hh, if_neg (fun hx => hh (e1.2 hx))]

theorem mergeFrag_works (bd : Build) {b src : MapBlock} {sp : Area} {o dp q : Vec3} {K S : Nat}
    (hsp : sp.isValid = true)
    (hin : ∀ p, InBox sp.min sp.max p → InBlock dp (shift p o))
    (hq : sp.toTouchingBlockArea.contains q = true) (js : Joinable S src) (jb : Joinable K b)
    (ss : MetasWf src.metas) (sb : SMap.Sorted b.metas) (hb : K + 1 + S < 65536) :
    ∃ b1, mergeFrag bd sp o dp q src b = .ok b1 ∧ Joinable (K + 1 + S) b1 ∧ SMap.Sorted b1.metas := by
  obtain ⟨sa, da, h1, h2, h3, h4, h5⟩ := mergeFrag_spec hsp hin hq
  obtain ⟨r, g1, g2⟩ := join bd h1 h2 h3 js jb hb
  have hm : r.metas = b.metas := by
    obtain ⟨nimap, nd, rfl, -⟩ := mergeBlocks_any h1 h2 h3 js.fit jb.fit js.sorted jb.sorted
      (.inr ⟨K, S, jb.ids, js.ids, hb⟩) g1
    rfl
  obtain ⟨metas, g3, g4, -⟩ := mergeMetadata_spec h1 h2 h3 ss.sorted sb ss.keys
  refine ⟨{ r with metas }, ?_, g2.metas metas, g4⟩
  rw [h4, g1]
  show (do let metas ← mergeMetadata src.metas r.metas sa da; _) = _
  rw [hm, g3]
  rfl

/-- The loop over source blocks, without database and cache: `find q` is the source block at `q`. -/
def srcFold (bd : Build) (sp : Area) (o dp : Vec3) (find : Vec3 → Option MapBlock) (b : MapBlock)
    (ps : List Vec3) : Res MapBlock :=
  ps.foldlM (fun b q => match find q with
    | some src => mergeFrag bd sp o dp q src b
    | none => .ok b) b

/-- What node `i` of the block at `dp` becomes when `part` is filled from the blocks of `find`. -/
def fromSrc (part : Vec3 → Prop) [DecidablePred part] (find : Vec3 → Option MapBlock) (q : Vec3)
    (old : MapBlock × Nat) : MapBlock × Nat :=
  if part q then match find (blockOf q) with
    | some src => (src, idxOf q)
    | none => old
  else old

theorem room_one {K n a b : Nat} (h : K + (n + (a + 1)) < b) : K + 1 + a < b := by omega

theorem room_rest {K n a b : Nat} (h : K + (n + (a + 1)) < b) : K + 1 + a + n < b := by omega

theorem srcFold_any {bd : Build} {b0 b b1 : MapBlock} {F : Nat → MapBlock × Nat} {sp : Area}
    {o dp : Vec3} {find : Vec3 → Option MapBlock} {ps : List Vec3} {K : Nat} (h : CopyState b0 b F)
    (hf : ∀ q src, find q = some src → Wf src ∧ MetaRoom src) (hsp : sp.isValid = true)
    (hin : ∀ p, InBox sp.min sp.max p → InBlock dp (shift p o))
    (hq : ∀ q ∈ ps, sp.toTouchingBlockArea.contains q = true)
    (hw : bd = .debug ∨ ((∀ e ∈ b.nimap, e.1 ≤ K) ∧ (∀ q src, find q = some src → SmallIds src) ∧
      K + 7281 * ps.length < 65536))
    (hr : srcFold bd sp o dp find b ps = .ok b1) :
    CopyState b0 b1 fun i =>
      fromSrc (fun q => InBox sp.min sp.max q ∧ blockOf q ∈ ps) find (srcAt dp o i) (F i) := by
  induction ps generalizing K b F with
  | nil =>
    cases hr
    refine copyState_congr h ?_
    intro i hi
    unfold fromSrc
    rw [if_neg (fun hx => by cases hx.2)]
  | cons q ps ih =>
    rw [List.length_cons, Nat.mul_succ] at hw
    have hq' : ∀ q ∈ ps, sp.toTouchingBlockArea.contains q = true :=
      fun r hr => hq r (List.mem_cons_of_mem _ hr)
    unfold srcFold at hr
    rw [List.foldlM_cons] at hr
    obtain ⟨b2, r1, r2⟩ := bind_ok_iff.1 hr
    cases hs : find q with
    | none =>
      rw [hs] at r1
      cases r1
      refine copyState_congr (ih (K := K) h hq' (hw.imp id fun ⟨w1, w2, w3⟩ => ⟨w1, w2, by omega⟩) r2) ?_
      intro i hi
      unfold fromSrc
      by_cases hc : InBox sp.min sp.max (srcAt dp o i)
      · by_cases hm : blockOf (srcAt dp o i) ∈ ps
        · rw [if_pos ⟨hc, hm⟩, if_pos ⟨hc, List.mem_cons_of_mem _ hm⟩]
        · rw [if_neg (fun hx => hm hx.2)]
          split
          · next hx =>
            rcases List.mem_cons.1 hx.2 with he | he
            · rw [he, hs]
            · exact absurd he hm
          · rfl
      · rw [if_neg (fun hx => hc hx.1), if_neg (fun hx => hc hx.1)]
    | some src =>
      rw [hs] at r1
      simp only at r1
      obtain ⟨w1, w3⟩ := hf q src hs
      obtain ⟨g1, g2⟩ := copyState_frag h w1 w3 hsp hin (hq q List.mem_cons_self) (hw.imp id
        fun ⟨w1, w2, w3⟩ => ⟨K, 7280, w1, w2 q src hs, room_one (a := 7280) w3⟩) r1
      refine copyState_congr (ih (K := K + 1 + 7280) g1 hq' (hw.imp id
        fun ⟨w1, w2, w3⟩ => ⟨g2 K 7280 w1 (w2 q src hs) (room_one (a := 7280) w3), w2, room_rest (a := 7280) w3⟩) r2) ?_
      intro i hi
      unfold fromSrc
      by_cases hc : InBox sp.min sp.max (srcAt dp o i)
      · by_cases hm : blockOf (srcAt dp o i) ∈ ps
        · simp only [hc, hm, true_and, and_true, if_true, List.mem_cons, or_true]
          split
          · rfl
          · next hn =>
            rw [if_neg]
            rintro he
            rw [he, hs] at hn
            cases hn
        · rw [if_neg (fun hx => hm hx.2)]
          by_cases he : blockOf (srcAt dp o i) = q
          · rw [if_pos ⟨hc, he⟩, if_pos ⟨hc, he ▸ List.mem_cons_self⟩, he, hs]
          · rw [if_neg (fun hx => he hx.2), if_neg]
            rintro ⟨-, hx⟩
            rcases List.mem_cons.1 hx with hx | hx
            · exact he hx
            · exact hm hx
      · rw [if_neg (fun hx => hc hx.1), if_neg (fun hx => hc hx.1), if_neg (fun hx => hc hx.1)]

theorem srcFold_works (bd : Build) {b : MapBlock} {sp : Area} {o dp : Vec3}
    {find : Vec3 → Option MapBlock} {ps : List Vec3} {K : Nat}
    (hf : ∀ q src, find q = some src → Wf src ∧ Tame src) (hsp : sp.isValid = true)
    (hin : ∀ p, InBox sp.min sp.max p → InBlock dp (shift p o))
    (hq : ∀ q ∈ ps, sp.toTouchingBlockArea.contains q = true) (jb : Joinable K b) (sb : SMap.Sorted b.metas)
    (hb : K + 7281 * ps.length < 65536) :
    ∃ b1, srcFold bd sp o dp find b ps = .ok b1 ∧ Joinable (K + 7281 * ps.length) b1 := by
  induction ps generalizing K b with
  | nil => exact ⟨b, rfl, jb⟩
  | cons q ps ih =>
    rw [List.length_cons, Nat.mul_succ] at hb
    have hq' : ∀ q ∈ ps, sp.toTouchingBlockArea.contains q = true :=
      fun r hr => hq r (List.mem_cons_of_mem _ hr)
    unfold srcFold at ih ⊢
    rw [List.foldlM_cons, List.length_cons, Nat.mul_succ]
    cases hs : find q with
    | none =>
      obtain ⟨b1, g1, g2⟩ := ih hq' jb sb (by omega)
      exact ⟨b1, g1, g2.mono (by omega)⟩
    | some src =>
      obtain ⟨w1, w2⟩ := hf q src hs
      obtain ⟨b2, f1, f2, f3⟩ := mergeFrag_works bd hsp hin (hq q List.mem_cons_self) (tame_joinable w1 w2)
        jb w1.metas sb (room_one (a := 7280) hb)
      obtain ⟨b1, g1, g2⟩ := ih hq' f2 f3 (room_rest (a := 7280) hb)
      refine ⟨b1, ?_, g2.mono (by omega)⟩
      show (do let b ← mergeFrag bd sp o dp q src b; _) = _
      rw [f1]
      exact g1

/-- A box inside a block, moved, touches at most eight blocks. -/
theorem touching_le {sp : Area} {o dp : Vec3} (hsp : sp.isValid = true)
    (hin : ∀ p, InBox sp.min sp.max p → InBlock dp (shift p o)) :
    sp.toTouchingBlockArea.isValid = true ∧ sp.toTouchingBlockArea.positions.length ≤ 8 := by
  obtain ⟨⟨sx, sy, sz⟩, ⟨tx, ty, tz⟩⟩ := sp
  obtain ⟨ox, oy, oz⟩ := o
  obtain ⟨dx, dy, dz⟩ := dp
  have hv := (isValid_iff _).1 hsp
  have h1 := hin ⟨sx, sy, sz⟩ (by unfold InBox; simp only at hv ⊢; omega)
  have h2 := hin ⟨tx, ty, tz⟩ (by unfold InBox; simp only at hv ⊢; omega)
  unfold InBlock shift at h1 h2
  simp only at hv h1 h2
  have hval : (Area.toTouchingBlockArea ⟨⟨sx, sy, sz⟩, ⟨tx, ty, tz⟩⟩).isValid = true := by
    rw [isValid_iff]
    unfold Area.toTouchingBlockArea
    simp only
    omega
  refine ⟨hval, ?_⟩
  rw [positions_eq _ hval, length_zyx]
  unfold Area.volume Area.toTouchingBlockArea
  simp only
  have a1 : (tx / 16 - sx / 16 + 1).toNat ≤ 2 := by omega
  have a2 : (ty / 16 - sy / 16 + 1).toNat ≤ 2 := by omega
  have a3 : (tz / 16 - sz / 16 + 1).toNat ≤ 2 := by omega
  exact Nat.mul_le_mul (Nat.mul_le_mul a1 a2) a3

/-- Filling a part of a block from all the blocks its sources are in. -/
theorem srcFold_all {bd : Build} {b0 b1 : MapBlock} (w0 : Wf b0) (m0 : MetaRoom b0) {sp : Area}
    {o dp : Vec3} {find : Vec3 → Option MapBlock}
    (hf : ∀ q src, find q = some src → Wf src ∧ MetaRoom src) (hsp : sp.isValid = true)
    (hin : ∀ p, InBox sp.min sp.max p → InBlock dp (shift p o))
    (hw : bd = .release → SmallIds b0 ∧ ∀ q src, find q = some src → SmallIds src)
    (hr : srcFold bd sp o dp find b0 sp.toTouchingBlockArea.positions = .ok b1) :
    CopyState b0 b1 fun i => fromSrc (fun q => InBox sp.min sp.max q) find (srcAt dp o i) (b0, i) := by
  obtain ⟨hval, hlen⟩ := touching_le hsp hin
  have hmem : ∀ q, q ∈ sp.toTouchingBlockArea.positions ↔ sp.toTouchingBlockArea.contains q = true :=
    (C04_each_once _ hval).2
  have hw' : bd = .debug ∨ ((∀ e ∈ b0.nimap, e.1 ≤ 7280) ∧ (∀ q src, find q = some src → SmallIds src) ∧
      7280 + 7281 * sp.toTouchingBlockArea.positions.length < 65536) := by
    cases bd with
    | debug => exact .inl rfl
    | release => exact .inr ⟨(hw rfl).1, (hw rfl).2, by omega⟩
  refine copyState_congr (srcFold_any (copyState_start w0 m0) hf hsp hin
    (fun q hq => (hmem q).1 hq) hw' hr) ?_
  intro i hi
  have hc : ∀ q, InBox sp.min sp.max q → blockOf q ∈ sp.toTouchingBlockArea.positions := by
    intro q hq
    rw [hmem, C06_touching_area _ hsp]
    refine ⟨q, ?_, hq⟩
    unfold InBlock blockOf
    simp only
    omega
  unfold fromSrc
  by_cases h : InBox sp.min sp.max (srcAt dp o i)
  · rw [if_pos h, if_pos ⟨h, hc _ h⟩]
  · rw [if_neg h, if_neg (fun hx => h hx.1)]

theorem srcFold_ok (bd : Build) {b0 : MapBlock} (w0 : Wf b0) (s0 : Tame b0) {sp : Area}
    {o dp : Vec3} {find : Vec3 → Option MapBlock}
    (hf : ∀ q src, find q = some src → Wf src ∧ Tame src) (hsp : sp.isValid = true)
    (hin : ∀ p, InBox sp.min sp.max p → InBlock dp (shift p o)) :
    ∃ b1, srcFold bd sp o dp find b0 sp.toTouchingBlockArea.positions = .ok b1 ∧ Joinable 65528 b1 ∧
      CopyState b0 b1 fun i => fromSrc (fun q => InBox sp.min sp.max q) find (srcAt dp o i) (b0, i) := by
  obtain ⟨hval, hlen⟩ := touching_le hsp hin
  obtain ⟨b1, h1, h2⟩ := srcFold_works bd (o := o) hf hsp hin (fun q hq => ((C04_each_once _ hval).2 q).1 hq)
    (tame_joinable w0 s0) w0.metas.sorted (by omega)
  exact ⟨b1, h1, h2.mono (by omega), srcFold_all w0 s0.room (fun q src h => ⟨(hf q src h).1, (hf q src h).2.room⟩)
    hsp hin (fun _ => ⟨s0.small, fun q src h => (hf q src h).2.small⟩) h1⟩

/-- `b'` has been written by the program: it holds no void metadata. -/
def Written (b' : MapBlock) : Prop := ∃ b0 : MapBlock, b' = stored b0

/-- What the block is when it is read again. -/
structure Remade (b0 b' : MapBlock) (F : Nat → MapBlock × Nat) : Prop where
  rest : SameRest b0 b'
  nodes : ∀ i, i < 4096 → NodeAs b' i (F i).1 (F i).2
  tidy : Tidy b'
  room : MetaRoom b'
  pub : Public b'
  written : Written b'

theorem public_stored (b : MapBlock) : Public (stored b) := by
  rintro hv ⟨e, he, v, h1, h2⟩
  have hv : ¬ 28 ≤ b.version := Nat.not_le.2 hv
  unfold stored at he
  simp only [if_neg hv] at he
  obtain ⟨e', -, rfl⟩ := List.mem_map.1 he
  obtain ⟨v', -, rfl⟩ := List.mem_map.1 h1
  cases h2

theorem metaRoom_stored {b : MapBlock} (h : MetaRoom b) : MetaRoom (stored b) := by
  intro e he
  unfold stored at he
  simp only at he
  split at he
  · exact h e (List.mem_filter.1 he).1
  · obtain ⟨e', h1, rfl⟩ := List.mem_map.1 he
    exact h e' (List.mem_filter.1 h1).1

/-- Tidying the name table and saving. -/
theorem copyState_saved {c : Codec} (hc : c.Lawful) (hw : c.FullWrites) {bd : Build} {b0 b b2 : MapBlock}
    {F : Nat → MapBlock × Nat} (w0 : Wf b0) (h : CopyState b0 b F) (hr : cleanNimap bd b = .ok b2)
    (ord : VarOrd) (ho : ord.Lawful) :
    ∃ s b', serialize c ord b2 = .ok s ∧ Represents c s b' ∧ Remade b0 b' F := by
  obtain ⟨names, nodes, rfl, c1, c2, c3, c4, c5, c6, c7, -, c8, c9⟩ := clean_full h.sorted h.fit hr
  obtain ⟨n', d', m', he⟩ := h.form
  subst he
  have hwf : Wf (withNodes { b0 with nimap := n', nd := d', metas := m' } (dense 0 names) nodes) := by
    refine ⟨w0.ver, w0.flags, w0.light, w0.light_old, w0.widths, ⟨c1, ?_, h.fit.2.2.1, h.fit.2.2.2⟩, h.metas,
      w0.objs, w0.time, ⟨sorted_dense _ _, ?_, ?_⟩, w0.timers⟩
    · intro j hj
      exact c3 j hj
    · show (dense 0 names).length < 65536
      rw [length_dense]
      omega
    · intro e he
      constructor
      · have : e.1 ∈ (dense 0 names).map (·.1) := List.mem_map.2 ⟨e, he, rfl⟩
        rw [keys_dense, List.mem_range'_1] at this
        omega
      · have : e.2 ∈ (dense 0 names).map (·.2) := List.mem_map.2 ⟨e, he, rfl⟩
        rw [names_dense] at this
        obtain ⟨x, hx, hxe⟩ := c5 _ this
        rw [← hxe]
        exact h.names x hx
  obtain ⟨s, s1, s2⟩ := serialize_spec hc hw ho hwf
  refine ⟨s, _, s1, s2, ⟨⟨rfl, rfl, rfl, rfl⟩, rfl, rfl⟩, ?_, tidy_dense rfl rfl c4 c8 c9, ?_, public_stored _, _, rfl⟩
  rotate_left
  · exact metaRoom_stored (b := withNodes { b0 with nimap := n', nd := d', metas := m' } (dense 0 names) nodes)
      h.room
  intro i hi
  obtain ⟨n1, n2, n3, n4⟩ := h.nodes i hi
  refine ⟨?_, n2, n3, ?_⟩
  · intro n hn
    exact c6 i n (n1 n hn)
  · intro q hq
    have e : metaOf (F i).1 (4096 * q + (F i).2) =
        metaOf (withNodes { b0 with nimap := n', nd := d', metas := m' } (dense 0 names) nodes) (4096 * q + i) := by
      unfold metaOf
      rw [← n4 q hq]
      rfl
    rw [e]
    exact savedMeta_stored (b := withNodes { b0 with nimap := n', nd := d', metas := m' } (dense 0 names) nodes)
      h.metas.sorted _

end MapEditr
