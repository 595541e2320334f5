import Verif.Proof.BlockMore
import Verif.Spec.Toy
/-!
# Properties of the block format (C15–C25, C69)

Reading: `deserialize c s = .ok b` is "the bytes `s` load as block `b`"; `serialize c ord b = .ok s`
is "saving `b` produced `s`"; `ord` is the order in which hash maps happen to be iterated.
-/

set_option linter.unusedSimpArgs false

namespace MapEditr
open Spec

/-! ## C69: the decoder accepts exactly the format -/

/-- Loading succeeds exactly on the data that represents a block, and yields that block. -/
theorem C69_loads_exactly_the_format (c : Codec) (s : Bytes) (b : MapBlock) :
    deserialize c s = .ok b ↔ Represents c s b := deserialize_iff

/-- A string of bytes represents at most one block. -/
theorem C69_unambiguous (c : Codec) (s : Bytes) (b b' : MapBlock) (h : Represents c s b)
    (h' : Represents c s b') : b = b' := by
  have h1 := deserialize_iff.2 h
  rw [deserialize_iff.2 h'] at h1
  exact (ok_inj.1 h1).symm

/-- Every version has a block that is represented by some data. -/
example (v : Nat) (hv : 25 ≤ v ∧ v ≤ 29) :
    ∃ s, Represents (Toy.codec id) s (stored (Toy.block v)) :=
  let ⟨s, _, h⟩ := serialize_spec (Toy.lawful id) Toy.fullWrites Toy.ord_lawful
    (Toy.block_wf v hv)
  ⟨s, h⟩

/-! ## C15: saving then loading -/

/-- Saving a loaded block and loading it again gives the block with void metadata dropped (and,
below version 28, without private marks). -/
theorem C15_save_load (c : Codec) (hc : c.Lawful) (hw : c.FullWrites) (ord : VarOrd)
    (ho : ord.Lawful) (s : Bytes) (b : MapBlock) (h : deserialize c s = .ok b) :
    ∃ s', serialize c ord b = .ok s' ∧ deserialize c s' = .ok (stored b) :=
  roundtrip hc hw ho (wf_of_deserialize h)

/-- The same for any block fitting the format, not only loaded ones. -/
theorem C15_save_load_wf (c : Codec) (hc : c.Lawful) (hw : c.FullWrites) (ord : VarOrd)
    (ho : ord.Lawful) (b : MapBlock) (h : Wf b) :
    ∃ s', serialize c ord b = .ok s' ∧ deserialize c s' = .ok (stored b) :=
  roundtrip hc hw ho h

/-- Identity, when nothing private can get lost: only the void metadata entries go. -/
theorem C15_identical (c : Codec) (hc : c.Lawful) (hw : c.FullWrites) (ord : VarOrd)
    (ho : ord.Lawful) (b : MapBlock) (h : Wf b) (hp : 28 ≤ b.version ∨ ¬ HasPrivate b) :
    ∃ s', serialize c ord b = .ok s' ∧
      deserialize c s' = .ok { b with metas := dropVoid b.metas } := by
  obtain ⟨s', h1, h2⟩ := roundtrip hc hw ho h
  refine ⟨s', h1, ?_⟩
  rw [h2]
  congr 1
  unfold stored
  by_cases hv : 28 ≤ b.version
  · rw [if_pos hv]
  · rw [if_neg hv]
    have hp := hp.resolve_left hv
    congr 1
    conv => rhs; rw [← List.map_id (dropVoid b.metas)]
    apply List.map_congr_left
    intro e he
    have hel : e ∈ b.metas := (List.mem_filter.1 he).1
    have : publish e.2 = e.2 := by
      unfold publish
      cases hm : e.2 with
      | mk vars inv =>
        simp only [NodeMeta.mk.injEq, and_true]
        conv => rhs; rw [← List.map_id vars]
        apply List.map_congr_left
        intro v hv'
        have : v.2.2 = false := by
          cases hb : v.2.2 with
          | false => rfl
          | true => exact absurd ⟨e, hel, v, by rw [hm]; exact hv', hb⟩ hp
        obtain ⟨a, b, c⟩ := v
        simp only at this
        subst this
        rfl
    rw [this]; rfl

/-- Exactly the same block when no entry is void. -/
theorem C15_same (c : Codec) (hc : c.Lawful) (hw : c.FullWrites) (ord : VarOrd)
    (ho : ord.Lawful) (b : MapBlock) (h : Wf b) (hp : 28 ≤ b.version ∨ ¬ HasPrivate b)
    (hv : ∀ e ∈ b.metas, ¬ MetaVoid e.2) :
    ∃ s', serialize c ord b = .ok s' ∧ deserialize c s' = .ok b := by
  obtain ⟨s', h1, h2⟩ := C15_identical c hc hw ord ho b h hp
  refine ⟨s', h1, ?_⟩
  rw [h2]
  have : dropVoid b.metas = b.metas := by
    unfold dropVoid
    rw [List.filter_eq_self]
    intro e he
    simp [hv e he]
  rw [this]

example (v : Nat) (hv : 25 ≤ v ∧ v ≤ 29) : ∃ s', serialize (Toy.codec id) Toy.ordRev (Toy.block v) = .ok s' ∧
    deserialize (Toy.codec id) s' = .ok (stored (Toy.block v)) :=
  C15_save_load_wf _ (Toy.lawful id) Toy.fullWrites _ Toy.ordRev_lawful _ (Toy.block_wf v hv)

/-- The dropped entry of the sample is the void one; the private mark is in the other. -/
example : (stored (Toy.block 29)).metas = [(Toy.block 29).metas.head (by decide)] := by decide

/-! ## C16: loading never crashes and yields well-formed blocks -/

/-- Any bytes whatsoever: no panic, and a block that comes out fits the format. -/
theorem C16_load_total (c : Codec) (s : Bytes) :
    (∃ b, deserialize c s = .ok b ∧ Wf b) ∨ ∃ e, deserialize c s = .error (.err e) := by
  cases h : deserialize c s with
  | ok b => exact Or.inl ⟨b, rfl, wf_of_deserialize h⟩
  | error e =>
    cases e with
    | err e => exact Or.inr ⟨e, rfl⟩
    | panic w => exact absurd h (np_deserialize c s w)

/-- In particular there are always 4096 nodes and parameters, and versions are in range. -/
theorem C16_sizes (c : Codec) (s : Bytes) (b : MapBlock) (h : deserialize c s = .ok b) :
    b.nd.nodes.length = 4096 ∧ b.nd.param1.length = 4096 ∧ b.nd.param2.length = 4096 ∧
    25 ≤ b.version ∧ b.version ≤ 29 :=
  let w := wf_of_deserialize h
  ⟨w.nodes.1, w.nodes.2.2.1, w.nodes.2.2.2, w.ver⟩

/-- Both outcomes occur. -/
example : deserialize (Toy.codec id) [28, 0, 0] = .error (.err .badData) := by decide
example : ∃ s b, deserialize (Toy.codec id) s = .ok b :=
  let ⟨s, _, h⟩ := C15_save_load_wf _ (Toy.lawful id) Toy.fullWrites _ Toy.ord_lawful _
    (Toy.block_wf 28 (by omega))
  ⟨s, _, h⟩

/-! ## C17: re-saving never fails and is stable -/

/-- A loaded block can be saved, whatever the compressors do. -/
theorem C17_save_ok (c : Codec) (ord : VarOrd) (ho : ord.Lawful) (s : Bytes) (b : MapBlock)
    (h : deserialize c s = .ok b) : ∃ s', serialize c ord b = .ok s' :=
  serialize_ok c ho (wf_of_deserialize h)

/-- After one save and load, saving and loading changes nothing more. -/
theorem C17_stable (c : Codec) (hc : c.Lawful) (hw : c.FullWrites) (ord ord' : VarOrd)
    (ho : ord.Lawful) (ho' : ord'.Lawful) (s : Bytes) (b : MapBlock)
    (h : deserialize c s = .ok b) :
    ∃ s₁ b₁ s₂, serialize c ord b = .ok s₁ ∧ deserialize c s₁ = .ok b₁ ∧
      serialize c ord' b₁ = .ok s₂ ∧ deserialize c s₂ = .ok b₁ := by
  have w := wf_of_deserialize h
  obtain ⟨s₁, h1, h2⟩ := roundtrip hc hw ho w
  obtain ⟨s₂, h3, h4⟩ := roundtrip hc hw ho' (wf_stored w)
  rw [stored_stored] at h4
  exact ⟨s₁, _, s₂, h1, h2, h3, h4⟩

/-- With the same iteration order, the saved bytes themselves are reproduced. -/
theorem C17_same_bytes (c : Codec) (hc : c.Lawful) (hw : c.FullWrites) (ord : VarOrd)
    (ho : ord.Lawful) (s : Bytes) (b : MapBlock) (h : deserialize c s = .ok b) :
    ∃ s₁ s₂ b₁ b₂, serialize c ord b = .ok s₁ ∧ deserialize c s₁ = .ok b₁ ∧
      serialize c ord b₁ = .ok s₂ ∧ deserialize c s₂ = .ok b₂ ∧ serialize c ord b₂ = .ok s₂ := by
  have w := wf_of_deserialize h
  obtain ⟨s₁, h1, h2⟩ := roundtrip hc hw ho w
  obtain ⟨s₂, h3, h4⟩ := roundtrip hc hw ho (wf_stored w)
  rw [stored_stored] at h4
  exact ⟨s₁, s₂, _, _, h1, h2, h3, h4, h3⟩

example : ∃ s b, deserialize (Toy.codec id) s = .ok b ∧ b.metas ≠ [] :=
  let ⟨s, _, h⟩ := C15_save_load_wf _ (Toy.lawful id) Toy.fullWrites _ Toy.ord_lawful _
    (Toy.block_wf 25 (by omega))
  ⟨s, _, h, by decide⟩

/-! ## C18: independence of hash-map order -/

/-- Two iteration orders give data that loads as the same block. -/
theorem C18_order_irrelevant (c : Codec) (hc : c.Lawful) (hw : c.FullWrites) (ord ord' : VarOrd)
    (ho : ord.Lawful) (ho' : ord'.Lawful) (b : MapBlock) (h : Wf b) (s s' : Bytes)
    (hs : serialize c ord b = .ok s) (hs' : serialize c ord' b = .ok s') :
    ∃ b', deserialize c s = .ok b' ∧ deserialize c s' = .ok b' := by
  obtain ⟨_, h1, h2⟩ := roundtrip hc hw ho h
  obtain ⟨_, h3, h4⟩ := roundtrip hc hw ho' h
  rw [hs, ok_inj] at h1
  rw [hs', ok_inj] at h3
  subst h1 h3
  exact ⟨_, h2, h4⟩

/-- The variables that come back are those of the block: same names, values and (from version 28)
private marks, for every node with non-void metadata. -/
theorem C18_vars (c : Codec) (hc : c.Lawful) (hw : c.FullWrites) (ord : VarOrd)
    (ho : ord.Lawful) (b : MapBlock) (h : Wf b) (s : Bytes) (hs : serialize c ord b = .ok s)
    (hv : 28 ≤ b.version) (pos : Nat) (m : NodeMeta) (hm : SMap.get? b.metas pos = some m)
    (hne : ¬ MetaVoid m) :
    ∃ b', deserialize c s = .ok b' ∧ SMap.get? b'.metas pos = some m := by
  obtain ⟨_, h1, h2⟩ := roundtrip hc hw ho h
  rw [hs, ok_inj] at h1
  subst h1
  refine ⟨_, h2, ?_⟩
  show SMap.get? (if 28 ≤ b.version then _ else _) pos = _
  rw [if_pos hv, dropVoid, SMap.get?_filter h.metas.sorted, hm]
  simp [hne]

/-- The two orders do produce different bytes, so this is not vacuous. -/
example : (wrMetaList Toy.ord (Toy.block 28).metas 28).map flat ≠
    (wrMetaList Toy.ordRev (Toy.block 28).metas 28).map flat := by decide

/-! ## C19: unsupported data is rejected with the right error -/

/-- Wrong block version. -/
theorem C19_version (c : Codec) (v : UInt8) (t : Bytes) (h : v.toNat < 25 ∨ 29 < v.toNat) :
    deserialize c (v :: t) = .error (.err .invalidBlockVersion) := by
  show (if v.toNat < 25 ∨ v.toNat > 29 then _ else _) = _
  rw [if_pos h]

/-- Wrong section versions and widths, section by section. -/
theorem C19_sections (v : UInt8) (t : Bytes) :
    (2 < v.toNat → rdMetaList (v :: t) = .error (.err .invalidSubVersion)) ∧
    (v.toNat ≠ 0 → rdObjects (v :: t) = .error (.err .invalidSubVersion)) ∧
    (v.toNat ≠ 0 → rdNimap (v :: t) = .error (.err .invalidSubVersion)) ∧
    (v.toNat ≠ 10 → rdTimers (v :: t) = .error (.err .invalidFeature)) := by
  refine ⟨fun h => ?_, fun h => ?_, fun h => ?_, fun h => ?_⟩
  · show (if v.toNat > 2 then _ else _) = _
    rw [if_pos h]
  · show (if v.toNat ≠ 0 then _ else _) = _
    rw [if_pos h]
  · show (if v.toNat ≠ 0 then _ else _) = _
    rw [if_pos h]
  · show (if v.toNat ≠ 10 then _ else _) = _
    rw [if_pos h]

/-- Version 29 data whose decompressed content starts with valid sections and then has an
unsupported one: the whole block is rejected with that section's error. -/
theorem C19_block29 (c : Codec) (z : Bytes) (f l t : Nat) (names : List (Nat × Bytes)) (nd : NodeData)
    (ml : RawMetaList) (os : List StaticObject) (hf : f < 256) (hl : l < 65536)
    (ht : t < 4294967296) (hn : NamesFit names) (hnd : NodesFit nd) (hml : ml.Fits)
    (hos : ObjsFit os) (v w : UInt8) (rest : Bytes) :
    (v.toNat ≠ 0 →
      c.zstdDec z = some (UInt8.ofNat f :: (be16 l ++ (be32 t ++ v :: rest))) →
      deserialize c (29 :: z) = .error (.err .invalidSubVersion)) ∧
    (v.toNat ≠ 2 ∨ w.toNat ≠ 2 →
      c.zstdDec z = some (UInt8.ofNat f :: (be16 l ++ (be32 t ++ (namesBytes names ++
        v :: w :: rest)))) →
      deserialize c (29 :: z) = .error (.err .invalidFeature)) ∧
    (2 < v.toNat →
      c.zstdDec z = some (UInt8.ofNat f :: (be16 l ++ (be32 t ++ (namesBytes names ++
        2 :: 2 :: (nodesBytes nd ++ v :: rest))))) →
      deserialize c (29 :: z) = .error (.err .invalidSubVersion)) ∧
    (v.toNat ≠ 0 →
      c.zstdDec z = some (UInt8.ofNat f :: (be16 l ++ (be32 t ++ (namesBytes names ++
        2 :: 2 :: (nodesBytes nd ++ (ml.bytes ++ v :: rest)))))) →
      deserialize c (29 :: z) = .error (.err .invalidSubVersion)) ∧
    (v.toNat ≠ 10 →
      c.zstdDec z = some (UInt8.ofNat f :: (be16 l ++ (be32 t ++ (namesBytes names ++
        2 :: 2 :: (nodesBytes nd ++ (ml.bytes ++ (objsBytes os ++ v :: rest))))))) →
      deserialize c (29 :: z) = .error (.err .invalidFeature)) := by
  have start : ∀ d, c.zstdDec z = some d → deserialize c (29 :: z) = rdBody29 29 d := by
    intro d hd
    show (match c.zstdDec z with | none => badData | some d => rdBody29 29 d) = _
    rw [hd]
  have u8 : ∀ (x : UInt8) (r : Bytes), rdU8 (x :: r) = .ok (x.toNat, r) := fun _ _ => rfl
  have h1 : ∀ r, rdU8 (UInt8.ofNat f :: r) = .ok (f, r) := fun r => rdU8_iff.2 ⟨hf, rfl⟩
  have h2 : ∀ r, rdU16 (be16 l ++ r) = .ok (l, r) := fun r => rdU16_iff.2 ⟨hl, rfl⟩
  have h3 : ∀ r, rdU32 (be32 t ++ r) = .ok (t, r) := fun r => rdU32_iff.2 ⟨ht, rfl⟩
  have h4 : ∀ r, rdNimap (namesBytes names ++ r) = .ok (namesValue names, r) :=
    fun r => rdNimap_iff.2 ⟨_, hn, rfl, rfl⟩
  have h5 : ∀ r, rdNodeData (nodesBytes nd ++ r) = .ok (nd, r) :=
    fun r => rdNodeData_iff.2 ⟨hnd, rfl⟩
  have h6 : ∀ r, rdMetaList (ml.bytes ++ r) = .ok (ml.value, r) :=
    fun r => rdMetaList_iff.2 ⟨_, hml, rfl, rfl⟩
  have h7 : ∀ r, rdObjects (objsBytes os ++ r) = .ok (os, r) :=
    fun r => rdObjects_iff.2 ⟨hos, rfl⟩
  have s := C19_sections v rest
  have two : (2 : UInt8).toNat = 2 := rfl
  refine ⟨fun h hd => ?_, fun h hd => ?_, fun h hd => ?_, fun h hd => ?_, fun h hd => ?_⟩ <;>
    rw [start _ hd] <;> unfold rdBody29
  · simp only [h1, h2, h3, s.2.2.1 h, res_bind_ok]; rfl
  · simp only [h1, h2, h3, h4, u8, res_bind_ok]
    rw [if_pos h]
  · simp only [h1, h2, h3, h4, u8, two, res_bind_ok, ne_eq, not_true_eq_false, or_self, if_false, h5,
      s.1 h]; rfl
  · simp only [h1, h2, h3, h4, u8, two, res_bind_ok, ne_eq, not_true_eq_false, or_self, if_false, h5,
      h6, s.2.1 h]; rfl
  · simp only [h1, h2, h3, h4, u8, two, res_bind_ok, ne_eq, not_true_eq_false, or_self, if_false, h5,
      h6, h7, s.2.2.2 h]; rfl

/-- The same for versions 25..28. -/
theorem C19_block28 (c : Codec) (ver : Nat) (hver : 25 ≤ ver ∧ ver ≤ 28) (z : Bytes) (f l t : Nat)
    (names : List (Nat × Bytes)) (nd : NodeData) (ml : RawMetaList) (os : List StaticObject)
    (n1 n2 : Nat) (junk : Bytes) (hf : f < 256) (hl : l < 65536)
    (ht : t < 4294967296) (hn : NamesFit names) (hnd : NodesFit nd) (hml : ml.Fits)
    (hos : ObjsFit os) (v w : UInt8) (rest : Bytes) :
    let data (x : Bytes) : Bytes := UInt8.ofNat ver :: UInt8.ofNat f ::
      ((if 27 ≤ ver then be16 l else []) ++ x)
    (v.toNat ≠ 2 ∨ w.toNat ≠ 2 →
      deserialize c (data (v :: w :: rest)) = .error (.err .invalidFeature)) ∧
    (c.zlibDec z = some (nodesBytes nd, n1) →
      (2 < v.toNat → c.zlibDec (z.drop n1) = some (v :: rest, n2) →
        deserialize c (data (2 :: 2 :: z)) = .error (.err .invalidSubVersion)) ∧
      (c.zlibDec (z.drop n1) = some (ml.bytes ++ junk, n2) →
        (v.toNat ≠ 0 → (z.drop n1).drop n2 = v :: rest →
          deserialize c (data (2 :: 2 :: z)) = .error (.err .invalidSubVersion)) ∧
        (v.toNat ≠ 0 → (z.drop n1).drop n2 = objsBytes os ++ (be32 t ++ v :: rest) →
          deserialize c (data (2 :: 2 :: z)) = .error (.err .invalidSubVersion)) ∧
        (v.toNat ≠ 10 →
          (z.drop n1).drop n2 = objsBytes os ++ (be32 t ++ (namesBytes names ++ v :: rest)) →
          deserialize c (data (2 :: 2 :: z)) = .error (.err .invalidFeature)))) := by
  intro data
  have h0 : ∀ x, ∃ l', deserialize c (data x) = (do
      let (cw, s) ← rdU8 x
      let (pw, s) ← rdU8 s
      if cw ≠ 2 ∨ pw ≠ 2 then .error (.err .invalidFeature)
      else do
        let (nd, s) ← decompressNodeData c s
        let (metas, s) ← decompressMetaList c s
        let (objects, s) ← rdObjects s
        let (timestamp, s) ← rdU32 s
        let (nimap, s) ← rdNimap s
        let (timers, _) ← rdTimers s
        return { version := ver, flags := f, lighting := l', contentWidth := cw, paramsWidth := pw,
                 nd, metas, objects, timestamp, nimap, timers } : Res MapBlock) := by
    intro x
    have h1 : rdU8 (data x) = .ok (ver, UInt8.ofNat f :: ((if 27 ≤ ver then be16 l else []) ++ x)) :=
      rdU8_iff.2 ⟨by omega, rfl⟩
    have h2 : ∀ r, rdU8 (UInt8.ofNat f :: r) = .ok (f, r) := fun r => rdU8_iff.2 ⟨hf, rfl⟩
    have h3 : rdLight ver ((if 27 ≤ ver then be16 l else []) ++ x)
        = .ok (if 27 ≤ ver then l else 65535, x) := by
      refine rdLight_iff.2 ⟨by split <;> omega, fun h => if_neg (by omega), ?_⟩
      split <;> rfl
    refine ⟨if 27 ≤ ver then l else 65535, ?_⟩
    unfold deserialize
    rw [h1]
    simp only [res_bind_ok]
    rw [if_neg (by omega), if_neg (by omega)]
    unfold rdBody28
    simp only [h2, h3, res_bind_ok]
  have u8 : ∀ (x : UInt8) (r : Bytes), rdU8 (x :: r) = .ok (x.toNat, r) := fun _ _ => rfl
  have two : (2 : UInt8).toNat = 2 := rfl
  have h3 : ∀ r, rdU32 (be32 t ++ r) = .ok (t, r) := fun r => rdU32_iff.2 ⟨ht, rfl⟩
  have h4 : ∀ r, rdNimap (namesBytes names ++ r) = .ok (namesValue names, r) :=
    fun r => rdNimap_iff.2 ⟨_, hn, rfl, rfl⟩
  have h7 : ∀ r, rdObjects (objsBytes os ++ r) = .ok (os, r) :=
    fun r => rdObjects_iff.2 ⟨hos, rfl⟩
  have s := C19_sections v rest
  refine ⟨fun h => ?_, fun hz => ⟨fun h hz2 => ?_, fun hz2 => ⟨fun h hr => ?_, fun h hr => ?_,
    fun h hr => ?_⟩⟩⟩
  · obtain ⟨l', e⟩ := h0 (v :: w :: rest)
    rw [e]
    simp only [u8, res_bind_ok]
    rw [if_pos h]
  all_goals
    have h5 : decompressNodeData c z = .ok (nd, z.drop n1) :=
      decompressNodeData_iff.2 ⟨_, hz, hnd, rfl⟩
    obtain ⟨l', e⟩ := h0 (2 :: 2 :: z)
    rw [e]
  · have h6 : decompressMetaList c (z.drop n1) = .error (.err .invalidSubVersion) := by
      unfold decompressMetaList
      rw [hz2]
      simp only [s.1 h]
      rfl
    simp only [u8, two, res_bind_ok, ne_eq, not_true_eq_false, or_self, if_false, h5, h6]
    rfl
  all_goals
    have h6 : decompressMetaList c (z.drop n1) = .ok (ml.value, (z.drop n1).drop n2) :=
      decompressMetaList_iff.2 ⟨_, _, _, hz2, hml, rfl, rfl⟩
    rw [hr] at h6
  · simp only [u8, two, res_bind_ok, ne_eq, not_true_eq_false, or_self, if_false, h5, h6, s.2.1 h]
    rfl
  · simp only [u8, two, res_bind_ok, ne_eq, not_true_eq_false, or_self, if_false, h5, h6, h7, h3,
      s.2.2.1 h]
    rfl
  · simp only [u8, two, res_bind_ok, ne_eq, not_true_eq_false, or_self, if_false, h5, h6, h7, h3, h4,
      s.2.2.2 h]
    rfl

/-- Instances: version 24 and 30; a version 29 block with a name table of version 1. -/
example : deserialize (Toy.codec id) [24, 1, 2] = .error (.err .invalidBlockVersion) :=
  C19_version _ _ _ (by decide)
example : deserialize (Toy.codec id) [29, 0, 0, 0, 0, 0, 0, 0, 1, 5] =
    .error (.err .invalidSubVersion) := by decide

/-! ## C20: truncated sections are rejected -/

/-- A strict prefix of a length-prefixed string, name table, object list, timer list or metadata
list is rejected with an error (not a panic). -/
theorem C20_truncated (cut t : Bytes) (ht : t ≠ []) :
    (∀ d : Bytes, d.length < 65536 → cut ++ t = str16 d → ∃ e, rdStr16 cut = .error (.err e)) ∧
    (∀ d : Bytes, d.length < 4294967296 → cut ++ t = str32 d →
      ∃ e, rdStr32 cut = .error (.err e)) ∧
    (∀ m : NameIdMap, NamesFit m → cut ++ t = namesBytes m → ∃ e, rdNimap cut = .error (.err e)) ∧
    (∀ l, ObjsFit l → cut ++ t = objsBytes l → ∃ e, rdObjects cut = .error (.err e)) ∧
    (∀ l, TimersFit l → cut ++ t = timersBytes l → ∃ e, rdTimers cut = .error (.err e)) ∧
    (∀ l : RawMetaList, l.Fits → cut ++ t = l.bytes → ∃ e, rdMetaList cut = .error (.err e)) := by
  refine ⟨fun d h e => ?_, fun d h e => ?_, fun d h e => ?_, fun d h e => ?_, fun d h e => ?_,
    fun d h e => ?_⟩
  · exact errs_of (reject_prefix (simple_iff fun _ _ _ => rdStr16_iff) h e ht) (np_rdStr16 _)
  · exact errs_of (reject_prefix (simple_iff fun _ _ _ => rdStr32_iff) h e ht) (np_rdStr32 _)
  · exact errs_of (reject_prefix (fun _ _ _ => rdNimap_iff) h e ht) (np_rdNimap _)
  · exact errs_of (reject_prefix (simple_iff fun _ _ _ => rdObjects_iff) h e ht) (np_rdObjects _)
  · exact errs_of (reject_prefix (simple_iff fun _ _ _ => rdTimers_iff) h e ht) (np_rdTimers _)
  · exact errs_of (reject_prefix (fun _ _ _ => rdMetaList_iff) h e ht) (np_rdMetaList _)

/-- What the writers produce is such a list, so the prefixes of saved sections are covered. -/
theorem C20_saved_sections (b : MapBlock) (h : Wf b) (ord : VarOrd) (ho : ord.Lawful) :
    (∃ cs, wrNimap b.nimap = .ok cs ∧ flat cs = namesBytes b.nimap ∧ NamesFit b.nimap) ∧
    (∃ cs, wrObjects b.objects = .ok cs ∧ flat cs = objsBytes b.objects ∧ ObjsFit b.objects) ∧
    (∃ cs, wrTimers b.timers = .ok cs ∧ flat cs = timersBytes b.timers ∧ TimersFit b.timers) ∧
    (∃ cs, ∃ l : RawMetaList, wrMetaList ord b.metas b.version = .ok cs ∧ flat cs = l.bytes ∧
      l.Fits) := by
  obtain ⟨ml, ml1, ml2⟩ := writes_metas ord ho b.version h.metas
  obtain ⟨os, os1, os2⟩ := writes_objects h.objs
  obtain ⟨ni, ni1, ni2⟩ := writes_nimap h.nimap.fits
  obtain ⟨ts, ts1, ts2⟩ := writes_timers (l := b.timers)
  exact ⟨⟨ni, ni1, ni2, h.nimap.fits⟩, ⟨os, os1, os2, h.objs⟩, ⟨ts, ts1, ts2, h.timers⟩,
    ⟨ml, _, ml1, ml2, rawList_fits ord ho b.version h.metas⟩⟩

example : rdNimap ((namesBytes [(0, ascii "air")]).take 6) = .error (.err .badData) := by decide

/-! ## C21: strings are written in full -/

/-- The sample block with a one-entry name table. -/
def shortBlock : MapBlock := { Toy.block 29 with nimap := [(0, ascii "ab")] }

theorem shortBlock_wf : Wf shortBlock :=
  { Toy.block_wf 29 (by omega) with
    nimap := ⟨List.pairwise_singleton _ _, by decide, by
      intro e he
      rcases List.mem_cons.1 he with rfl | he
      · unfold NameFits; decide
      · cases he⟩ }

/-- False in general: a compressor that accepts only part of a buffer per call makes the saved
block unreadable (here: a single `write` accepts one byte; the second byte of the name is missing,
so everything after it is read one byte early). -/
theorem C21_false : ∃ (c : Codec) (b : MapBlock) (s : Bytes), c.Lawful ∧ Wf b ∧
    serialize c Toy.ord b = .ok s ∧ ∀ b', deserialize c s ≠ .ok b' := by
  refine ⟨Toy.codec fun n => min n 1, shortBlock, ?_⟩
  obtain ⟨s, hs⟩ := serialize_ok (Toy.codec fun n => min n 1) Toy.ord_lawful shortBlock_wf
  refine ⟨s, Toy.lawful _, shortBlock_wf, hs, ?_⟩
  have key : ∃ rest : Bytes, s = 29 :: (0 :: (be16 0xF00F ++ (be32 77 ++
      (namesBytes [(0, [97, 2])] ++ (2 :: 0 :: rest))))) := by
    have hnd : ∃ nl p1 p2, shortBlock.nd.serialize =
        .ok [.all (0 :: 1 :: nl), .all p1, .all p2] := by
      refine ⟨bytesOfU16s (List.replicate 4095 0), List.replicate 4096 15, List.replicate 4096 0, ?_⟩
      unfold NodeData.serialize rassert
      have : (shortBlock.nd.nodes.length == NODE_COUNT) = true := by
        rw [shortBlock_wf.nodes.1]; rfl
      rw [this]; rfl
    obtain ⟨nl, p1, p2, hnd⟩ := hnd
    have hni : wrNimap shortBlock.nimap = .ok [.all [0], .all [0, 1], .all [0, 0], .all [0, 2],
        .once (ascii "ab")] := by decide
    unfold serialize at hs
    rw [show rassert (decide (25 ≤ shortBlock.version ∧ shortBlock.version ≤ 29))
      "Invalid mapblock version." = .ok () from rfl] at hs
    simp only [res_bind_ok] at hs
    rw [if_pos (by show 29 ≤ 29; omega)] at hs
    unfold wrBody29 at hs
    simp only [hnd, hni, res_bind_ok] at hs
    obtain ⟨body, hb, hs⟩ := bind_ok_iff.1 hs
    obtain ⟨ml, _, hb⟩ := bind_ok_iff.1 hb
    obtain ⟨os, _, hb⟩ := bind_ok_iff.1 hb
    obtain ⟨ts, _, hb⟩ := bind_ok_iff.1 hb
    simp only [res_pure, ok_inj] at hb hs
    subst hb hs
    exact ⟨_, rfl⟩
  obtain ⟨rest, rfl⟩ := key
  intro b' h
  have h1 := (C19_block29 (Toy.codec fun n => min n 1) _ 0 0xF00F 77 [(0, [97, 2])] shortBlock.nd
    ⟨0, []⟩ [] (by omega) (by omega) (by omega) ⟨by decide, by
      intro e he
      rcases List.mem_cons.1 he with rfl | he
      · unfold NameFits; decide
      · cases he⟩ shortBlock_wf.nodes ⟨by decide, by decide, fun _ => rfl, fun _ h => nomatch h⟩
    ⟨by decide, fun _ h => nomatch h⟩ 2 0 rest).2.1 (by decide) rfl
  exact nomatch h1.symm.trans h

/-- Under the assumption that encoders accept whole buffers, everything is written in full: the
bytes that reach the output are exactly those of the strings. -/
theorem C21_partial (c : Codec) (hw : c.FullWrites) (d : Bytes) :
    (d.length < 65536 → ∃ cs, wrStr16 d = .ok cs ∧ c.emit cs = str16 d) ∧
    (d.length < 4294967296 → ∃ cs, wrStr32 d = .ok cs ∧ c.emit cs = str32 d) := by
  constructor
  · intro h
    obtain ⟨cs, h1, h2⟩ := writes_str16 h
    exact ⟨cs, h1, by rw [emit_full hw, h2]⟩
  · intro h
    obtain ⟨cs, h1, h2⟩ := writes_str32 h
    exact ⟨cs, h1, by rw [emit_full hw, h2]⟩

/-- Without that assumption: blocks of versions 25..28 without metadata are saved in full (their
names and objects go to memory, not to an encoder). -/
theorem C21_old_versions_partial (c : Codec) (hc : c.Lawful) (ord : VarOrd) (ho : ord.Lawful)
    (b : MapBlock) (h : Wf b) (hv : b.version ≤ 28) (hm : ∀ e ∈ b.metas, MetaVoid e.2) :
    ∃ s, serialize c ord b = .ok s ∧ deserialize c s = .ok { b with metas := [] } := by
  have h0 : dropVoid b.metas = [] := by
    unfold dropVoid
    rw [List.filter_eq_nil_iff]
    intro e he
    simp [hm e he]
  obtain ⟨s, h1, h2⟩ := serialize_spec' hc ho h (Or.inr ⟨hv, h0⟩)
  refine ⟨s, h1, ?_⟩
  rw [deserialize_iff.2 h2]
  unfold stored
  rw [h0]
  split <;> rfl

example : ¬ HasPrivate (Toy.block 28) → False := fun h => h ⟨_, .head _, _, .head _, rfl⟩
example : dropVoid [(1, (⟨[], ascii "EndInventory\n"⟩ : NodeMeta))] = [] := by decide

/-! ## C22: private metadata stays private -/

/-- Node `pos` has a private variable called `name`. -/
def PrivateVar (b : MapBlock) (pos : Nat) (name : Bytes) : Prop :=
  ∃ m v, SMap.get? b.metas pos = some m ∧ SMap.get? m.vars name = some (v, true)

/-- False for versions 25..27: saving a block with a private variable and loading it again gives a
block in which that variable is public. -/
theorem C22_false (c : Codec) (hc : c.Lawful) (hw : c.FullWrites) (ord : VarOrd) (ho : ord.Lawful)
    (v : Nat) (hv : 25 ≤ v ∧ v ≤ 27) :
    ∃ (b : MapBlock) (s : Bytes) (b' : MapBlock), Wf b ∧ b.version = v ∧
      serialize c ord b = .ok s ∧ deserialize c s = .ok b' ∧
      PrivateVar b 0 (ascii "k") ∧ ¬ PrivateVar b' 0 (ascii "k") := by
  obtain ⟨s, h1, h2⟩ := roundtrip hc hw ho (Toy.block_wf v (by omega))
  refine ⟨Toy.block v, s, _, Toy.block_wf v (by omega), rfl, h1, h2, ?_, ?_⟩
  · exact ⟨_, _, rfl, rfl⟩
  · rintro ⟨m, x, hm, hx⟩
    have e : (stored (Toy.block v)).metas = [(0, ⟨[(ascii "k", (ascii "v", false)),
        (ascii "l", (ascii "", false))],
        ascii "List main 1\nEmpty\nEndInventoryList\nEndInventory\n"⟩)] := by
      show (if 28 ≤ v then _ else _) = _
      rw [if_neg (by omega)]
      show List.map (fun e => (e.1, publish e.2)) (dropVoid (Toy.block 25).metas) = _
      decide
    rw [e] at hm
    have : m = ⟨[(ascii "k", (ascii "v", false)), (ascii "l", (ascii "", false))],
        ascii "List main 1\nEmpty\nEndInventoryList\nEndInventory\n"⟩ := by
      simpa [SMap.get?] using hm.symm
    subst this
    have e2 : SMap.get? [(ascii "k", (ascii "v", false)), (ascii "l", (ascii "", false))]
      (ascii "k") = some (ascii "v", false) := rfl
    rw [e2] at hx
    cases hx

/-- From version 28 on, every private variable is private after saving and loading, and no
variable becomes private.  Missing from the full claim: versions 25..27. -/
theorem C22_partial (c : Codec) (hc : c.Lawful) (hw : c.FullWrites) (ord : VarOrd)
    (ho : ord.Lawful) (b : MapBlock) (h : Wf b) (hv : 28 ≤ b.version) :
    ∃ s b', serialize c ord b = .ok s ∧ deserialize c s = .ok b' ∧
      ∀ pos name, PrivateVar b' pos name ↔ PrivateVar b pos name := by
  obtain ⟨s, h1, h2⟩ := roundtrip hc hw ho h
  refine ⟨s, _, h1, h2, fun pos name => ?_⟩
  have e : ∀ pos, SMap.get? (stored b).metas pos
      = (SMap.get? b.metas pos).filter fun m => decide (¬ MetaVoid m) := by
    intro pos
    show SMap.get? (if 28 ≤ b.version then dropVoid b.metas else _) pos = _
    rw [if_pos hv, dropVoid, SMap.get?_filter h.metas.sorted]
  unfold PrivateVar
  simp only [e]
  constructor
  · rintro ⟨m, v, hm, hx⟩
    rw [Option.filter_eq_some_iff] at hm
    exact ⟨m, v, hm.1, hx⟩
  · rintro ⟨m, v, hm, hx⟩
    refine ⟨m, v, ?_, hx⟩
    rw [Option.filter_eq_some_iff]
    refine ⟨hm, ?_⟩
    have : ¬ MetaVoid m := by
      rintro ⟨h3, _⟩
      rw [h3] at hx
      cases hx
    simp [this]

example : PrivateVar (Toy.block 28) 0 (ascii "k") := ⟨_, _, rfl, rfl⟩

/-! ## C23: inventory boundaries -/

/-- False in general: an item whose name ends with `EndInventory` (no count, wear or metadata, so
nothing follows on the line) makes the reader stop early. -/
theorem C23_false : ∃ lines, Lines lines ∧
    ∃ m r, rdMeta 2 (be32 0 ++ (invText lines ++ ascii "rest")) = .ok (m, r) ∧
      m.inv ≠ invText lines := by
  refine ⟨[ascii "List main 1", ascii "Width 0", ascii "Item mod:EndInventory",
    ascii "EndInventoryList"], by unfold Lines; decide,
    ⟨[], ascii "List main 1\nWidth 0\nItem mod:EndInventory\n"⟩,
    ascii "EndInventoryList\nEndInventory\nrest", by decide, by decide⟩

/-- If no line before the last ends with `EndInventory`, the inventory is read back exactly,
whatever follows it.  Missing from the full claim: lines ending with that word. -/
theorem C23_partial (ver : Nat) (lines : List Bytes) (h1 : Lines lines)
    (h2 : ∀ l ∈ lines, ¬ endWord <:+ l) (rest : Bytes) :
    rdMeta ver (be32 0 ++ (invText lines ++ rest)) = .ok (⟨[], invText lines⟩, rest) := by
  have hf := framed_invText h1 h2
  unfold rdMeta
  rw [bind_ok_iff]
  refine ⟨(0, invText lines ++ rest), rdU32_iff.2 ⟨by omega, rfl⟩, ?_⟩
  obtain ⟨e, he, hrd⟩ := rdInv_iff.2 ⟨hf, (rfl : invText lines ++ rest = invText lines ++ rest)⟩
  simp only [loopP, res_bind_ok, he, hrd, res_pure]

/-- A quoted item metadata containing the word in the middle of a line is fine. -/
example : Lines [ascii "Item a 1 0 \"EndInventory\\n\"", ascii "EndInventoryList"] ∧
    ∀ l ∈ [ascii "Item a 1 0 \"EndInventory\\n\"", ascii "EndInventoryList"],
      ¬ endWord <:+ l := by
  unfold Lines
  refine ⟨by decide, ?_⟩
  intro l hl h
  have : endWord.isSuffixOf l = true := List.isSuffixOf_iff_suffix.2 h
  simp only [List.mem_cons, List.not_mem_nil, or_false] at hl
  rcases hl with rfl | rfl <;> revert this <;> decide

/-! ## C24: over-long strings -/

/-- Saving a block with a string too long for its length field panics: node names, object data,
names and values of the variables of some node. -/
theorem C24_too_long (c : Codec) (ord : VarOrd) (ho : ord.Lawful) (b : MapBlock)
    (h : (∃ e ∈ b.nimap, 65536 ≤ e.2.length) ∨ (∃ o ∈ b.objects, 65536 ≤ o.data.length) ∨
      (∃ e ∈ b.metas, ∃ v ∈ e.2.vars, 65536 ≤ v.1.length ∨ 4294967296 ≤ v.2.1.length)) :
    ∃ w, serialize c ord b = .error (.panic w) := by
  refine panics_of (notOk_serialize ?_) (op_serialize _ _ _)
  rcases h with ⟨e, he, h⟩ | ⟨o, hx, h⟩ | ⟨e, he, v, hv, h⟩
  · exact Or.inl (notOk_bind (notOk_each he (notOk_bind (notOk_str16 h))))
  · exact Or.inr (Or.inl (notOk_bind (notOk_each hx (notOk_bind (notOk_str16 h)))))
  · refine Or.inr (Or.inr ?_)
    have hne : e.2.isEmpty = false := by
      unfold NodeMeta.isEmpty
      cases hvs : e.2.vars with
      | nil => rw [hvs] at hv; cases hv
      | cons => rfl
    unfold wrMetaList
    have hc : ¬ (List.filter (fun e : Nat × NodeMeta => !e.2.isEmpty) b.metas).length = 0 := by
      intro h0
      have h0 := List.length_eq_zero_iff.1 h0
      rw [List.filter_eq_nil_iff] at h0
      exact h0 e he (by simp [hne])
    simp only [if_neg hc]
    refine notOk_bind (notOk_each he ?_)
    unfold wrMetaEntry
    rw [if_neg (by simp [hne])]
    refine notOk_bind (notOk_bind (notOk_each ((ho e.1 e.2.vars).mem_iff.2 hv) ?_))
    rcases h with h | h
    · exact notOk_bind (notOk_str16 h)
    · exact notOk_bind' fun _ => notOk_bind (notOk_str32 h)

/-- A string that is written has its exact length in front. -/
theorem C24_exact_length (d : Bytes) (cs : List Chunk) :
    (wrStr16 d = .ok cs → d.length < 65536 ∧ flat cs = str16 d) ∧
    (wrStr32 d = .ok cs → d.length < 4294967296 ∧ flat cs = str32 d) := by
  constructor
  · intro h
    have hl : d.length < 65536 := by
      rcases Nat.lt_or_ge d.length 65536 with h' | h'
      · exact h'
      · exact absurd h (notOk_str16 h' cs)
    obtain ⟨cs', h1, h2⟩ := writes_str16 hl
    rw [h, ok_inj] at h1
    exact ⟨hl, by rw [h1]; exact h2⟩
  · intro h
    have hl : d.length < 4294967296 := by
      rcases Nat.lt_or_ge d.length 4294967296 with h' | h'
      · exact h'
      · exact absurd h (notOk_str32 h' cs)
    obtain ⟨cs', h1, h2⟩ := writes_str32 hl
    rw [h, ok_inj] at h1
    exact ⟨hl, by rw [h1]; exact h2⟩

example : ∃ w, serialize (Toy.codec id) Toy.ord
    { Toy.block 28 with nimap := [(0, List.replicate 65536 97)] } = .error (.panic w) :=
  C24_too_long _ _ Toy.ord_lawful _ (Or.inl ⟨_, .head _, by
    show 65536 ≤ (List.replicate 65536 97).length
    rw [List.length_replicate]; omega⟩)

/-! ## C25: the quick generated check -/

set_option maxRecDepth 20000 in
/-- For data that loads, the quick check tests the not-generated bit (bit 3) of the flags. -/
theorem C25_generated_check (c : Codec) (hc : c.Lawful) (s : Bytes) (b : MapBlock)
    (h : deserialize c s = .ok b) :
    isValidGenerated c s = true ↔ b.flags.testBit 3 = false := by
  have bit : ∀ f : Nat, f < 256 → ((UInt8.ofNat f &&& 8 == 0) = true ↔ f.testBit 3 = false) := by
    decide
  have hwf := wf_of_deserialize h
  rcases deserialize_iff.1 h with ⟨hv, z, d, hs, hz, hb⟩ | ⟨⟨hv1, hv2⟩, d, hs, hb⟩
  · obtain ⟨names, raw, junk, _, _, _, _, _, _, _, _, _, _, _, hd⟩ := hb
    subst hs
    cases z with
    | nil =>
      rw [hd] at hz
      exact absurd hz (hc.nil _ _)
    | cons f t =>
      have hh := hc.head _ _ _ (by rw [hz, hd])
      have : isValidGenerated c (29 :: f :: t) = (UInt8.ofNat b.flags &&& 8 == 0) := by
        show (match c.zstdHead (f :: t) with
          | some fl => fl &&& 8 == 0
          | none => false) = _
        rw [hh]
      rw [this]
      exact bit _ hwf.flags
  · obtain ⟨names, raw, z, k7, k8, junk, junk', n1, n2, o2, n3, n4, w, n7, n8, n9, n10,
      v4, v8, hd, z7, z8, e9⟩ := hb
    subst hs hd
    have hvn : (UInt8.ofNat b.version).toNat = b.version := by rw [toNat_ofNat8]; omega
    have : ∀ t, isValidGenerated c (UInt8.ofNat b.version :: UInt8.ofNat b.flags :: t)
        = (UInt8.ofNat b.flags &&& 8 == 0) := by
      intro t
      unfold isValidGenerated
      simp only [hvn]
      rw [if_neg (by omega), if_neg (by omega)]
    rw [this]
    exact bit _ hwf.flags

/-- Data with an unsupported version is never reported as valid. -/
theorem C25_unsupported (c : Codec) (v : UInt8) (t : Bytes) (h : v.toNat < 25 ∨ 29 < v.toNat) :
    isValidGenerated c (v :: t) = false := by
  cases t with
  | nil => rfl
  | cons f t =>
    unfold isValidGenerated
    simp only
    rw [if_pos h]

example : isValidGenerated (Toy.codec id) [29, 0, 1] = true := by decide
example : isValidGenerated (Toy.codec id) [28, 8, 1] = false := by decide

end MapEditr
