import Verif.Proof.Memory
import Verif.Props.Block
import Verif.Spec.Toy
/-!
# Memory does not matter to the decoder (C106)

`Model/Memory` renders the decoder with uninitialised buffers, cursor positions that are machine integers,
decompressors that give out their data in pieces, and a record of the memory asked for.
-/

namespace MapEditr

/-- **C106**: loading a block gives what `Model/MapBlock` says, in both builds, whatever is left in the memory that
`vec_with_len` hands out, in whatever pieces the decompressors give out their data, and whatever they give out before
they fail. -/
theorem C106_deserialize (o : Raw.Outside) (hc : o.codec.Sized) (src : Bytes) (hs : src.length < 2 ^ 63) :
    (Raw.deserialize o src).1 = deserialize o.codec src := (Raw.deserialize_same hc hs).1

/-- **C106**: so it does not depend on any of them, and never panics: no position is ever past the end of its slice,
and no sum of positions overflows. -/
theorem C106_outside (o o' : Raw.Outside) (he : o.codec = o'.codec) (hc : o.codec.Sized) (src : Bytes)
    (hs : src.length < 2 ^ 63) :
    (Raw.deserialize o src).1 = (Raw.deserialize o' src).1 ∧
      ((∃ b, (Raw.deserialize o src).1 = .ok b) ∨ ∃ e, (Raw.deserialize o src).1 = .error (.err e)) := by
  rw [C106_deserialize o hc src hs, C106_deserialize o' (he ▸ hc) src hs, he]
  exact ⟨rfl, (C16_load_total _ _).imp (fun ⟨b, h, _⟩ => ⟨b, h⟩) id⟩

/-- **C106**: the memory asked for is in proportion to the data, also when loading fails: lengths found in the data
are not trusted. -/
theorem C106_memory (o : Raw.Outside) (hc : o.codec.Sized) (src : Bytes) (hs : src.length < 2 ^ 63) :
    (Raw.deserialize o src).2.bufs.sum ≤ 24576 + src.length + (Raw.deserialize o src).2.inflated ∧
      (Raw.deserialize o src).2.caps.sum ≤ 4160 + 16 * (src.length + (Raw.deserialize o src).2.inflated) := by
  obtain ⟨-, -, h1, h2⟩ := Raw.deserialize_same hc hs
  simp only [List.sum_nil] at h1 h2
  exact ⟨by omega, by omega⟩

/-- **C106**: the same for the data of an entity. -/
theorem C106_entity (o : Raw.Outside) (x : StaticObject) (hs : x.data.length < 2 ^ 63) (h : Raw.Heap) :
    (Raw.luaEntity o x () h).1 = LuaEntity.deserialize x := Raw.luaEntity_same o x hs () h

/-- **C106**: and for the buffer in which the contents of the nodes are put when a block is saved. -/
theorem C106_nodes (o : Raw.Outside) (nd : NodeData) (h : Raw.Heap) :
    (Raw.serializeNodes o nd () h).1 = nd.serialize.map flat := Raw.serializeNodes_same o nd () h

/-! ## Cases -/

/-- The toy decompressors are as assumed. -/
theorem Toy.sized : (Toy.codec id).Sized where
  consumed := fun s => by
    show ∀ d n, Toy.dec s = some (d, n) → n ≤ s.length
    fun_induction Toy.dec s with
    | case1 t => rintro d n ⟨⟩; simp only [List.length_cons]; omega
    | case2 b t ih =>
      intro d n h
      cases e : Toy.dec t with
      | none => rw [e] at h; cases h
      | some r =>
        rw [e] at h
        cases h
        have := ih r.1 r.2 e
        simp only [List.length_cons]
        omega
    | case3 => rintro d n ⟨⟩
  zlib := fun s => by
    show ∀ d n, s.length < 2 ^ 63 → Toy.dec s = some (d, n) → d.length < 2 ^ 63
    suffices h : ∀ d n, Toy.dec s = some (d, n) → d.length ≤ s.length from
      fun d n h1 h2 => Nat.lt_of_le_of_lt (h d n h2) h1
    fun_induction Toy.dec s with
    | case1 t => rintro d n ⟨⟩; exact Nat.zero_le _
    | case2 b t ih =>
      intro d n h
      cases e : Toy.dec t with
      | none => rw [e] at h; cases h
      | some r =>
        rw [e] at h
        cases h
        have := ih r.1 r.2 e
        simp only [List.length_cons]
        omega
    | case3 => rintro d n ⟨⟩
  zstd := by rintro s d h ⟨⟩; exact h

/-- Memory full of 170s, and decompressors that give out three bytes at a time. -/
def Toy.outside (b : Build) : Raw.Outside where
  build := b
  codec := Toy.codec id
  junk := fun _ _ => 170
  cut := fun _ => 3
  room := fun k => 32 + k
  early := fun _ => [1, 2, 3]

/-- A block that promises 65535 names and gives one: nothing is asked for but the one byte of its name, and it fails
as it should. -/
example (b : Build) : Raw.deserialize (Toy.outside b) [29, 0, 0, 0, 0, 0, 0, 7, 0, 255, 255, 0, 5, 0, 1, 97] =
    (.error (.err .badData), { bufs := [1], caps := [], inflated := 15, reads := 0 }) := by cases b <;> rfl

example (b : Build) : deserialize (Toy.codec id) [29, 0, 0, 0, 0, 0, 0, 7, 0, 255, 255, 0, 5, 0, 1, 97] =
    .error (.err .badData) :=
  (C106_deserialize (Toy.outside b) Toy.sized _ (by decide)).symm.trans (by cases b <;> rfl)

/-- An entity is read through two buffers. -/
example : Raw.luaEntity (Toy.outside .release) ⟨7, ⟨0, 0, 0⟩, [1, 0, 2, 97, 98, 0, 0, 0, 1, 99]⟩ () {} =
    (.ok ⟨[97, 98], [99]⟩, (), { bufs := [2, 1], caps := [], inflated := 0, reads := 0 }) := rfl

/-- Were a position past the end of its slice, `try_read_n` would not be safe: it panics in one build, and in the
other asks for all the memory it is told to. -/
example : (Raw.tryReadN (Toy.outside .debug) 2 ⟨[0], 2⟩ {}).1 = .error (.panic "u64 overflow") ∧
    (Raw.tryReadN (Toy.outside .release) 2 ⟨[0], 2⟩ {}).2.2.bufs = [2] := ⟨rfl, rfl⟩

end MapEditr
