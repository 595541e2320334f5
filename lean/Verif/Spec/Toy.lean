import Verif.Spec.BlockData
/-!
# Concrete instances used in examples

A toy pair of compressors satisfying the assumed contract, and a sample block.  They show that the
hypotheses of the theorems can be met; no theorem about all inputs depends on them.
-/

namespace MapEditr.Toy

/-- Toy zlib: every byte preceded by 1, then 0. -/
def enc (x : Bytes) : Bytes := x.flatMap (fun b => [1, b]) ++ [0]

def dec : Bytes → Option (Bytes × Nat)
  | 0 :: _ => some ([], 1)
  | 1 :: b :: t => (dec t).map fun r => (b :: r.1, r.2 + 2)
  | _ => none

/-- Toy codec; the encoders accept `acc n` bytes of a buffer of `n`. -/
def codec (acc : Nat → Nat) : Codec where
  zlibEnc := enc
  zlibDec := dec
  zstdEnc := id
  zstdDec := some
  zstdHead := List.head?
  accept := fun _ n => acc n

theorem dec_enc (x rest : Bytes) : dec (enc x ++ rest) = some (x, (enc x).length) := by
  induction x with
  | nil => rfl
  | cons b t ih =>
    have : enc (b :: t) ++ rest = 1 :: b :: (enc t ++ rest) := rfl
    rw [this]
    simp only [dec, ih, Option.map_some]
    have : (enc (b :: t)).length = (enc t).length + 2 := by simp [enc]
    rw [this]

theorem lawful (acc : Nat → Nat) : (codec acc).Lawful where
  zlib := dec_enc
  zstd := fun _ => rfl
  head := by
    intro s b t h
    cases h
    rfl
  nil := by intro b t h; cases h

theorem fullWrites : (codec id).FullWrites := fun _ _ => Nat.le_refl _

/-- Iteration in key order. -/
def ord : VarOrd := fun _ v => v
theorem ord_lawful : ord.Lawful := fun _ _ => List.Perm.refl _

/-- Iteration in reverse key order. -/
def ordRev : VarOrd := fun _ v => v.reverse
theorem ordRev_lawful : ordRev.Lawful := fun _ v => List.reverse_perm v

/-- A sample block: node 0 is `a` and has one private variable, the rest is `air`; node 1 has
metadata holding nothing; one object, one timer. -/
def block (version : Nat) : MapBlock where
  version
  flags := 0
  lighting := if version < 27 then 65535 else 0xF00F
  contentWidth := 2
  paramsWidth := 2
  nd := ⟨1 :: List.replicate 4095 0, List.replicate 4096 15, List.replicate 4096 0⟩
  metas := [(0, ⟨[(ascii "k", (ascii "v", true)), (ascii "l", (ascii "", false))],
                 ascii "List main 1\nEmpty\nEndInventoryList\nEndInventory\n"⟩),
            (1, ⟨[], ascii "EndInventory\n"⟩)]
  objects := [⟨7, ⟨-10, 20, 30⟩, ascii "x"⟩]
  timestamp := 77
  nimap := [(0, ascii "air"), (1, ascii "a")]
  timers := [⟨0, 10, 5⟩]

open Spec in
theorem block_wf (v : Nat) (hv : 25 ≤ v ∧ v ≤ 29) : Wf (block v) where
  ver := hv
  flags := by show 0 < 256; omega
  light := by
    show (if v < 27 then 65535 else 0xF00F) < 65536
    split <;> omega
  light_old := fun h => by
    show (if v < 27 then 65535 else 0xF00F) = 65535
    exact if_pos h
  widths := ⟨rfl, rfl⟩
  nodes := by
    refine ⟨?_, ?_, List.length_replicate, List.length_replicate⟩
    · show (1 :: List.replicate 4095 0).length = 4096
      rw [List.length_cons, List.length_replicate]
    · intro n hn
      rcases List.mem_cons.1 hn with h | h
      · omega
      · rw [List.eq_of_mem_replicate h]; omega
  metas := by
    have hf : ∀ pre : Bytes,
        (∀ i ∈ List.range pre.length, endInv.isPrefixOf ((pre ++ endInv).drop i) = false) →
        Framed (pre ++ endInv) := by
      intro pre h
      refine ⟨pre, rfl, fun i hi hp => ?_⟩
      have := h i (List.mem_range.2 hi)
      rw [List.isPrefixOf_iff_prefix.2 hp] at this
      exact Bool.noConfusion this
    have h1 : MetaWf ⟨[(ascii "k", (ascii "v", true)), (ascii "l", (ascii "", false))],
        ascii "List main 1\nEmpty\nEndInventoryList\nEndInventory\n"⟩ := by
      refine ⟨?_, by show 2 < _; omega, ?_, ?_⟩
      · unfold SMap.Sorted; decide
      · intro e he
        simp only [List.mem_cons, List.not_mem_nil, or_false] at he
        rcases he with rfl | rfl <;> decide
      · exact hf (ascii "List main 1\nEmpty\nEndInventoryList\n") (by decide)
    have h2 : MetaWf ⟨[], ascii "EndInventory\n"⟩ := by
      refine ⟨List.Pairwise.nil, by show 0 < _; omega, ?_, hf [] (by decide)⟩
      intro e he; cases he
    refine ⟨?_, by show 2 < _; omega, ?_, ?_⟩
    · show SMap.Sorted [_, _]
      unfold SMap.Sorted
      refine List.pairwise_pair.2 ?_
      decide
    · intro e he
      rcases List.mem_cons.1 he with rfl | he
      · show 0 < 65536; omega
      · rcases List.mem_cons.1 he with rfl | he
        · show 1 < 65536; omega
        · cases he
    · intro e he
      rcases List.mem_cons.1 he with rfl | he
      · exact h1
      · rcases List.mem_cons.1 he with rfl | he
        · exact h2
        · cases he
  objs := by
    refine ⟨by show 1 < _; omega, fun o ho => ?_⟩
    rcases List.mem_cons.1 ho with rfl | ho
    · unfold ObjFits; decide
    · cases ho
  time := by show 77 < _; omega
  nimap := by
    refine ⟨?_, by show 2 < _; omega, ?_⟩
    · show SMap.Sorted [_, _]
      unfold SMap.Sorted
      refine List.pairwise_pair.2 ?_
      decide
    · intro e he
      rcases List.mem_cons.1 he with rfl | he
      · unfold NameFits; decide
      · rcases List.mem_cons.1 he with rfl | he
        · unfold NameFits; decide
        · cases he
  timers := by
    refine ⟨by show 1 < _; omega, fun t ht => ?_⟩
    rcases List.mem_cons.1 ht with rfl | ht
    · unfold TimerFits; decide
    · cases ht

end MapEditr.Toy
