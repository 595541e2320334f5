import Verif.Proof.Change
import Verif.Proof.CleanAny
import Verif.Props.Runs
/-! # A small map used in examples -/

namespace MapEditr
open Spec

theorem completes_args {env : Env} {args : InstArgs} {t t' : Table} {evs : List Event}
    (h : Completes env args t t' evs) (hv : args.command ≠ "vacuum") : ¬ BadArgs args := by
  obtain ⟨D⟩ := completes_done h hv
  exact (verifyArgs_iff args).1 D.args_ok

/-- A saved block. -/
def Toy.data (b : MapBlock) : Bytes :=
  match serialize (Toy.codec id) Toy.ord b with
  | .ok s => s
  | .error _ => []

theorem Toy.data_rep {b : MapBlock} (h : Wf b) : Represents (Toy.codec id) (Toy.data b) (stored b) := by
  obtain ⟨s, h1, h2⟩ := serialize_spec (Toy.lawful id) Toy.fullWrites Toy.ord_lawful h
  unfold Toy.data
  rw [h1]
  exact h2

theorem represents_unique {c : Codec} {d : Bytes} {b b' : MapBlock} (h : Represents c d b)
    (h' : Represents c d b') : b = b' := by
  have h1 := deserialize_iff.2 h
  rw [deserialize_iff.2 h'] at h1
  cases h1
  rfl

/-- The file `map` with the given rows; no statement fails. -/
def editEnv (t : Table) : Env :=
  ⟨.debug, Toy.codec id, fun _ => Toy.ord, fun _ => false, fun _ => false,
    fun p => if p = "map" then some ⟨t, [⟨"pos", "INT", 1⟩, ⟨"data", "BLOB", 0⟩]⟩ else none, none⟩

theorem editEnv_ok (t : Table) : EnvOk (editEnv t) :=
  ⟨Toy.lawful id, Toy.fullWrites, fun _ => Toy.ord_lawful⟩

theorem editEnv_file (t : Table) : mapFile (editEnv t) "map" =
    some ⟨t, [⟨"pos", "INT", 1⟩, ⟨"data", "BLOB", 0⟩]⟩ := rfl

/-- The block `b` at the origin, and an unreadable block beside it. -/
def toyMap (b : MapBlock) : Table := [(0, Toy.data b), (1, [25])]

theorem toyMap_good (b : MapBlock) : GoodTable (toyMap b) := by
  refine ⟨by show [(0 : Int), 1].Nodup; decide, ?_⟩
  intro r hr
  unfold toyMap at hr
  simp only [List.mem_cons, List.not_mem_nil, or_false] at hr
  rcases hr with rfl | rfl
  · exact (by decide : ValidKey 0)
  · exact (by decide : ValidKey 1)

theorem bad25 : ∀ b, ¬ Represents (Toy.codec id) [25] b := by
  intro b h
  have h1 := deserialize_iff.2 h
  have h2 : deserialize (Toy.codec id) [25] = .error (.err .badData) := by decide
  rw [h2] at h1
  cases h1

theorem toyMap_all {b : MapBlock} (h : Wf b) {P : MapBlock → Prop} (hP : P (stored b)) :
    AllBlocks (Toy.codec id) (toyMap b) P := by
  intro k d b' hk hrep
  unfold toyMap at hk
  simp only [List.mem_cons, List.not_mem_nil, or_false, Prod.mk.injEq] at hk
  rcases hk with ⟨rfl, rfl⟩ | ⟨rfl, rfl⟩
  · rw [represents_unique hrep (Toy.data_rep h)]
    exact hP
  · exact absurd hrep (bad25 b')

theorem toyMap_listed {b : MapBlock} (h : Wf b) :
    Listed (Toy.codec id) (toyMap b) [(⟨0, 0, 0⟩, stored b)] := by
  refine ⟨.good (Toy.data_rep h) (.bad bad25 .nil), ?_⟩
  intro e he
  rw [List.mem_singleton] at he
  subst he
  show ValidBlockPos ⟨0, 0, 0⟩
  unfold ValidBlockPos
  decide

theorem toy_named (v : Nat) : Named (stored (Toy.block v)) := by
  intro id hid
  have hid' : id ∈ 1 :: List.replicate 4095 0 := hid
  rcases List.mem_cons.1 hid' with rfl | h
  · exact ⟨ascii "a", rfl⟩
  · rw [List.eq_of_mem_replicate h]
    exact ⟨ascii "air", rfl⟩

theorem toy_small (v : Nat) : ∀ e ∈ (stored (Toy.block v)).nimap, e.1 ≤ 1 := by
  intro e he
  have : e ∈ [(0, ascii "air"), (1, ascii "a")] := he
  simp only [List.mem_cons, List.not_mem_nil, or_false] at this
  rcases this with rfl | rfl
  · exact Nat.zero_le _
  · exact Nat.le_refl _

theorem toy_metaInside (v : Nat) : MetaInside (Toy.block v) := by
  intro e he
  have : e ∈ [(0, _), (1, _)] := he
  simp only [List.mem_cons, List.not_mem_nil, or_false] at this
  rcases this with rfl | rfl <;> decide

theorem metaInside_stored {b : MapBlock} (h : MetaInside b) : MetaInside (stored b) := by
  intro e he
  unfold stored at he
  simp only at he
  split at he
  · exact h e (List.mem_filter.1 he).1
  · obtain ⟨e', h1, rfl⟩ := List.mem_map.1 he
    exact h e' (List.mem_filter.1 h1).1

/-- Two blocks `b`, at `(x, 0, 0)` and the one right of it. -/
def pairMap (x : Int) (b : MapBlock) : Table := [(x, Toy.data b), (x + 1, Toy.data b)]

theorem pairMap_good {x : Int} (h1 : ValidKey x) (h2 : ValidKey (x + 1)) (b : MapBlock) :
    GoodTable (pairMap x b) := by
  refine ⟨?_, ?_⟩
  · show [x, x + 1].Nodup
    simp only [List.nodup_cons, List.mem_singleton, List.not_mem_nil, not_false_eq_true,
      List.nodup_nil, and_true]
    omega
  · intro r hr
    unfold pairMap at hr
    simp only [List.mem_cons, List.not_mem_nil, or_false] at hr
    rcases hr with rfl | rfl
    · exact h1
    · exact h2

theorem pairMap_all {x : Int} {b : MapBlock} (h : Wf b) {P : MapBlock → Prop} (hP : P (stored b)) :
    AllBlocks (Toy.codec id) (pairMap x b) P := by
  intro k d b' hk hrep
  unfold pairMap at hk
  simp only [List.mem_cons, List.not_mem_nil, or_false, Prod.mk.injEq] at hk
  rcases hk with ⟨rfl, rfl⟩ | ⟨rfl, rfl⟩
  all_goals
    rw [represents_unique hrep (Toy.data_rep h)]
    exact hP

theorem toy_tame (v : Nat) : Tame (stored (Toy.block v)) :=
  ⟨named_covered (toy_named v), fun e he => Nat.le_trans (toy_small v e he) (by decide),
    fun e he => Nat.lt_trans (metaInside_stored (toy_metaInside v) e he) (by decide)⟩

theorem _root_.MapEditr.Spec.AllBlocks.mild {c : Codec} {t : Table} (h : AllBlocks c t Tame) (bd : Build) :
    AllBlocks c t (Mild bd) := fun k d b h1 h2 => (h k d b h1 h2).mild bd

end MapEditr
