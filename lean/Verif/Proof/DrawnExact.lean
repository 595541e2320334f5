import Verif.Proof.JoinExact
import Verif.Proof.Exec
/-! # Lemmas: when a block can take the nodes it should, exactly -/

namespace MapEditr
open Spec
set_option linter.unusedSimpArgs false
set_option linter.unusedVariables false

/-- Node `j` of the block at `q` belongs to node `i` of the block at `dp`. -/
def MovedAt (Sel : Vec3 → Prop) (o dp q : Vec3) (i j : Nat) : Prop :=
  i < 4096 ∧ j < 4096 ∧ Sel (posAt dp i) ∧ shift (posAt q j) o = posAt dp i

theorem unshift_shift (p o : Vec3) : unshift (shift p o) o = p := by
  obtain ⟨x, y, z⟩ := p
  unfold unshift shift
  simp only [Vec3.mk.injEq]
  omega

theorem shift_unshift (p o : Vec3) : shift (unshift p o) o = p := by
  obtain ⟨x, y, z⟩ := p
  unfold unshift shift
  simp only [Vec3.mk.injEq]
  omega

theorem idxOf_posAt (q : Vec3) {j : Nat} (hj : j < 4096) : idxOf (posAt q j) = j := by
  unfold idxOf posAt
  simp only
  omega

theorem frag_moved {sp : Area} {o dp q : Vec3} (hsp : sp.isValid = true)
    (hin : ∀ p, InBox sp.min sp.max p → InBlock dp (shift p o))
    (hq : sp.toTouchingBlockArea.contains q = true) {Sel : Vec3 → Prop}
    (hsel : ∀ p, InBlock dp p → (Sel p ↔ InBox sp.min sp.max (unshift p o))) :
    ∃ sa da, LocalArea sa ∧ LocalArea da ∧ SameSize sa da ∧
      (∀ bd src b, mergeFrag bd sp o dp q src b = mergeBoth bd src b sa da) ∧
      ∀ i j, MovedBy sa da i j ↔ MovedAt Sel o dp q i j := by
  obtain ⟨sa, da, h1, h2, h3, h4, h5⟩ := mergeFrag_spec hsp hin hq
  refine ⟨sa, da, h1, h2, h3, h4, fun i j => ?_⟩
  unfold MovedBy MovedAt
  constructor
  · rintro ⟨hi, hc, rfl⟩
    have hbox := contains_inBox.1 hc
    obtain ⟨g1, g2⟩ := h5 i hi
    obtain ⟨g3, g4⟩ := g1.1 hbox
    have e := (back_idx h1 h2 h3 hbox).2.1
    rw [idxOf_fromU16Key hi, g2 hbox] at e
    have e' : ((i : Int) - dif sa da).toNat = idxOf (srcAt dp o i) := by omega
    rw [e']
    obtain ⟨k1, k2⟩ := posAt_idxOf (srcAt dp o i)
    refine ⟨hi, k1, (hsel _ (posAt_inBlock dp hi)).2 g3, ?_⟩
    rw [g4] at k2
    rw [k2]
    exact shift_unshift _ _
  · rintro ⟨hi, hj, hs, he⟩
    obtain ⟨g1, g2⟩ := h5 i hi
    have e : srcAt dp o i = posAt q j := by
      unfold srcAt
      rw [← he, unshift_shift]
    have hbox := g1.2 ⟨(hsel _ (posAt_inBlock dp hi)).1 hs, by rw [e]; exact blockOf_posAt q hj⟩
    refine ⟨hi, contains_inBox.2 hbox, ?_⟩
    have e' := (back_idx h1 h2 h3 hbox).2.1
    rw [idxOf_fromU16Key hi, g2 hbox, e, idxOf_posAt q hj] at e'
    omega

section
variable {bd : Build} {sp : Area} {o dp : Vec3} {Sel : Vec3 → Prop} {find : Vec3 → Option MapBlock}
  {Src : Vec3 → MapBlock → Prop}

theorem fold_drawn (hsp : sp.isValid = true) (hin : ∀ p, InBox sp.min sp.max p → InBlock dp (shift p o))
    (hsel : ∀ p, InBlock dp p → (Sel p ↔ InBox sp.min sp.max (unshift p o)))
    (hw : ∀ q sb, find q = some sb → Wf sb) (hsrc : ∀ q sb, Src q sb ↔ find q = some sb) {qs : List Vec3}
    (hq : ∀ q ∈ qs, sp.toTouchingBlockArea.contains q = true) {b b1 : MapBlock} (hb : Half b)
    (h : srcFold bd sp o dp find b qs = .ok b1) :
    Half b1 ∧ Drawn bd Src (MovedAt Sel o dp) qs (draftOf b) (draftOf b1) := by
  induction qs generalizing b with
  | nil =>
    cases h
    exact ⟨hb, .nil _⟩
  | cons q qs ih =>
    unfold srcFold at h
    rw [List.foldlM_cons] at h
    obtain ⟨b2, h1, h2⟩ := bind_ok_iff.1 h
    have hq' := fun r hr => hq r (List.mem_cons_of_mem q hr)
    cases hs : find q with
    | none =>
      rw [hs] at h1
      cases h1
      obtain ⟨g1, g2⟩ := ih hq' hb h2
      refine ⟨g1, .skip (fun sb hsb => ?_) g2⟩
      rw [hsrc, hs] at hsb
      cases hsb
    | some sb =>
      rw [hs] at h1
      simp only at h1
      obtain ⟨sa, da, k1, k2, k3, k4, k5⟩ := frag_moved hsp hin (hq q List.mem_cons_self) hsel
      rw [k4] at h1
      obtain ⟨j1, j2⟩ := mergeBoth_joins k1 k2 k3 (hw q sb hs) hb h1
      obtain ⟨g1, g2⟩ := ih hq' j1 h2
      exact ⟨g1, .join ((hsrc q sb).2 hs) (j2.congr k5) g2⟩

theorem drawn_fold (hsp : sp.isValid = true) (hin : ∀ p, InBox sp.min sp.max p → InBlock dp (shift p o))
    (hsel : ∀ p, InBlock dp p → (Sel p ↔ InBox sp.min sp.max (unshift p o)))
    (hw : ∀ q sb, find q = some sb → Wf sb) (hsrc : ∀ q sb, Src q sb ↔ find q = some sb) {qs : List Vec3}
    (hq : ∀ q ∈ qs, sp.toTouchingBlockArea.contains q = true) {b : MapBlock} (hb : Half b) {D D' : Draft}
    (hD : draftOf b = D) (h : Drawn bd Src (MovedAt Sel o dp) qs D D') :
    ∃ b1, srcFold bd sp o dp find b qs = .ok b1 ∧ Half b1 ∧ draftOf b1 = D' := by
  induction h generalizing b with
  | nil => exact ⟨b, rfl, hb, hD⟩
  | @skip q qs D D' hno hd ih =>
    obtain ⟨b1, h1, h2, h3⟩ := ih (fun r hr => hq r (List.mem_cons_of_mem q hr)) hb hD
    refine ⟨b1, ?_, h2, h3⟩
    have hs : find q = none := by
      cases hs : find q with
      | none => rfl
      | some sb => exact absurd ((hsrc q sb).2 hs) (hno sb)
    unfold srcFold at h1 ⊢
    rw [List.foldlM_cons, hs]
    exact h1
  | @join q qs sb D D1 D' hs hj hd ih =>
    have hs := (hsrc q sb).1 hs
    subst hD
    obtain ⟨sa, da, k1, k2, k3, k4, k5⟩ := frag_moved hsp hin (hq q List.mem_cons_self) hsel
    obtain ⟨b2, j1, j2, j3⟩ := joins_mergeBoth k1 k2 k3 (hw q sb hs) hb (hj.congr fun i j => (k5 i j).symm)
    obtain ⟨b1, h1, h2, h3⟩ := ih (fun r hr => hq r (List.mem_cons_of_mem q hr)) j2 j3
    refine ⟨b1, ?_, h2, h3⟩
    unfold srcFold at h1 ⊢
    rw [List.foldlM_cons, hs]
    simp only
    rw [k4, j1]
    exact h1

end

/-! ## The order of source blocks -/

theorem zyxLt_trans {a b c : Vec3} (h : ZyxLt a b) (h' : ZyxLt b c) : ZyxLt a c := by
  unfold ZyxLt at *
  omega

/-- A list in strict order is determined by its members. -/
theorem zyx_unique {l l' : List Vec3} (h : l.Pairwise ZyxLt) (h' : l'.Pairwise ZyxLt)
    (hm : ∀ q, q ∈ l ↔ q ∈ l') : l = l' := by
  induction l generalizing l' with
  | nil =>
    cases l' with
    | nil => rfl
    | cons x t => exact absurd ((hm x).2 List.mem_cons_self) (by simp)
  | cons a l ih =>
    cases l' with
    | nil => exact absurd ((hm a).1 List.mem_cons_self) (by simp)
    | cons b l' =>
      rw [List.pairwise_cons] at h h'
      have hab : a = b := by
        rcases List.mem_cons.1 ((hm a).1 List.mem_cons_self) with e | e
        · exact e
        · rcases List.mem_cons.1 ((hm b).2 List.mem_cons_self) with e' | e'
          · exact e'.symm
          · exact absurd (zyxLt_trans (h.1 b e') (h'.1 a e)) (zyxLt_irrefl _)
      subst hab
      rw [ih h.2 h'.2]
      intro q
      constructor
      · intro hq
        rcases List.mem_cons.1 ((hm q).1 (List.mem_cons_of_mem _ hq)) with e | e
        · subst e; exact absurd (h.1 _ hq) (zyxLt_irrefl _)
        · exact e
      · intro hq
        rcases List.mem_cons.1 ((hm q).2 (List.mem_cons_of_mem _ hq)) with e | e
        · subst e; exact absurd (h'.1 _ hq) (zyxLt_irrefl _)
        · exact e

theorem sources_zyx {sp : Area} {o dp : Vec3} {Sel : Vec3 → Prop} (hsp : sp.isValid = true)
    (hin : ∀ p, InBox sp.min sp.max p → InBlock dp (shift p o))
    (hsel : ∀ p, InBlock dp p → (Sel p ↔ InBox sp.min sp.max (unshift p o))) :
    sp.toTouchingBlockArea.positions.Pairwise ZyxLt ∧
      (∀ q ∈ sp.toTouchingBlockArea.positions, sp.toTouchingBlockArea.contains q = true) ∧
      ∀ q, q ∈ sp.toTouchingBlockArea.positions ↔ ∃ p, InBlock dp p ∧ Sel p ∧ InBlock q (unshift p o) := by
  have hv := (touching_le hsp hin).1
  have hm := (C04_each_once _ hv).2
  refine ⟨by rw [positions_eq _ hv]; exact pairwise_zyx _, fun q h => (hm q).1 h, fun q => ?_⟩
  rw [hm, C06_touching_area _ hsp]
  constructor
  · rintro ⟨p, h1, h2⟩
    have h3 := hin p h2
    refine ⟨shift p o, h3, (hsel _ h3).2 ?_, ?_⟩
    · rw [unshift_shift]; exact h2
    · rw [unshift_shift]; exact h1
  · rintro ⟨p, h1, h2, h3⟩
    exact ⟨_, h3, (hsel p h1).1 h2⟩

/-- Taking the nodes and tidying works. -/
def Goes (bd : Build) (sp : Area) (o dp : Vec3) (find : Vec3 → Option MapBlock) (b : MapBlock) : Prop :=
  ∃ b1 b2, srcFold bd sp o dp find b sp.toTouchingBlockArea.positions = .ok b1 ∧ cleanNimap bd b1 = .ok b2 ∧ Short b2

theorem findIn_shows {c : Codec} (hc : c.Lawful) {t : Table} (hn : (t.map (·.1)).Nodup) {q : Vec3} {b : MapBlock} :
    (Within 1937 q ∧ Shows c t (posAt q 0) b) ↔ findIn c t q = some b := by
  have e := blockOf_posAt q (i := 0) (by decide)
  have := findIn_iff hc hn (q := posAt q 0) (b := b)
  rw [e] at this
  exact this.symm

theorem findIn_wf {c : Codec} (hc : c.Lawful) {t : Table} {q : Vec3} {b : MapBlock} (h : findIn c t q = some b) :
    Wf b := (findIn_fine hc (t := t) (P := fun _ => True) (fun _ _ _ _ _ => trivial) q b h).1

theorem copyStuck_iff {bd : Build} {c : Codec} (hc : c.Lawful) {src : Table} (hn : (src.map (·.1)).Nodup)
    {sp : Area} {o dp : Vec3} {Sel : Vec3 → Prop} (hsp : sp.isValid = true)
    (hin : ∀ p, InBox sp.min sp.max p → InBlock dp (shift p o))
    (hsel : ∀ p, InBlock dp p → (Sel p ↔ InBox sp.min sp.max (unshift p o))) {b : MapBlock} (wb : Wf b)
    (hg : Generated b) : CopyStuck bd c src o Sel dp b ↔ ¬ Goes bd sp o dp (findIn c src) b := by
  obtain ⟨o1, o2, o3⟩ := sources_zyx hsp hin hsel
  have hw : ∀ q sb, findIn c src q = some sb → Wf sb := fun q sb h => findIn_wf hc h
  have hsrc : ∀ q sb, (Within 1937 q ∧ Shows c src (posAt q 0) sb) ↔ findIn c src q = some sb :=
    fun q sb => findIn_shows hc hn
  constructor
  · rintro ⟨-, -, h⟩ ⟨b1, b2, h1, h2, -⟩
    obtain ⟨g1, g2⟩ := fold_drawn hsp hin hsel hw hsrc o2 wb.half h1
    exact h _ _ o1 o3 g2 (clean_tidies g1 h2).1
  · intro h
    refine ⟨hg, ?_, fun qs D q1 q2 hd ht => h ?_⟩
    · rw [isValid_iff] at hsp
      have h1 : InBox sp.min sp.max sp.min := by unfold InBox; omega
      exact ⟨_, hin _ h1, (hsel _ (hin _ h1)).2 (by rw [unshift_shift]; exact h1)⟩
    · have e : qs = sp.toTouchingBlockArea.positions := zyx_unique q1 o1 fun q => (q2 q).trans (o3 q).symm
      subst e
      obtain ⟨b1, h1, h2, h3⟩ := drawn_fold hsp hin hsel hw hsrc o2 wb.half rfl hd
      subst h3
      obtain ⟨b2, h4⟩ := tidies_clean (bd := bd) h2 ht
      exact ⟨b1, b2, h1, h4, (clean_tidies h2 h4).2⟩

end MapEditr
