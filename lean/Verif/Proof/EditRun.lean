import Verif.Proof.Loop
import Verif.Proof.Local
/-! # Lemmas: from a completed run of a block-editing command to its specification -/

namespace MapEditr
open Spec
set_option linter.unusedSimpArgs false
set_option linter.unusedVariables false

theorem openAt_unique {w : World} {i : DbId} {dur cur dur' cur' : Table} {cols cols' : List Col}
    (h : OpenAt w i dur cur cols) (h' : OpenAt w i dur' cur' cols') : cur = cur' ∧ dur = dur' := by
  unfold OpenAt at h h'
  rw [h] at h'
  cases h'
  exact ⟨rfl, rfl⟩

/-- The messages of a completed run of a block-editing command. -/
def allEvents (args : InstArgs) (wn : Option String) (m : Msg) (failed : Nat) : List Event :=
  preEvents args wn ++ cmdEvents m ++ skipEvents failed ++
    [.log .info (.text "Committing..."), .log .info (.text "Done.")]

theorem mem_allEvents {args : InstArgs} {wn : Option String} {m : Msg} {failed : Nat} {what : String}
    {n : Nat} (hw : what ≠ "Skipped {} invalid/unsupported mapblocks.") :
    .log .info (.count what n) ∈ allEvents args wn m failed ↔ m = .count what n := by
  unfold allEvents cmdEvents
  simp only [List.mem_append]
  constructor
  · rintro (((h | h) | h) | h)
    · exact absurd h preEvents_not_info
    · simp only [List.mem_cons, List.not_mem_nil, or_false] at h
      rcases h with h | h | h | h | h <;> cases h
      rfl
    · unfold skipEvents at h
      split at h
      · simp only [List.mem_singleton] at h
        cases h
        exact absurd rfl hw
      · cases h
    · simp only [List.mem_cons, List.not_mem_nil, or_false] at h
      rcases h with h | h <;> cases h
  · rintro rfl
    exact .inl (.inl (.inr (by simp)))

theorem reported_iff {args : InstArgs} {wn : Option String} {failed : Nat} {what : String}
    {n m : Nat} (hw : what ≠ "Skipped {} invalid/unsupported mapblocks.") :
    Reported (allEvents args wn (.count what n) failed) what m ↔ n = m := by
  unfold Reported
  simp only [mem_allEvents hw, Msg.count.injEq, true_and]
  constructor
  · rintro ⟨h, _⟩; exact h
  · rintro rfl; exact ⟨rfl, fun m h => h.symm⟩

/-- A completed run of a block-editing command. -/
theorem doneRun_edits {env : Env} {args : InstArgs} {t t' : Table} {evs : List Event}
    (D : DoneRun env args t t' evs) (hn : (t.map (·.1)).Nodup) {late : Bool} {strs : List Bytes}
    {area : Option Area} {invert : Bool} {edit : Int → MapBlock → Res (Option MapBlock × γ)}
    {add : γ → γ → γ} {g0 : γ} {msg : γ → Msg}
    (h : editCommand env late strs area invert edit add g0 msg D.w1 = (.ok (), D.w2)) :
    ∃ g, Edits env late edit add g0 msg (hits strs area invert t) t t D.f.cols D.w1 t' g D.w2 ∧
      evs = allEvents args D.wn (msg g)
        ((hits strs area invert t).filter (unreadable env.codec)).length := by
  obtain ⟨cur', g, e⟩ := editCommand_edits D.start hn h
  obtain ⟨rfl, -⟩ := openAt_unique e.isOpen D.fin
  refine ⟨g, e, ?_⟩
  refine D.after.trans ?_
  rw [e.events, D.before, e.failed, D.status]
  unfold allEvents
  simp

/-- The row of a block of the map. -/
theorem row_pos {t : Table} (hg : GoodTable t) {r : Int × Bytes} (hr : r ∈ t) :
    ∃ bp, ValidBlockPos bp ∧ keyOf bp = r.1 ∧ Vec3.fromBlockKey r.1 = bp := by
  obtain ⟨h1, h2⟩ := keyOf_fromBlockKey r.1 (hg.valid r hr)
  exact ⟨_, h1, h2, rfl⟩

/-- The block can be written. -/
def Saves (env : Env) (b : MapBlock) : Prop := ∃ m s, serialize env.codec (env.ord m) b = .ok s

/-- From the effect of the loop to the effect in terms of blocks. -/
theorem edits_edited' {env : Env} (hE : EnvOk env) {t t' : Table} (hg : (t.map (·.1)).Nodup) {late : Bool}
    {strs : List Bytes} {area : Option Area} (ha : AreaOk area) {invert : Bool}
    {edit : Int → MapBlock → Res (Option MapBlock × γ)} {add : γ → γ → γ} {g0 g : γ} {msg : γ → Msg}
    {dur : Table} {cols : List Col} {w w' : World}
    (e : Edits env late edit add g0 msg (hits strs area invert t) dur t cols w t' g w')
    {R : Vec3 → MapBlock → MapBlock → Prop}
    (hgood : ∀ bp d b, ValidBlockPos bp → (keyOf bp, d) ∈ t → Represents env.codec d b → Wf b →
      (∃ p, InBlock bp p ∧ Selected area invert p) → ∀ ob n, edit (keyOf bp) b = .ok (ob, n) →
      (∀ b', ob = some b' → Saves env b') →
      (ob = none → R bp b b) ∧ ∀ b', ob = some b' → Wf b' ∧ R bp b (stored b'))
    (hskip : ∀ bp d b, ValidBlockPos bp → (keyOf bp, d) ∈ t → Represents env.codec d b → Wf b →
      ((∀ p, InBlock bp p → ¬ Selected area invert p) ∨ nameKeeps (strs.map string16) d = false) →
      R bp b b) :
    Edited env.codec area invert t t' R := by
  have hkeep : ∀ r ∈ t, r ∉ hits strs area invert t → (r.1, r.2) ∈ t' := by
    intro r hr hnot
    have : r.1 ∉ (hits strs area invert t).map (·.1) := by
      intro hm
      obtain ⟨r', h1, h2⟩ := List.mem_map.1 hm
      have hrt := (mem_hits.1 h1).1
      have e1 := Table.get?_of_mem hg (k := r'.1) (d := r'.2) hrt
      have e2 := Table.get?_of_mem hg (k := r.1) (d := r.2) hr
      rw [h2, e2] at e1
      have : r' = r := Prod.ext h2 (Option.some.inj e1).symm
      exact hnot (this ▸ h1)
    have h1 := e.off _ this
    rw [Table.get?_of_mem hg (k := r.1) (d := r.2) hr] at h1
    exact Table.get?_some_mem h1
  refine ⟨e.nodup, ?_, ?_, ?_, ?_⟩
  · intro k
    have h1 := Table.get?_none (t := t') (k := k)
    have h2 := Table.get?_none (t := t) (k := k)
    by_cases hk : k ∈ (hits strs area invert t).map (·.1)
    · obtain ⟨r, hr, rfl⟩ := List.mem_map.1 hk
      obtain ⟨d', hd', -⟩ := e.on r hr
      constructor
      · intro _; exact List.mem_map.2 ⟨r, (mem_hits.1 hr).1, rfl⟩
      · intro _; exact List.mem_map.2 ⟨_, Table.get?_some_mem hd', rfl⟩
    · rw [e.off k hk] at h1
      rw [h1] at h2
      exact Decidable.not_iff_not.1 h2
  · intro k d hk hbad
    by_cases hh : (k, d) ∈ hits strs area invert t
    · obtain ⟨d', h1, h2⟩ := e.on _ hh
      rcases h2 with ⟨-, rfl⟩ | ⟨b, ob, n, h3, -⟩
      · exact Table.get?_some_mem h1
      · exact absurd (deserialize_iff.1 h3) (hbad b)
    · exact hkeep _ hk hh
  · intro bp d hb hk hout
    refine hkeep _ hk fun hh => ?_
    have h1 := (mem_hits.1 hh).2.1
    rw [areaKeeps_iff ha invert true hb] at h1
    obtain ⟨p, hp, hs⟩ := h1
    exact hout p hp hs
  · intro bp d b hb hk hrep
    have hwf := wf_of_deserialize (deserialize_iff.2 hrep)
    by_cases hh : (keyOf bp, d) ∈ hits strs area invert t
    · obtain ⟨d', h1, h2⟩ := e.on _ hh
      have hsel := (mem_hits.1 hh).2.1
      rw [areaKeeps_iff ha invert true hb] at hsel
      rcases h2 with ⟨⟨er, h3⟩, -⟩ | ⟨b1, ob, n, h3, h4, h5⟩
      · rw [deserialize_iff.2 hrep] at h3; cases h3
      · rw [deserialize_iff.2 hrep] at h3
        cases h3
        obtain ⟨g1, g2⟩ := hgood bp d b hb hk hrep hwf hsel ob n h4 (by
          intro b' hb'
          rcases h5 with ⟨rfl, -⟩ | ⟨b'', m, rfl, h6⟩
          · cases hb'
          · cases hb'
            exact ⟨m, _, h6⟩)
        rcases h5 with ⟨rfl, rfl⟩ | ⟨b', m, rfl, h6⟩
        · exact ⟨_, b, Table.get?_some_mem h1, hrep, g1 rfl⟩
        · obtain ⟨w1, w2⟩ := g2 b' rfl
          obtain ⟨s, h7, h8⟩ := serialize_spec hE.codec hE.full (hE.ord m) w1
          rw [h6] at h7
          cases h7
          exact ⟨d', stored b', Table.get?_some_mem h1, h8, w2⟩
    · refine ⟨d, b, hkeep _ hk hh, hrep, hskip bp d b hb hk hrep hwf ?_⟩
      rw [mem_hits] at hh
      by_cases hs : ∃ p, InBlock bp p ∧ Selected area invert p
      · right
        have : areaKeeps area invert true (keyOf bp) = true := by
          rw [areaKeeps_iff ha invert true hb]
          exact hs
        cases hk2 : nameKeeps (strs.map string16) d with
        | false => rfl
        | true => exact absurd ⟨hk, this, hk2⟩ hh
      · left
        intro p hp hsp
        exact hs ⟨p, hp, hsp⟩

theorem edits_edited {env : Env} (hE : EnvOk env) {t t' : Table} (hg : (t.map (·.1)).Nodup) {late : Bool}
    {strs : List Bytes} {area : Option Area} (ha : AreaOk area) {invert : Bool}
    {edit : Int → MapBlock → Res (Option MapBlock × γ)} {add : γ → γ → γ} {g0 g : γ} {msg : γ → Msg}
    {dur : Table} {cols : List Col} {w w' : World}
    (e : Edits env late edit add g0 msg (hits strs area invert t) dur t cols w t' g w')
    {R : Vec3 → MapBlock → MapBlock → Prop}
    (hgood : ∀ bp d b, ValidBlockPos bp → (keyOf bp, d) ∈ t → Represents env.codec d b → Wf b →
      (∃ p, InBlock bp p ∧ Selected area invert p) → ∀ ob n, edit (keyOf bp) b = .ok (ob, n) →
      (ob = none → R bp b b) ∧ ∀ b', ob = some b' → Wf b' ∧ R bp b (stored b'))
    (hskip : ∀ bp d b, ValidBlockPos bp → (keyOf bp, d) ∈ t → Represents env.codec d b → Wf b →
      ((∀ p, InBlock bp p → ¬ Selected area invert p) ∨ nameKeeps (strs.map string16) d = false) →
      R bp b b) :
    Edited env.codec area invert t t' R :=
  edits_edited' hE hg ha e (fun bp d b h1 h2 h3 h4 h5 ob n h6 _ => hgood bp d b h1 h2 h3 h4 h5 ob n h6) hskip

/-- The count is the sum over all readable blocks. -/
theorem hits_sum {c : Codec} {edit : Int → MapBlock → Res (Option MapBlock × Nat)} {strs : List Bytes}
    {area : Option Area} {invert : Bool} {t : Table} {bs : List (Int × MapBlock)}
    (hr : Readable c t bs) {f : Int → MapBlock → Nat}
    (hin : ∀ r ∈ t, ∀ b, Represents c r.2 b → r ∈ hits strs area invert t →
      outOf c edit r = some (f r.1 b))
    (hout : ∀ r ∈ t, ∀ b, Represents c r.2 b → r ∉ hits strs area invert t → f r.1 b = 0) :
    ((hits strs area invert t).filterMap (outOf c edit)).foldl (· + ·) 0
      = (bs.map fun kb => f kb.1 kb.2).sum := by
  have hfold : ∀ l : List Nat, l.foldl (· + ·) 0 = l.sum := by
    intro l; rw [List.sum_eq_foldl]
  rw [hfold]
  obtain ⟨keep, he⟩ : ∃ keep, hits strs area invert t = t.filter keep := ⟨_, queryHits_eq _ _ _ _ _⟩
  simp only [he, List.mem_filter] at hin hout
  rw [he]
  clear he
  induction hr with
  | nil => rfl
  | @good d b t bs k hrep _ ih =>
    rw [List.map_cons, List.sum_cons,
      ← ih (fun r hr b hb hk => hin r (List.mem_cons_of_mem _ hr) b hb ⟨List.mem_cons_of_mem _ hr, hk.2⟩)
        (fun r hr b hb hk => hout r (List.mem_cons_of_mem _ hr) b hb fun h => hk ⟨hr, h.2⟩)]
    rw [List.filter_cons]
    split
    · next hk =>
      rw [List.filterMap_cons, hin _ List.mem_cons_self b hrep ⟨List.mem_cons_self, hk⟩]
      rw [List.sum_cons]
    · next hk =>
      rw [hout _ List.mem_cons_self b hrep (fun h => hk h.2)]
      simp
  | @bad d t bs k hbad _ ih =>
    rw [← ih (fun r hr b hb hk => hin r (List.mem_cons_of_mem _ hr) b hb ⟨List.mem_cons_of_mem _ hr, hk.2⟩)
        (fun r hr b hb hk => hout r (List.mem_cons_of_mem _ hr) b hb fun h => hk ⟨hr, h.2⟩)]
    rw [List.filter_cons]
    split
    · rw [List.filterMap_cons]
      have : outOf c edit (k, d) = none := by
        unfold outOf
        cases h : deserialize c d with
        | ok b => exact absurd (deserialize_iff.1 h) (hbad b)
        | error e => simp only [h]
      rw [this]
    · rfl

theorem readable_exists (c : Codec) (t : Table) : ∃ bs, Readable c t bs := by
  induction t with
  | nil => exact ⟨[], .nil⟩
  | cons r t ih =>
    obtain ⟨k, d⟩ := r
    obtain ⟨bs, hb⟩ := ih
    cases h : deserialize c d with
    | ok b => exact ⟨(k, b) :: bs, .good (deserialize_iff.1 h) hb⟩
    | error e =>
      refine ⟨bs, .bad ?_ hb⟩
      intro b hb'
      rw [deserialize_iff.2 hb'] at h
      cases h

end MapEditr
