import Verif.Proof.Change
/-! # Lemmas: the same command run twice -/

namespace MapEditr
open Spec

theorem goodTable_of_edited {c : Codec} {area : Option Area} {invert : Bool} {t t' : Table}
    {R : Vec3 → MapBlock → MapBlock → Prop} (hg : GoodTable t) (h : Edited c area invert t t' R) : GoodTable t' := by
  refine ⟨h.nodup, fun r hr => ?_⟩
  obtain ⟨r', h1, h2⟩ := List.mem_map.1 ((h.keys r.1).1 (List.mem_map.2 ⟨r, hr, rfl⟩))
  rw [← h2]
  exact hg.valid r' h1

/-- Where a block of the edited map comes from. -/
theorem edited_back {c : Codec} {area : Option Area} {invert : Bool} {t t' : Table}
    {R : Vec3 → MapBlock → MapBlock → Prop} (h : Edited c area invert t t' R) {bp : Vec3}
    (hbp : ValidBlockPos bp) {d' : Bytes} {b' : MapBlock} (hd : (keyOf bp, d') ∈ t') (hr : Represents c d' b') :
    ∃ d b, (keyOf bp, d) ∈ t ∧ Represents c d b ∧ R bp b b' := by
  obtain ⟨⟨k, d⟩, h1, h2⟩ := List.mem_map.1 ((h.keys (keyOf bp)).1 (List.mem_map.2 ⟨_, hd, rfl⟩))
  simp only at h2
  subst h2
  have huniq : ∀ d'', (keyOf bp, d'') ∈ t' → d'' = d' := by
    intro d'' hd''
    have e1 := Table.get?_of_mem h.nodup hd
    rw [Table.get?_of_mem h.nodup hd''] at e1
    exact Option.some.inj e1
  by_cases hb : ∃ b, Represents c d b
  · obtain ⟨b, hb⟩ := hb
    obtain ⟨d'', b'', f1, f2, f3⟩ := h.good bp d b hbp h1 hb
    have := huniq d'' f1
    subst this
    have h3 := deserialize_iff.2 f2
    rw [deserialize_iff.2 hr] at h3
    cases h3
    exact ⟨d, b, h1, hb, f3⟩
  · have := huniq d (h.bad _ _ h1 fun b hb' => hb ⟨b, hb'⟩)
    subst this
    exact absurd ⟨b', hr⟩ hb

theorem edited_all {c : Codec} {area : Option Area} {invert : Bool} {t t' : Table}
    {R : Vec3 → MapBlock → MapBlock → Prop} (hg : GoodTable t) (h : Edited c area invert t t' R) {P Q : MapBlock → Prop}
    (hP : AllBlocks c t P) (hR : ∀ bp b b', P b → R bp b b' → Q b') : AllBlocks c t' Q := by
  intro k d' b' hk hr
  obtain ⟨bp, h1, h2, -⟩ := row_pos (goodTable_of_edited hg h) hk
  simp only at h2
  subst h2
  obtain ⟨d, b, f1, f2, f3⟩ := edited_back h h1 hk hr
  exact hR bp b b' (hP _ _ _ f1 f2) f3

/-- The second edit, knowing the first. -/
theorem edited_second {c : Codec} {area : Option Area} {invert : Bool} {t t' t'' : Table}
    {R S T : Vec3 → MapBlock → MapBlock → Prop} (h : Edited c area invert t t' R)
    (h' : Edited c area invert t' t'' S) (hT : ∀ bp b b' b'', R bp b b' → S bp b' b'' → T bp b' b'') :
    Edited c area invert t' t'' T := by
  refine ⟨h'.nodup, h'.keys, h'.bad, h'.outside, fun bp d' b' k1 k2 k3 => ?_⟩
  obtain ⟨d, b, f1, f2, f3⟩ := edited_back h k1 k2 k3
  obtain ⟨d'', b'', g1, g2, g3⟩ := h'.good bp d' b' k1 k2 k3
  exact ⟨d'', b'', g1, g2, hT _ _ _ _ f3 g3⟩

/-- If a changed block needs no further change, nor does one that was left as it was, the second run
changes no byte. -/
theorem edits_twice' {env env2 : Env} (hE : EnvOk env) (hc : env2.codec = env.codec) {t t' t'' : Table}
    {late : Bool} {strs : List Bytes} {area : Option Area} {invert : Bool}
    {edit edit' : Int → MapBlock → Res (Option MapBlock × γ)} {add : γ → γ → γ} {g0 g g' : γ} {msg : γ → Msg}
    {dur dur2 : Table} {cols cols2 : List Col} {w w' w2 w2' : World}
    (e : Edits env late edit add g0 msg (hits strs area invert t) dur t cols w t' g w')
    (e' : Edits env2 late edit' add g0 msg (hits strs area invert t') dur2 t' cols2 w2 t'' g' w2')
    (hstep : ∀ r ∈ hits strs area invert t, ∀ b b1 n, Represents env.codec r.2 b → edit r.1 b = .ok (some b1, n) →
      Wf b1 ∧ ∀ ob n', edit' r.1 (stored b1) = .ok (ob, n') → ob = none)
    (hnone : ∀ r ∈ hits strs area invert t, ∀ b n, Represents env.codec r.2 b → edit r.1 b = .ok (none, n) →
      ∀ ob n', edit' r.1 b = .ok (ob, n') → ob = none) (k : Int) :
    t''.get? k = t'.get? k := by
  by_cases hk : k ∈ (hits strs area invert t').map (·.1)
  · obtain ⟨r, hr, rfl⟩ := List.mem_map.1 hk
    obtain ⟨hrt, hra, hrn⟩ := mem_hits.1 hr
    have hget := Table.get?_of_mem e.nodup (k := r.1) (d := r.2) hrt
    obtain ⟨d'', h1, h2⟩ := e'.on r hr
    rw [h1, hget]
    rcases h2 with ⟨-, rfl⟩ | ⟨b', ob, n, h3, h4, h5⟩
    · rfl
    · rw [hc] at h3
      have hnone : ob = none := by
        by_cases hk0 : r.1 ∈ (hits strs area invert t).map (·.1)
        · obtain ⟨r0, hr0, hk0⟩ := List.mem_map.1 hk0
          obtain ⟨d', f1, f2⟩ := e.on r0 hr0
          rw [hk0, hget] at f1
          have f1 := (Option.some.inj f1).symm
          subst f1
          rcases f2 with ⟨⟨er, f3⟩, f4⟩ | ⟨b, ob0, n0, f3, f4, f5⟩
          · rw [f4, f3] at h3
            cases h3
          · rcases f5 with ⟨rfl, f5⟩ | ⟨b1, m, rfl, f5⟩
            · rw [f5, f3] at h3
              cases h3
              rw [← hk0] at h4
              exact hnone r0 hr0 _ _ (deserialize_iff.1 f3) f4 _ _ h4
            · obtain ⟨k1, k2⟩ := hstep r0 hr0 b b1 n0 (deserialize_iff.1 f3) f4
              obtain ⟨s, s1, s2⟩ := serialize_spec hE.codec hE.full (hE.ord m) k1
              rw [f5] at s1
              cases s1
              have s3 := deserialize_iff.2 s2
              rw [h3] at s3
              cases s3
              rw [← hk0] at h4
              exact k2 _ _ h4
        · have h6 := e.off _ hk0
          rw [hget] at h6
          exact absurd (List.mem_map.2 ⟨r, mem_hits.2 ⟨Table.get?_some_mem h6.symm, hra, hrn⟩, rfl⟩) hk0
      subst hnone
      rcases h5 with ⟨-, rfl⟩ | ⟨b2, m, h6, -⟩
      · rfl
      · cases h6
  · exact e'.off k hk

/-- The same for one `edit`. -/
theorem edits_twice {env env2 : Env} (hE : EnvOk env) (hc : env2.codec = env.codec) {t t' t'' : Table}
    {late : Bool} {strs : List Bytes} {area : Option Area} {invert : Bool}
    {edit : Int → MapBlock → Res (Option MapBlock × γ)} {add : γ → γ → γ} {g0 g g' : γ} {msg : γ → Msg}
    {dur dur2 : Table} {cols cols2 : List Col} {w w' w2 w2' : World}
    (e : Edits env late edit add g0 msg (hits strs area invert t) dur t cols w t' g w')
    (e' : Edits env2 late edit add g0 msg (hits strs area invert t') dur2 t' cols2 w2 t'' g' w2')
    (hstep : ∀ r ∈ hits strs area invert t, ∀ b b1 n, Represents env.codec r.2 b → edit r.1 b = .ok (some b1, n) →
      Wf b1 ∧ ∀ ob n', edit r.1 (stored b1) = .ok (ob, n') → ob = none) (k : Int) :
    t''.get? k = t'.get? k :=
  edits_twice' hE hc e e' hstep (fun _ _ _ _ _ h ob _ h' => by
    rw [h] at h'
    cases h'
    rfl) k

end MapEditr
