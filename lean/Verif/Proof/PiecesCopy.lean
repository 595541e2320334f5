import Verif.Proof.Pieces
import Verif.Props.CrashElse
/-! # Lemmas: what becomes of a row when copying depends on that row and on the rows copied from -/

namespace MapEditr
open Spec

theorem sameRow_of_eq {c : Codec} {o o' : Option Bytes} (h : o' = o) : SameRow c o o' := by
  subst h
  cases o' with
  | none => exact .inl ⟨rfl, rfl⟩
  | some d => exact .inr ⟨d, d, rfl, rfl, .inl rfl⟩

theorem made_same {env env' : Env} (ha : SameSetup env env') (hE : ∀ n, (env.ord n).Lawful)
    (hE' : ∀ n, (env'.ord n).Lawful) {b : MapBlock} {d d' : Bytes} (h : Made env b d) (h' : Made env' b d') :
    SameUpToOrder env.codec d d' ∧ ((∀ n m, env'.ord n = env.ord m) → d' = d) := by
  obtain ⟨b2, n, h1, h2⟩ := h
  obtain ⟨b2', n', g1, g2⟩ := h'
  rw [ha.2, h1] at g1
  cases g1
  rw [ha.1] at g2
  refine ⟨.inr ⟨_, _, _, hE n, hE' n', h2, g2⟩, fun ho => ?_⟩
  rw [ho n' n, h2] at g2
  cases g2
  rfl

theorem srcFold_congr {bd : Build} {sp : Area} {o dp : Vec3} {find find' : Vec3 → Option MapBlock} {b : MapBlock}
    {ps : List Vec3} (h : ∀ q ∈ ps, find' q = find q) : srcFold bd sp o dp find' b ps = srcFold bd sp o dp find b ps := by
  unfold srcFold
  induction ps generalizing b with
  | nil => rfl
  | cons q ps ih =>
    rw [List.foldlM_cons, List.foldlM_cons, h q List.mem_cons_self]
    congr 1
    funext b1
    exact ih fun q hq => h q (List.mem_cons_of_mem _ hq)

theorem rawRow_same {env env' : Env} (ha : SameSetup env env') (hE : ∀ n, (env.ord n).Lawful)
    (hE' : ∀ n, (env'.ord n).Lawful) {src src' t s : Table} {part : Int → Area} {o : Vec3} {k : Int}
    {r r' : Option Bytes} (hk : s.get? k = t.get? k)
    (hs : ∀ q ∈ ((part k).sub o).toTouchingBlockArea.positions, findIn env.codec src' q = findIn env.codec src q)
    (h : RawRow False env src t part o k r) (h' : RawRow False env' src' s part o k r') :
    SameRow env.codec r r' ∧ ((∀ n m, env'.ord n = env.ord m) → r' = r) := by
  have ho : orig env'.codec s k = orig env.codec t k := by rw [ha.1, orig_congr hk]
  rcases h with ⟨e, h⟩ | ⟨b, find, b1, d, h1, h2, h3, h4, rfl⟩
  · rcases h' with ⟨e', -⟩ | ⟨b', find', b1', d', g1, -⟩
    · have : r' = r := by rw [e, e', hk]
      exact ⟨sameRow_of_eq this, fun _ => this⟩
    · rw [ho] at g1
      exact absurd g1 (h.resolve_left id _)
  · rcases h' with ⟨e', h'⟩ | ⟨b', find', b1', d', g1, g2, g3, g4, rfl⟩
    · rw [ho] at h'
      exact absurd h1 (h'.resolve_left id _)
    · rw [ho, h1] at g1
      cases g1
      have e1 := h2.all.resolve_left id
      have e2 := g2.all.resolve_left id
      subst e1 e2
      rw [ha.1, ha.2, srcFold_congr hs, h3] at g3
      cases g3
      obtain ⟨q1, q2⟩ := made_same ha hE hE' h4 g4
      exact ⟨.inr ⟨d, d', rfl, rfl, q1⟩, fun ho => by rw [q2 ho]⟩

theorem mem_dests_key {area : Option Area} {invert : Bool} {t : Table} {k : Int} :
    k ∈ dests area invert t ↔ t.get? k ≠ none ∧ areaKeeps area invert true k = true := by
  unfold dests
  rw [List.mem_map]
  constructor
  · rintro ⟨r, h, rfl⟩
    obtain ⟨h1, h2, -⟩ := mem_hits.1 h
    exact ⟨fun h => Table.get?_none.1 h (List.mem_map.2 ⟨r, h1, rfl⟩), h2⟩
  · rintro ⟨h1, h2⟩
    obtain ⟨d, hd⟩ := Option.ne_none_iff_exists'.1 h1
    exact ⟨(k, d), mem_hits.2 ⟨Table.get?_some_mem hd, h2, nameKeeps_nil d⟩, rfl⟩

theorem findIn_congr {c : Codec} {src src' : Table} {q : Vec3}
    (h : ValidBlockPos q → src'.get? (keyOf q) = src.get? (keyOf q)) : findIn c src' q = findIn c src q := by
  unfold findIn
  split
  · next hw => rw [orig_congr (h (within_valid hw))]
  · rfl

/-- The rows after copying with an offset. -/
theorem offset_rows {env env' : Env} (ha : SameSetup env env') (hE : ∀ n, (env.ord n).Lawful)
    (hE' : ∀ n, (env'.ord n).Lawful) {area : Option Area} (hA : AreaOk area) {o : Vec3}
    {t t' s s' src src' : Table} (hg : GoodTable t) (hg' : GoodTable s) {ks ks' : List Int} {w w1 w' w1' : World}
    {bad bad' : Int → Bool}
    (hks : ks.Perm (dests area false t)) (hks' : ks'.Perm (dests area false s))
    (h : RowsDone False (RawRow False env src t (partOf area) o) bad ks t w t' w1)
    (h' : RowsDone False (RawRow False env' src' s (partOf area) o) bad' ks' s w' s' w1')
    {bp : Vec3} (hbp : ValidBlockPos bp) (hk : s.get? (keyOf bp) = t.get? (keyOf bp))
    (hs : ∀ q, ValidBlockPos q → ComesFrom o bp q → src'.get? (keyOf q) = src.get? (keyOf q)) :
    SameRow env.codec (t'.get? (keyOf bp)) (s'.get? (keyOf bp)) ∧
      ((∀ n m, env'.ord n = env.ord m) → s'.get? (keyOf bp) = t'.get? (keyOf bp)) := by
  by_cases hd : keyOf bp ∈ dests area false t
  · have hd' : keyOf bp ∈ dests area false s := by
      rw [mem_dests_key, hk, ← mem_dests_key]
      exact hd
    have P := partOf_ok hA hg o hd
    obtain ⟨-, -, hq⟩ := sources_zyx P.valid P.inside (fun p hp => (P.iff p hp).symm)
    refine rawRow_same ha hE hE' hk (fun q hm => findIn_congr fun hv => hs q hv ?_) (h.on _ (hks.mem_iff.2 hd))
      (h'.on _ (hks'.mem_iff.2 hd'))
    obtain ⟨p, p1, -, p3⟩ := (hq q).1 hm
    rw [fromBlockKey_keyOf bp hbp] at p1
    exact ⟨p, p1, p3⟩
  · have hd' : keyOf bp ∉ dests area false s := by
      rw [mem_dests_key, hk, ← mem_dests_key]
      exact hd
    have e : s'.get? (keyOf bp) = t'.get? (keyOf bp) := by
      rw [h.off _ fun h => hd (hks.mem_iff.1 h), h'.off _ fun h => hd' (hks'.mem_iff.1 h), hk]
    exact ⟨sameRow_of_eq e, fun _ => e⟩

/-- The rows after copying without offset. -/
theorem plain_rows {env env' : Env} (ha : SameSetup env env') (hE : ∀ n, (env.ord n).Lawful)
    (hE' : ∀ n, (env'.ord n).Lawful) {area : Option Area} {invert : Bool}
    {t t' s s' src src' : Table} {w w1 w' w1' : World} {bad bad' : Int → Bool}
    (h : RowsDone False (RawLaid False env src t area invert) bad (dests area invert src) t w t' w1)
    (h' : RowsDone False (RawLaid False env' src' s area invert) bad' (dests area invert src') s w' s' w1')
    {k : Int} (hk : s.get? k = t.get? k) (hs : src'.get? k = src.get? k) :
    SameRow env.codec (t'.get? k) (s'.get? k) ∧
      ((∀ n m, env'.ord n = env.ord m) → s'.get? k = t'.get? k) := by
  by_cases hd : k ∈ dests area invert src
  · have hd' : k ∈ dests area invert src' := by
      rw [mem_dests_key, hs, ← mem_dests_key]
      exact hd
    have r := h.on k hd
    have r' := h'.on k hd'
    generalize t'.get? k = x at r
    generalize s'.get? k = x' at r'
    have whole : WholeRow env.codec src t k x → WholeRow env'.codec src' s k x' →
        SameRow env.codec x x' ∧ ((∀ n m, env'.ord n = env.ord m) → x' = x) := by
      rintro ⟨sd, h1, h2⟩ ⟨sd', g1, g2⟩
      rw [hs, h1] at g1
      cases g1
      have e : x' = x := by rw [g2, h2, ha.1, hk]
      exact ⟨sameRow_of_eq e, fun _ => e⟩
    unfold RawLaid at r r'
    cases area with
    | none => exact whole r r'
    | some a =>
      simp only at r r'
      split at r
      · next hw =>
        rw [if_pos hw] at r'
        exact whole r r'
      · next hw =>
        rw [if_neg hw] at r'
        obtain ⟨sd, h1, h2, h3⟩ := r.resolve_left fun h => h.1
        obtain ⟨sd', g1, g2, g3⟩ := r'.resolve_left fun h => h.1
        rw [hs, h1] at g1
        cases g1
        have ho : orig env'.codec s k = orig env.codec t k := by rw [ha.1, orig_congr hk]
        by_cases hx : ∃ sb b, deserialize env.codec sd = .ok sb ∧ orig env.codec t k = some (.ok b)
        · obtain ⟨sb, b, x1, x2⟩ := hx
          obtain ⟨part, b1, ms, d, a1, a2, a3, a4, rfl⟩ := h2 sb b x1 x2
          obtain ⟨part', b1', ms', d', c1, c2, c3, c4, rfl⟩ := g2 sb b (by rw [ha.1]; exact x1) (ho.trans x2)
          rw [a1] at c1
          cases c1
          rw [ha.2, a2] at c2
          cases c2
          rw [a3] at c3
          cases c3
          obtain ⟨q1, q2⟩ := made_same ha hE hE' a4 c4
          exact ⟨.inr ⟨d, d', rfl, rfl, q1⟩, fun ho => by rw [q2 ho]⟩
        · have e1 := h3 fun sb b hh => hx ⟨sb, b, hh⟩
          have e2 := g3 fun sb b hh => hx ⟨sb, b, by rw [← ha.1]; exact hh.1, by rw [← ho]; exact hh.2⟩
          have e : x' = x := by rw [e1, e2, hk]
          exact ⟨sameRow_of_eq e, fun _ => e⟩
  · have hd' : k ∉ dests area invert src' := by
      rw [mem_dests_key, hs, ← mem_dests_key]
      exact hd
    have e : s'.get? k = t'.get? k := by
      rw [h.off _ hd, h'.off _ hd', hk]
    exact ⟨sameRow_of_eq e, fun _ => e⟩

/-- The rows of two runs of a copying command. -/
theorem copy_same {env env' : Env} {args : InstArgs} {f g f' g' : DbFile} (ha : SameSetup env env')
    (S : CopySet env args f g) (S' : CopySet env' args f' g') {t' s' : Table} {evs evs' : List Event}
    (h : Completes env args f.table t' evs) (h' : Completes env' args f'.table s' evs')
    {bp : Vec3} (hbp : ValidBlockPos bp) (hk : f'.table.get? (keyOf bp) = f.table.get? (keyOf bp))
    (hs : ∀ q, ValidBlockPos q → ComesFrom (args.offset.getD ⟨0, 0, 0⟩) bp q →
      g'.table.get? (keyOf q) = g.table.get? (keyOf q)) :
    SameRow env.codec (t'.get? (keyOf bp)) (s'.get? (keyOf bp)) ∧
      ((∀ n m, env'.ord n = env.ord m) → s'.get? (keyOf bp) = t'.get? (keyOf bp)) := by
  haveI : Calm env := calm_of S.works
  haveI : Calm env' := calm_of S'.works
  have nf : ∀ n, env.fail n = true → False := fun n h => by rw [S.works] at h; cases h
  have nf' : ∀ n, env'.fail n = true → False := fun n h => by rw [S'.works] at h; cases h
  rcases S.kind with ⟨hc, -, rfl, hA, hO⟩ | ⟨hc, ⟨p, hp, hgf⟩, hgc, hgs⟩
  · obtain ⟨a, hA⟩ := Option.ne_none_iff_exists'.1 hA
    obtain ⟨o, hO⟩ := Option.ne_none_iff_exists'.1 hO
    have hfg : f' = g' := by
      rcases S'.kind with ⟨-, -, e, -⟩ | ⟨hc', -⟩
      · exact e
      · rw [hc] at hc'
        exact absurd hc' (by decide)
    subst hfg
    have hv : a.isValid = true := S.area a hA
    obtain ⟨D⟩ := completes_done h (by rw [hc]; decide)
    obtain ⟨D'⟩ := completes_done h' (by rw [hc]; decide)
    have b1 := D.body_of hc clone_command
    have b2 := D'.body_of hc clone_command
    simp only at b1 b2
    obtain ⟨t2, ks, p1, p2, p3⟩ := clone_raw nf D.start S.good hA hO hv b1
    obtain ⟨s2, ks', q1, q2, q3⟩ := clone_raw nf' D'.start S'.good hA hO hv b2
    obtain ⟨rfl, -⟩ := openAt_unique D.fin p2
    obtain ⟨rfl, -⟩ := openAt_unique D'.fin q2
    rw [hO] at hs
    exact offset_rows ha S.ok.ord S'.ok.ord (area := some (a.add o))
      (shiftArea_ok (area := some a) (hA ▸ S.area) o) S.good S'.good p1 q1 p3 q3 hbp hk hs
  · obtain ⟨⟨p', hp', hgf'⟩, -, hgs'⟩ : (∃ p, args.inputMapPath = some p ∧ mapFile env' p = some g') ∧
        MapColumns g'.cols ∧ GoodTable g'.table := by
      rcases S'.kind with ⟨hc', -⟩ | ⟨-, h⟩
      · rw [hc] at hc'
        exact absurd hc' (by decide)
      · exact h
    rw [hp] at hp'
    cases hp'
    obtain ⟨D, d1, -, d3⟩ := overlay_done hc hp hgf h
    obtain ⟨D', d1', -, d3'⟩ := overlay_done hc hp hgf' h'
    by_cases hoff : args.offset.getD ⟨0, 0, 0⟩ = ⟨0, 0, 0⟩
    · rw [if_pos hoff] at d3 d3'
      obtain ⟨t2, p2, p3⟩ := plain_raw nf D.start d1 hgs d3
      obtain ⟨s2, q2, q3⟩ := plain_raw nf' D'.start d1' hgs' d3'
      obtain ⟨rfl, -⟩ := openAt_unique D.fin p2
      obtain ⟨rfl, -⟩ := openAt_unique D'.fin q2
      refine plain_rows ha S.ok.ord S'.ok.ord p3 q3 hk (hs bp hbp ?_)
      rw [hoff]
      have hin : InBlock bp ⟨16 * bp.x, 16 * bp.y, 16 * bp.z⟩ := by unfold InBlock; simp only; omega
      refine ⟨_, hin, ?_⟩
      unfold unshift
      simpa using hin
    · rw [if_neg hoff] at d3 d3'
      obtain ⟨o, hO⟩ : ∃ o, args.offset = some o := by
        cases h : args.offset with
        | none => rw [h] at hoff; exact absurd rfl hoff
        | some o => exact ⟨o, rfl⟩
      have hinv : args.invert = false := by
        cases h : args.invert with
        | false => rfl
        | true => exact absurd ((overlay_verified S hc).2 h) hoff
      obtain ⟨t2, p2, p3⟩ := overlayOffset_raw nf D.start d1 S.good hO hinv S.area d3
      obtain ⟨s2, q2, q3⟩ := overlayOffset_raw nf' D'.start d1' S'.good hO hinv S.area d3'
      obtain ⟨rfl, -⟩ := openAt_unique D.fin p2
      obtain ⟨rfl, -⟩ := openAt_unique D'.fin q2
      rw [hO] at hs
      exact offset_rows ha S.ok.ord S'.ok.ord (shiftArea_ok S.area o) S.good S'.good (.refl _) (.refl _) p3 q3 hbp hk hs

end MapEditr
