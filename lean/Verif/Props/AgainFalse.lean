import Verif.Props.Again
/-!
# Property C90 is false of `replaceininv` with names ending in `EndInventory`

The second run replaces further: the first one wrote a line that ends an inventory when read again, and what follows
is read as the next node's metadata.
-/

namespace MapEditr
open Spec

/-- Saved metadata may be read as another list, with something left over. -/
theorem saved_as {c : Codec} (hc : c.Lawful) (hw : c.FullWrites) {ord : VarOrd} {b : MapBlock} {m : MetaList}
    {ml : List Chunk} {raw : RawMetaList} {junk : Bytes} (hb : Wf b) (hv : b.version ≤ 28)
    (h : wrMetaList ord m b.version = .ok ml) (hf : flat ml = raw.bytes ++ junk) (hr : raw.Fits) {s : Bytes}
    (hs : serialize c ord (withMetas b m) = .ok s) : Represents c s (withMetas b raw.value) := by
  obtain ⟨nd, nd1, nd2⟩ := writes_nodes hb.nodes
  obtain ⟨os, os1, os2⟩ := writes_objects hb.objs
  obtain ⟨ni, ni1, ni2⟩ := writes_nimap hb.nimap.fits
  obtain ⟨ts, ts1, ts2⟩ := writes_timers (l := b.timers)
  have hver := hb.ver
  have hra : rassert (decide (25 ≤ b.version ∧ b.version ≤ 29)) "Invalid mapblock version."
      = .ok () := by simp only [rassert, decide_eq_true hver, if_true]
  have h29 : ¬ b.version ≥ 29 := by omega
  have hs1 : serialize c ord (withMetas b m) = .ok (encU8 b.version ++ (encU8 b.flags ++
      (if b.version ≥ 27 then encU16 b.lighting else []) ++ encU8 b.contentWidth ++ encU8 b.paramsWidth ++
      c.zlibEnc (c.emit nd) ++ c.zlibEnc (c.emit ml) ++ flat os ++ encU32 b.timestamp ++ flat ni ++ flat ts)) := by
    show serialize c ord { b with metas := m } = _
    simp only [serialize]
    rw [hra]
    simp only [res_bind_ok, if_neg h29, wrBody28, nd1, h, os1, ni1, ts1, res_pure]
  rw [hs1] at hs
  cases hs
  refine Or.inr ⟨⟨hver.1, by show b.version ≤ 28; omega⟩, _, rfl, ?_⟩
  refine ⟨b.nimap, raw, c.zlibEnc (nodesBytes b.nd) ++ (c.zlibEnc (raw.bytes ++ junk) ++
      (objsBytes b.objects ++ (be32 b.timestamp ++ (namesBytes b.nimap ++ (timersBytes b.timers ++ []))))),
      (c.zlibEnc (nodesBytes b.nd)).length, (c.zlibEnc (raw.bytes ++ junk)).length, [], junk, hb.flags, hb.light,
      hb.light_old, hb.time, hb.nimap.fits, hb.widths, hb.nodes, hr, hb.objs, hb.timers,
      (namesValue_sorted hb.nimap.sorted).symm, rfl, ?_, hc.zlib _ _, ?_, ?_⟩
  · rw [emit_allAll (allAll_nodes nd1), emit_full hw, hf]
    simp only [nd2, os2, ni2, ts2, hb.widths.1, hb.widths.2]
    simp only [encU8, byte, encU16_eq, encU32_eq, List.cons_append, List.nil_append, List.append_assoc, List.append_nil]
    rfl
  · rw [List.drop_left, hc.zlib]
  · rw [List.drop_left, List.drop_left]
    rfl

/-- A map of one readable and one unreadable block. -/
structure OneGood (t : Table) (d : Bytes) : Prop where
  good : GoodTable t
  mem : (0, d) ∈ t
  all : ∀ r ∈ t, r = (0, d) ∨ r = (1, [25])

/-- Replace `a:b` by `a:EndInventory` everywhere. -/
def oddArgs : InstArgs := { invArgs "a:EndInventory" with area := none }

/-- A run on such a map. -/
theorem odd_run {t : Table} {d : Bytes} {m m1 : MetaList} {raw : RawMetaList} {junk : Bytes} {ns : List Nat}
    {b : MapBlock} (hb : Wf b) (hv : b.version ≤ 28) (ht : OneGood t d)
    (hd : Represents (Toy.codec id) d (withMetas b m))
    (hed : ∀ nodes, editMetas oddArgs [] 0 nodes (editInv (toBytes "a:b") (toBytes "a:EndInventory") false) m =
      .ok (m1, ns)) (hn : ns.any (· > 0) = true) (hr : raw.Fits)
    (hml : ∀ ord : VarOrd, ord.Lawful → ∃ ml, wrMetaList ord m1 b.version = .ok ml ∧ flat ml = raw.bytes ++ junk) :
    ∃ t' evs d', Completes (editEnv t) oddArgs t t' evs ∧ OneGood t' d' ∧
      Represents (Toy.codec id) d' (withMetas b raw.value) := by
  have hedit : replaceInInvEdit oddArgs (toBytes "a:b") 0 (withMetas b m) =
      .ok (some (withMetas b m1), (ns.sum, (ns.filter (· > 0)).length)) := by
    have h1 : metaEdit oddArgs [] (editInv (toBytes "a:b") (toBytes "a:EndInventory") false) 0 (withMetas b m) =
        (editMetas oddArgs [] 0 b.nd.nodes (editInv (toBytes "a:b") (toBytes "a:EndInventory") false) m).map fun r =>
          (if r.2.any (· > 0) then some (withMetas b r.1) else none, r.2) := rfl
    rw [hed] at h1
    show (metaEdit oddArgs [] (editInv (toBytes "a:b") (toBytes "a:EndInventory") false) 0 (withMetas b m)).map _ = _
    rw [h1]
    simp only [Except.map, hn, if_true]
  have hcomp : ∃ t' evs, Completes (editEnv t) oddArgs t t' evs := by
    refine completes_of (f := ⟨t, [⟨"pos", "INT", 1⟩, ⟨"data", "BLOB", 0⟩]⟩) (by decide)
      replaceInInv_command (res := .ok) (by decide) (by simp) (editEnv_file _)
      (show colsOk [⟨"pos", "INT", 1⟩, ⟨"data", "BLOB", 0⟩] = true by decide) (by intro p hp; cases hp) (fun _ => rfl)
      (by intro h; cases h) (by decide) ?_
    intro w1 ho _
    show ∃ w2, replaceInInv _ _ w1 = _
    rw [replaceInInv_eq _ _ (item := "a:b") rfl]
    refine editCommand_works ho ht.good.nodup (fun _ => rfl) (editEnv_ok _).ord ?_
    intro r hr b0 hd0
    rcases ht.all r (mem_hits.1 hr).1 with rfl | rfl
    · have e := represents_unique (deserialize_iff.1 hd0) hd
      subst e
      refine ⟨_, _, hedit, ?_⟩
      intro b' hb' ord hord
      cases hb'
      obtain ⟨ml, h1, -⟩ := hml ord hord
      exact serialize_ok_metas _ (wf_withMetas hb (m := []) ⟨by unfold SMap.Sorted; simp, by decide, by simp, by simp⟩)
        ⟨ml, h1⟩
    · exact absurd (deserialize_iff.1 hd0) (bad25 b0)
  obtain ⟨t', evs, h⟩ := hcomp
  obtain ⟨D, g, e, -⟩ := change_edits h rfl replaceInInv_command (by decide) ht.good.nodup
    (replaceInInv_eq _ _ (item := "a:b") rfl)
  have hhit : ∀ r ∈ t, r ∈ hits (oddArgs.nodes.map toBytes) oddArgs.area oddArgs.invert t := by
    intro r hr
    refine mem_hits.2 ⟨hr, ?_, ?_⟩
    · rfl
    · show nameKeeps [] r.2 = true
      unfold nameKeeps
      split <;> simp
  have hkeys : ∀ r ∈ t', ∃ x ∈ t, x.1 = r.1 := by
    intro r hr
    refine Classical.byContradiction fun hk => ?_
    have h1 := e.off r.1 fun hm => by
      obtain ⟨x, hx, hxr⟩ := List.mem_map.1 hm
      exact hk ⟨x, (mem_hits.1 hx).1, hxr⟩
    rw [Table.get?_of_mem e.nodup (d := r.2) hr] at h1
    exact hk ⟨_, Table.get?_some_mem h1.symm, rfl⟩
  obtain ⟨d', h1, h2⟩ := e.on _ (hhit _ ht.mem)
  refine ⟨t', evs, d', h, ?_, ?_⟩
  · refine ⟨⟨e.nodup, ?_⟩, Table.get?_some_mem h1, ?_⟩
    · intro r hr
      obtain ⟨x, hx, hxr⟩ := hkeys r hr
      rw [← hxr]
      exact ht.good.valid x hx
    · intro r hr
      obtain ⟨x, hx, hxr⟩ := hkeys r hr
      have hg := Table.get?_of_mem e.nodup (d := r.2) hr
      obtain ⟨rk, rd⟩ := r
      rcases ht.all x hx with rfl | rfl
      · simp only at hxr hg h1
        subst hxr
        rw [h1] at hg
        cases hg
        exact .inl rfl
      · simp only at hxr hg
        subst hxr
        obtain ⟨d2, g1, g2⟩ := e.on _ (hhit _ hx)
        rw [show t'.get? 1 = _ from g1] at hg
        cases hg
        rcases g2 with ⟨-, g2⟩ | ⟨b0, ob, k, g2, -⟩
        · exact .inr (by rw [g2])
        · exact absurd (deserialize_iff.1 g2) (bad25 b0)
  · rcases h2 with ⟨⟨er, h2⟩, -⟩ | ⟨b0, ob, k, h2, h3, h4⟩
    · rw [show deserialize (editEnv t).codec (0, d).2 = _ from deserialize_iff.2 hd] at h2
      cases h2
    · have e := represents_unique (deserialize_iff.1 h2) hd
      subst e
      rw [hedit] at h3
      cases h3
      rcases h4 with ⟨h4, -⟩ | ⟨b', k, h4, h5⟩
      · cases h4
      · cases h4
        obtain ⟨ml, g1, g2⟩ := hml _ ((editEnv_ok t).ord k)
        exact saved_as (Toy.lawful id) Toy.fullWrites hb hv g1 g2 hr h5

/-- An inventory with a stack, and with a line holding what looks like the metadata of node 1. -/
def oddInv (item : String) : Bytes :=
  ascii "Item " ++ ascii item ++ [10, 0, 1, 0, 0, 0, 0] ++ ascii "Item a:b\nEndInventory\n"

/-- The metadata before the first run. -/
def oddMetas (item : String) : MetaList := [(0, ⟨[], oddInv item⟩), (1, ⟨[], ascii "Q\nEndInventory\n"⟩)]

/-- How it is read after the first run. -/
def oddRaw : RawMetaList :=
  ⟨2, [⟨0, [], ascii "Item a:EndInventory\n"⟩, ⟨1, [], ascii "Item a:b\nEndInventory\n"⟩]⟩

/-- How it is read after the second run. -/
def oddRaw2 : RawMetaList :=
  ⟨2, [⟨0, [], ascii "Item a:EndInventory\n"⟩, ⟨1, [], ascii "Item a:EndInventory\n"⟩]⟩

theorem framed_of {pre : Bytes} (h : ∀ i ∈ List.range pre.length, endInv.isPrefixOf ((pre ++ endInv).drop i) = false) :
    Framed (pre ++ endInv) := by
  refine ⟨pre, rfl, fun i hi hp => ?_⟩
  have := h i (List.mem_range.2 hi)
  rw [List.isPrefixOf_iff_prefix.2 hp] at this
  exact Bool.noConfusion this

theorem framed_odd : Framed (ascii "Item a:EndInventory\n") := framed_of (pre := ascii "Item a:") (by decide)
theorem framed_odd2 : Framed (ascii "Item a:b\nEndInventory\n") := framed_of (pre := ascii "Item a:b\n") (by decide)

theorem oddRaw_fits : oddRaw.Fits := by
  refine ⟨by decide, by decide, by decide, ?_⟩
  intro m hm
  rcases List.mem_cons.1 hm with rfl | hm
  · exact ⟨by decide, by decide, by simp, framed_odd⟩
  · rw [List.mem_singleton.1 hm]
    exact ⟨by decide, by decide, by simp, framed_odd2⟩

theorem oddRaw2_fits : oddRaw2.Fits := by
  refine ⟨by decide, by decide, by decide, ?_⟩
  intro m hm
  rcases List.mem_cons.1 hm with rfl | hm
  · exact ⟨by decide, by decide, by simp, framed_odd⟩
  · rw [List.mem_singleton.1 hm]
    exact ⟨by decide, by decide, by simp, framed_odd⟩

theorem oddMetas_wf : MetasWf (oddMetas "a:b") := by
  refine ⟨by unfold SMap.Sorted oddMetas; decide, by decide, by decide, ?_⟩
  intro e he
  have hf : Framed (oddInv "a:b") := 
    framed_of (pre := ascii "Item a:b" ++ [10, 0, 1, 0, 0, 0, 0] ++ ascii "Item a:b\n") (by decide)
  have hq : Framed (ascii "Q\nEndInventory\n") := framed_of (pre := ascii "Q\n") (by decide)
  rcases List.mem_cons.1 he with rfl | he
  · exact ⟨by unfold SMap.Sorted; simp, by decide, by simp, hf⟩
  · rw [List.mem_singleton.1 he]
    exact ⟨by unfold SMap.Sorted; simp, by decide, by simp, hq⟩

/-- The full statement is false: the second run may replace further. -/
theorem C90_false : ∃ env env2 args t t' t'' evs evs2 item, EnvOk env ∧ EnvOk env2 ∧ env2.codec = env.codec ∧
    GoodTable t ∧ args.command = "replaceininv" ∧ AreaOk args.area ∧ args.item = some item ∧
    Completes env args t t' evs ∧ Completes env2 args t' t'' evs2 ∧
    ¬ Edited env.codec args.area args.invert t' t'' fun _ b' b'' =>
      SameHead b' b'' ∧ SameNodes b' b'' ∧ SameMeta b' b'' ∧ b''.objects = b'.objects ∧ b''.timers = b'.timers := by
  have hb := Toy.block_wf 28 (by omega)
  have hwf : Wf (withMetas (Toy.block 28) (oddMetas "a:b")) := wf_withMetas hb oddMetas_wf
  have hrep := Toy.data_rep hwf
  have hst : stored (withMetas (Toy.block 28) (oddMetas "a:b")) = withMetas (Toy.block 28) (oddMetas "a:b") := rfl
  rw [hst] at hrep
  have h0 : OneGood (toyMap (withMetas (Toy.block 28) (oddMetas "a:b")))
      (Toy.data (withMetas (Toy.block 28) (oddMetas "a:b"))) := by
    refine ⟨toyMap_good _, List.mem_cons_self, ?_⟩
    intro r hr
    unfold toyMap at hr
    simpa using hr
  obtain ⟨t', evs, d', h1, h2, h3⟩ := odd_run (m1 := oddMetas "a:EndInventory") (raw := oddRaw) (ns := [1, 0])
    (junk := [0, 1, 0, 0, 0, 0] ++ ascii "Q\nEndInventory\n") hb (Nat.le_refl 28) h0 hrep
    (fun _ => rfl) rfl oddRaw_fits (fun ord hord => by
      have e0 : ord 0 [] = [] := (hord 0 []).eq_nil
      have e1 : ord 1 [] = [] := (hord 1 []).eq_nil
      show ∃ ml, wrMetaList ord [(0, ⟨[], _⟩), (1, ⟨[], _⟩)] 28 = .ok ml ∧ _
      simp only [wrMetaList, wrEach, wrMetaEntry, NodeMeta.serialize, e0, e1]
      exact ⟨_, rfl, rfl⟩)
  obtain ⟨t'', evs2, d'', k1, k2, k3⟩ := odd_run (m := oddRaw.value) (raw := oddRaw2) (ns := [0, 1])
    (m1 := [(0, ⟨[], ascii "Item a:EndInventory\n"⟩), (1, ⟨[], ascii "Item a:EndInventory\nEndInventory\n"⟩)])
    (junk := ascii "EndInventory\n") hb (Nat.le_refl 28) h2 h3
    (fun _ => rfl) rfl oddRaw2_fits (fun ord hord => by
      have e0 : ord 0 [] = [] := (hord 0 []).eq_nil
      have e1 : ord 1 [] = [] := (hord 1 []).eq_nil
      show ∃ ml, wrMetaList ord [(0, ⟨[], _⟩), (1, ⟨[], _⟩)] 28 = .ok ml ∧ _
      simp only [wrMetaList, wrEach, wrMetaEntry, NodeMeta.serialize, e0, e1]
      exact ⟨_, rfl, rfl⟩)
  refine ⟨editEnv (toyMap _), editEnv t', oddArgs, toyMap _, t', t'', evs, evs2, "a:b", editEnv_ok _, editEnv_ok _, rfl, toyMap_good _,
    rfl, nofun, rfl, h1, k1, ?_⟩
  intro hE
  obtain ⟨d3, b3, g1, g2, -, -, g3, -⟩ := hE.good ⟨0, 0, 0⟩ d' _ (by unfold ValidBlockPos; decide) h2.mem h3
  have hd : d3 = d'' := by
    rcases k2.all _ g1 with h | h
    · cases h; rfl
    · cases h
  subst hd
  have hb3 := represents_unique g2 k3
  subst hb3
  rcases g3 1 with h | ⟨h, -⟩
  · revert h
    decide
  · exact absurd (show 28 < 28 from h) (by decide)

end MapEditr
