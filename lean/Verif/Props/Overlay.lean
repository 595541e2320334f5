import Verif.Proof.OverlayPlain
import Verif.Props.Clone
/-!
# Properties C49, C50, C51: `overlay`
-/

namespace MapEditr
open Spec

theorem overlay_command : command? "overlay" =
    some ⟨fun env => overlay env BLOCK_CACHE_SIZE, fun a => .ok (overlayVerify a),
      [.inputMapPath, .area false, .invert, .offset false]⟩ := rfl

set_option maxRecDepth 4000 in
theorem genData_iff (c : Codec) (d : Bytes) : isValidGenerated c d = true ↔ GenData c d := by
  have bit : ∀ n, n < 256 → ((UInt8.ofNat n &&& 8 == 0) = true ↔ n.testBit 3 = false) := by decide
  have bit' : ∀ f : UInt8, (f &&& 8 == 0) = true ↔ f.toNat.testBit 3 = false := by
    intro f
    have := bit f.toNat f.toNat_lt
    rw [UInt8.ofNat_toNat] at this
    exact this
  unfold GenData
  match d with
  | [] => simp [isValidGenerated]
  | [v] =>
    constructor
    · intro h; cases h
    · rintro ⟨v', rest, fl, h, hne, -⟩
      cases h
      exact absurd rfl hne
  | v :: f :: t =>
    unfold isValidGenerated
    simp only
    constructor
    · intro h
      split at h
      · cases h
      · next hv =>
        split at h
        · next hv2 =>
          split at h
          · next fl hz =>
            exact ⟨v, f :: t, fl, rfl, by simp, by omega, by omega, (bit' fl).1 h, by
              rw [if_neg (by omega)]; exact hz⟩
          · cases h
        · next hv2 =>
          exact ⟨v, f :: t, f, rfl, by simp, by omega, by omega, (bit' f).1 h, by
              rw [if_pos (by omega)]; rfl⟩
    · rintro ⟨v', rest, fl, h, -, h1, h2, h3, h4⟩
      cases h
      rw [if_neg (by omega)]
      split at h4
      · rw [if_neg (by omega)]
        simp only [List.head?_cons, Option.some.injEq] at h4
        subst h4
        exact (bit' _).2 h3
      · rw [if_pos (by omega), h4]
        exact (bit' _).2 h3

/-- The parts of a run of `overlay` that ended well. -/
theorem overlay_parts {env : Env} {args : InstArgs} {t t' : Table} {evs : List Event}
    (hc : args.command = "overlay") {p : String} (hp : args.inputMapPath = some p) {g : DbFile}
    (hgf : mapFile env p = some g) (D : DoneRun env args t t' evs) :
    OpenAt D.w1 .input g.table g.table g.cols ∧
      (∀ e, overlayVerify args ≠ .error e) ∧
      (if args.offset.getD ⟨0, 0, 0⟩ = ⟨0, 0, 0⟩ then overlayNoOffset env args
        else overlayWithOffset env BLOCK_CACHE_SIZE args) D.w1 = (.ok (), D.w2) := by
  obtain ⟨g', h1, h2⟩ := D.input p hp
  rw [hgf] at h1
  cases h1
  refine ⟨h2, ?_, ?_⟩
  · obtain ⟨res, v1, v2⟩ := D.verify_ok
    have hcmd := D.cmd_ok
    rw [hc, overlay_command] at hcmd
    rw [← Option.some.inj hcmd] at v1
    cases v1
    exact v2
  · have hb := D.body_of hc overlay_command
    simp only [overlay] at hb
    have hdb : theDb .input D.w1 = (.ok ⟨⟨g.table, g.table, true, g.cols⟩, true⟩, D.w1) := by
      unfold theDb
      rw [show D.w1.dbs .input = _ from h2]
    rw [run_bind_ok hdb] at hb
    exact hb

/-- The parts of a completed run of `overlay`. -/
theorem overlay_done {env : Env} {args : InstArgs} {t t' : Table} {evs : List Event}
    (hc : args.command = "overlay") {p : String} (hp : args.inputMapPath = some p) {g : DbFile}
    (hgf : mapFile env p = some g) (h : Completes env args t t' evs) :
    ∃ D : DoneRun env args t t' evs, OpenAt D.w1 .input g.table g.table g.cols ∧
      (∀ e, overlayVerify args ≠ .error e) ∧
      (if args.offset.getD ⟨0, 0, 0⟩ = ⟨0, 0, 0⟩ then overlayNoOffset env args
        else overlayWithOffset env BLOCK_CACHE_SIZE args) D.w1 = (.ok (), D.w2) := by
  obtain ⟨D⟩ := completes_done h (by rw [hc]; decide)
  exact ⟨D, overlay_parts hc hp hgf D⟩

theorem overlay_completes {env : Env} {args : InstArgs} {f g : DbFile} {p : String}
    (hfail : ∀ n, env.fail n = false) (hfile : mapFile env args.mapPath = some f)
    (hcols : MapColumns f.cols) (hp : args.inputMapPath = some p) (hgf : mapFile env p = some g)
    (hgcols : MapColumns g.cols) (hargs : ¬ BadArgs args) (hc : args.command = "overlay")
    (hv : overlayVerify args = .ok) (hconf : args.doConfirmation = true → env.answer = some true)
    (hrun : ∀ w1, OpenAt w1 .main f.table f.table f.cols → OpenAt w1 .input g.table g.table g.cols →
      ∃ w2, (if args.offset.getD ⟨0, 0, 0⟩ = ⟨0, 0, 0⟩ then overlayNoOffset env args
        else overlayWithOffset env BLOCK_CACHE_SIZE args) w1 = (.ok (), w2)) :
    ∃ t' evs, Completes env args f.table t' evs := by
  refine completes_of (cmd := _) (res := .ok) ((verifyArgs_iff args).2 hargs)
    (by rw [hc]; exact overlay_command) (by simp only; rw [hv]) (by simp) hfile
    ((colsOk_iff _).2 hcols) ?_ hfail hconf (by rw [hc]; decide) ?_
  · intro p' hp'
    rw [hp] at hp'
    cases hp'
    exact ⟨g, hgf, (colsOk_iff _).2 hgcols⟩
  · intro w1 ho hi
    have hi := hi p g hp hgf
    obtain ⟨w2, h⟩ := hrun w1 ho hi
    refine ⟨w2, ?_⟩
    simp only [overlay]
    have hdb : theDb .input w1 = (.ok ⟨⟨g.table, g.table, true, g.cols⟩, true⟩, w1) := by
      unfold theDb
      rw [show w1.dbs .input = _ from hi]
    rw [run_bind_ok hdb]
    exact h

/-- What `overlay` requires of its arguments. -/
theorem overlayVerify_ok {args : InstArgs} (h : ∀ e, overlayVerify args ≠ .error e) :
    overlayVerify args = .ok ∧ (args.invert = true → args.offset.getD ⟨0, 0, 0⟩ = ⟨0, 0, 0⟩) := by
  unfold overlayVerify at h ⊢
  simp only at h ⊢
  split at h
  · exact absurd rfl (h _)
  · next h1 =>
    split at h
    · exact absurd rfl (h _)
    · next h2 =>
      rw [if_neg h1, if_neg h2]
      refine ⟨rfl, ?_⟩
      intro hi
      rw [hi, Bool.true_and] at h1
      cases ho : args.offset with
      | none => rfl
      | some o =>
        rw [ho] at h1
        by_cases hz : o = ⟨0, 0, 0⟩
        · subst hz; rfl
        · exact absurd (by simp [Option.filter, hz]) h1

/-! ## C49 -/

/-- After `overlay` without area and offset, the main map holds exactly the source's generated blocks,
byte for byte, and those of its own rows for which there is no such block. -/
theorem C49_overlay_all (env : Env) (args : InstArgs) (t t' : Table) (evs : List Event) (p : String)
    (g : DbFile) (hn : (t.map (·.1)).Nodup) (hns : (g.table.map (·.1)).Nodup)
    (hc : args.command = "overlay") (hp : args.inputMapPath = some p) (hgf : mapFile env p = some g)
    (harea : args.area = none) (hoff : args.offset = none ∨ args.offset = some ⟨0, 0, 0⟩)
    (h : Completes env args t t' evs) :
    (t'.map (·.1)).Nodup ∧ ∀ k d, (k, d) ∈ t' ↔
      ((k, d) ∈ g.table ∧ GenData env.codec d) ∨
      ((k, d) ∈ t ∧ ¬ ∃ sd, (k, sd) ∈ g.table ∧ GenData env.codec sd) := by
  obtain ⟨D, h1, -, h3⟩ := overlay_done hc hp hgf h
  rw [if_pos (by rcases hoff with e | e <;> rw [e] <;> rfl)] at h3
  obtain ⟨cur', P⟩ := plain_spec D.start h1 hns (fun k hk w w' cur o1 o2 o3 o4 => by
    rw [harea] at o4 ⊢
    exact overlayStep_none o1 o2 o3 o4) h3
  obtain ⟨rfl, -⟩ := openAt_unique D.fin P.isOpen
  have hnd := P.nodup hn
  refine ⟨hnd, fun k d => ?_⟩
  rw [Table.mem_iff hnd, Table.mem_iff hn, Table.mem_iff hns, ← genData_iff]
  have hdests : ∀ k, k ∈ dests args.area args.invert g.table ↔ ∃ sd, g.table.get? k = some sd := by
    intro k
    unfold dests
    simp only [List.mem_map, mem_hits, harea]
    constructor
    · rintro ⟨r, ⟨h1, -⟩, rfl⟩
      exact ⟨r.2, Table.get?_of_mem hns h1⟩
    · rintro ⟨sd, h⟩
      exact ⟨_, ⟨Table.get?_some_mem h, rfl, nameKeeps_nil _⟩, rfl⟩
  have hex : (∃ sd, (k, sd) ∈ g.table ∧ GenData env.codec sd) ↔
      ∃ sd, g.table.get? k = some sd ∧ isValidGenerated env.codec sd = true := by
    constructor
    · rintro ⟨sd, h1, h2⟩
      exact ⟨sd, Table.get?_of_mem hns h1, (genData_iff _ _).2 h2⟩
    · rintro ⟨sd, h1, h2⟩
      exact ⟨sd, Table.get?_some_mem h1, (genData_iff _ _).1 h2⟩
  rw [hex]
  by_cases hm : k ∈ dests args.area args.invert g.table
  · have hrow := P.on k hm
    rw [harea] at hrow
    obtain ⟨sd, s1, s2⟩ := hrow
    rw [s2, s1]
    cases hv : isValidGenerated env.codec sd with
    | true =>
      simp only [if_true, Option.some.injEq]
      constructor
      · rintro rfl; exact .inl ⟨rfl, hv⟩
      · rintro (⟨rfl, -⟩ | ⟨-, hno⟩)
        · rfl
        · exact absurd ⟨sd, rfl, hv⟩ hno
    | false =>
      simp only [Bool.false_eq_true, if_false, Option.some.injEq]
      constructor
      · intro h
        refine .inr ⟨h, ?_⟩
        rintro ⟨sd', rfl, h2⟩
        rw [hv] at h2
        cases h2
      · rintro (⟨rfl, h2⟩ | ⟨h, -⟩)
        · rw [hv] at h2
          cases h2
        · exact h
  · rw [P.off k hm]
    rw [hdests] at hm
    constructor
    · intro h
      exact .inr ⟨h, fun ⟨sd, h1, _⟩ => hm ⟨sd, h1⟩⟩
    · rintro (⟨h1, -⟩ | ⟨h, -⟩)
      · exact absurd ⟨_, h1⟩ hm
      · exact h

/-- `overlay` without area and offset completes whenever the database works and the arguments are
accepted. -/
theorem C49_overlay_completes (env : Env) (args : InstArgs) (f g : DbFile) (p : String)
    (hfail : ∀ n, env.fail n = false) (hfile : mapFile env args.mapPath = some f)
    (hcols : MapColumns f.cols) (hp : args.inputMapPath = some p) (hgf : mapFile env p = some g)
    (hgcols : MapColumns g.cols) (hns : (g.table.map (·.1)).Nodup) (hargs : ¬ BadArgs args)
    (hc : args.command = "overlay") (harea : args.area = none)
    (hoff : args.offset = none ∨ args.offset = some ⟨0, 0, 0⟩)
    (hconf : args.doConfirmation = true → env.answer = some true) :
    ∃ t' evs, Completes env args f.table t' evs := by
  refine overlay_completes hfail hfile hcols hp hgf hgcols hargs hc ?_ hconf ?_
  · have hi : args.invert = false := by
      cases h : args.invert with
      | false => rfl
      | true => exact absurd (.inl ⟨h, harea⟩) hargs
    unfold overlayVerify
    rw [harea, hi]
    rcases hoff with e | e <;> rw [e] <;> rfl
  · intro w1 ho hi
    rw [if_pos (by rcases hoff with e | e <;> rw [e] <;> rfl)]
    unfold overlayNoOffset
    rcases queryKeys_open hi [] args.area args.invert true (env := env) with ⟨w2, h1, q⟩ | ⟨h, _⟩
    · rw [run_bind_ok h1]
      have hb : beginEditing w2 = (.ok (), w2.inState .editing) := rfl
      rw [run_bind_ok hb]
      obtain ⟨w3, h3⟩ := rowLoop_go (t := f.table) (indb := w1.dbs .input) (dur := f.table) (cols := f.cols)
        (Row := LaidRow env.codec g.table f.table none args.invert) (bad := fun _ => false)
        (step := overlayStep env args.area args.invert)
        (ks := dests args.area args.invert g.table) (hits_nodup hns) (fun k hk w cur o1 o2 o3 => by
          obtain ⟨r, h1, rfl⟩ := List.mem_map.1 hk
          have hs := Table.get?_of_mem hns (mem_hits.1 h1).1
          obtain ⟨w', h⟩ := copyWhole_go hfail o1 (o2.trans hi) hs
          rw [harea]
          obtain ⟨cur', s⟩ := overlayStep_none (invert := args.invert) o1 (o2.trans hi) o3 h
          exact ⟨w', cur', h, s⟩)
        (w := w2.inState .editing) (show w2.dbs .main = _ by rw [q.dbs]; exact ho)
        (show w2.dbs .input = _ by rw [q.dbs]) (fun _ _ => rfl)
      exact ⟨w3.inState .ignore, (run_bind_ok h3).trans rfl⟩
    · rw [hfail] at h; cases h

/-- Main map `map` and input map `other`. -/
def twoEnv (t src : Table) : Env :=
  ⟨.debug, Toy.codec id, fun _ => Toy.ord, fun _ => false, fun _ => false,
    fun p => if p = "map" then some ⟨t, [⟨"pos", "INT", 1⟩, ⟨"data", "BLOB", 0⟩]⟩
      else if p = "other" then some ⟨src, [⟨"pos", "INT", 1⟩, ⟨"data", "BLOB", 0⟩]⟩ else none, none⟩

theorem twoEnv_ok (t src : Table) : EnvOk (twoEnv t src) :=
  ⟨Toy.lawful id, Toy.fullWrites, fun _ => Toy.ord_lawful⟩

/-- Generated source data replaces the main map's (even if it cannot be decoded), data that is not
generated does not; other rows stay. -/
example : Completes (twoEnv [(0, [1]), (1, [2]), (2, [3])] [(1, [28, 0, 7]), (2, [28, 8]), (5, [29, 0])])
    (runArgs false "overlay" "map" (some "other")) [(0, [1]), (1, [2]), (2, [3])]
    [(0, [1]), (2, [3]), (1, [28, 0, 7]), (5, [29, 0])]
    (computeThread (twoEnv [(0, [1]), (1, [2]), (2, [3])] [(1, [28, 0, 7]), (2, [28, 8]), (5, [29, 0])])
      (runArgs false "overlay" "map" (some "other")) World.start).2.events :=
  ⟨_, _, _, rfl, rfl, rfl, rfl, by decide, rfl, rfl⟩

/-! ## C50

The property is `Overlaid` with `Generated` as the condition on source blocks of which a part is
copied:

    Overlaid env.codec g.table t t' (some a) args.invert Generated

It fails because the code does not check whether such source blocks are generated, see `C50_false`. -/

theorem copiesWhole_iff {a : Area} (hv : a.isValid = true) (invert : Bool) (bp : Vec3) :
    copiesWhole a invert bp = true ↔ Whole (some a) invert bp := by
  unfold copiesWhole Whole
  have h1 := C06_contains_block a bp
  have h2 := C06_touches_block a hv bp
  simp only [selected_iff]
  cases invert with
  | false =>
    simp only [Bool.not_false, Bool.true_and, Bool.false_and, Bool.or_false, iff_true]
    exact h1
  | true =>
    simp only [Bool.not_true, Bool.true_and, Bool.false_and, Bool.false_or, Bool.not_eq_true',
      Bool.true_eq_false, iff_false]
    rw [← Bool.not_eq_true, h2]
    constructor
    · intro h p hp hin
      exact h ⟨p, hp, hin⟩
    · rintro h ⟨p, hp, hin⟩
      exact h p hp hin

/-- `overlay` with an area, in terms of nodes. -/
theorem plain_overlaid {c : Codec} (hc : c.Lawful) {src t t' dur : Table} {cols : List Col} {w w' : World}
    {a : Area} {invert : Bool} (hv : a.isValid = true) (hg : GoodTable t) (hgs : GoodTable src)
    (P : PlainDone c src (some a) invert dur t cols w t' w') :
    Overlaid c src t t' (some a) invert fun _ => True := by
  have hao : AreaOk (some a) := by intro x hx; cases hx; exact hv
  have hmem := fun bp => mem_dests (t := src) (area := some a) (invert := invert) (bp := bp) hgs hao
  have hinb : ∀ bp : Vec3, InBlock bp ⟨bp.x * 16, bp.y * 16, bp.z * 16⟩ := by
    intro bp
    unfold InBlock
    simp only
    omega
  have hnp : ∀ bp, Partly (some a) invert bp → ¬ Whole (some a) invert bp :=
    fun bp ⟨_, p, h1, h2⟩ hw => h2 (hw p h1)
  have hpn : ∀ bp, (∃ p, InBlock bp p ∧ Selected (some a) invert p) → ¬ Whole (some a) invert bp →
      Partly (some a) invert bp := by
    intro bp h1 h2
    refine ⟨h1, ?_⟩
    apply Classical.byContradiction
    intro hno
    refine h2 fun p hp => ?_
    apply Classical.byContradiction
    exact fun hs => hno ⟨p, hp, hs⟩
  have hlaid : ∀ bp, ValidBlockPos bp → keyOf bp ∈ dests (some a) invert src →
      (Whole (some a) invert bp ∧ WholeRow c src t (keyOf bp) (t'.get? (keyOf bp))) ∨
      (Partly (some a) invert bp ∧ PartRow c src t a invert (keyOf bp) (t'.get? (keyOf bp))) := by
    intro bp hbp hk
    have hrow := P.on _ hk
    unfold LaidRow at hrow
    simp only [fromBlockKey_keyOf bp hbp] at hrow
    split at hrow
    · next hw => exact .inl ⟨(copiesWhole_iff hv invert bp).1 hw, hrow⟩
    · next hw =>
      exact .inr ⟨hpn bp ((hmem bp hbp).1 hk).2 fun h => hw ((copiesWhole_iff hv invert bp).2 h), hrow⟩
  refine ⟨P.nodup hg.nodup, ?_, ?_, ?_, ?_⟩
  · intro bp sd hbp hs hw hgen
    have hk : keyOf bp ∈ dests (some a) invert src :=
      (hmem bp hbp).2 ⟨List.mem_map.2 ⟨_, hs, rfl⟩, _, hinb bp, hw _ (hinb bp)⟩
    rcases hlaid bp hbp hk with ⟨-, sd', h1, h2⟩ | ⟨h1, -⟩
    · rw [Table.get?_of_mem hgs.nodup hs] at h1
      cases h1
      rw [if_pos ((genData_iff c sd).2 hgen)] at h2
      exact Table.get?_some_mem h2
    · exact absurd hw (hnp bp h1)
  · intro bp sd sb d b hbp hs hrs _ hd hrb hgen hp
    have hk : keyOf bp ∈ dests (some a) invert src :=
      (hmem bp hbp).2 ⟨List.mem_map.2 ⟨_, hs, rfl⟩, hp.1⟩
    rcases hlaid bp hbp hk with ⟨h1, -⟩ | ⟨-, sd', h1, h2, -⟩
    · exact absurd h1 (hnp bp hp)
    · rw [Table.get?_of_mem hgs.nodup hs] at h1
      cases h1
      obtain ⟨d', b', e1, e2, e3⟩ := h2 sb b (deserialize_iff.2 hrs)
        ((orig_ok hc).2 ⟨d, Table.get?_of_mem hg.nodup hd, hrb, hgen⟩)
      rw [fromBlockKey_keyOf bp hbp] at e3
      exact ⟨d', b', Table.get?_some_mem e1, e2, e3.rest, e3.pub, e3.nodes⟩
  · intro bp d hbp hd hno
    have hgd := Table.get?_of_mem hg.nodup hd
    by_cases hk : keyOf bp ∈ dests (some a) invert src
    · rcases hlaid bp hbp hk with ⟨hw, sd, h1, h2⟩ | ⟨hw, sd, h1, -, h2⟩
      · rw [if_neg ?_, hgd] at h2
        · exact Table.get?_some_mem h2
        · intro hgen
          exact hno (.inl ⟨hw, sd, Table.get?_some_mem h1, (genData_iff c sd).1 hgen⟩)
      · refine Table.get?_some_mem ((h2 ?_).trans hgd)
        rintro sb b ⟨e1, e2⟩
        obtain ⟨d2, e3, e4, e5⟩ := (orig_ok hc).1 e2
        rw [hgd] at e3
        cases e3
        exact hno (.inr ⟨hw, sd, sb, b, Table.get?_some_mem h1, deserialize_iff.1 e1, trivial, e4, e5⟩)
    · exact Table.get?_some_mem ((P.off _ hk).trans hgd)
  · intro k d hd
    have hd' := Table.get?_of_mem (P.nodup hg.nodup) hd
    have hin : ∀ d0, t.get? k = some d0 → k ∈ t.map (·.1) := fun d0 h =>
      List.mem_map.2 ⟨_, Table.get?_some_mem h, rfl⟩
    by_cases hk : k ∈ dests (some a) invert src
    · obtain ⟨v, e⟩ := keyOf_fromBlockKey k (dests_row hgs hk).1
      rw [← e] at hk
      have hl := hlaid _ v hk
      rw [e, hd'] at hl
      rcases hl with ⟨hw, sd, h1, h2⟩ | ⟨-, sd, h1, h2, h3⟩
      · split at h2
        · next hgen =>
          cases h2
          exact .inr ⟨Table.get?_some_mem h1, (genData_iff c d).1 hgen, _, v, e, hw⟩
        · exact .inl (hin d h2.symm)
      · left
        by_cases hb : ∃ b, orig c t k = some (.ok b)
        · obtain ⟨b, hb⟩ := hb
          obtain ⟨d2, e3, -⟩ := (orig_ok hc).1 hb
          exact hin d2 e3
        · exact hin d (h3 fun sb b ⟨_, e2⟩ => hb ⟨b, e2⟩).symm
    · rw [P.off k hk] at hd'
      exact .inl (hin d hd')

/-- The following for a database that never fails. -/
theorem overlay_works (env : Env) (args : InstArgs) (t t' : Table) (evs : List Event) (p : String)
    (g : DbFile) (a : Area) (hE : EnvOk env) (hfail : ∀ n, env.fail n = false) (hg : GoodTable t)
    (hgs : GoodTable g.table) (hc : args.command = "overlay") (hp : args.inputMapPath = some p)
    (hgf : mapFile env p = some g) (harea : args.area = some a) (ha : a.isValid = true)
    (hoff : args.offset = none ∨ args.offset = some ⟨0, 0, 0⟩)
    (hb : AllBlocks env.codec t (Mild env.build))
    (hbs : AllBlocks env.codec g.table (Mild env.build))
    (h : Completes env args t t' evs) :
    Overlaid env.codec g.table t t' (some a) args.invert fun _ => True := by
  obtain ⟨D, h1, -, h3⟩ := overlay_done hc hp hgf h
  rw [if_pos (by rcases hoff with e | e <;> rw [e] <;> rfl)] at h3
  obtain ⟨cur', P⟩ := plain_given hE hfail D.start h1 hgs hb hbs (args := args)
    (by rw [harea]; intro x hx; cases hx; exact ha) h3
  obtain ⟨rfl, -⟩ := openAt_unique D.fin P.isOpen
  rw [harea] at P
  exact plain_overlaid hE.codec ha hg hgs P

/-- After `overlay` with an area: rows of entirely selected blocks are replaced by generated source
data, byte for byte; in partly selected blocks which are readable in both maps and generated in the
main map, exactly the selected nodes are the source's; every other row keeps its bytes.

Missing: the property asks that partly selected blocks which are not generated in the source be left
alone; they are not (`C50_false`).  It is assumed that no statement of this run fails: a block of
the main map whose read fails is silently treated as absent.  In release builds, IDs must not exceed
7280 in either map: the code does not notice when they overflow. -/
theorem C50_overlay_partial (env : Env) (args : InstArgs) (t t' : Table) (evs : List Event) (p : String)
    (g : DbFile) (a : Area) (hE : EnvOk env) (hwork : DbWorks env args) (hg : GoodTable t)
    (hgs : GoodTable g.table) (hc : args.command = "overlay") (hp : args.inputMapPath = some p)
    (hgf : mapFile env p = some g) (harea : args.area = some a) (ha : a.isValid = true)
    (hoff : args.offset = none ∨ args.offset = some ⟨0, 0, 0⟩)
    (hb : AllBlocks env.codec t (Mild env.build))
    (hbs : AllBlocks env.codec g.table (Mild env.build))
    (h : Completes env args t t' evs) :
    Overlaid env.codec g.table t t' (some a) args.invert fun _ => True :=
  overlay_works (env.failing (fun _ => false) fun _ => false) args t t' evs p g a
    (hE.failing _ _) (fun _ => rfl) hg hgs hc hp hgf harea ha hoff hb hbs (works_completes hwork h)

/-- The following for a database that never fails. -/
theorem overlay_generated_works (env : Env) (args : InstArgs) (t t' : Table) (evs : List Event)
    (p : String) (g : DbFile) (a : Area) (hE : EnvOk env) (hfail : ∀ n, env.fail n = false)
    (hg : GoodTable t) (hgs : GoodTable g.table) (hc : args.command = "overlay")
    (hp : args.inputMapPath = some p) (hgf : mapFile env p = some g) (harea : args.area = some a)
    (ha : a.isValid = true) (hoff : args.offset = none ∨ args.offset = some ⟨0, 0, 0⟩)
    (hb : AllBlocks env.codec t (Mild env.build))
    (hbs : AllBlocks env.codec g.table (Mild env.build))
    (hgen : AllBlocks env.codec g.table Generated) (h : Completes env args t t' evs) :
    Overlaid env.codec g.table t t' (some a) args.invert Generated := by
  have O := overlay_works env args t t' evs p g a hE hfail hg hgs hc hp hgf harea ha hoff hb hbs h
  refine ⟨O.nodup, O.whole, fun bp sd sb d b h1 h2 h3 _ => O.part bp sd sb d b h1 h2 h3 trivial, ?_, O.added⟩
  intro bp d h1 h2 h3
  refine O.kept bp d h1 h2 fun hov => h3 ?_
  rcases hov with hov | ⟨h4, sd, sb, b, h5, h6, -, h7, h8⟩
  · exact .inl hov
  · exact .inr ⟨h4, sd, sb, b, h5, h6, hgen _ _ _ h5 h6, h7, h8⟩

/-- The property, for source maps all of whose readable blocks are generated. -/
theorem C50_overlay_generated_partial (env : Env) (args : InstArgs) (t t' : Table) (evs : List Event)
    (p : String) (g : DbFile) (a : Area) (hE : EnvOk env) (hwork : DbWorks env args)
    (hg : GoodTable t) (hgs : GoodTable g.table) (hc : args.command = "overlay")
    (hp : args.inputMapPath = some p) (hgf : mapFile env p = some g) (harea : args.area = some a)
    (ha : a.isValid = true) (hoff : args.offset = none ∨ args.offset = some ⟨0, 0, 0⟩)
    (hb : AllBlocks env.codec t (Mild env.build))
    (hbs : AllBlocks env.codec g.table (Mild env.build))
    (hgen : AllBlocks env.codec g.table Generated) (h : Completes env args t t' evs) :
    Overlaid env.codec g.table t t' (some a) args.invert Generated :=
  overlay_generated_works (env.failing (fun _ => false) fun _ => false) args t t' evs p g a
    (hE.failing _ _) (fun _ => rfl) hg hgs hc hp hgf harea ha hoff hb hbs hgen (works_completes hwork h)

/-- `overlay` with an area completes whenever the database works, the arguments are accepted and IDs are
small. -/
theorem C50_overlay_completes (env : Env) (args : InstArgs) (f g : DbFile) (p : String) (a : Area)
    (hE : EnvOk env) (hfail : ∀ n, env.fail n = false) (hfile : mapFile env args.mapPath = some f)
    (hcols : MapColumns f.cols) (hp : args.inputMapPath = some p) (hgf : mapFile env p = some g)
    (hgcols : MapColumns g.cols) (hgs : GoodTable g.table) (hargs : ¬ BadArgs args)
    (hc : args.command = "overlay") (harea : args.area = some a) (ha : a.isValid = true)
    (hoff : args.offset = none ∨ args.offset = some ⟨0, 0, 0⟩)
    (hb : AllBlocks env.codec f.table Tame)
    (hbs : AllBlocks env.codec g.table Tame)
    (hconf : args.doConfirmation = true → env.answer = some true) :
    ∃ t' evs, Completes env args f.table t' evs := by
  have hz : args.offset.getD ⟨0, 0, 0⟩ = ⟨0, 0, 0⟩ := by rcases hoff with e | e <;> rw [e] <;> rfl
  refine overlay_completes hfail hfile hcols hp hgf hgcols hargs hc ?_ hconf ?_
  · unfold overlayVerify
    simp only
    rw [hz, harea]
    have h1 : (args.offset.filter fun o => o != (⟨0, 0, 0⟩ : Vec3)).isSome = false := by
      rcases hoff with e | e <;> rw [e] <;> rfl
    rw [h1, Bool.and_false]
    have h2 := movedOut_iff a ⟨0, 0, 0⟩
    rw [if_neg (by decide), if_neg]
    intro h
    have hbad : Within 31000 a.min ∧ Within 31000 a.max :=
      Classical.byContradiction fun hx => hargs (.inr (.inl ⟨a, harea, hx⟩))
    refine (h2.1 h) a.min ?_ ?_
    · rw [isValid_iff] at ha
      unfold InBox
      omega
    · have := hbad.1
      unfold Within at this ⊢
      simp only
      omega
  · intro w1 ho hi
    rw [if_pos hz]
    obtain ⟨w', _, h4, -⟩ := plain_run hE hfail ho hi hgs hb hbs (args := args)
      (by rw [harea]; intro x hx; cases hx; exact ha)
    exact ⟨w', h4⟩

/-- The toy block with other flags and another name for node 0. -/
def otherBlock (flags : Nat) : MapBlock :=
  { Toy.block 28 with flags, nimap := [(0, ascii "air"), (1, ascii "b")] }

theorem otherBlock_wf {flags : Nat} (h : flags < 256) : Wf (otherBlock flags) := by
  have hw := Toy.block_wf 28 (by omega)
  refine ⟨hw.ver, h, hw.light, hw.light_old, hw.widths, hw.nodes, hw.metas, hw.objs, hw.time, ?_, hw.timers⟩
  refine ⟨List.pairwise_pair.2 (by decide), by show 2 < _; omega, ?_⟩
  intro e he
  have he' : e ∈ [(0, ascii "air"), (1, ascii "b")] := he
  simp only [List.mem_cons, List.not_mem_nil, or_false] at he'
  rcases he' with rfl | rfl <;> unfold NameFits <;> decide

theorem otherBlock_named (flags : Nat) : Named (stored (otherBlock flags)) := by
  intro id hid
  have hid' : id ∈ 1 :: List.replicate 4095 0 := hid
  rcases List.mem_cons.1 hid' with rfl | h
  · exact ⟨ascii "b", rfl⟩
  · rw [List.eq_of_mem_replicate h]
    exact ⟨ascii "air", rfl⟩

theorem otherBlock_tame (flags : Nat) : Tame (stored (otherBlock flags)) := by
  refine ⟨named_covered (otherBlock_named flags), ?_,
    fun e he => Nat.lt_trans (metaInside_stored (toy_metaInside 28) e he) (by decide)⟩
  intro e he
  have : e ∈ [(0, ascii "air"), (1, ascii "b")] := he
  simp only [List.mem_cons, List.not_mem_nil, or_false] at this
  rcases this with rfl | rfl <;> decide

/-- One block, at (0, 0, 0). -/
def oneMap (b : MapBlock) : Table := [(0, Toy.data b)]

theorem oneMap_good (b : MapBlock) : GoodTable (oneMap b) := by
  refine ⟨?_, ?_⟩
  · show [(0 : Int)].Nodup
    simp
  · intro r hr
    unfold oneMap at hr
    simp only [List.mem_singleton] at hr
    subst hr
    show ValidKey 0
    decide

theorem oneMap_all {b : MapBlock} (h : Wf b) {P : MapBlock → Prop} (hP : P (stored b)) :
    AllBlocks (Toy.codec id) (oneMap b) P := by
  intro k d b' hk hrep
  unfold oneMap at hk
  simp only [List.mem_singleton, Prod.mk.injEq] at hk
  obtain ⟨rfl, rfl⟩ := hk
  rw [represents_unique hrep (Toy.data_rep h)]
  exact hP

theorem oneMap_mem (b : MapBlock) : (keyOf ⟨0, 0, 0⟩, Toy.data b) ∈ oneMap b := by
  show ((0 : Int), _) ∈ _
  unfold oneMap
  simp

/-- Lay the node (0, 0, 0), or with `inv` everything else, of the map `other` over `map`. -/
def overlayArgs (inv : Bool) : InstArgs :=
  { runArgs false "overlay" "map" (some "other") with
    area := some ⟨⟨0, 0, 0⟩, ⟨0, 0, 0⟩⟩, invert := inv }

theorem overlay_toy (inv : Bool) (flags : Nat) (h : flags < 256) :
    ∃ t' evs, Completes (twoEnv (oneMap (Toy.block 28)) (oneMap (otherBlock flags))) (overlayArgs inv)
      (oneMap (Toy.block 28)) t' evs := by
  refine C50_overlay_completes _ (overlayArgs inv) _ _ "other" ⟨⟨0, 0, 0⟩, ⟨0, 0, 0⟩⟩ (twoEnv_ok _ _)
    (fun _ => rfl) rfl ⟨_, rfl⟩ rfl rfl ⟨_, rfl⟩ (oneMap_good _) ?_ rfl rfl (by decide) (.inl rfl)
    (oneMap_all (Toy.block_wf 28 (by omega)) (toy_tame 28)) (oneMap_all (otherBlock_wf h) (otherBlock_tame _))
    (by intro h; cases h)
  rintro (⟨-, h⟩ | ⟨a, h, h'⟩ | ⟨o, h, h'⟩ | ⟨n, h, -⟩)
  · cases h
  · cases h
    exact h' (by decide)
  · cases h
  · cases h

theorem partly_toy (inv : Bool) : Partly (some ⟨⟨0, 0, 0⟩, ⟨0, 0, 0⟩⟩) inv ⟨0, 0, 0⟩ := by
  have h0 : InBlock ⟨0, 0, 0⟩ ⟨0, 0, 0⟩ := by unfold InBlock; decide
  have h1 : InBlock ⟨0, 0, 0⟩ ⟨1, 0, 0⟩ := by unfold InBlock; decide
  cases inv
  · exact ⟨⟨_, h0, by rw [selected_iff]; decide⟩, _, h1, by rw [selected_iff]; decide⟩
  · exact ⟨⟨_, h1, by rw [selected_iff]; decide⟩, _, h0, by rw [selected_iff]; decide⟩

/-- The hypotheses are met: node (0, 0, 0), `a` in the main map and `b` in the source, becomes `b`. -/
example : ∃ t' evs, Completes (twoEnv (oneMap (Toy.block 28)) (oneMap (otherBlock 0))) (overlayArgs false)
      (oneMap (Toy.block 28)) t' evs ∧
    EnvOk (twoEnv (oneMap (Toy.block 28)) (oneMap (otherBlock 0))) ∧ GoodTable (oneMap (Toy.block 28)) ∧
    GoodTable (oneMap (otherBlock 0)) ∧
    AllBlocks (Toy.codec id) (oneMap (Toy.block 28)) Tame ∧
    AllBlocks (Toy.codec id) (oneMap (otherBlock 0)) Tame ∧
    AllBlocks (Toy.codec id) (oneMap (otherBlock 0)) Generated ∧
    ∃ d' b', (0, d') ∈ t' ∧ Represents (Toy.codec id) d' b' ∧ nodeName b' 0 = some (ascii "b") := by
  obtain ⟨t', evs, h⟩ := overlay_toy false 0 (by omega)
  have hw := Toy.block_wf 28 (by omega)
  have hw' := otherBlock_wf (flags := 0) (by omega)
  have a1 := oneMap_all hw (P := Tame) (toy_tame 28)
  have a2 := oneMap_all hw' (P := Tame) (otherBlock_tame _)
  have a3 := oneMap_all hw' (P := Generated) rfl
  refine ⟨t', evs, h, twoEnv_ok _ _, oneMap_good _, oneMap_good _, a1, a2, a3, ?_⟩
  have O := C50_overlay_generated_partial _ _ _ t' evs "other" _ _ (twoEnv_ok _ _) (fun _ _ => rfl) (oneMap_good _)
    (oneMap_good _) rfl rfl rfl rfl (by decide) (.inl rfl) (a1.mild _) (a2.mild _) a3 h
  obtain ⟨d', b', g1, g2, -, -, g3⟩ := O.part ⟨0, 0, 0⟩ _ _ _ _ (by unfold ValidBlockPos; decide)
    (oneMap_mem (otherBlock 0)) (Toy.data_rep hw') rfl (oneMap_mem (Toy.block 28)) (Toy.data_rep hw) rfl
    (partly_toy false)
  have g4 := (g3 0 (by decide)).1
  rw [if_pos (by rw [selected_iff]; decide)] at g4
  exact ⟨d', b', g1, g2, g4 _ (by decide)⟩

/-- The property fails when the source block is not generated: its node is copied nonetheless. -/
theorem C50_false : ∃ (env : Env) (args : InstArgs) (t t' : Table) (evs : List Event) (p : String)
    (g : DbFile) (a : Area), EnvOk env ∧ (∀ n, env.fail n = false) ∧ GoodTable t ∧ GoodTable g.table ∧
    args.command = "overlay" ∧ args.inputMapPath = some p ∧ mapFile env p = some g ∧ args.area = some a ∧
    a.isValid = true ∧ args.offset = none ∧ AllBlocks env.codec t Tame ∧
    AllBlocks env.codec g.table Tame ∧ Completes env args t t' evs ∧
    ¬ Overlaid env.codec g.table t t' (some a) args.invert Generated := by
  obtain ⟨t', evs, h⟩ := overlay_toy false 8 (by omega)
  have hw := Toy.block_wf 28 (by omega)
  have hw' := otherBlock_wf (flags := 8) (by omega)
  have a1 := oneMap_all hw (P := Tame) (toy_tame 28)
  have a2 := oneMap_all hw' (P := Tame) (otherBlock_tame _)
  refine ⟨_, _, _, t', evs, "other", _, _, twoEnv_ok _ _, fun _ => rfl, oneMap_good _, oneMap_good _, rfl,
    rfl, rfl, rfl, by decide, rfl, a1, a2, h, ?_⟩
  have O := C50_overlay_partial _ _ _ t' evs "other" _ _ (twoEnv_ok _ _) (fun _ _ => rfl) (oneMap_good _)
    (oneMap_good _) rfl rfl rfl rfl (by decide) (.inl rfl) (a1.mild _) (a2.mild _) h
  intro F
  have hbp : ValidBlockPos ⟨0, 0, 0⟩ := by unfold ValidBlockPos; decide
  obtain ⟨d', b', g1, g2, -, -, g3⟩ := O.part ⟨0, 0, 0⟩ _ _ _ _ hbp
    (oneMap_mem (otherBlock 8)) (Toy.data_rep hw') trivial (oneMap_mem (Toy.block 28)) (Toy.data_rep hw) rfl
    (partly_toy false)
  have g4 := (g3 0 (by decide)).1
  rw [if_pos (by rw [selected_iff]; decide)] at g4
  replace g4 := g4 (ascii "b") (by decide)
  have f1 := F.kept ⟨0, 0, 0⟩ _ hbp (oneMap_mem (Toy.block 28)) (by
    rintro (⟨hwh, -⟩ | ⟨-, sd, sb, b, h5, h6, h7, -⟩)
    · obtain ⟨-, q, hq, hq'⟩ := partly_toy false
      exact hq' (hwh q hq)
    · have : Generated (stored (otherBlock 8)) := by
        have := oneMap_all hw' (P := fun b => b = stored (otherBlock 8)) rfl _ _ _ h5 h6
        rw [← this]
        exact h7
      exact absurd this (by unfold Generated; decide))
  have e1 := Table.get?_of_mem O.nodup g1
  rw [Table.get?_of_mem O.nodup f1] at e1
  have e2 := Option.some.inj e1
  rw [← e2] at g2
  rw [represents_unique g2 (Toy.data_rep hw)] at g4
  exact absurd g4 (by decide)

/-! ## C51 -/

/-- The following for a database that never fails. -/
theorem overlay_offset_works (env : Env) (args : InstArgs) (t t' : Table) (evs : List Event) (p : String)
    (g : DbFile) (o : Vec3) (hE : EnvOk env) (hfail : ∀ n, env.fail n = false) (hg : GoodTable t)
    (hgs : GoodTable g.table) (hc : args.command = "overlay") (hp : args.inputMapPath = some p)
    (hgf : mapFile env p = some g) (hv : ∀ a, args.area = some a → a.isValid = true)
    (hoff : args.offset = some o) (hz : o ≠ ⟨0, 0, 0⟩)
    (hb : AllBlocks env.codec t (Mild env.build))
    (hbs : AllBlocks env.codec g.table (Mild env.build))
    (h : Completes env args t t' evs) :
    Copied env.codec g.table t t' o (fun p => Selected args.area false (unshift p o))
      fun q => Within 1937 (blockOf q) := by
  obtain ⟨D, h1, h2, h3⟩ := overlay_done hc hp hgf h
  rw [if_neg (by rw [hoff]; exact hz)] at h3
  have hinv : args.invert = false := by
    cases hi : args.invert with
    | false => rfl
    | true =>
      have := (overlayVerify_ok h2).2 hi
      rw [hoff] at this
      exact absurd this hz
  obtain ⟨cur', P⟩ := overlayOffset_given hE hfail D.start h1 hg hb hbs hoff hinv hv h3
  obtain ⟨rfl, -⟩ := openAt_unique D.fin P.isOpen
  have hv' := shiftArea_ok hv o
  refine copied_of hE.codec hgs.nodup P hg ?_ ?_ ?_
  · intro k hk
    obtain ⟨r, h5, rfl⟩ := List.mem_map.1 hk
    exact List.mem_map_of_mem (mem_hits.1 h5).1
  · intro bp hbp hk
    obtain ⟨-, q, h5, h6⟩ := (mem_dests hg hv' hbp).1 hk
    refine ⟨⟨q, h5, (shiftArea_sel _ _ _).1 h6⟩, fun q hq => ?_⟩
    have hp := partOf_ok hv' hg o hk
    rw [fromBlockKey_keyOf bp hbp] at hp
    rw [hp.iff q hq, shiftArea_sel]
  · intro bp hbp hm hk q hq hs
    exact hk ((mem_dests hg hv' hbp).2 ⟨hm, q, hq, (shiftArea_sel _ _ _).2 hs⟩)

/-- After `overlay` with an offset, the selected nodes of the destination are what the source shows at
the corresponding position.

Missing: nodes of source blocks more than 1937 blocks from the origin are not copied (`C51_false`). It
is assumed that no statement of this run fails: a block whose read fails is silently treated as
absent.  In release builds, IDs must not exceed 7280 in either map. -/
theorem C51_overlay_offset_partial (env : Env) (args : InstArgs) (t t' : Table) (evs : List Event) (p : String)
    (g : DbFile) (o : Vec3) (hE : EnvOk env) (hwork : DbWorks env args) (hg : GoodTable t)
    (hgs : GoodTable g.table) (hc : args.command = "overlay") (hp : args.inputMapPath = some p)
    (hgf : mapFile env p = some g) (hv : ∀ a, args.area = some a → a.isValid = true)
    (hoff : args.offset = some o) (hz : o ≠ ⟨0, 0, 0⟩)
    (hb : AllBlocks env.codec t (Mild env.build))
    (hbs : AllBlocks env.codec g.table (Mild env.build))
    (h : Completes env args t t' evs) :
    Copied env.codec g.table t t' o (fun p => Selected args.area false (unshift p o))
      fun q => Within 1937 (blockOf q) :=
  overlay_offset_works (env.failing (fun _ => false) fun _ => false) args t t' evs p g o
    (hE.failing _ _) (fun _ => rfl) hg hgs hc hp hgf hv hoff hz hb hbs (works_completes hwork h)

/-- `overlay` with an offset completes whenever the database works, the arguments are accepted and IDs are
small. -/
theorem C51_overlay_completes (env : Env) (args : InstArgs) (f g : DbFile) (p : String) (o : Vec3)
    (hE : EnvOk env) (hfail : ∀ n, env.fail n = false) (hfile : mapFile env args.mapPath = some f)
    (hcols : MapColumns f.cols) (hp : args.inputMapPath = some p) (hgf : mapFile env p = some g)
    (hgcols : MapColumns g.cols) (hg : GoodTable f.table) (hargs : ¬ BadArgs args)
    (hc : args.command = "overlay") (hv : ∀ a, args.area = some a → a.isValid = true)
    (hoff : args.offset = some o) (hz : o ≠ ⟨0, 0, 0⟩) (hinv : args.invert = false)
    (hout : ¬ MovedOut (args.area.getD MAP_AREA) o)
    (hb : AllBlocks env.codec f.table Tame)
    (hbs : AllBlocks env.codec g.table Tame)
    (hconf : args.doConfirmation = true → env.answer = some true) :
    ∃ t' evs, Completes env args f.table t' evs := by
  refine overlay_completes hfail hfile hcols hp hgf hgcols hargs hc ?_ hconf ?_
  · unfold overlayVerify
    simp only
    rw [hinv, hoff, if_neg (by simp), if_neg]
    intro h
    exact hout ((movedOut_iff _ _).1 h)
  · intro w1 ho hi
    rw [if_neg (by rw [hoff]; exact hz)]
    obtain ⟨w', _, h4, -⟩ := overlayOffset_run hE hfail ho hi hg hb hbs BLOCK_CACHE_SIZE hoff hinv hv
    exact ⟨w', h4⟩

/-- Copy the node (x, 0, 0) of the map `other` to (x + d, 0, 0). -/
def overlayShiftArgs (x d : Int) : InstArgs :=
  { runArgs false "overlay" "map" (some "other") with
    area := some ⟨⟨x, 0, 0⟩, ⟨x, 0, 0⟩⟩, offset := some ⟨d, 0, 0⟩ }

theorem overlay_shift_toy {x y d : Int} (h1 : ValidKey x) (h2 : ValidKey (x + 1))
    (hx : -31000 ≤ y ∧ y ≤ 31000) (hd : -62000 ≤ d ∧ d ≤ 62000) (hd0 : d ≠ 0)
    (hyd : -31000 ≤ y + d ∧ y + d ≤ 31000) :
    ∃ t' evs, Completes (twoEnv (pairMap x (Toy.block 28)) (pairMap x (otherBlock 0))) (overlayShiftArgs y d)
      (pairMap x (Toy.block 28)) t' evs := by
  refine C51_overlay_completes _ (overlayShiftArgs y d) _ _ "other" ⟨d, 0, 0⟩ (twoEnv_ok _ _) (fun _ => rfl)
    rfl ⟨_, rfl⟩ rfl rfl ⟨_, rfl⟩ (pairMap_good h1 h2 _) ?_ rfl ?_ rfl ?_ rfl ?_
    (pairMap_all (Toy.block_wf 28 (by omega)) (toy_tame 28))
    (pairMap_all (otherBlock_wf (flags := 0) (by omega)) (otherBlock_tame _)) (by intro h; cases h)
  · rintro (⟨h, -⟩ | ⟨a, h, h'⟩ | ⟨o, h, h'⟩ | ⟨n, h, -⟩)
    · cases h
    · cases h
      refine h' ?_
      unfold Within
      simp only
      omega
    · cases h
      refine h' ?_
      unfold Within
      simp only
      omega
    · cases h
  · intro a h
    cases h
    rw [isValid_iff]
    simp
  · intro h
    injection h with h
    exact hd0 h
  · intro h
    refine h ⟨y, 0, 0⟩ ?_ ?_
    · show InBox ⟨y, 0, 0⟩ ⟨y, 0, 0⟩ _
      unfold InBox
      simp
    · unfold Within
      simp only
      omega

/-- The hypotheses are met: node (0, 0, 0) of the source, `b`, is copied to (18, 0, 0). -/
example : ∃ t' evs, Completes (twoEnv (pairMap 0 (Toy.block 28)) (pairMap 0 (otherBlock 0))) (overlayShiftArgs 0 18)
      (pairMap 0 (Toy.block 28)) t' evs ∧
    ∃ d' b', (1, d') ∈ t' ∧ Represents (Toy.codec id) d' b' ∧ nodeName b' 2 = some (ascii "b") := by
  have hw := Toy.block_wf 28 (by omega)
  have hw' := otherBlock_wf (flags := 0) (by omega)
  obtain ⟨t', evs, h⟩ := overlay_shift_toy (x := 0) (y := 0) (d := 18) (by decide) (by decide) (by omega)
    (by omega) (by omega) (by omega)
  have ha := pairMap_all (x := 0) hw (P := Tame) (toy_tame 28)
  have ha' := pairMap_all (x := 0) hw' (P := Tame) (otherBlock_tame 0)
  refine ⟨t', evs, h, ?_⟩
  have hc := C51_overlay_offset_partial _ _ _ t' evs "other" _ ⟨18, 0, 0⟩ (twoEnv_ok _ _) (fun _ _ => rfl)
    (pairMap_good (by decide) (by decide) _) (pairMap_good (x := 0) (by decide) (by decide) (otherBlock 0)) rfl rfl
    rfl (by intro a h; cases h; decide) rfl (by decide) (ha.mild _) (ha'.mild _) h
  obtain ⟨d', b', g1, g2, -, g3⟩ := hc.good ⟨1, 0, 0⟩ (Toy.data (Toy.block 28)) _ (by unfold ValidBlockPos; decide)
    (by
      show ((1 : Int), _) ∈ _
      unfold pairMap
      simp) (Toy.data_rep hw) rfl
  obtain ⟨g4, -⟩ := g3 2 (by decide)
  have hq : unshift (posAt ⟨1, 0, 0⟩ 2) ⟨18, 0, 0⟩ = ⟨0, 0, 0⟩ := by decide
  rw [hq] at g4
  have hk : keyOf (blockOf ⟨0, 0, 0⟩) = 0 := by decide
  obtain ⟨n1, -⟩ := g4 (stored (otherBlock 0)) (by
    show Selected (some _) _ _
    rw [selected_iff]
    decide) (by
    show Within _ _
    decide) ⟨by unfold ValidBlockPos; decide, rfl, Toy.data (otherBlock 0), by
      rw [hk]
      exact List.mem_cons_self, Toy.data_rep hw'⟩
  exact ⟨d', b', g1, g2, n1 _ (by decide)⟩

/-- The property fails at the edge of the map: the source's node (-31000, 0, 0) is not copied. -/
theorem C51_false : ∃ (env : Env) (args : InstArgs) (t t' : Table) (evs : List Event) (p : String)
    (g : DbFile) (o : Vec3), EnvOk env ∧ (∀ n, env.fail n = false) ∧ GoodTable t ∧ GoodTable g.table ∧
    args.command = "overlay" ∧ args.inputMapPath = some p ∧ mapFile env p = some g ∧
    (∀ a, args.area = some a → a.isValid = true) ∧ args.offset = some o ∧ o ≠ ⟨0, 0, 0⟩ ∧
    AllBlocks env.codec t Tame ∧
    AllBlocks env.codec g.table Tame ∧ Completes env args t t' evs ∧
    ¬ Copied env.codec g.table t t' o (fun p => Selected args.area false (unshift p o)) fun _ => True := by
  have hw := Toy.block_wf 28 (by omega)
  have hw' := otherBlock_wf (flags := 0) (by omega)
  obtain ⟨t', evs, h⟩ := overlay_shift_toy (x := -1938) (y := -31000) (d := 8) (by decide) (by decide)
    (by omega) (by omega) (by omega) (by omega)
  have hg := pairMap_good (x := -1938) (by decide) (by decide) (Toy.block 28)
  have hgs := pairMap_good (x := -1938) (by decide) (by decide) (otherBlock 0)
  have ha := pairMap_all (x := -1938) hw (P := Tame) (toy_tame 28)
  have ha' := pairMap_all (x := -1938) hw' (P := Tame) (otherBlock_tame 0)
  have hv : ∀ a, (overlayShiftArgs (-31000) 8).area = some a → a.isValid = true := by intro a h; cases h; decide
  refine ⟨_, _, _, t', evs, "other", _, ⟨8, 0, 0⟩, twoEnv_ok _ _, fun _ => rfl, hg, hgs, rfl, rfl, rfl, hv,
    rfl, by decide, ha, ha', h, ?_⟩
  have hc := C51_overlay_offset_partial _ _ _ t' evs "other" _ ⟨8, 0, 0⟩ (twoEnv_ok _ _) (fun _ _ => rfl)
    hg hgs rfl rfl rfl hv rfl (by decide) (ha.mild _) (ha'.mild _) h
  intro hfull
  have hin : (keyOf ⟨-1937, 0, 0⟩, Toy.data (Toy.block 28)) ∈ pairMap (-1938) (Toy.block 28) := by
    show ((-1937 : Int), _) ∈ _
    unfold pairMap
    simp
  have hbp : ValidBlockPos ⟨-1937, 0, 0⟩ := by unfold ValidBlockPos; decide
  obtain ⟨d1, b1, g1, g2, -, g3⟩ := hc.good ⟨-1937, 0, 0⟩ _ _ hbp hin (Toy.data_rep hw) rfl
  obtain ⟨d2, b2, f1, f2, -, f3⟩ := hfull.good ⟨-1937, 0, 0⟩ _ _ hbp hin (Toy.data_rep hw) rfl
  have hd : d1 = d2 := by
    have e1 := Table.get?_of_mem hc.nodup g1
    rw [Table.get?_of_mem hc.nodup f1] at e1
    exact (Option.some.inj e1).symm
  subst hd
  rw [represents_unique f2 g2] at f3
  have hq : unshift (posAt ⟨-1937, 0, 0⟩ 0) ⟨8, 0, 0⟩ = ⟨-31000, 0, 0⟩ := by decide
  have g4 := (g3 0 (by decide)).2
  have f4 := (f3 0 (by decide)).1
  rw [hq] at g4 f4
  have e1 := (g4 (fun sb hs => by
    have : ¬ Within 1937 (blockOf ⟨-31000, 0, 0⟩) := by decide
    exact this hs.2.1)).1 _ (by decide : _ = some (ascii "a"))
  have hk : keyOf (blockOf ⟨-31000, 0, 0⟩) = -1938 := by decide
  have e2 := (f4 (stored (otherBlock 0)) (by
    show Selected (some _) _ _
    rw [selected_iff]
    decide) trivial ⟨by unfold ValidBlockPos; decide, rfl, Toy.data (otherBlock 0), by
      rw [hk]
      exact List.mem_cons_self, Toy.data_rep hw'⟩).1 _ (by decide : _ = some (ascii "air"))
  rw [e1] at e2
  exact absurd e2 (by decide)

end MapEditr
