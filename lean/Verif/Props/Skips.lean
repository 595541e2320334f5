import Verif.Proof.Skips
import Verif.Proof.Calm
import Verif.Props.Overlay
/-!
# Properties C54, C58: skipped blocks and progress
-/

namespace MapEditr
open Spec

/-! ## C54

The property is `KeepsBytes` with all unreadable blocks being counted, for every command that edits
blocks:

    KeepsBytes env.codec t t' evs Sel fun _ => True

It holds for the eight commands that edit blocks one by one (`C54_edit_partial`), and fails for
`clone` and `overlay`. -/

/-- Commands that edit blocks one by one never change the bytes of blocks outside the selection or of
unreadable blocks, and count the unreadable blocks in the selection.

Missing: the other commands. -/
theorem C54_edit_partial (env : Env) (args : InstArgs) (t t' : Table) (evs : List Event)
    (hg : GoodTable t) (ha : AreaOk args.area) (hm : args.command ∈ editNames)
    (h : Completes env args t t' evs) :
    KeepsBytes env.codec t t' evs
      (fun r => RowTouched args.area args.invert r ∧ Mentions (searchNames args) r.2) fun _ => True := by
  obtain ⟨D⟩ := completes_done h (by intro e; rw [e] at hm; revert hm; decide)
  obtain ⟨γ, edit, add, g0, msg, h1, h2⟩ := editNames_eq hm D.cmd_ok D.body
  have hb := D.body
  rw [h2] at hb
  obtain ⟨g, e, hevs⟩ := doneRun_edits D hg.nodup hb
  have hr := hits_rows (names := searchNames args) (invert := args.invert) ha hg
  refine ⟨?_, ?_, ?_⟩
  · intro r hr' hs
    have hget := Table.get?_of_mem hg.nodup (k := r.1) (d := r.2) hr'
    refine Table.get?_some_mem ((e.off r.1 ?_).trans hget)
    intro hmem
    obtain ⟨r2, h3, h4⟩ := List.mem_map.1 hmem
    have := Table.get?_of_mem hg.nodup (k := r2.1) (d := r2.2) ((hr.2 r2).1 h3).1
    rw [h4, hget] at this
    have : r2 = r := Prod.ext h4 (Option.some.inj this).symm
    subst this
    exact hs ((hr.2 r2).1 h3).2
  · intro r hr' hbad
    have hget := Table.get?_of_mem hg.nodup (k := r.1) (d := r.2) hr'
    by_cases hk : r.1 ∈ (hits (searchNames args) args.area args.invert t).map (·.1)
    · obtain ⟨r2, h3, h4⟩ := List.mem_map.1 hk
      have h5 := Table.get?_of_mem hg.nodup (k := r2.1) (d := r2.2) ((hr.2 r2).1 h3).1
      rw [h4, hget] at h5
      have : r2 = r := Prod.ext h4 (Option.some.inj h5).symm
      subst this
      obtain ⟨d', h6, h7⟩ := e.on r2 h3
      rcases h7 with ⟨-, rfl⟩ | ⟨b, ob, n, h8, -⟩
      · exact Table.get?_some_mem h6
      · exact absurd (deserialize_iff.1 h8) (hbad b)
    · exact Table.get?_some_mem ((e.off r.1 hk).trans hget)
  · intro rows hrows
    have h3 := theRows_filter (Q := Unreadable env.codec) hr (q := unreadable env.codec)
      fun r _ => unreadable_iff
    have hrows' : TheRows t (fun r => (RowTouched args.area args.invert r ∧
        Mentions (searchNames args) r.2) ∧ Unreadable env.codec r) rows :=
      ⟨hrows.1, fun r => by rw [hrows.2]; simp only [and_true]⟩
    rw [theRows_length hg.nodup hrows' h3]
    rw [hevs]
    exact skipReport_all (h1 g)

/-- `deleteblocks` changes no bytes: what it does not delete, it keeps; it deletes only blocks that are
selected entirely. -/
theorem C54_deleteblocks_partial (env : Env) (args : InstArgs) (t t' : Table) (evs : List Event)
    (hg : GoodTable t) (ha : AreaOk args.area) (hc : args.command = "deleteblocks")
    (h : Completes env args t t' evs) :
    (∀ r ∈ t', r ∈ t) ∧ ∀ r ∈ t, ¬ RowInside args.area args.invert r → r ∈ t' := by
  obtain ⟨-, h1, h2⟩ := C39_deleteblocks env args t t' evs hg hc ha h
  refine ⟨h1, ?_⟩
  intro r hr hno
  obtain ⟨bp, h3, h4, -⟩ := row_pos hg hr
  have h5 := (h2 bp r.2 h3 (by rw [h4]; exact hr)).2
  rw [h4] at h5
  refine h5 (Classical.byContradiction fun hall => hno ⟨bp, h3, h4, fun p hp => ?_⟩)
  exact Classical.byContradiction fun hs => hall ⟨p, hp, hs⟩

/-- The messages of a run of a copying command. -/
theorem copy_events {env : Env} {args : InstArgs} {t t' : Table} {evs : List Event}
    (D : DoneRun env args t t' evs) {n : Nat}
    (he : D.w2.events = D.w1.events ++
      [.newState .querying, .newState .ignore, .newState .editing, .newState .ignore])
    (hf : D.w2.status.failed = D.w1.status.failed + n) : SkipReport evs n := by
  intro k
  rw [D.after, he, D.before, hf, D.status]
  simp only [List.mem_append, Nat.zero_add]
  constructor
  · rintro (((h | h) | h) | h)
    · exact absurd h preEvents_not_info
    · simp only [List.mem_cons, List.not_mem_nil, or_false] at h
      rcases h with h | h | h | h <;> cases h
    · unfold skipEvents at h
      split at h
      · next hn =>
        simp only [List.mem_singleton] at h
        cases h
        exact ⟨rfl, hn⟩
      · cases h
    · simp only [List.mem_cons, List.not_mem_nil, or_false] at h
      rcases h with h | h <;> cases h
  · rintro ⟨rfl, hn⟩
    refine .inl (.inr ?_)
    unfold skipEvents
    rw [if_pos hn]
    simp

theorem isBad_iff {c : Codec} {t : Table} (hn : (t.map (·.1)).Nodup) {r : Int × Bytes} (hr : r ∈ t) :
    isBad c t r.1 = true ↔ Unreadable c r ∧ GenData c r.2 := by
  have hget := Table.get?_of_mem hn (k := r.1) (d := r.2) hr
  have hu := unreadable_iff (c := c) (r := r)
  unfold Unreadable
  rw [← hu, ← genData_iff]
  unfold isBad orig genRow unreadable
  rw [hget]
  cases hv : isValidGenerated c r.2 with
  | false => simp [Option.filter, hv]
  | true =>
    have hnp := np_deserialize c r.2
    simp only [Option.filter, hv, if_true, and_true]
    cases h : deserialize c r.2 with
    | ok b => simp
    | error e =>
      cases e with
      | err e => simp
      | panic s => rw [h] at hnp; exact absurd rfl (hnp s)

/-- What a copying command does to rows it does not select or cannot decode. -/
theorem rowsDone_keeps {F : Prop} {env : Env} {args : InstArgs} {t t' src : Table} {evs : List Event}
    (hc : env.codec.Lawful) (D : DoneRun env args t t' evs) (hg : GoodTable t) {area : Option Area} (ha : AreaOk area)
    {part : Int → Area} {o : Vec3} {ks : List Int} (hk : ks.Perm (dests area false t))
    (P : RowsDone F (RawRow F env src t part o) (isBad env.codec t) ks t D.w1 t' D.w2) :
    KeepsRows env.codec t t' (RowTouched area false) ∧ (¬ F →
      KeepsBytes env.codec t t' evs (RowTouched area false) fun r => GenData env.codec r.2) := by
  have hr := hits_rows (names := []) (invert := false) ha hg
  have hmem : ∀ r ∈ t, r.1 ∈ ks ↔ RowTouched area false r := by
    intro r hr'
    rw [hk.mem_iff]
    unfold dests
    rw [List.mem_map]
    constructor
    · rintro ⟨r2, h3, h4⟩
      obtain ⟨-, ⟨bp, h5, h6, h7⟩, -⟩ := (hr.2 r2).1 h3
      exact ⟨bp, h5, h6.trans h4, h7⟩
    · intro h
      exact ⟨r, (hr.2 r).2 ⟨hr', h, .inl rfl⟩, rfl⟩
  have h1 : ∀ r ∈ t, ¬ RowTouched area false r → r ∈ t' := by
    intro r hr' hs
    have hget := Table.get?_of_mem hg.nodup (k := r.1) (d := r.2) hr'
    exact Table.get?_some_mem ((P.off r.1 fun h => hs ((hmem r hr').1 h)).trans hget)
  have h2 : ∀ r ∈ t, Unreadable env.codec r → r ∈ t' := by
    intro r hr' hbad
    have hget := Table.get?_of_mem hg.nodup (k := r.1) (d := r.2) hr'
    by_cases hk : r.1 ∈ ks
    · rcases P.on _ hk with ⟨h1, -⟩ | ⟨b, find, b1, d', hb, -⟩
      · exact Table.get?_some_mem (h1.trans hget)
      · obtain ⟨d, e1, e2, -⟩ := (orig_ok hc).1 hb
        rw [hget] at e1
        cases e1
        exact absurd e2 (hbad b)
    · exact Table.get?_some_mem ((P.off r.1 hk).trans hget)
  refine ⟨⟨h1, h2⟩, fun hF => ⟨h1, h2, ?_⟩⟩
  intro rows hrows
  have h3 := theRows_filter (Q := fun r => Unreadable env.codec r ∧ GenData env.codec r.2) hr
    (q := fun r => isBad env.codec t r.1) fun r hr' => isBad_iff hg.nodup ((hr.2 r).1 hr').1
  have hrows' : TheRows t (fun r => (RowTouched area false r ∧ Mentions [] r.2) ∧
      Unreadable env.codec r ∧ GenData env.codec r.2) rows :=
    ⟨hrows.1, fun r => by
      rw [hrows.2]
      have : Mentions [] r.2 := .inl rfl
      simp only [this, and_true]⟩
  rw [theRows_length hg.nodup hrows' h3]
  have hlen : (ks.filter (isBad env.codec t)).length =
      ((hits [] area false t).filter fun r => isBad env.codec t r.1).length := by
    rw [(hk.filter _).length_eq]
    unfold dests
    rw [List.filter_map, List.length_map]
    rfl
  rw [← hlen]
  exact copy_events D P.events (P.failed.resolve_left hF)

/-- The following for a database in which failing statements are not undone. -/
theorem clone_keeps {F : Prop} (env : Env) [Calm env] (hF : ∀ n, env.fail n = true → F) (args : InstArgs)
    (t t' : Table) (evs : List Event) (a : Area)
    (o : Vec3) (hl : env.codec.Lawful) (hg : GoodTable t)
    (hc : args.command = "clone") (harea : args.area = some a) (ha : a.isValid = true)
    (hoff : args.offset = some o) (h : Completes env args t t' evs) :
    KeepsRows env.codec t t' (RowTouched (some (a.add o)) false) ∧ (¬ F →
      KeepsBytes env.codec t t' evs (RowTouched (some (a.add o)) false) fun r => GenData env.codec r.2) := by
  obtain ⟨D⟩ := completes_done h (by rw [hc]; decide)
  have hbody := D.body_of hc clone_command
  simp only at hbody
  obtain ⟨cur, ks, h2, h3, h4⟩ := clone_raw hF D.start hg harea hoff ha hbody
  obtain ⟨rfl, -⟩ := openAt_unique D.fin h3
  exact rowsDone_keeps hl D hg (by intro x hx; cases hx; exact addArea_valid ha) h2 h4

/-- `clone` never changes the bytes of unreadable blocks and of blocks outside the destination.  If no
statement of this run fails, it reports the unreadable blocks in the destination that claim to be
generated, in a supported version.

Missing: the other unreadable blocks are not counted (`C54_false`), and neither are blocks whose read
fails (`C47_failed_read_false`). -/
theorem C54_clone_partial (env : Env) (args : InstArgs) (t t' : Table) (evs : List Event) (a : Area)
    (o : Vec3) (hl : env.codec.Lawful) (hg : GoodTable t)
    (hc : args.command = "clone") (harea : args.area = some a) (ha : a.isValid = true)
    (hoff : args.offset = some o) (h : Completes env args t t' evs) :
    KeepsRows env.codec t t' (RowTouched (some (a.add o)) false) ∧ (DbWorks env args →
      KeepsBytes env.codec t t' evs (RowTouched (some (a.add o)) false) fun r => GenData env.codec r.2) := by
  constructor
  · haveI : Calm env.calm := ⟨fun _ _ => rfl⟩
    exact (clone_keeps (F := True) env.calm (fun _ _ => trivial) args t t' evs a o hl hg hc harea ha hoff
      (calm_completes (by rw [hc]; decide) h)).1
  · intro hwork
    haveI : Calm (env.failing (fun _ => false) fun _ => false) := calm_of fun _ => rfl
    exact (clone_keeps (F := False) (env.failing (fun _ => false) fun _ => false) (fun _ h => nomatch h)
      args t t' evs a o hl hg hc harea ha hoff (works_completes hwork h)).2 id

/-- The following for a database in which failing statements are not undone. -/
theorem overlay_offset_keeps {F : Prop} (env : Env) [Calm env] (hF : ∀ n, env.fail n = true → F)
    (args : InstArgs) (t t' : Table) (evs : List Event) (p : String)
    (g : DbFile) (o : Vec3) (hl : env.codec.Lawful) (hg : GoodTable t)
    (hc : args.command = "overlay") (hp : args.inputMapPath = some p) (hgf : mapFile env p = some g)
    (hv : ∀ a, args.area = some a → a.isValid = true) (hoff : args.offset = some o) (hz : o ≠ ⟨0, 0, 0⟩)
    (h : Completes env args t t' evs) :
    KeepsRows env.codec t t' (RowTouched (args.area.map fun a => a.add o) false) ∧ (¬ F →
      KeepsBytes env.codec t t' evs (RowTouched (args.area.map fun a => a.add o) false)
        fun r => GenData env.codec r.2) := by
  obtain ⟨D, h1, h2, h3⟩ := overlay_done hc hp hgf h
  rw [if_neg (by rw [hoff]; exact hz)] at h3
  have hinv : args.invert = false := by
    cases hi : args.invert with
    | false => rfl
    | true =>
      have := (overlayVerify_ok h2).2 hi
      rw [hoff] at this
      exact absurd this hz
  obtain ⟨cur', h4, P⟩ := overlayOffset_raw hF D.start h1 hg hoff hinv hv h3
  obtain ⟨rfl, -⟩ := openAt_unique D.fin h4
  exact rowsDone_keeps hl D hg (shiftArea_ok hv o) (List.Perm.refl _) P

/-- The same for `overlay` with an offset. -/
theorem C54_overlay_offset_partial (env : Env) (args : InstArgs) (t t' : Table) (evs : List Event) (p : String)
    (g : DbFile) (o : Vec3) (hl : env.codec.Lawful) (hg : GoodTable t)
    (hc : args.command = "overlay") (hp : args.inputMapPath = some p) (hgf : mapFile env p = some g)
    (hv : ∀ a, args.area = some a → a.isValid = true) (hoff : args.offset = some o) (hz : o ≠ ⟨0, 0, 0⟩)
    (h : Completes env args t t' evs) :
    KeepsRows env.codec t t' (RowTouched (args.area.map fun a => a.add o) false) ∧ (DbWorks env args →
      KeepsBytes env.codec t t' evs (RowTouched (args.area.map fun a => a.add o) false)
        fun r => GenData env.codec r.2) := by
  constructor
  · haveI : Calm env.calm := ⟨fun _ _ => rfl⟩
    exact (overlay_offset_keeps (F := True) env.calm (fun _ _ => trivial) args t t' evs p g o hl hg hc hp hgf
      hv hoff hz (calm_completes (by rw [hc]; decide) h)).1
  · intro hwork
    haveI : Calm (env.failing (fun _ => false) fun _ => false) := calm_of fun _ => rfl
    exact (overlay_offset_keeps (F := False) (env.failing (fun _ => false) fun _ => false)
      (fun _ h => nomatch h) args t t' evs p g o hl hg hc hp hgf hv hoff hz (works_completes hwork h)).2 id

theorem laidBad_iff {c : Codec} {src t : Table} {area : Option Area} {invert : Bool} (hg : GoodTable t)
    (hgs : GoodTable src) (hv : AreaOk area) {r : Int × Bytes} (hr : r ∈ src) :
    laidBad c src t area invert r.1 = true ↔ ¬ RowInside area invert r ∧
      ∃ d, (r.1, d) ∈ t ∧ GenData c d ∧ (Unreadable c r ∨ Unreadable c (r.1, d)) := by
  obtain ⟨bp, h1, h2, -⟩ := row_pos hgs hr
  have hin : RowInside area invert r ↔ Whole area invert bp := by
    constructor
    · rintro ⟨bp', h3, h4, h5⟩
      have : bp' = bp := by
        rw [← fromBlockKey_keyOf bp' h3, ← fromBlockKey_keyOf bp h1, h4, h2]
      subst this
      exact h5
    · exact fun h => ⟨bp, h1, h2, h⟩
  rw [hin]
  unfold laidBad
  cases area with
  | none =>
    simp only [Bool.false_eq_true, false_iff]
    exact fun h => h.1 fun _ _ => trivial
  | some a =>
    simp only [Bool.and_eq_true, Bool.not_eq_true', ← h2, fromBlockKey_keyOf bp h1]
    rw [← Bool.not_eq_true, copiesWhole_iff (hv a rfl)]
    refine and_congr_right fun _ => ?_
    have hs := Table.get?_of_mem hgs.nodup (k := r.1) (d := r.2) hr
    rw [h2]
    have hu : ∀ d, (!((deserialize c r.2).isOk && (deserialize c d).isOk)) = true ↔
        (Unreadable c r ∨ Unreadable c (r.1, d)) := by
      intro d
      unfold Unreadable
      rw [← unreadable_iff, ← unreadable_iff (r := (r.1, d))]
      have n1 := np_deserialize c r.2
      have n2 := np_deserialize c d
      unfold unreadable
      cases h1 : deserialize c r.2 with
      | ok b =>
        cases h2 : deserialize c d with
        | ok b => simp [Except.isOk, Except.toBool]
        | error e => cases e <;> simp [Except.isOk, Except.toBool]
      | error e =>
        cases e <;> simp [Except.isOk, Except.toBool]
    unfold partBad genRow
    rw [hs]
    cases hd : t.get? r.1 with
    | none =>
      simp only [Option.filter_none, Bool.false_eq_true, false_iff]
      rintro ⟨d, h, -⟩
      rw [Table.get?_of_mem hg.nodup h] at hd
      cases hd
    | some d =>
      have hm := Table.get?_some_mem hd
      constructor
      · intro h
        cases hgen : isValidGenerated c d with
        | false => simp [Option.filter, hgen] at h
        | true =>
          simp only [Option.filter, hgen, if_true] at h
          exact ⟨d, hm, (genData_iff c d).1 hgen, (hu d).1 h⟩
      · rintro ⟨d', h3, h4, h5⟩
        rw [Table.get?_of_mem hg.nodup h3] at hd
        cases hd
        simp only [Option.filter, (genData_iff c _).2 h4, if_true]
        exact (hu _).2 h5

/-- The following for a database in which failing statements are not undone. -/
theorem overlay_keeps {F : Prop} (env : Env) [Calm env] (hF : ∀ n, env.fail n = true → F)
    (args : InstArgs) (t t' : Table) (evs : List Event) (p : String)
    (g : DbFile) (hl : env.codec.Lawful) (hg : GoodTable t)
    (hgs : GoodTable g.table) (hc : args.command = "overlay") (hp : args.inputMapPath = some p)
    (hgf : mapFile env p = some g) (hv : AreaOk args.area)
    (hoff : args.offset = none ∨ args.offset = some ⟨0, 0, 0⟩)
    (h : Completes env args t t' evs) :
    (∀ r ∈ t, ¬ RowTouched args.area args.invert r ∨ r.1 ∉ g.table.map (·.1) → r ∈ t') ∧
    (∀ r ∈ t, Unreadable env.codec r → ¬ RowInside args.area args.invert r → r ∈ t') ∧
    (¬ F → ∀ rows, TheRows g.table (PartLost env.codec t args.area args.invert) rows →
      SkipReport evs rows.length) := by
  obtain ⟨D, h1, -, h3⟩ := overlay_done hc hp hgf h
  rw [if_pos (by rcases hoff with e | e <;> rw [e] <;> rfl)] at h3
  obtain ⟨cur', h4, P⟩ := plain_raw hF D.start h1 hgs (args := args) h3
  obtain ⟨rfl, -⟩ := openAt_unique D.fin h4
  have hoffd : ∀ r ∈ t, r.1 ∉ dests args.area args.invert g.table → r ∈ t' := fun r hr hno =>
    Table.get?_some_mem ((P.off r.1 hno).trans (Table.get?_of_mem hg.nodup (k := r.1) (d := r.2) hr))
  refine ⟨?_, ?_, ?_⟩
  · intro r hr hno
    refine hoffd r hr fun hd => ?_
    obtain ⟨bp, h5, h6, -⟩ := row_pos hg hr
    rw [← h6] at hd
    obtain ⟨hm, q, h7, h8⟩ := (mem_dests hgs hv h5).1 hd
    rcases hno with hno | hno
    · exact hno ⟨bp, h5, h6, q, h7, h8⟩
    · exact hno (h6 ▸ hm)
  · intro r hr hbad hno
    by_cases hd : r.1 ∈ dests args.area args.invert g.table
    · have hrow := P.on _ hd
      have hget := Table.get?_of_mem hg.nodup (k := r.1) (d := r.2) hr
      obtain ⟨bp, h5, h6, -⟩ := row_pos hg hr
      unfold RawLaid at hrow
      revert hrow
      generalize hA : args.area = area at *
      cases area with
      | none => exact absurd ⟨bp, h5, h6, fun _ _ => trivial⟩ hno
      | some a =>
        intro hrow
        simp only [← h6, fromBlockKey_keyOf bp h5] at hrow
        rw [if_neg (fun hw => hno ⟨bp, h5, h6, (copiesWhole_iff (hv a rfl) _ bp).1 hw⟩)] at hrow
        rw [h6] at hrow
        rcases hrow with ⟨-, hrow⟩ | ⟨sd, -, -, hrow⟩
        · exact Table.get?_some_mem (hrow.trans hget)
        · refine Table.get?_some_mem ((hrow ?_).trans hget)
          rintro sb b ⟨-, hb⟩
          obtain ⟨d, e1, e2, -⟩ := (orig_ok hl).1 hb
          rw [hget] at e1
          cases e1
          exact hbad b e2
    · exact hoffd r hr hd
  · intro hF rows hrows
    have hr := hits_rows (t := g.table) (names := []) (invert := args.invert) hv hgs
    have h5 := theRows_filter (Q := fun r => ¬ RowInside args.area args.invert r ∧
      ∃ d, (r.1, d) ∈ t ∧ GenData env.codec d ∧ (Unreadable env.codec r ∨ Unreadable env.codec (r.1, d))) hr
      (q := fun r => laidBad env.codec g.table t args.area args.invert r.1)
      fun r hr' => laidBad_iff hg hgs hv ((hr.2 r).1 hr').1
    have hrows' : TheRows g.table (fun r => (RowTouched args.area args.invert r ∧ Mentions [] r.2) ∧
        ¬ RowInside args.area args.invert r ∧
        ∃ d, (r.1, d) ∈ t ∧ GenData env.codec d ∧ (Unreadable env.codec r ∨ Unreadable env.codec (r.1, d))) rows :=
      ⟨hrows.1, fun r => by
        rw [hrows.2]
        have : Mentions [] r.2 := .inl rfl
        simp only [this, and_true]
        rfl⟩
    rw [theRows_length hgs.nodup hrows' h5]
    have hlen : ((dests args.area args.invert g.table).filter
          (laidBad env.codec g.table t args.area args.invert)).length =
        ((hits [] args.area args.invert g.table).filter
          fun r => laidBad env.codec g.table t args.area args.invert r.1).length := by
      unfold dests
      rw [List.filter_map, List.length_map]
      rfl
    rw [← hlen]
    exact copy_events D P.events (P.failed.resolve_left hF)

/-- `overlay` without offset never changes the bytes of blocks without a selected node, of blocks that
the input map does not have, and of unreadable blocks of which not all nodes are selected.  If no statement
of this run fails, it reports the blocks of which it should merge a part but cannot decode one side.

Missing: it overwrites unreadable blocks if all their nodes are selected (`C54_overlay_false`). -/
theorem C54_overlay_partial (env : Env) (args : InstArgs) (t t' : Table) (evs : List Event) (p : String)
    (g : DbFile) (hl : env.codec.Lawful) (hg : GoodTable t)
    (hgs : GoodTable g.table) (hc : args.command = "overlay") (hp : args.inputMapPath = some p)
    (hgf : mapFile env p = some g) (hv : AreaOk args.area)
    (hoff : args.offset = none ∨ args.offset = some ⟨0, 0, 0⟩)
    (h : Completes env args t t' evs) :
    (∀ r ∈ t, ¬ RowTouched args.area args.invert r ∨ r.1 ∉ g.table.map (·.1) → r ∈ t') ∧
    (∀ r ∈ t, Unreadable env.codec r → ¬ RowInside args.area args.invert r → r ∈ t') ∧
    (DbWorks env args → ∀ rows, TheRows g.table (PartLost env.codec t args.area args.invert) rows →
      SkipReport evs rows.length) := by
  haveI : Calm env.calm := ⟨fun _ _ => rfl⟩
  obtain ⟨h1, h2, -⟩ := overlay_keeps (F := True) env.calm (fun _ _ => trivial) args t t' evs p g hl hg hgs hc
    hp hgf hv hoff (calm_completes (by rw [hc]; decide) h)
  refine ⟨h1, h2, fun hwork => ?_⟩
  haveI : Calm (env.failing (fun _ => false) fun _ => false) := calm_of fun _ => rfl
  exact (overlay_keeps (F := False) (env.failing (fun _ => false) fun _ => false) (fun _ h => nomatch h)
    args t t' evs p g hl hg hgs hc hp hgf hv hoff (works_completes hwork h)).2.2 id

/-- The list of rows that `TheRows` talks about always exists, so statements about all such lists (of
which there is only one, `theRows_length`) say something. -/
theorem theRows_exists (t : Table) (P : Int × Bytes → Prop) : ∃ rows, TheRows t P rows := by
  classical
  exact ⟨t.filter fun r => decide (P r), List.filter_sublist, fun r => by simp⟩

/-- Unreadable blocks in and outside of the selection of `fill` and in that of `deletemeta`. -/
example : Completes (editEnv [(0, [1]), (7, [30]), (-4096, [])])
    { runArgs false "fill" "map" none with
      area := some ⟨⟨0, 0, 0⟩, ⟨17, 15, 15⟩⟩, newNode := some "air" }
    [(0, [1]), (7, [30]), (-4096, [])] [(0, [1]), (7, [30]), (-4096, [])]
    (computeThread (editEnv [(0, [1]), (7, [30]), (-4096, [])])
      { runArgs false "fill" "map" none with
        area := some ⟨⟨0, 0, 0⟩, ⟨17, 15, 15⟩⟩, newNode := some "air" } World.start).2.events ∧
    .log .info (.count "Skipped {} invalid/unsupported mapblocks." 1) ∈
      (computeThread (editEnv [(0, [1]), (7, [30]), (-4096, [])])
        { runArgs false "fill" "map" none with
          area := some ⟨⟨0, 0, 0⟩, ⟨17, 15, 15⟩⟩, newNode := some "air" } World.start).2.events :=
  ⟨⟨_, _, _, rfl, rfl, rfl, rfl, by decide, rfl, rfl⟩, by decide⟩

example : Completes (editEnv [(0, [1]), (7, [30]), (-4096, [])]) (runArgs false "deletemeta" "map" none)
    [(0, [1]), (7, [30]), (-4096, [])] [(0, [1]), (7, [30]), (-4096, [])]
    (computeThread (editEnv [(0, [1]), (7, [30]), (-4096, [])]) (runArgs false "deletemeta" "map" none)
      World.start).2.events ∧
    .log .info (.count "Skipped {} invalid/unsupported mapblocks." 3) ∈
      (computeThread (editEnv [(0, [1]), (7, [30]), (-4096, [])]) (runArgs false "deletemeta" "map" none)
        World.start).2.events :=
  ⟨⟨_, _, _, rfl, rfl, rfl, rfl, by decide, rfl, rfl⟩, by decide⟩

/-- `overlay` with an area that cuts through two unreadable blocks, one of which it counts. -/
example : Completes (twoEnv [(0, [2]), (1, [28, 0, 5])] [(0, [28, 0, 7]), (1, [28, 0, 7])])
    { runArgs false "overlay" "map" (some "other") with area := some ⟨⟨15, 0, 0⟩, ⟨16, 0, 0⟩⟩ }
    [(0, [2]), (1, [28, 0, 5])] [(0, [2]), (1, [28, 0, 5])]
    (computeThread (twoEnv [(0, [2]), (1, [28, 0, 5])] [(0, [28, 0, 7]), (1, [28, 0, 7])])
      { runArgs false "overlay" "map" (some "other") with area := some ⟨⟨15, 0, 0⟩, ⟨16, 0, 0⟩⟩ }
      World.start).2.events ∧
    .log .info (.count "Skipped {} invalid/unsupported mapblocks." 1) ∈
      (computeThread (twoEnv [(0, [2]), (1, [28, 0, 5])] [(0, [28, 0, 7]), (1, [28, 0, 7])])
        { runArgs false "overlay" "map" (some "other") with area := some ⟨⟨15, 0, 0⟩, ⟨16, 0, 0⟩⟩ }
        World.start).2.events :=
  ⟨⟨_, _, _, rfl, rfl, rfl, rfl, by decide, rfl, rfl⟩, by decide⟩

/-- The property fails for `clone`: an unreadable block in the destination is not counted if its
version is not supported. -/
theorem C54_false : ∃ (env : Env) (args : InstArgs) (t t' : Table) (evs : List Event) (a : Area) (o : Vec3),
    EnvOk env ∧ (∀ n, env.fail n = false) ∧ GoodTable t ∧ args.command = "clone" ∧ args.area = some a ∧
    a.isValid = true ∧ args.offset = some o ∧ Completes env args t t' evs ∧
    ¬ KeepsBytes env.codec t t' evs (RowTouched (some (a.add o)) false) fun _ => True := by
  have hg : GoodTable [((0 : Int), ([30] : Bytes))] := ⟨by decide, by decide⟩
  have hu : Unreadable (Toy.codec id) (0, [30]) := unreadable_iff.1 (by decide)
  have hb : AllBlocks (Toy.codec id) [((0 : Int), ([30] : Bytes))] Tame := by
    intro k d b hm hr
    rw [List.mem_singleton] at hm
    cases hm
    exact absurd hr (hu b)
  obtain ⟨t', evs, h⟩ := C47_clone_completes (editEnv [(0, [30])]) (cloneArgs 0 1) _ ⟨⟨0, 0, 0⟩, ⟨0, 0, 0⟩⟩
    ⟨1, 0, 0⟩ (editEnv_ok _) (fun _ => rfl) (editEnv_file _) ⟨_, rfl⟩ hg
    (by rw [← verifyArgs_iff]; decide) rfl rfl (by decide) rfl rfl (by
      intro hm
      refine hm ⟨0, 0, 0⟩ ?_ ?_
      · unfold InBox
        decide
      · show Within _ _
        decide) (by intro h; cases h) hb
  refine ⟨_, _, _, t', evs, _, _, editEnv_ok _, fun _ => rfl, hg, rfl, rfl, by decide, rfl, h, fun hk => ?_⟩
  have ht : RowTouched (some (Area.add ⟨⟨0, 0, 0⟩, ⟨0, 0, 0⟩⟩ ⟨1, 0, 0⟩)) false ((0 : Int), ([30] : Bytes)) := by
    refine ⟨⟨0, 0, 0⟩, by unfold ValidBlockPos; decide, rfl, ⟨1, 0, 0⟩, by unfold InBlock; decide, ?_⟩
    rw [selected_iff]
    decide
  have h1 := (hk.counted [(0, [30])] ⟨List.Sublist.refl _, fun r => by
    constructor
    · intro hr
      refine ⟨hr, ?_⟩
      rw [List.mem_singleton] at hr
      subst hr
      exact ⟨ht, hu, trivial⟩
    · exact fun hr => hr.1⟩ 1).2 ⟨rfl, by decide⟩
  have h2 := (((C54_clone_partial _ _ _ t' evs _ _ (editEnv_ok _).codec hg rfl rfl (by decide) rfl h).2
    (fun _ _ => rfl)).counted [] ⟨List.nil_sublist _, fun r => by
      constructor
      · intro hr; cases hr
      · rintro ⟨hr, -, -, h3⟩
        rw [List.mem_singleton] at hr
        subst hr
        exact absurd ((genData_iff _ _).2 h3) (by decide)⟩ 1).1 h1
  exact absurd h2.2 (by decide)

/-- It also fails for `overlay`: an unreadable block of the main map is replaced. -/
theorem C54_overlay_false : ∃ (env : Env) (args : InstArgs) (t t' : Table) (evs : List Event),
    EnvOk env ∧ (∀ n, env.fail n = false) ∧ GoodTable t ∧ args.command = "overlay" ∧
    Completes env args t t' evs ∧ ∃ r ∈ t, Unreadable env.codec r ∧ r ∉ t' := by
  refine ⟨twoEnv [(1, [2])] [(1, [28, 0, 7])], runArgs false "overlay" "map" (some "other"), [(1, [2])],
    [(1, [28, 0, 7])], (computeThread (twoEnv [(1, [2])] [(1, [28, 0, 7])])
      (runArgs false "overlay" "map" (some "other")) World.start).2.events, twoEnv_ok _ _, fun _ => rfl,
    ⟨by decide, by decide⟩, rfl, ⟨_, _, _, rfl, rfl, rfl, rfl, by decide, rfl, rfl⟩, (1, [2]), by simp,
    unreadable_iff.1 (by decide), by decide⟩

/-! ## C58

The property is `AllDone` for every command.  It fails for `replacenodes` (`C58_false`). -/

/-- Progress of the commands that edit blocks one by one.

Missing: `replacenodes`. -/
theorem C58_edit_partial (env : Env) (args : InstArgs) (t : Table) (w : World) (hg : GoodTable t)
    (ha : AreaOk args.area) (hm : args.command ∈ editNames) (hr : args.command ≠ "replacenodes")
    (h : EndsWell env args t w) :
    AllDone w.status t fun r => RowTouched args.area args.invert r ∧ Mentions (searchNames args) r.2 := by
  obtain ⟨f, m, h1, rfl, h2, h3, h4⟩ := h
  obtain ⟨D, hs⟩ := completes_status h1 h2 h3 h4 (by intro e; rw [e] at hm; revert hm; decide)
  obtain ⟨γ, edit, add, g0, msg, -, h6⟩ := editNames_eq hm D.cmd_ok D.body
  have hb := D.body
  rw [h6] at hb
  obtain ⟨g, e, -⟩ := doneRun_edits D hg.nodup hb
  intro rows hrows
  rw [theRows_length hg.nodup hrows (hits_rows ha hg), hs, e.total]
  have hd := e.done
  rw [if_neg (by simpa using hr), D.status] at hd
  exact ⟨rfl, by simpa using hd⟩

/-- `replacenodes` reaches the total but for the blocks it cannot decode. -/
theorem C58_replacenodes_partial (env : Env) (args : InstArgs) (t : Table) (w : World) (hg : GoodTable t)
    (ha : AreaOk args.area) (hc : args.command = "replacenodes") (h : EndsWell env args t w)
    (rows bad : Table)
    (hrows : TheRows t (fun r => RowTouched args.area args.invert r ∧ Mentions (searchNames args) r.2) rows)
    (hbad : TheRows t (fun r => (RowTouched args.area args.invert r ∧ Mentions (searchNames args) r.2) ∧
      Unreadable env.codec r) bad) :
    w.status.total = rows.length ∧ w.status.done + bad.length = rows.length := by
  obtain ⟨f, m, h1, rfl, h2, h3, h4⟩ := h
  obtain ⟨D, hs⟩ := completes_status h1 h2 h3 h4 (by rw [hc]; decide)
  obtain ⟨γ, edit, add, g0, msg, -, h6⟩ := editNames_eq (by rw [hc]; decide) D.cmd_ok D.body
  have hb := D.body
  rw [h6] at hb
  obtain ⟨g, e, -⟩ := doneRun_edits D hg.nodup hb
  have hr := hits_rows (names := searchNames args) (invert := args.invert) ha hg
  have hr' := theRows_filter (Q := Unreadable env.codec) hr (q := unreadable env.codec)
      fun r _ => unreadable_iff
  rw [theRows_length hg.nodup hrows hr, theRows_length hg.nodup hbad hr', hs, e.total]
  have hd := e.done
  rw [if_pos (by simpa using hc), D.status] at hd
  exact ⟨rfl, by simpa using hd⟩

/-- Progress of `deleteblocks`. -/
theorem C58_deleteblocks_partial (env : Env) (args : InstArgs) (t : Table) (w : World) (hg : GoodTable t)
    (ha : AreaOk args.area) (hc : args.command = "deleteblocks") (h : EndsWell env args t w) :
    AllDone w.status t (RowInside args.area args.invert) := by
  obtain ⟨f, m, h1, rfl, h2, h3, h4⟩ := h
  obtain ⟨D, hs⟩ := completes_status h1 h2 h3 h4 (by rw [hc]; decide)
  obtain ⟨-, h5, h6, -⟩ := deleteBlocks_run D.start (D.body_of hc deleteBlocks_command)
  intro rows hrows
  rw [D.status] at h6
  have hr : TheRows f.table (RowInside args.area args.invert) (queryHits [] args.area args.invert false f.table) := by
    rw [queryHits_eq]
    refine ⟨List.filter_sublist, fun r => ?_⟩
    rw [List.mem_filter, List.map_nil, nameKeeps_nil, Bool.and_true]
    refine and_congr_right fun hr => ?_
    obtain ⟨bp, h7, h8, -⟩ := row_pos hg hr
    rw [← h8, areaKeeps_iff ha args.invert false h7]
    constructor
    · intro h9
      exact ⟨bp, h7, h8, h9⟩
    · rintro ⟨bp', h9, h10, h11⟩
      have : bp' = bp := by
        rw [← fromBlockKey_keyOf bp' h9, ← fromBlockKey_keyOf bp h7, h8, h10]
      subst this
      exact h11
  rw [theRows_length hg.nodup hrows hr, hs, h5, h6]
  simp [doomed]

/-- Progress of `clone`. -/
theorem C58_clone_partial (env : Env) (args : InstArgs) (t : Table) (w : World) (a : Area) (o : Vec3)
    (hg : GoodTable t) (hc : args.command = "clone") (harea : args.area = some a) (ha : a.isValid = true)
    (hoff : args.offset = some o) (h : EndsWell env args t w) :
    AllDone w.status t (RowTouched (some (a.add o)) false) := by
  obtain ⟨f, m, h1, rfl, h2, h3, h4⟩ := h
  obtain ⟨D, hs⟩ := completes_status h1 h2 h3 h4 (by rw [hc]; decide)
  have hb := D.body_of hc clone_command
  simp only [clone] at hb
  rw [harea, hoff] at hb
  have hb : (queryKeys env .main [] (some (a.add o)) false true >>= fun keys =>
      (Run.lift (sortKeys o keys) >>= fun keys => beginEditing >>= fun _ =>
        keys.foldlM (cloneStep env (a.add o) o) (CacheMap.withCapacity BLOCK_CACHE_SIZE) : Run _) >>=
      fun _ => endEditing : Run Unit) D.w1 = (.ok (), D.w2) := by
    rw [← hb]
    simp only [bind_assoc]
    rfl
  have hao : AreaOk (some (a.add o)) := by intro x hx; cases hx; exact addArea_valid ha
  have h5 := counts_loop D.start D.status (fun ks => by
    intro w a w' hw
    obtain ⟨ks', w1, h5, h7⟩ := run_bind_iff.1 hw
    obtain ⟨h6, rfl⟩ := run_lift_iff.1 h5
    rw [← sortKeys_length h6, ← Nat.mul_one ks'.length]
    exact counts_bind0 (counts_setState _) (fun _ => counts_foldlM (counts_cloneStep env _ o) _ _) _ _ _ h7)
    (fun _ => counts_setState _) hb
  intro rows hrows
  rw [theRows_length hg.nodup hrows (touched_rows hao hg), hs]
  exact h5

/-- Progress of `overlay` without offset, which goes through the blocks of the input map. -/
theorem C58_overlay_partial (env : Env) (args : InstArgs) (t : Table) (w : World) (p : String) (g : DbFile)
    (hgs : GoodTable g.table) (hc : args.command = "overlay") (hp : args.inputMapPath = some p)
    (hgf : mapFile env p = some g) (hv : AreaOk args.area)
    (hoff : args.offset = none ∨ args.offset = some ⟨0, 0, 0⟩) (h : EndsWell env args t w) :
    AllDone w.status g.table (RowTouched args.area args.invert) := by
  obtain ⟨f, m, h1, rfl, h2, h3, h4⟩ := h
  obtain ⟨D, hs⟩ := completes_status h1 h2 h3 h4 (by rw [hc]; decide)
  obtain ⟨ho, -, hb⟩ := overlay_parts hc hp hgf D
  rw [if_pos (by rcases hoff with e | e <;> rw [e] <;> rfl)] at hb
  have hb : (queryKeys env .input [] args.area args.invert true >>= fun keys =>
      (beginEditing >>= fun _ => keys.foldlM (fun _ k => overlayStep env args.area args.invert k) () : Run _) >>=
      fun _ => endEditing : Run Unit) D.w1 = (.ok (), D.w2) := by
    rw [← hb]
    simp only [bind_assoc]
    rfl
  have h5 := counts_loop ho D.status (fun ks => by
    have := counts_bind0 (counts_setState .editing) fun _ =>
      counts_foldlM (fun (_ : Unit) k => counts_overlayStep env args.area args.invert k) ks ()
    rwa [Nat.mul_one] at this)
    (fun _ => counts_setState _) hb
  intro rows hrows
  rw [theRows_length hgs.nodup hrows (touched_rows hv hgs), hs]
  exact h5

/-- Progress of `overlay` with an offset. -/
theorem C58_overlay_offset_partial (env : Env) (args : InstArgs) (t : Table) (w : World) (p : String) (g : DbFile)
    (o : Vec3) (hg : GoodTable t) (hc : args.command = "overlay") (hp : args.inputMapPath = some p)
    (hgf : mapFile env p = some g) (hv : ∀ a, args.area = some a → a.isValid = true)
    (hoff : args.offset = some o) (hz : o ≠ ⟨0, 0, 0⟩) (h : EndsWell env args t w) :
    AllDone w.status t (RowTouched (args.area.map fun a => a.add o) false) := by
  obtain ⟨f, m, h1, rfl, h2, h3, h4⟩ := h
  obtain ⟨D, hs⟩ := completes_status h1 h2 h3 h4 (by rw [hc]; decide)
  obtain ⟨-, hov, hb⟩ := overlay_parts hc hp hgf D
  rw [if_neg (by rw [hoff]; exact hz)] at hb
  have hinv : args.invert = false := by
    cases hi : args.invert with
    | false => rfl
    | true =>
      have := (overlayVerify_ok hov).2 hi
      rw [hoff] at this
      exact absurd this hz
  simp only [overlayWithOffset] at hb
  rw [hoff, hinv] at hb
  have hb : (queryKeys env .main [] (args.area.map fun a => a.add o) false true >>= fun keys =>
      (beginEditing >>= fun _ => keys.foldlM (overlayOffsetStep env (args.area.map fun a => a.add o) o)
        (CacheMap.withCapacity BLOCK_CACHE_SIZE) : Run _) >>=
      fun _ => endEditing : Run Unit) D.w1 = (.ok (), D.w2) := by
    rw [← hb]
    simp only [bind_assoc]
    rfl
  have h5 := counts_loop D.start D.status (fun ks => by
    have := counts_bind0 (counts_setState .editing) fun _ =>
      counts_foldlM (counts_overlayOffsetStep env (args.area.map fun a => a.add o) o) ks
        (CacheMap.withCapacity BLOCK_CACHE_SIZE)
    rwa [Nat.mul_one] at this)
    (fun _ => counts_setState _) hb
  intro rows hrows
  rw [theRows_length hg.nodup hrows (touched_rows (shiftArea_ok hv o) hg), hs]
  exact h5

/-- Runs that end well, with something done. -/
example : ∃ w, EndsWell (editEnv [(0, [1]), (7, [30]), (-4096, [])]) (runArgs false "deletemeta" "map" none)
    [(0, [1]), (7, [30]), (-4096, [])] w ∧ w.status.done = 3 :=
  ⟨_, ⟨_, _, rfl, rfl, rfl, by decide, rfl⟩, rfl⟩

example : ∃ w, EndsWell (twoEnv [(1, [2])] [(1, [28, 0, 7])]) (runArgs false "overlay" "map" (some "other"))
    [(1, [2])] w ∧ w.status.done = 1 :=
  ⟨_, ⟨_, _, rfl, rfl, rfl, by decide, rfl⟩, rfl⟩

example : ∃ w, EndsWell (twoEnv [(1, [2]), (2, [3])] [(1, [28, 0, 7])])
    { runArgs false "overlay" "map" (some "other") with offset := some ⟨5, 0, 0⟩ }
    [(1, [2]), (2, [3])] w ∧ w.status.done = 2 :=
  ⟨_, ⟨_, _, rfl, rfl, rfl, by decide, rfl⟩, rfl⟩

/-- The property fails for `replacenodes`: blocks that cannot be decoded do not count as done. -/
theorem C58_false : ∃ (env : Env) (args : InstArgs) (t : Table) (w : World),
    EnvOk env ∧ (∀ n, env.fail n = false) ∧ GoodTable t ∧ args.command = "replacenodes" ∧
    EndsWell env args t w ∧
    ¬ AllDone w.status t fun r => RowTouched args.area args.invert r ∧ Mentions (searchNames args) r.2 := by
  refine ⟨editEnv [(0, [30])], { runArgs false "replacenodes" "map" none with
    node := some "air", newNode := some "ignore" }, [(0, [30])], _, editEnv_ok _, fun _ => rfl,
    ⟨by decide, by decide⟩, rfl, ⟨_, _, rfl, rfl, rfl, by decide, rfl⟩, fun h => ?_⟩
  have := (h [(0, [30])] ⟨List.Sublist.refl _, fun r => by
    constructor
    · intro hr
      refine ⟨hr, ?_⟩
      rw [List.mem_singleton] at hr
      subst hr
      refine ⟨⟨⟨0, 0, 0⟩, by unfold ValidBlockPos; decide, rfl, ⟨1, 0, 0⟩, by unfold InBlock; decide, ?_⟩,
        .inr (.inl (by decide))⟩
      trivial
    · exact fun hr => hr.1⟩).2
  exact absurd this (by decide)

end MapEditr
