import Verif.Proof.Fill
/-! # Lemmas: what remains to be shown about a block-editing command

`Change` collects what has to be known about the change of a single block; the theorems say what
follows for whole runs. -/

namespace MapEditr
open Spec
set_option linter.unusedSimpArgs false
set_option linter.unusedVariables false

/-- What `edit` does to the blocks of `t`: `R` relates blocks before and after, `F` is what is
counted. -/
structure Change (c : Codec) (strs : List Bytes) (area : Option Area) (invert : Bool)
    (edit : Int → MapBlock → Res (Option MapBlock × γ)) (t : Table)
    (R : Vec3 → MapBlock → MapBlock → Prop) (F : Vec3 → MapBlock → γ) (zero : γ) : Prop where
  good : ∀ bp d b, ValidBlockPos bp → (keyOf bp, d) ∈ t → Represents c d b → Wf b →
    (∃ p, InBlock bp p ∧ Selected area invert p) → ∃ ob, edit (keyOf bp) b = .ok (ob, F bp b) ∧
      (ob = none → R bp b b) ∧ ∀ b', ob = some b' → Wf b' ∧ R bp b (stored b')
  skip : ∀ bp d b, ValidBlockPos bp → (keyOf bp, d) ∈ t → Represents c d b → Wf b →
    ((∀ p, InBlock bp p → ¬ Selected area invert p) ∨ nameKeeps (strs.map string16) d = false) →
    R bp b b ∧ F bp b = zero

theorem Change.mono {c : Codec} {strs : List Bytes} {area : Option Area} {invert : Bool}
    {edit : Int → MapBlock → Res (Option MapBlock × γ)} {t : Table} {R R' : Vec3 → MapBlock → MapBlock → Prop}
    {F : Vec3 → MapBlock → γ} {zero : γ} (h : Change c strs area invert edit t R F zero)
    (hR : ∀ bp b b', R bp b b' → R' bp b b') : Change c strs area invert edit t R' F zero := by
  constructor
  · intro bp d b h1 h2 h3 h4 h5
    obtain ⟨ob, f1, f2, f3⟩ := h.good bp d b h1 h2 h3 h4 h5
    exact ⟨ob, f1, fun h => hR _ _ _ (f2 h), fun b' hb' => ⟨(f3 b' hb').1, hR _ _ _ (f3 b' hb').2⟩⟩
  · intro bp d b h1 h2 h3 h4 h5
    obtain ⟨f1, f2⟩ := h.skip bp d b h1 h2 h3 h4 h5
    exact ⟨hR _ _ _ f1, f2⟩

theorem edited_mono {c : Codec} {area : Option Area} {invert : Bool} {t t' : Table}
    {R R' : Vec3 → MapBlock → MapBlock → Prop} (h : Edited c area invert t t' R)
    (hR : ∀ bp b b', R bp b b' → R' bp b b') : Edited c area invert t t' R' := by
  refine ⟨h.nodup, h.keys, h.bad, h.outside, fun bp d b k1 k2 k3 => ?_⟩
  obtain ⟨d', b', f1, f2, f3⟩ := h.good bp d b k1 k2 k3
  exact ⟨d', b', f1, f2, hR _ _ _ f3⟩

/-- Two edits in a row. -/
theorem edited_trans {c : Codec} {area : Option Area} {invert : Bool} {t t' t'' : Table}
    {R S : Vec3 → MapBlock → MapBlock → Prop} (h : Edited c area invert t t' R) (h' : Edited c area invert t' t'' S)
    (bp : Vec3) (d : Bytes) (b : MapBlock) (hbp : ValidBlockPos bp) (hd : (keyOf bp, d) ∈ t)
    (hr : Represents c d b) : ∃ b' b'' d' d'', (keyOf bp, d') ∈ t' ∧ Represents c d' b' ∧
      (keyOf bp, d'') ∈ t'' ∧ Represents c d'' b'' ∧ R bp b b' ∧ S bp b' b'' := by
  obtain ⟨d', b', f1, f2, f3⟩ := h.good bp d b hbp hd hr
  obtain ⟨d'', b'', g1, g2, g3⟩ := h'.good bp d' b' hbp f1 f2
  exact ⟨b', b'', d', d'', f1, f2, g1, g2, f3, g3⟩

theorem lift_ok (a : α) : (Run.lift (.ok a) : Run α) = pure a := rfl

theorem lift_error_bind (e : Stop) (f : α → Run β) :
    (Run.lift (.error e) >>= f : Run β) = Run.lift (.error e) := rfl

/-- The loop body of a command in the common shape. -/
theorem step_eq {env : Env} {edit : Int → MapBlock → Res (Option MapBlock × γ)} {add : γ → γ → γ}
    {g : γ} {key : Int} {body : MapBlock → Run γ}
    (h : ∀ b, body b = (Run.lift (edit key b) >>= fun r => writeOpt env key r.1 >>= fun _ =>
      incIf false >>= fun _ => pure (add g r.2) : Run γ)) :
    (do
      incDone
      let data ← expect (← getBlock env .main key)
      match ← Run.okOr (deserialize env.codec data) with
      | none =>
        incFailed
        return g
      | some block => body block : Run γ) = editStep env false edit add g key := by
  unfold editStep
  simp only [h]
  rfl

theorem DoneRun.body_of {env : Env} {args : InstArgs} {t t' : Table} {evs : List Event}
    (D : DoneRun env args t t' evs) {name : String} {cmd : Command} (hc : args.command = name)
    (h : command? name = some cmd) : cmd.func env args D.w1 = (.ok (), D.w2) := by
  have h1 := D.cmd_ok
  rw [hc, h] at h1
  have := D.body
  rw [← Option.some.inj h1] at this
  exact this

theorem listed_exists (c : Codec) {t : Table} (hg : GoodTable t) : ∃ bs, Listed c t bs := by
  obtain ⟨bs, hb⟩ := readable_exists c t
  have hk : ∀ e ∈ bs, ValidKey e.1 := by
    have hv := hg.valid
    clear hg
    induction hb with
    | nil => intro e he; cases he
    | good _ _ ih =>
      intro e he
      rcases List.mem_cons.1 he with rfl | he
      · exact hv _ List.mem_cons_self
      · exact ih (fun r hr => hv r (List.mem_cons_of_mem _ hr)) e he
    | bad _ _ ih => exact ih fun r hr => hv r (List.mem_cons_of_mem _ hr)
  refine ⟨bs.map fun e => (Vec3.fromBlockKey e.1, e.2), ?_, ?_⟩
  · have : (bs.map fun e => (Vec3.fromBlockKey e.1, e.2)).map (fun e => (keyOf e.1, e.2)) = bs := by
      rw [List.map_map]
      conv => rhs; rw [← List.map_id bs]
      refine List.map_congr_left fun e he => ?_
      exact Prod.ext (keyOf_fromBlockKey e.1 (hk e he)).2 rfl
    rw [this]
    exact hb
  · intro e he
    obtain ⟨e', h1, rfl⟩ := List.mem_map.1 he
    exact (keyOf_fromBlockKey e'.1 (hk e' h1)).1

section
variable {env : Env} {args : InstArgs} {t t' : Table} {evs : List Event} {late : Bool}
  {strs : List Bytes} {edit : Int → MapBlock → Res (Option MapBlock × γ)} {add : γ → γ → γ} {g0 : γ}
  {msg : γ → Msg} {R : Vec3 → MapBlock → MapBlock → Prop} {F : Vec3 → MapBlock → γ}

theorem change_edits (h : Completes env args t t' evs) {name : String} {cmd : Command}
    (hc : args.command = name) (hcmd : command? name = some cmd) (hv : name ≠ "vacuum")
    (hn : (t.map (·.1)).Nodup)
    (heq : cmd.func env args = editCommand env late strs args.area args.invert edit add g0 msg) :
    ∃ D : DoneRun env args t t' evs,
    ∃ g, Edits env late edit add g0 msg (hits strs args.area args.invert t) t t D.f.cols D.w1 t' g D.w2 ∧
      evs = allEvents args D.wn (msg g)
        ((hits strs args.area args.invert t).filter (unreadable env.codec)).length := by
  obtain ⟨D⟩ := completes_done h (by rw [hc]; exact hv)
  have hb := D.body_of hc hcmd
  rw [heq] at hb
  exact ⟨D, doneRun_edits D hn hb⟩

theorem change_edited (hE : EnvOk env) (hg : (t.map (·.1)).Nodup) (ha : AreaOk args.area)
    (h : Completes env args t t' evs) {name : String} {cmd : Command} (hc : args.command = name)
    (hcmd : command? name = some cmd) (hv : name ≠ "vacuum")
    (heq : cmd.func env args = editCommand env late strs args.area args.invert edit add g0 msg)
    (ch : Change env.codec strs args.area args.invert edit t R F g0) :
    Edited env.codec args.area args.invert t t' R := by
  obtain ⟨D, g, e, -⟩ := change_edits h hc hcmd hv hg heq
  refine edits_edited hE hg ha e ?_ fun bp d b h1 h2 h3 h4 h5 => (ch.skip bp d b h1 h2 h3 h4 h5).1
  intro bp d b h1 h2 h3 h4 h5 ob n h6
  obtain ⟨ob', h7, h8⟩ := ch.good bp d b h1 h2 h3 h4 h5
  rw [h7] at h6
  cases h6
  exact h8

/-- The part `φ` of the count. -/
theorem change_sum (hg : GoodTable t) {area : Option Area} {invert : Bool} (ha : AreaOk area)
    (ch : Change env.codec strs area invert edit t R F g0) {φ : γ → Nat}
    (h0 : φ g0 = 0) (hadd : ∀ x y, φ (add x y) = φ x + φ y) {bs : List (Vec3 × MapBlock)}
    (hb : Listed env.codec t bs) :
    φ (((hits strs area invert t).filterMap (outOf env.codec edit)).foldl add g0)
      = (bs.map fun e => φ (F e.1 e.2)).sum := by
  have hfold : ∀ (l : List γ) (g : γ), φ (l.foldl add g) = (l.map φ).foldl (· + ·) (φ g) := by
    intro l
    induction l with
    | nil => intro g; rfl
    | cons x l ih => intro g; rw [List.foldl_cons, ih, List.map_cons, List.foldl_cons, hadd]
  rw [hfold, h0, List.map_filterMap]
  have he : (fun r => (outOf env.codec edit r).map φ) =
      outOf env.codec fun k b => (edit k b).map fun x => (x.1, φ x.2) := by
    funext r
    unfold outOf
    cases deserialize env.codec r.2 with
    | error e => rfl
    | ok b =>
      simp only
      cases edit r.1 b with
      | error e => rfl
      | ok x => rfl
  rw [he]
  have hrow : ∀ r ∈ t, ∃ bp, ValidBlockPos bp ∧ keyOf bp = r.1 ∧ Vec3.fromBlockKey r.1 = bp :=
    fun r hr => row_pos hg hr
  rw [hits_sum hb.1 (f := fun k b => φ (F (Vec3.fromBlockKey k) b)) ?_ ?_]
  · rw [List.map_map]
    congr 1
    refine List.map_congr_left ?_
    rintro ⟨bp, b⟩ hm
    simp only [Function.comp]
    rw [fromBlockKey_keyOf _ (hb.2 _ hm)]
  · intro r hr b hrep hh
    obtain ⟨bp, h1, h2, h3⟩ := hrow r hr
    have hwf := wf_of_deserialize (deserialize_iff.2 hrep)
    have hsel := (mem_hits.1 hh).2.1
    rw [← h2, areaKeeps_iff ha invert true h1] at hsel
    obtain ⟨ob, h4, -⟩ := ch.good bp r.2 b h1 (by rw [h2]; exact hr) hrep hwf hsel
    unfold outOf
    rw [deserialize_iff.2 hrep]
    simp only
    rw [h3, ← h2, h4]
    rfl
  · intro r hr b hrep hh
    obtain ⟨bp, h1, h2, h3⟩ := hrow r hr
    have hwf := wf_of_deserialize (deserialize_iff.2 hrep)
    rw [h3, (ch.skip bp r.2 b h1 (by rw [h2]; exact hr) hrep hwf ?_).2, h0]
    rw [mem_hits] at hh
    by_cases hs : ∃ p, InBlock bp p ∧ Selected area invert p
    · right
      have hk : areaKeeps area invert true r.1 = true := by
        rw [← h2, areaKeeps_iff ha invert true h1]
        exact hs
      cases hk2 : nameKeeps (strs.map string16) r.2 with
      | false => rfl
      | true => exact absurd ⟨hr, hk, hk2⟩ hh
    · left
      intro p hp hsp
      exact hs ⟨p, hp, hsp⟩

theorem change_completes (hf : ∀ n, env.fail n = false) (hord : ∀ n, (env.ord n).Lawful)
    {f : DbFile} (hfile : mapFile env args.mapPath = some f) (hcols : colsOk f.cols = true)
    (hg : GoodTable f.table) (ha : AreaOk args.area) (hbad : verifyArgs args = none) {name : String}
    {cmd : Command} (hc : args.command = name) (hcmd : command? name = some cmd)
    (hv : name ≠ "vacuum") {res : ArgResult} (hver : cmd.verify args = .ok res) (hres : ∀ e, res ≠ .error e)
    (hin : args.inputMapPath = none) (hconf : args.doConfirmation = true → env.answer = some true)
    (heq : cmd.func env args = editCommand env late strs args.area args.invert edit add g0 msg)
    (ch : Change env.codec strs args.area args.invert edit f.table R F g0) :
    ∃ t' evs, Completes env args f.table t' evs := by
  refine completes_of hbad (by rw [hc]; exact hcmd) hver hres hfile hcols
    (by intro p hp; rw [hin] at hp; cases hp) hf hconf (by rw [hc]; exact hv) ?_
  intro w1 ho _
  rw [heq]
  refine editCommand_works ho hg.nodup hf hord ?_
  intro r hr b hd
  obtain ⟨h0, hsel, -⟩ := mem_hits.1 hr
  obtain ⟨bp, h1, h2, h3⟩ := row_pos hg h0
  rw [← h2, areaKeeps_iff ha args.invert true h1] at hsel
  obtain ⟨ob, h4, -, h5⟩ := ch.good bp r.2 b h1 (by rw [h2]; exact h0) (deserialize_iff.1 hd)
    (wf_of_deserialize hd) hsel
  rw [← h2]
  exact ⟨ob, _, h4, fun b' hb' ord hord => serialize_ok _ hord (h5 b' hb').1⟩

end

theorem change_reported {env : Env} {args : InstArgs} {t t' : Table} {evs : List Event} {late : Bool}
    {strs : List Bytes} {edit : Int → MapBlock → Res (Option MapBlock × Nat)}
    {R : Vec3 → MapBlock → MapBlock → Prop} {F : Vec3 → MapBlock → Nat} {what : String}
    (hg : GoodTable t) (ha : AreaOk args.area)
    (h : Completes env args t t' evs) {name : String} {cmd : Command} (hc : args.command = name)
    (hcmd : command? name = some cmd) (hv : name ≠ "vacuum")
    (hwhat : what ≠ "Skipped {} invalid/unsupported mapblocks.")
    (heq : cmd.func env args =
      editCommand env late strs args.area args.invert edit (· + ·) 0 (Msg.count what))
    (ch : Change env.codec strs args.area args.invert edit t R F 0) {bs : List (Vec3 × MapBlock)}
    (hb : Listed env.codec t bs) : Reported evs what (bs.map fun e => F e.1 e.2).sum := by
  obtain ⟨D, g, e, he⟩ := change_edits h hc hcmd hv hg.nodup heq
  rw [he, reported_iff hwhat, e.sum]
  exact change_sum hg ha ch (φ := id) rfl (fun _ _ => rfl) hb

end MapEditr
