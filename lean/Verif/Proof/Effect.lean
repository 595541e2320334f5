import Verif.Proof.Change
import Verif.Proof.BlockMore
/-! # Lemmas: what a completed run of a block-editing command did, whatever the map holds

`Change` asks for the edit of every block to succeed.  A completed run tells by itself that the edits
of all visited blocks succeeded and that the new blocks could be written; `Effect` asks only for what
follows from that. -/

namespace MapEditr
open Spec
set_option linter.unusedSimpArgs false
set_option linter.unusedVariables false

theorem Saves.names {env : Env} {b : MapBlock} (h : Saves env b) : ∀ e ∈ b.nimap, e.2.length < 65536 := by
  intro e he
  obtain ⟨m, s, hs⟩ := h
  rcases Nat.lt_or_ge e.2.length 65536 with hl | hl
  · exact hl
  · exact absurd hs (notOk_serialize (.inl (notOk_bind (notOk_each he (notOk_bind (notOk_str16 hl))))) s)

/-- What `edit` does to the blocks of `t` when it succeeds and the result can be written: `R` relates
blocks before and after, `F` is what is counted. -/
structure Effect (env : Env) (strs : List Bytes) (area : Option Area) (invert : Bool)
    (edit : Int → MapBlock → Res (Option MapBlock × γ)) (t : Table)
    (R : Vec3 → MapBlock → MapBlock → Prop) (F : Vec3 → MapBlock → γ) (zero : γ) : Prop where
  good : ∀ bp d b, ValidBlockPos bp → (keyOf bp, d) ∈ t → Represents env.codec d b → Wf b →
    (∃ p, InBlock bp p ∧ Selected area invert p) → ∀ ob n, edit (keyOf bp) b = .ok (ob, n) →
      (∀ b', ob = some b' → Saves env b') → n = F bp b ∧
      (ob = none → R bp b b) ∧ ∀ b', ob = some b' → Wf b' ∧ R bp b (stored b')
  skip : ∀ bp d b, ValidBlockPos bp → (keyOf bp, d) ∈ t → Represents env.codec d b → Wf b →
    ((∀ p, InBlock bp p → ¬ Selected area invert p) ∨ nameKeeps (strs.map string16) d = false) →
    R bp b b ∧ F bp b = zero

theorem Change.effect {env : Env} {strs : List Bytes} {area : Option Area} {invert : Bool}
    {edit : Int → MapBlock → Res (Option MapBlock × γ)} {t : Table} {R : Vec3 → MapBlock → MapBlock → Prop}
    {F : Vec3 → MapBlock → γ} {zero : γ} (h : Change env.codec strs area invert edit t R F zero) :
    Effect env strs area invert edit t R F zero := by
  refine ⟨fun bp d b h1 h2 h3 h4 h5 ob n h6 _ => ?_, h.skip⟩
  obtain ⟨ob', h7, h8⟩ := h.good bp d b h1 h2 h3 h4 h5
  rw [h7] at h6
  cases h6
  exact ⟨rfl, h8⟩

theorem Effect.mono {env : Env} {strs : List Bytes} {area : Option Area} {invert : Bool}
    {edit : Int → MapBlock → Res (Option MapBlock × γ)} {t : Table} {R R' : Vec3 → MapBlock → MapBlock → Prop}
    {F : Vec3 → MapBlock → γ} {zero : γ} (h : Effect env strs area invert edit t R F zero)
    (hR : ∀ bp b b', R bp b b' → R' bp b b') : Effect env strs area invert edit t R' F zero := by
  constructor
  · intro bp d b h1 h2 h3 h4 h5 ob n h6 h7
    obtain ⟨f1, f2, f3⟩ := h.good bp d b h1 h2 h3 h4 h5 ob n h6 h7
    exact ⟨f1, fun h => hR _ _ _ (f2 h), fun b' hb' => ⟨(f3 b' hb').1, hR _ _ _ (f3 b' hb').2⟩⟩
  · intro bp d b h1 h2 h3 h4 h5
    obtain ⟨f1, f2⟩ := h.skip bp d b h1 h2 h3 h4 h5
    exact ⟨hR _ _ _ f1, f2⟩

theorem filterMap_congr' {f g : α → Option β} {l : List α} (h : ∀ x ∈ l, f x = g x) :
    l.filterMap f = l.filterMap g := by
  induction l with
  | nil => rfl
  | cons a l ih =>
    rw [List.filterMap_cons, List.filterMap_cons, h a List.mem_cons_self,
      ih fun x hx => h x (List.mem_cons_of_mem _ hx)]

/-- The edits of all visited blocks succeeded. -/
theorem edits_ok {env : Env} {t t' : Table} {late : Bool} {strs : List Bytes} {area : Option Area}
    {invert : Bool} {edit : Int → MapBlock → Res (Option MapBlock × γ)} {add : γ → γ → γ} {g0 g : γ}
    {msg : γ → Msg} {dur : Table} {cols : List Col} {w w' : World}
    (e : Edits env late edit add g0 msg (hits strs area invert t) dur t cols w t' g w')
    {r : Int × Bytes} (hr : r ∈ hits strs area invert t) {b : MapBlock} (hb : Represents env.codec r.2 b) :
    ∃ ob n, edit r.1 b = .ok (ob, n) ∧ ∀ b', ob = some b' → Saves env b' := by
  obtain ⟨d', -, h⟩ := e.on r hr
  rcases h with ⟨⟨er, h3⟩, -⟩ | ⟨b1, ob, n, h3, h4, h5⟩
  · rw [deserialize_iff.2 hb] at h3; cases h3
  · rw [deserialize_iff.2 hb] at h3
    cases h3
    refine ⟨ob, n, h4, ?_⟩
    intro b' hb'
    rcases h5 with ⟨rfl, -⟩ | ⟨b'', m, rfl, h6⟩
    · cases hb'
    · cases hb'
      exact ⟨m, d', h6⟩

section
variable {env : Env} {args : InstArgs} {t t' : Table} {evs : List Event} {late : Bool}
  {strs : List Bytes} {edit : Int → MapBlock → Res (Option MapBlock × γ)} {add : γ → γ → γ} {g0 : γ}
  {msg : γ → Msg} {R : Vec3 → MapBlock → MapBlock → Prop} {F : Vec3 → MapBlock → γ}

/-- In a completed run, every edit can be taken to be the total function `good` describes. -/
theorem effect_change {dur : Table} {cols : List Col} {w w' : World} {g : γ} {area : Option Area}
    {invert : Bool} (hg : (t.map (·.1)).Nodup) (ha : AreaOk area)
    (e : Edits env late edit add g0 msg (hits strs area invert t) dur t cols w t' g w')
    (ch : Effect env strs area invert edit t R F g0) :
    Change env.codec strs area invert
      (fun k b => if nameKeeps (strs.map string16) ((t.get? k).getD []) then edit k b
        else .ok (none, g0)) t R F g0 := by
  refine ⟨fun bp d b h1 h2 h3 h4 h5 => ?_, ch.skip⟩
  rw [Table.get?_of_mem hg h2, Option.getD_some]
  split
  · next hk =>
    have hr : (keyOf bp, d) ∈ hits strs area invert t :=
      mem_hits.2 ⟨h2, (areaKeeps_iff ha invert true h1).2 h5, hk⟩
    obtain ⟨ob, n, f1, f2⟩ := edits_ok e hr h3
    obtain ⟨g1, g2⟩ := ch.good bp d b h1 h2 h3 h4 h5 ob n f1 f2
    exact ⟨ob, by rw [f1, g1], g2⟩
  · next hk =>
    obtain ⟨g1, g2⟩ := ch.skip bp d b h1 h2 h3 h4 (.inr (by simpa using hk))
    exact ⟨none, by rw [g2], fun _ => g1, by intro b' hb'; cases hb'⟩

theorem effect_edited (hE : EnvOk env) (hg : (t.map (·.1)).Nodup) (ha : AreaOk args.area)
    (h : Completes env args t t' evs) {name : String} {cmd : Command} (hc : args.command = name)
    (hcmd : command? name = some cmd) (hv : name ≠ "vacuum")
    (heq : cmd.func env args = editCommand env late strs args.area args.invert edit add g0 msg)
    (ch : Effect env strs args.area args.invert edit t R F g0) :
    Edited env.codec args.area args.invert t t' R := by
  obtain ⟨D, g, e, -⟩ := change_edits h hc hcmd hv hg heq
  refine edits_edited' hE hg ha e ?_ fun bp d b h1 h2 h3 h4 h5 => (ch.skip bp d b h1 h2 h3 h4 h5).1
  intro bp d b h1 h2 h3 h4 h5 ob n h6 h7
  exact (ch.good bp d b h1 h2 h3 h4 h5 ob n h6 h7).2

/-- The part `φ` of the count. -/
theorem effect_sum (hg : GoodTable t) {area : Option Area} {invert : Bool} (ha : AreaOk area)
    {dur : Table} {cols : List Col} {w w' : World} {g : γ}
    (e : Edits env late edit add g0 msg (hits strs area invert t) dur t cols w t' g w')
    (ch : Effect env strs area invert edit t R F g0) {φ : γ → Nat}
    (h0 : φ g0 = 0) (hadd : ∀ x y, φ (add x y) = φ x + φ y) {bs : List (Vec3 × MapBlock)}
    (hb : Listed env.codec t bs) :
    φ (((hits strs area invert t).filterMap (outOf env.codec edit)).foldl add g0)
      = (bs.map fun e => φ (F e.1 e.2)).sum := by
  rw [← change_sum hg ha (effect_change hg ha e ch) h0 hadd hb]
  congr 2
  refine filterMap_congr' fun r hr => ?_
  obtain ⟨h1, -, h2⟩ := mem_hits.1 hr
  unfold outOf
  cases deserialize env.codec r.2 with
  | error x => rfl
  | ok b =>
    simp only
    rw [Table.get?_of_mem hg.nodup (k := r.1) (d := r.2) h1, Option.getD_some, if_pos h2]

/-- The same, where only the counts of the blocks are known. -/
theorem tally_sum (hg : GoodTable t) {area : Option Area} {invert : Bool} (ha : AreaOk area)
    {dur : Table} {cols : List Col} {w w' : World} {g : γ}
    (e : Edits env late edit add g0 msg (hits strs area invert t) dur t cols w t' g w')
    (hn : ∀ bp d b, ValidBlockPos bp → (keyOf bp, d) ∈ t → Represents env.codec d b → Wf b →
      (∃ p, InBlock bp p ∧ Selected area invert p) → ∀ ob n, edit (keyOf bp) b = .ok (ob, n) → n = F bp b)
    (hskip : ∀ bp d b, ValidBlockPos bp → (keyOf bp, d) ∈ t → Represents env.codec d b → Wf b →
      ((∀ p, InBlock bp p → ¬ Selected area invert p) ∨ nameKeeps (strs.map string16) d = false) → F bp b = g0)
    {φ : γ → Nat} (h0 : φ g0 = 0) (hadd : ∀ x y, φ (add x y) = φ x + φ y) {bs : List (Vec3 × MapBlock)}
    (hb : Listed env.codec t bs) :
    φ (((hits strs area invert t).filterMap (outOf env.codec edit)).foldl add g0)
      = (bs.map fun e => φ (F e.1 e.2)).sum := by
  have ch : Change env.codec strs area invert
      (fun k b => if nameKeeps (strs.map string16) ((t.get? k).getD []) then (edit k b).map fun r => (none, r.2)
        else .ok (none, g0)) t (fun _ _ _ => True) F g0 := by
    refine ⟨fun bp d b h1 h2 h3 h4 h5 => ?_, fun bp d b h1 h2 h3 h4 h5 => ⟨trivial, hskip bp d b h1 h2 h3 h4 h5⟩⟩
    rw [Table.get?_of_mem hg.nodup h2, Option.getD_some]
    split
    · next hk =>
      have hr : (keyOf bp, d) ∈ hits strs area invert t :=
        mem_hits.2 ⟨h2, (areaKeeps_iff ha invert true h1).2 h5, hk⟩
      obtain ⟨ob, n, f1, -⟩ := edits_ok e hr h3
      refine ⟨none, ?_, fun _ => trivial, nofun⟩
      rw [f1, ← hn bp d b h1 h2 h3 h4 h5 ob n f1]
      rfl
    · next hk =>
      exact ⟨none, by rw [hskip bp d b h1 h2 h3 h4 (.inr (by simpa using hk))], fun _ => trivial, nofun⟩
  rw [← change_sum hg ha ch h0 hadd hb]
  congr 2
  refine filterMap_congr' fun r hr => ?_
  obtain ⟨h1, -, h2⟩ := mem_hits.1 hr
  unfold outOf
  cases deserialize env.codec r.2 with
  | error x => rfl
  | ok b =>
    simp only
    rw [Table.get?_of_mem hg.nodup (k := r.1) (d := r.2) h1, Option.getD_some, if_pos h2]
    cases edit r.1 b <;> rfl

/-- The run completes if the edits work and yield blocks that can be written. -/
theorem edit_completes (hf : ∀ n, env.fail n = false) (hord : ∀ n, (env.ord n).Lawful)
    {f : DbFile} (hfile : mapFile env args.mapPath = some f) (hcols : colsOk f.cols = true)
    (hg : GoodTable f.table) (ha : AreaOk args.area) (hbad : verifyArgs args = none) {name : String}
    {cmd : Command} (hc : args.command = name) (hcmd : command? name = some cmd)
    (hv : name ≠ "vacuum") {res : ArgResult} (hver : cmd.verify args = .ok res) (hres : ∀ e, res ≠ .error e)
    (hin : args.inputMapPath = none) (hconf : args.doConfirmation = true → env.answer = some true)
    (heq : cmd.func env args = editCommand env late strs args.area args.invert edit add g0 msg)
    (hw : ∀ bp d b, ValidBlockPos bp → (keyOf bp, d) ∈ f.table → Represents env.codec d b → Wf b →
      (∃ p, InBlock bp p ∧ Selected args.area args.invert p) →
      ∃ ob n, edit (keyOf bp) b = .ok (ob, n) ∧ ∀ b', ob = some b' → Wf b') :
    ∃ t' evs, Completes env args f.table t' evs := by
  refine completes_of hbad (by rw [hc]; exact hcmd) hver hres hfile hcols
    (by intro p hp; rw [hin] at hp; cases hp) hf hconf (by rw [hc]; exact hv) ?_
  intro w1 ho _
  rw [heq]
  refine editCommand_works ho hg.nodup hf hord ?_
  intro r hr b hd
  obtain ⟨h0, hsel, -⟩ := mem_hits.1 hr
  obtain ⟨bp, h1, h2, h3⟩ := row_pos hg h0
  rw [← h2, areaKeeps_iff ha args.invert true h1] at hsel
  obtain ⟨ob, n, h4, h5⟩ := hw bp r.2 b h1 (by rw [h2]; exact h0) (deserialize_iff.1 hd)
    (wf_of_deserialize hd) hsel
  rw [← h2]
  exact ⟨ob, _, h4, fun b' hb' ord hord => serialize_ok _ hord (h5 b' hb')⟩

end

theorem effect_reported {env : Env} {args : InstArgs} {t t' : Table} {evs : List Event} {late : Bool}
    {strs : List Bytes} {edit : Int → MapBlock → Res (Option MapBlock × Nat)}
    {R : Vec3 → MapBlock → MapBlock → Prop} {F : Vec3 → MapBlock → Nat} {what : String}
    (hg : GoodTable t) (ha : AreaOk args.area)
    (h : Completes env args t t' evs) {name : String} {cmd : Command} (hc : args.command = name)
    (hcmd : command? name = some cmd) (hv : name ≠ "vacuum")
    (hwhat : what ≠ "Skipped {} invalid/unsupported mapblocks.")
    (heq : cmd.func env args =
      editCommand env late strs args.area args.invert edit (· + ·) 0 (Msg.count what))
    (ch : Effect env strs args.area args.invert edit t R F 0) {bs : List (Vec3 × MapBlock)}
    (hb : Listed env.codec t bs) : Reported evs what (bs.map fun e => F e.1 e.2).sum := by
  obtain ⟨D, g, e, he⟩ := change_edits h hc hcmd hv hg.nodup heq
  rw [he, reported_iff hwhat, e.sum]
  exact effect_sum hg ha e ch (φ := id) rfl (fun _ _ => rfl) hb

end MapEditr
