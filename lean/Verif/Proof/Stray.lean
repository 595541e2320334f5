import Verif.Proof.Effect
import Verif.Spec.Stray
/-! # Lemmas: block-editing commands and rows whose key belongs to no block -/

namespace MapEditr
open Spec

theorem allBlocks_one {c : Codec} {t : Table} {P : MapBlock → Prop} (h : AllBlocks c t P) {k : Int} {d : Bytes}
    (hd : (k, d) ∈ t) (k' : Int) : AllBlocks c [(k', d)] P := by
  intro j e b hj hr
  rw [List.mem_singleton] at hj
  cases hj
  exact h k d b hd hr

section
variable {env : Env} {args : InstArgs} {t t' : Table} {evs : List Event} {late : Bool}
  {strs : List Bytes} {edit : Int → MapBlock → Res (Option MapBlock × γ)} {add : γ → γ → γ} {g0 : γ}
  {msg : γ → Msg} {R : Vec3 → MapBlock → MapBlock → Prop} {F : Vec3 → MapBlock → γ}

/-- A command that looks at the key only for the block's position does the same for all rows taken for a block. -/
theorem edited_as (htaken : ∀ k bp, TakenFor k bp → Vec3.fromBlockKey k = bp) (hE : EnvOk env)
    (hn : (t.map (·.1)).Nodup) (ha : AreaOk args.area)
    (h : Completes env args t t' evs) {name : String} {cmd : Command} (hc : args.command = name)
    (hcmd : command? name = some cmd) (hv : name ≠ "vacuum")
    (heq : cmd.func env args = editCommand env late strs args.area args.invert edit add g0 msg)
    (hfac : ∀ k k' b, Vec3.fromBlockKey k = Vec3.fromBlockKey k' → edit k b = edit k' b)
    (ch : ∀ k d k', (k, d) ∈ t → Effect env strs args.area args.invert edit [(k', d)] R F g0) :
    EditedAs env.codec args.area args.invert t t' R := by
  obtain ⟨D, g, e, -⟩ := change_edits h hc hcmd hv hn heq
  have hkeep : ∀ r ∈ t, r ∉ hits strs args.area args.invert t → (r.1, r.2) ∈ t' := by
    intro r hr hnot
    have : r.1 ∉ (hits strs args.area args.invert t).map (·.1) := by
      intro hm
      obtain ⟨r', h1, h2⟩ := List.mem_map.1 hm
      have hrt := (mem_hits.1 h1).1
      have e1 := Table.get?_of_mem hn (k := r'.1) (d := r'.2) hrt
      have e2 := Table.get?_of_mem hn (k := r.1) (d := r.2) hr
      rw [h2, e2] at e1
      have : r' = r := Prod.ext h2 (Option.some.inj e1).symm
      exact hnot (this ▸ h1)
    have h1 := e.off _ this
    rw [Table.get?_of_mem hn (k := r.1) (d := r.2) hr] at h1
    exact Table.get?_some_mem h1
  constructor
  · intro k bp d hb hk hd hout
    refine hkeep _ hd fun hh => ?_
    have h1 := (mem_hits.1 hh).2.1
    rw [areaKeeps_key ha args.invert true (htaken k bp hk)] at h1
    obtain ⟨p, hp, hs⟩ := h1
    exact hout p hp hs
  · intro k bp d b hb hk hd hrep
    have hwf := wf_of_deserialize (deserialize_iff.2 hrep)
    have hkey := htaken k bp hk
    have hone : (keyOf bp, d) ∈ [(keyOf bp, d)] := List.mem_singleton.2 rfl
    have hch := ch k d (keyOf bp) hd
    by_cases hh : (k, d) ∈ hits strs args.area args.invert t
    · obtain ⟨d', h1, h2⟩ := e.on _ hh
      have hsel := (mem_hits.1 hh).2.1
      rw [areaKeeps_key ha args.invert true hkey] at hsel
      rcases h2 with ⟨⟨er, h3⟩, -⟩ | ⟨b1, ob, n, h3, h4, h5⟩
      · rw [deserialize_iff.2 hrep] at h3; cases h3
      · rw [deserialize_iff.2 hrep] at h3
        cases h3
        rw [hfac k (keyOf bp) b (by rw [hkey, fromBlockKey_keyOf bp hb])] at h4
        obtain ⟨-, g1, g2⟩ := hch.good bp d b hb hone hrep hwf hsel ob n h4 (by
          intro b' hb'
          rcases h5 with ⟨rfl, -⟩ | ⟨b'', m, rfl, h6⟩
          · cases hb'
          · cases hb'
            exact ⟨m, _, h6⟩)
        rcases h5 with ⟨rfl, rfl⟩ | ⟨b', m, rfl, h6⟩
        · exact ⟨_, b, Table.get?_some_mem h1, hrep, g1 rfl⟩
        · obtain ⟨w1, w2⟩ := g2 b' rfl
          obtain ⟨s, h7, h8⟩ := serialize_spec hE.codec hE.full (hE.ord m) w1
          rw [h6] at h7
          cases h7
          exact ⟨d', stored b', Table.get?_some_mem h1, h8, w2⟩
    · refine ⟨d, b, hkeep _ hd hh, hrep, (hch.skip bp d b hb hone hrep hwf ?_).1⟩
      rw [mem_hits] at hh
      by_cases hs : ∃ p, InBlock bp p ∧ Selected args.area args.invert p
      · right
        have : areaKeeps args.area args.invert true k = true := by
          rw [areaKeeps_key ha args.invert true hkey]
          exact hs
        cases hk2 : nameKeeps (strs.map string16) d with
        | false => rfl
        | true => exact absurd ⟨hd, this, hk2⟩ hh
      · left
        intro p hp hsp
        exact hs ⟨p, hp, hsp⟩

theorem completes_as (htaken : ∀ k bp, TakenFor k bp → Vec3.fromBlockKey k = bp)
    (hf : ∀ n, env.fail n = false) (hord : ∀ n, (env.ord n).Lawful)
    {f : DbFile} (hfile : mapFile env args.mapPath = some f) (hcols : colsOk f.cols = true)
    (hn : (f.table.map (·.1)).Nodup) (hpos : ∀ r ∈ f.table, ∃ bp, ValidBlockPos bp ∧ TakenFor r.1 bp)
    (ha : AreaOk args.area) (hbad : verifyArgs args = none) {name : String}
    {cmd : Command} (hc : args.command = name) (hcmd : command? name = some cmd)
    (hv : name ≠ "vacuum") {res : ArgResult} (hver : cmd.verify args = .ok res) (hres : ∀ e, res ≠ .error e)
    (hin : args.inputMapPath = none) (hconf : args.doConfirmation = true → env.answer = some true)
    (heq : cmd.func env args = editCommand env late strs args.area args.invert edit add g0 msg)
    (hfac : ∀ k k' b, Vec3.fromBlockKey k = Vec3.fromBlockKey k' → edit k b = edit k' b)
    (ch : ∀ k d k', (k, d) ∈ f.table → Change env.codec strs args.area args.invert edit [(k', d)] R F g0) :
    ∃ t' evs, Completes env args f.table t' evs := by
  refine completes_of hbad (by rw [hc]; exact hcmd) hver hres hfile hcols
    (by intro p hp; rw [hin] at hp; cases hp) hf hconf (by rw [hc]; exact hv) ?_
  intro w1 ho _
  rw [heq]
  refine editCommand_works ho hn hf hord ?_
  intro r hr b hd
  obtain ⟨h0, hsel, -⟩ := mem_hits.1 hr
  obtain ⟨bp, h1, h2⟩ := hpos r h0
  have h3 := htaken _ _ h2
  rw [areaKeeps_key ha args.invert true h3] at hsel
  obtain ⟨ob, h4, -, h5⟩ := (ch r.1 r.2 (keyOf bp) h0).good bp r.2 b h1 (List.mem_singleton.2 rfl) (deserialize_iff.1 hd)
    (wf_of_deserialize hd) hsel
  rw [hfac r.1 (keyOf bp) b (by rw [h3, fromBlockKey_keyOf bp h1])]
  exact ⟨ob, _, h4, fun b' hb' ord hord => serialize_ok _ hord (h5 b' hb').1⟩

end
end MapEditr
