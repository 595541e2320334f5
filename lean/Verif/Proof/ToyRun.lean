import Verif.Proof.ToyMap
import Verif.Proof.Effect
/-! # A run of a block-editing command on the small map, for witnesses -/

namespace MapEditr
open Spec

/-- `editEnv` for the given build. -/
def toyEnv (bd : Build) (t : Table) : Env := { editEnv t with build := bd }

theorem toyEnv_ok (bd : Build) (t : Table) : EnvOk (toyEnv bd t) :=
  ⟨Toy.lawful id, Toy.fullWrites, fun _ => Toy.ord_lawful⟩

theorem origin_valid : ValidBlockPos ⟨0, 0, 0⟩ := by
  unfold ValidBlockPos
  decide

/-- The readable block of the small map. -/
theorem toyMap_row {b : MapBlock} (hw : Wf b) {bp : Vec3} (hbp : ValidBlockPos bp) {d : Bytes} {b0 : MapBlock}
    (hd : (keyOf bp, d) ∈ toyMap b) (hr : Represents (Toy.codec id) d b0) : bp = ⟨0, 0, 0⟩ ∧ d = Toy.data b ∧ b0 = stored b := by
  unfold toyMap at hd
  simp only [List.mem_cons, List.not_mem_nil, or_false, Prod.mk.injEq] at hd
  rcases hd with ⟨h, rfl⟩ | ⟨-, rfl⟩
  · refine ⟨?_, rfl, represents_unique hr (Toy.data_rep hw)⟩
    have h1 := fromBlockKey_keyOf bp hbp
    rw [h] at h1
    exact h1.symm.trans (by decide)
  · exact absurd hr (bad25 b0)

theorem toy_run {bd : Build} {args : InstArgs} {b : MapBlock} (hw : Wf b) (hpath : args.mapPath = "map")
    (ha : AreaOk args.area) (hbad : verifyArgs args = none) {name : String}
    {cmd : Command} (hc : args.command = name) (hcmd : command? name = some cmd)
    (hv : name ≠ "vacuum") {res : ArgResult} (hver : cmd.verify args = .ok res) (hres : ∀ e, res ≠ .error e)
    (hin : args.inputMapPath = none) (hconf : args.doConfirmation = false)
    {late : Bool} {strs : List Bytes} {edit : Int → MapBlock → Res (Option MapBlock × γ)} {add : γ → γ → γ} {g0 : γ}
    {msg : γ → Msg}
    (heq : cmd.func (toyEnv bd (toyMap b)) args =
      editCommand (toyEnv bd (toyMap b)) late strs args.area args.invert edit add g0 msg)
    (hsel : ∃ p, InBlock ⟨0, 0, 0⟩ p ∧ Selected args.area args.invert p)
    (hk : nameKeeps (strs.map string16) (Toy.data b) = true)
    {b' : MapBlock} {n : γ} (hedit : edit (keyOf ⟨0, 0, 0⟩) (stored b) = .ok (some b', n)) (hw' : Wf b') :
    ∃ t' evs d', Completes (toyEnv bd (toyMap b)) args (toyMap b) t' evs ∧
      (keyOf ⟨0, 0, 0⟩, Toy.data b) ∈ toyMap b ∧ Represents (Toy.codec id) (Toy.data b) (stored b) ∧
      (keyOf ⟨0, 0, 0⟩, d') ∈ t' ∧ Represents (Toy.codec id) d' (stored b') := by
  obtain ⟨t', evs, h⟩ : ∃ t' evs, Completes (toyEnv bd (toyMap b)) args (toyMap b) t' evs := by
    refine edit_completes (f := ⟨toyMap b, [⟨"pos", "INT", 1⟩, ⟨"data", "BLOB", 0⟩]⟩) (fun _ => rfl)
      (fun _ => Toy.ord_lawful) (by rw [hpath]; rfl) (by rfl) (toyMap_good b) ha hbad hc hcmd hv hver hres hin
      (by rw [hconf]; nofun) heq ?_
    intro bp d b0 hbp hd hrep hwf hsel
    obtain ⟨rfl, rfl, rfl⟩ := toyMap_row hw hbp hd hrep
    exact ⟨_, _, hedit, fun b' hb' => by cases hb'; exact hw'⟩
  have hE : Edited (Toy.codec id) args.area args.invert (toyMap b) t' fun bp _ b1 => bp = ⟨0, 0, 0⟩ → b1 = stored b' := by
    obtain ⟨D, g, e, -⟩ := change_edits h hc hcmd hv (toyMap_good b).nodup heq
    refine edits_edited' (toyEnv_ok bd _) (toyMap_good b) ha e ?_ ?_
    · intro bp d b0 h1 h2 h3 h4 h5 ob n h6 h7
      obtain ⟨rfl, rfl, rfl⟩ := toyMap_row hw h1 h2 h3
      rw [hedit] at h6
      cases h6
      exact ⟨nofun, fun b'' hb'' => by cases hb''; exact ⟨hw', fun _ => rfl⟩⟩
    · intro bp d b0 h1 h2 h3 h4 h5
      obtain ⟨rfl, rfl, rfl⟩ := toyMap_row hw h1 h2 h3
      rcases h5 with h5 | h5
      · obtain ⟨p, hp, hps⟩ := hsel
        exact absurd hps (h5 p hp)
      · rw [hk] at h5; cases h5
  have hm : (keyOf ⟨0, 0, 0⟩, Toy.data b) ∈ toyMap b := List.mem_cons_self
  obtain ⟨d', b1, h1, h2, h3⟩ := hE.good _ _ _ origin_valid hm (Toy.data_rep hw)
  rw [h3 rfl] at h2
  exact ⟨t', evs, d', h, hm, Toy.data_rep hw, h1, h2⟩

end MapEditr
