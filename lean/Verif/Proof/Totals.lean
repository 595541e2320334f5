import Verif.Proof.MachineRun
/-! # Lemmas: how many blocks a run may count -/

namespace MapEditr
namespace Checked
open Spec

/-- At most `n` rows. -/
def Short (n : Nat) (t : Table) : Prop := t.length ≤ n

/-- Both databases have at most `n` rows. -/
def BothShort (n : Nat) (w : World) : Prop := KeysFit (Short n) .main w ∧ KeysFit (Short n) .input w

/-- From a world without a total, the total stays small. -/
def Tot {α : Type} (n : Nat) (m : Run α) : Prop :=
  ∀ w, BothShort n w → w.status.total = 0 → (m w).2.status.total ≤ n

section
variable {α β : Type} {n : Nat}

theorem tot_keep {m : Run α} {g : α → Run β} (h : ∀ w, (m w).2.dbs = w.dbs ∧ (m w).2.status = w.status)
    (hg : ∀ a, Tot n (g a)) : Tot n (m >>= g) := by
  intro w hw hz
  have h1 := h w
  rcases run_bind_cases m g w with ⟨a, w1, e1, e2⟩ | ⟨e, w1, e1, e2⟩
  · rw [e2]
    rw [e1] at h1
    exact hg a w1 ⟨hw.1.same h1.1, hw.2.same h1.1⟩ (by rw [h1.2]; exact hz)
  · rw [e2]
    rw [e1] at h1
    show w1.status.total ≤ n
    rw [h1.2, hz]
    exact Nat.zero_le _

theorem tot_unwrap {o : Option α} {g : α → Run β} (hg : ∀ a, Tot n (g a)) : Tot n (Run.unwrap o >>= g) :=
  tot_keep (fun _ => ⟨rfl, rfl⟩) hg

theorem tot_then {m : Run α} {g : α → Run β} (h : Tot n m) (hg : ∀ a, Still (g a)) : Tot n (m >>= g) := by
  intro w hw hz
  have h1 := h w hw hz
  rcases run_bind_cases m g w with ⟨a, w1, e1, e2⟩ | ⟨e, w1, e1, e2⟩
  · rw [e2]
    rw [e1] at h1
    rw [(hg a w1).1]
    exact h1
  · rw [e2]
    rw [e1] at h1
    exact h1

theorem tot_advs {m : Run α} {d f : Nat} (h : Advs d f m) : Tot n m := by
  intro w _ hz
  rw [(h w).total, hz]
  exact Nat.zero_le _

theorem queryKeys_error {env : Env} {i : DbId} {strs : List Bytes} {area : Option Area} {invert p : Bool}
    {w w' : World} {e : Stop} (h : MapEditr.queryKeys env i strs area invert p w = (.error e, w')) :
    w'.status.total = w.status.total := by
  unfold MapEditr.queryKeys at h
  rcases run_bind_cases (setState .querying) _ w with ⟨a, w1, e1, e2⟩ | ⟨e', w1, e1, e2⟩
  rotate_left
  · cases e1
  rw [e2] at h
  have h1 : w1.status.total = w.status.total := by cases e1; rfl
  clear e2
  simp only at h
  split at h
  · have h3 := still_iterRows env i w1
    rcases run_bind_cases (iterRows env i) _ w1 with ⟨rows, w2, e3, e4⟩ | ⟨e', w2, e3, e4⟩
    · rw [e4] at h
      obtain ⟨k, l, as, hf⟩ := queryStep_fold (MapEditr.queryKeeps (strs.map string16) (MapEditr.queryArea area invert p)
        (area.isSome && (MapEditr.queryArea area invert p).isNone) invert) rows.zipIdx [] w2
      rw [run_bind_ok hf] at h
      cases h
    · rw [e4] at h
      rw [e3] at h3
      cases h
      rw [← h1]
      exact congrArg Status.total h3.1
  · cases h

theorem tot_query {env : Env} {i : DbId} {strs : List Bytes} {area : Option Area} {invert p : Bool}
    {g : List Int → Run β} {d f : List Int → Nat} (h : ∀ keys, Advs (d keys) (f keys) (g keys)) :
    Tot n (MapEditr.queryKeys env i strs area invert p >>= g) := by
  intro w hw hz
  rcases run_bind_cases (MapEditr.queryKeys env i strs area invert p) g w with ⟨a, w1, e1, e2⟩ | ⟨e, w1, e1, e2⟩
  · rw [e2, (h a w1).total, queryKeys_total e1]
    have hs : KeysFit (Short n) i w := by
      cases i
      · exact hw.1
      · exact hw.2
    obtain ⟨-, -, -, rfl | ⟨rows, h1, h2⟩⟩ := queryKeys_sub hs e1
    · exact Nat.zero_le _
    · have := h2.length_le
      rw [List.length_map] at this
      exact Nat.le_trans this h1
  · rw [e2]
    show w1.status.total ≤ n
    rw [queryKeys_error e1, hz]
    exact Nat.zero_le _

theorem tot_command {name : String} {cmd : Command} (h : MapEditr.command? name = some cmd) (env : Env) (args : InstArgs) :
    Tot n (cmd.func env args) := by
  unfold MapEditr.command? at h
  rw [Option.map_eq_some_iff] at h
  obtain ⟨⟨n, c⟩, h1, rfl⟩ := h
  have hm := List.mem_of_find?_eq_some h1
  unfold MapEditr.commands at hm
  simp only [List.mem_cons, List.not_mem_nil, or_false, Prod.mk.injEq] at hm
  rcases hm with ⟨_, rfl⟩ | ⟨_, rfl⟩ | ⟨_, rfl⟩ | ⟨_, rfl⟩ | ⟨_, rfl⟩ | ⟨_, rfl⟩ | ⟨_, rfl⟩ | ⟨_, rfl⟩ |
    ⟨_, rfl⟩ | ⟨_, rfl⟩ | ⟨_, rfl⟩ | ⟨_, rfl⟩
  · refine tot_unwrap fun src => tot_unwrap fun off => tot_query (d := List.length) (f := List.length) fun keys => ?_
    cases h : MapEditr.sortKeys off keys with
    | error e => exact (still_lift _).advs
    | ok ks =>
      rw [← sortKeys_length h]
      exact advs_edit' (fun cache k => advs_cloneStep env _ _ _ _) ks _
  · exact tot_query fun keys => advs_edit' (fun _ key => advs_done fun _ =>
      (still_bind (still_deleteBlock _ _ _) fun _ => still_expect _).advs) _ _
  · exact tot_query fun keys => advs_edit (fun c k => advs_deleteMetaStep _ _ _ _ _) _ _ fun _ => still_log _ _
  · exact tot_query fun keys => advs_edit (fun c k => advs_deleteObjectsStep _ _ _ _ _ _) _ _ fun _ => still_log _ _
  · exact tot_query fun keys => advs_edit (fun c k => advs_deleteTimersStep _ _ _ _ _) _ _ fun _ => still_log _ _
  · exact tot_unwrap fun _ => tot_unwrap fun _ => tot_query fun keys =>
      advs_edit (fun c k => advs_fillStep _ _ _ _ _ _) _ _ fun _ => still_log _ _
  · exact tot_unwrap fun _ => tot_unwrap fun _ => tot_query fun keys =>
      advs_edit (fun c k => advs_replaceStep _ _ _ _ _ _) _ _ fun _ => still_log _ _
  · exact tot_unwrap fun _ => tot_query fun keys =>
      advs_edit (fun c k => advs_replaceInInvStep _ _ _ _ _ _ _) _ _ fun _ => still_log _ _
  · show Tot _ (MapEditr.overlay _ _ _)
    unfold MapEditr.overlay
    refine tot_keep (fun w => by unfold theDb; split <;> exact ⟨rfl, rfl⟩) fun m => ?_
    split
    · exact tot_query fun keys => advs_edit' (fun _ key => advs_overlayStep env _ _ _) _ _
    · exact tot_unwrap fun off => tot_query fun keys =>
        advs_edit' (fun cache key => advs_overlayOffsetStep env _ _ _ _) _ _
  · exact tot_unwrap fun _ => tot_query fun keys =>
      advs_edit (fun c k => advs_setMetaVarStep _ _ _ _ _ _ _) _ _ fun _ => still_log _ _
  · exact tot_unwrap fun _ => tot_query fun keys =>
      advs_edit (fun c k => advs_param2Step _ _ _ _ _ _) _ _ fun _ => still_log _ _
  · refine tot_keep (fun _ => ⟨rfl, rfl⟩) fun _ => tot_advs (d := 0) (f := 0) ?_
    refine advs_then (advs_showProgress _) fun _ => advs_then (advs_setState _) fun _ =>
      advs_still (still_vacuum _ _) fun r => advs_then (advs_setState _) fun _ => ?_
    cases r <;> exact (still_log _ _).advs

end

theorem opened_short {n : Nat} {i j : DbId} {f : DbFile} {w : World} (h : KeysFit (Short n) i w) (hf : f.table.length ≤ n) :
    KeysFit (Short n) i (w.opened j f) :=
  KeysFit.same (KeysFit.set (j := j) (m := ⟨⟨f.table, f.table, true, f.cols⟩, true⟩) h fun _ => ⟨hf, hf⟩) rfl

theorem tot_worker {n : Nat} (env : Env) (args : InstArgs)
    (hm : ∀ f, mapFile env args.mapPath = some f → f.table.length ≤ n)
    (hi : ∀ p f, args.inputMapPath = some p → mapFile env p = some f → f.table.length ≤ n) :
    (MapEditr.worker env args World.start).2.status.total ≤ n := by
  have h2 := (still_setup env args World.start).1
  have hc : (MapEditr.computeThread env args World.start).2.status.total ≤ n := by
    rw [computeThread_eq]
    refine run_bind_ind (P := fun w => w.status.total ≤ n) (fun a w1 e1 => ?_) fun e w1 e1 => ?_
    · rw [e1] at h2
      replace h2 : w1.status.total = 0 := by
        rw [h2]
        rfl
      match a with
      | .error e => exact Nat.le_trans (Nat.le_of_eq h2) (Nat.zero_le _)
      | .ok (cmd, wn) =>
        obtain ⟨-, hcmd, -, hw⟩ := setup_iff.1 e1
        have hs : BothShort n w1 := by
          have h0 : ∀ i, KeysFit (Short n) i World.start := fun _ _ h => by cases h
          obtain ⟨f, hf, -, -, hw⟩ := hw
          have h1 : ∀ i, KeysFit (Short n) i (World.start.opened .main f) := fun i => opened_short (h0 i) (hm f hf)
          cases hp : args.inputMapPath with
          | none =>
            rw [hp] at hw
            subst hw
            exact ⟨h1 _, h1 _⟩
          | some p =>
            rw [hp] at hw
            obtain ⟨g, hg, -, -, rfl⟩ := hw
            exact ⟨opened_short (h1 _) (hi p g hp hg), opened_short (h1 _) (hi p g hp hg)⟩
        show (runCommand env args cmd wn w1).2.status.total ≤ n
        rw [MapEditr.runCommand_eq]
        split
        · exact Nat.le_trans (Nat.le_of_eq h2) (Nat.zero_le _)
        · obtain ⟨g, e, hg⟩ := finish_then env args cmd
          rw [e]
          exact tot_then (tot_command hcmd env args) hg _ ⟨hs.1.same rfl, hs.2.same rfl⟩ h2
    · rw [e1] at h2
      show w1.status.total ≤ n
      rw [h2]
      exact Nat.zero_le _
  unfold MapEditr.worker
  refine run_bind_ind (P := fun w => w.status.total ≤ n) (fun a w1 e1 => ?_) fun e w1 e1 => ?_
  · rw [e1] at hc
    cases a with
    | error e => exact hc
    | ok u => exact hc
  · rw [e1] at hc
    exact hc

end Checked
end MapEditr
