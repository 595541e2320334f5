import Verif.Model.MachineMain
import Verif.Proof.MachineRun
/-!
# Lemmas: the whole program with machine integers
-/

namespace MapEditr.Checked
open Spec

/-- What `setup` finds, with the two versions of a command. -/
inductive SameStart (env : Env) (args : InstArgs) : Res (Except String (Command × Option String)) × World →
    Res (Except String (Command × Option String)) × World → Prop
  | stop (e : Stop) (w : World) : SameStart env args (.error e, w) (.error e, w)
  | err (e : String) (w : World) : SameStart env args (.ok (.error e), w) (.ok (.error e), w)
  | ok {c c' : Command} (h : ∀ r, SameCmd { env with answer := r } args c c') (wn : Option String) {w : World}
      (hw : AllFit env.codec args w) : SameStart env args (.ok (.ok (c, wn)), w) (.ok (.ok (c', wn)), w)

theorem bind_start {α : Type} {env : Env} {args : InstArgs} {m : Run α}
    {f g : α → Run (Except String (Command × Option String))} {w : World}
    (h : ∀ a w', m w = (.ok a, w') → SameStart env args (f a w') (g a w')) :
    SameStart env args ((m >>= f) w) ((m >>= g) w) := by
  rw [run_bind, run_bind]
  rcases e : m w with ⟨r, w1⟩
  cases r with
  | error e' => exact .stop e' w1
  | ok a => exact h a w1 e

theorem setup_same {env : Env} {args : InstArgs} (hv : ∀ a, args.area = some a → a.isValid = true)
    (hm : ∀ f, mapFile env args.mapPath = some f → Fits f.table)
    (hr : ∀ f, mapFile env args.mapPath = some f → RowsFit env.codec args f.table)
    (hi : ∀ p f, args.inputMapPath = some p → mapFile env p = some f → Fits f.table) :
    SameStart env args (setup env args World.start) (MapEditr.setup env args World.start) := by
  unfold setup MapEditr.setup
  cases hva : verifyArgs args with
  | some e => exact .err e _
  | none =>
    simp only
    obtain ⟨ha, ho⟩ := verified_area hva hv
    rcases command_same (env := env) ha ho with ⟨e1, e2⟩ | ⟨c, c', e1, e2, hc⟩
    · rw [e1, e2]; exact .stop _ _
    · have hall : ∀ r, SameCmd { env with answer := r } args c c' := by
        intro r
        rcases command_same (env := { env with answer := r }) ha ho with ⟨f1, -⟩ | ⟨d, d', f1, f2, hd⟩
        · rw [show command? env.build args.command = none from f1] at e1; cases e1
        · rw [show command? env.build args.command = some d from f1] at e1
          rw [f2] at e2
          cases e1
          cases e2
          exact hd
      rw [e1, e2]
      show SameStart env args ((Run.lift (c.verify args) >>= _) _) ((Run.lift (c'.verify args) >>= _) _)
      rw [hc.verify]
      refine bind_start fun res w1 e => ?_
      have h1 : AllFit env.codec args w1 := by
        have : w1 = World.start := by
          cases hr : c'.verify args with
          | error e' => rw [hr] at e; cases e
          | ok r => rw [hr] at e; cases e; rfl
        subst this
        exact start_fit
      have rest : ∀ warning : Option String, SameStart env args ((do
          let ok ← openMap env .main args.mapPath
          if !ok then return .error "Failed to open main world/map."
          else
            match ← MapDb.new env .main with
            | .error _ => return .error "Main world or map database is invalid."
            | .ok _ =>
              match args.inputMapPath with
              | none => return .ok (c, warning)
              | some p =>
                let ok ← openMap env .input p
                if !ok then return .error "Failed to open input world/map."
                else
                  match ← MapDb.new env .input with
                  | .error _ => return .error "Input world or map database is invalid."
                  | .ok _ => return .ok (c, warning) : Run (Except String (Command × Option String))) w1) ((do
          let ok ← openMap env .main args.mapPath
          if !ok then return .error "Failed to open main world/map."
          else
            match ← MapDb.new env .main with
            | .error _ => return .error "Main world or map database is invalid."
            | .ok _ =>
              match args.inputMapPath with
              | none => return .ok (c', warning)
              | some p =>
                let ok ← openMap env .input p
                if !ok then return .error "Failed to open input world/map."
                else
                  match ← MapDb.new env .input with
                  | .error _ => return .error "Input world or map database is invalid."
                  | .ok _ => return .ok (c', warning) : Run (Except String (Command × Option String))) w1) := by
        intro warning
        refine bind_start fun ok w2 e2 => ?_
        have h2 : AllFit env.codec args w2 := by
          have := openMap_fit (j := .main) hm (fun _ => hr) h1
          rw [e2] at this
          exact this
        split
        · exact .err _ _
        · refine bind_start fun r w3 e3 => ?_
          have h3 : AllFit env.codec args w3 := by
            have := new_fit (env := env) (j := .main) h2
            rw [e3] at this
            exact this
          cases r with
          | error _ => exact .err _ _
          | ok _ =>
            simp only
            cases hp : args.inputMapPath with
            | none => exact .ok hall _ h3
            | some p =>
              simp only
              refine bind_start fun ok w4 e4 => ?_
              have h4 : AllFit env.codec args w4 := by
                have := openMap_fit (j := .input) (hi p · hp) (by rintro ⟨⟩) h3
                rw [e4] at this
                exact this
              split
              · exact .err _ _
              · refine bind_start fun r w5 e5 => ?_
                have h5 : AllFit env.codec args w5 := by
                  have := new_fit (env := env) (j := .input) h4
                  rw [e5] at this
                  exact this
                cases r with
                | error _ => exact .err _ _
                | ok _ => exact .ok hall _ h5
      cases res with
      | error e => exact .err _ _
      | ok => exact rest _
      | warning t => exact rest _

theorem bodyProg_same {env : Env} {args : InstArgs} {c c' : Command} {w : World} (h : SameCmd env args c c')
    (hw : AllFit env.codec args w) : bodyProg env args c w = bodyProg env args c' w := by
  unfold bodyProg
  have : finish env args c w = finish env args c' w := run_bind_same (h.func _ hw) fun _ _ _ => rfl
  rw [this]

theorem workerProg_eq {env : Env} {args : InstArgs} (hv : ∀ a, args.area = some a → a.isValid = true)
    (hm : ∀ f, mapFile env args.mapPath = some f → Fits f.table)
    (hr : ∀ f, mapFile env args.mapPath = some f → RowsFit env.codec args f.table)
    (hi : ∀ p f, args.inputMapPath = some p → mapFile env p = some f → Fits f.table) :
    workerProg env args = MapEditr.workerProg env args := by
  have h := setup_same hv hm hr hi
  unfold workerProg MapEditr.workerProg
  generalize setup env args World.start = x at h
  generalize MapEditr.setup env args World.start = y at h
  cases h with
  | stop e w => rfl
  | err e w => rfl
  | @ok c c' h wn w hw =>
    simp only
    have hw' : AllFit env.codec args (w.say (warningEvents args wn)) := hw.same rfl rfl
    rw [bodyProg_same (env := env) (h env.answer) hw']
    have hw2 : AllFit env.codec args ((w.say (warningEvents args wn)).say [.confirmRequest]) := hw'.same rfl rfl
    have hf : (fun r : Option Bool => if r.getD false = true then bodyProg { env with answer := r } args c
          ((w.say (warningEvents args wn)).say [.confirmRequest]) else Prog.ret none) =
        fun r : Option Bool => if r.getD false = true then bodyProg { env with answer := r } args c'
          ((w.say (warningEvents args wn)).say [.confirmRequest]) else Prog.ret none := by
      funext r
      rw [bodyProg_same (h r) hw2]
    rw [hf]

end MapEditr.Checked
