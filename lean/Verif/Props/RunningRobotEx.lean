import Verif.Props.RunningRobot
import Verif.Props.WeldClosureEx

/-!
# C117 on a robot: a loop over the clamped robot of C116

A com task, a joint barrier and a hard equality constraint on the robot whose two bodies are welded.
-/

namespace Mjinx.Props
open Spec

namespace ClampRun

noncomputable def com : NewComp ℝ := .comTask ⟨"com", Arr.scalar 2, Arr.scalar 3, none, 0, none⟩

noncomputable def rest : List (Op ℝ) :=
  [.newComp (.jointBarrier ⟨"limits", Arr.scalar 3, none, 1⟩ none none none),
   .newComp (.modelEquality "e" (Arr.scalar 1) true none),
   .newProblem Clamp.model (Arr.scalar (-2)) (Arr.scalar 2), .add 0 0, .add 0 1, .add 0 2,
   .comp 0 (.updateTarget ⟨[3], fun _ => 0⟩)]

noncomputable def setup : List (Op ℝ) := .newComp com :: rest

/-- The world with the com task in it. -/
noncomputable def start : World ℝ :=
  ⟨[Comp.fresh ⟨"com", none, Arr.scalar 3, id, 3, none, [], .comTask ⟨Arr.scalar 2, 0⟩ (Arr.zeros 3)⟩], []⟩

theorem com_ok : step World.init (.newComp com) = (.ok (.ref 0), start) := by
  have h : initTaskA (Arr.scalar 2 : Arr ℝ) 0 = .ok ⟨Arr.scalar 2, 0⟩ := by
    rw [initTaskA, if_neg (lt_irrefl _)]; rfl
  have hr : com.run = .ok (Comp.fresh ⟨"com", none, Arr.scalar 3, id, 3, none, [], .comTask ⟨Arr.scalar 2, 0⟩ (Arr.zeros 3)⟩) := by
    show newComTask _ = _
    simp only [newComTask, checkComMask, bind, Except.bind, h]
    rfl
  simp only [step, hr]
  rfl

theorem run_setup : run World.init setup = run start rest := by
  show run (step World.init (.newComp com)).2 rest = _
  rw [com_ok]

/-- A target for the centre of mass arrives before each control step. -/
noncomputable def acts (xs : List (Arr ℝ)) : List (Act ℝ) := xs.flatMap fun x => [.call (.comp 0 (.updateTarget x)), .tick]

theorem clean (xs : List (Arr ℝ)) : ∀ w, CleanProgram w (callsOf 0 (acts xs)) := by
  induction xs with
  | nil => intro w; trivial
  | cons x xs ih => intro w; exact ⟨trivial, trivial, ih _⟩

theorem clean_setup : CleanProgram World.init setup := by
  refine ⟨trivial, ?_⟩
  rw [com_ok]
  refine ⟨trivial, trivial, trivial, ?_, ?_, ?_, trivial, trivial⟩
  all_goals intro e h; cases h

theorem gentle {xs : List (Arr ℝ)} (h : ∀ x ∈ xs, x.shape.length ≤ 1) (w : World ℝ) : ∀ a ∈ acts xs, Gentle 0 w a := by
  intro a ha
  obtain ⟨x, hx, ha⟩ := List.mem_flatMap.1 ha
  have := h x hx
  fin_cases ha
  · exact fun _ _ _ => this
  · trivial

theorem ready : Ready Clamp.env Clamp.model 0 (run World.init setup) := by
  rw [run_setup]
  refine ⟨_, rfl, rfl, ?_⟩
  intro nj h
  fin_cases h
  · exact ⟨rfl, rfl⟩
  · exact ⟨rfl, Or.inr (Or.inr rfl), Or.inr (Or.inr rfl)⟩
  · exact ⟨rfl, trivial⟩

theorem only : OnlyJointBarriers 0 (run World.init setup) := by
  rw [run_setup]
  intro J hJ nj h hb
  cases hJ
  fin_cases h
  · exact hb.elim
  · exact ⟨_, _, _, _, _, rfl⟩
  · exact hb.elim

end ClampRun

/-- Every control step is solved, whatever the targets and the solver. -/
example {I : Type} (osqp : QPSolver ℝ I) (dt : ℝ) {xs : List (Arr ℝ)} (h : ∀ x ∈ xs, x.shape.length ≤ 1) {q0 : Vec ℝ} (hq0 : q0.len = 3)
    (s0 : LocalIKData ℝ) :
    AtEveryTick Clamp.env osqp Clamp.model 0 dt (Works Clamp.env osqp Clamp.model 0) ⟨run World.init ClampRun.setup, q0, s0⟩ (ClampRun.acts xs) :=
  (C117_robot Clamp.simulates Clamp.robot Clamp.model_fits (fun _ _ => ⟨rfl, rfl⟩) (fun _ _ _ _ => le_refl _) osqp dt
    (clean_concat _ _ _ ClampRun.clean_setup (ClampRun.clean xs _)) ClampRun.ready (ClampRun.gentle h _) hq0 s0).2 ClampRun.only

end Mjinx.Props
