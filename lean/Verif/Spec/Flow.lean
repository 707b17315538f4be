import Verif.Spec.Deriv
import Verif.Spec.QP

/-!
# Continuous motion

The limit of a control loop with ever shorter time steps: the configuration is a continuous function of time that at every moment
moves with the velocity chosen there.
-/

namespace Mjinx.Spec
open Mjinx

/-- From time `0` to `T` the configuration `x` moves with velocity `v`: it is continuous, its quaternions have length one, and its
rate of change at every moment (to the right, so the velocity may jump) is the one of integrating the velocity from there. -/
structure MovesWith (env : Env ℝ) (m : MjModel ℝ) (T : ℝ) (x : ℝ → Fin m.nq → ℝ) (v : ℝ → Vec ℝ) : Prop where
  cont : ContinuousOn x (Set.Icc 0 T)
  unit : ∀ t ∈ Set.Ico 0 T, UnitQuats m (vecOf (x t))
  rate : ∀ t ∈ Set.Ico 0 T, ∀ k : Fin m.nq,
    HasDerivWithinAt (fun s => x s k) (deriv (fun s => (integrate env m (vecOf (x t)) (v t) s).get k) 0) (Set.Ici t) t

/-- A continuous control loop of the local solver: at every moment `t` some compiled problem `ps t` is solved at the current
configuration, and the robot moves with any velocity that satisfies its constraints. -/
structure FeasibleFlow (env : Env ℝ) (m : MjModel ℝ) (ps : ℝ → JaxProblem ℝ) (T : ℝ) (x : ℝ → Fin m.nq → ℝ) (v : ℝ → Vec ℝ) : Prop
    extends MovesWith env m T x v where
  model : ∀ t ∈ Set.Ico 0 T, (ps t).model = m
  sized : ∀ t ∈ Set.Ico 0 T, WellSized env (ps t) (update env m (vecOf (x t)))
  feasible : ∀ t ∈ Set.Ico 0 T, ∃ qp, problemQP env m (ps t) (update env m (vecOf (x t))) = .ok qp ∧ Feasible qp (v t).get

end Mjinx.Spec
