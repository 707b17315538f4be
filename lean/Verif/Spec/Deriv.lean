import Verif.Spec.Sim
import Mathlib.Analysis.Calculus.FDeriv.Pi
import Mathlib.Analysis.Calculus.FDeriv.Comp
import Mathlib.Analysis.Calculus.Deriv.Pi
import Mathlib.Analysis.Calculus.Deriv.Comp
import Mathlib.Topology.Algebra.Module.FiniteDimension

/-!
# Derivatives of functions of a configuration

What `jax.jacrev` is assumed to return, and which degrees of freedom are angular velocities of a free or ball joint.
-/

namespace Mjinx.Spec
open Mjinx

/-- The array with the given entries. -/
def vecOf {n : Nat} (x : Fin n → ℝ) : Vec ℝ := ⟨n, fun i => if h : i < n then x ⟨i, h⟩ else 0⟩

/-- The entries of an array. -/
def coordsOf (q : Vec ℝ) : Fin q.len → ℝ := fun i => q.get i

/-- Every entry of `f` is differentiable at `q`. -/
def Smooth (f : Vec ℝ → Vec ℝ) (q : Vec ℝ) : Prop :=
  ∀ i < (f (vecOf (coordsOf q))).len, DifferentiableAt ℝ (fun x : Fin q.len → ℝ => (f (vecOf x)).get i) (coordsOf q)

/-- `jax.jacrev`: for a differentiable function, row `i` of the result is the derivative of entry `i`. -/
structure JacrevExact (env : Env ℝ) : Prop where
  cols : ∀ f q, (env.jacrev f q).cols = q.len
  deriv : ∀ f q, Smooth f q → ∀ i < (f (vecOf (coordsOf q))).len,
    HasFDerivAt (fun x : Fin q.len → ℝ => (f (vecOf x)).get i)
      (∑ k : Fin q.len, (env.jacrev f q).get i k • (ContinuousLinearMap.proj k : (Fin q.len → ℝ) →L[ℝ] ℝ)) (coordsOf q)

/-- The partial derivatives; this is what `jax.jacrev` returns. -/
noncomputable def jacrevR (f : Vec ℝ → Vec ℝ) (q : Vec ℝ) : Mat ℝ :=
  ⟨(f q).len, q.len, fun i k => if h : k < q.len then
    fderiv ℝ (fun x : Fin q.len → ℝ => (f (vecOf x)).get i) (coordsOf q) (Pi.single ⟨k, h⟩ 1) else 0⟩

/-- Whether the velocity entries of a joint are angular velocities of a rotation given by a quaternion. -/
def dofKinds : JntType → List Bool
  | .free => [false, false, false, true, true, true]
  | .ball => [true, true, true]
  | .hinge => [false]
  | .slide => [false]

/-- Velocity entry `k` is an angular velocity of a free or ball joint. -/
def angularDof {K : Type} (m : MjModel K) (k : Nat) : Bool := (m.jntType.flatMap dofKinds).getD k false

end Mjinx.Spec
