import Verif.Model.Lie
import Verif.Model.LocalIK
import Mathlib.Analysis.Calculus.Deriv.Basic
import Mathlib.LinearAlgebra.CrossProduct
import Mathlib.LinearAlgebra.Matrix.Determinant.Basic
import Mathlib.LinearAlgebra.Matrix.Trace

/-!
# Rigid motions
-/

namespace Mjinx.Spec
open scoped Matrix

/-- A rigid motion: `X t` says where the points of a rigid object are at time `t`, given by their coordinates in the frame of the object. -/
abbrev Motion := ℝ → V3 ℝ → V3 ℝ

/-- The object moves as a rigid body with the constant velocity `lin` and the constant angular velocity `ang`, both given in its own frame: at each
time there is a rotation `R` so that the point `p` of the object is at `R p + o` and moves with velocity `R (lin + ang × p)`. -/
def ConstantVelocity (X : Motion) (lin ang : V3 ℝ) : Prop :=
  ∀ t, ∃ (R : M3 ℝ) (o : V3 ℝ), R * Rᵀ = 1 ∧ R.det = 1 ∧ ∀ p, X t p = R.mulVec p + o ∧
    ∀ i, HasDerivAt (fun s => X s p i) (R.mulVec (lin + crossProduct ang p) i) t

/-- The thresholds of the logarithm: the rotation matrix `M` is the identity or turns by an angle `φ` with `eps ≤ sin² (φ/2)`, and is a half turn or
has `eps ≤ cos (φ/2)`; the trace of `M` is `1 + 2 cos φ`. -/
def OutsideThresholds (eps : ℝ) (M : M3 ℝ) : Prop :=
  M = 1 ∨ 4 * eps ≤ 3 - M.trace ∧ (M.trace = -1 ∨ 4 * eps ^ 2 ≤ 1 + M.trace)

/-- The thresholds of the logarithm for two unit quaternions with scalar product `w`. -/
def FarEnough (eps w : ℝ) : Prop := w ^ 2 = 1 ∨ eps ≤ 1 - w ^ 2 ∧ (w = 0 ∨ eps ≤ |w|)

/-- The scalar product of the quaternions that two configurations have at `adr`. -/
noncomputable def quatDot (q1 q2 : Vec ℝ) (adr : Nat) : ℝ :=
  q1.get adr * q2.get adr + q1.get (adr + 1) * q2.get (adr + 1) + q1.get (adr + 2) * q2.get (adr + 2) + q1.get (adr + 3) * q2.get (adr + 3)

end Mjinx.Spec
