import Verif.Model.Data
import Mathlib.Analysis.SpecialFunctions.Trigonometric.Arctan
import Mathlib.Analysis.Quaternion
import Mathlib.Analysis.Calculus.Deriv.Basic

/-!
# The external rotation functions over the real numbers

`Env` leaves mjx's and jaxlie's rotation functions open.  Where a property depends on them, these are the
formulas of the libraries, over exact real numbers.  `eps` is jaxlie's switch to the Taylor branch
(`get_epsilon`: 1e-5 or 1e-10).
-/

namespace Mjinx
open scoped Quaternion Matrix
open Real

/-- Squared length. -/
def sq3 {K : Type} [Field K] (v : V3 K) : K := v 0 ^ 2 + v 1 ^ 2 + v 2 ^ 2

/-- mjx `math.axis_angle_to_quat(v / |v|, dt * |v|)` (for `v = 0` the axis is zero as in mjx). -/
noncomputable def axisQuat (v : V3 ℝ) (dt : ℝ) : ℍ[ℝ] :=
  let n := √(sq3 v)
  let s := sin (dt * n / 2) / n
  ⟨cos (dt * n / 2), s * v 0, s * v 1, s * v 2⟩

/-- mjx `math.quat_integrate`: multiply by the rotation and normalise. -/
noncomputable def quatIntegrateR (q : ℍ[ℝ]) (v : V3 ℝ) (dt : ℝ) : ℍ[ℝ] :=
  let r := q * axisQuat v dt
  (√(Quaternion.normSq r))⁻¹ • r

/-- jaxlie `SO3.log`: the factor of the imaginary part.  In the last branch the second argument of
`arctan2` is positive, so it is `arctan` of the quotient. -/
noncomputable def so3LogFactor (eps w n2 : ℝ) : ℝ :=
  if n2 < eps then 2 / w - 2 / 3 * n2 / w ^ 3
  else if |w| < eps then (if 0 < w then 1 else -1) * π / √n2
  else 2 * arctan ((if w < 0 then - √n2 else √n2) / |w|) / √n2

/-- jaxlie `SO3.log` -/
noncomputable def so3LogR (eps : ℝ) (q : ℍ[ℝ]) : V3 ℝ :=
  so3LogFactor eps q.re (sq3 (imVec q)) • imVec q

/-- jaxlie `SE3.log`: the matrix `V_inv`. -/
noncomputable def se3LogVinv (eps : ℝ) (om : V3 ℝ) : M3 ℝ :=
  let S := skewSymmetric om
  let t2 := sq3 om
  if t2 < eps then 1 - (1 / 2 : ℝ) • S + (1 / 12 : ℝ) • (S * S)
  else 1 - (1 / 2 : ℝ) • S + ((1 - √t2 * cos (√t2 / 2) / (2 * sin (√t2 / 2))) / t2) • (S * S)

/-- jaxlie `SE3.log`: translational part first. -/
noncomputable def se3LogR (eps : ℝ) (T : SE3 ℝ) : Twist ℝ :=
  let om := so3LogR eps T.rot
  ((se3LogVinv eps om).mulVec T.trans, om)

/-- jaxlie `SO3.exp`: the real part and the factor of the imaginary part, from the squared angle. -/
noncomputable def so3ExpRe (eps t2 : ℝ) : ℝ :=
  if t2 < eps then 1 - t2 / 8 + t2 ^ 2 / 384 else cos (√t2 / 2)
noncomputable def so3ExpFactor (eps t2 : ℝ) : ℝ :=
  if t2 < eps then 1 / 2 - t2 / 48 + t2 ^ 2 / 3840 else sin (√t2 / 2) / √t2

/-- jaxlie `SO3.exp` -/
noncomputable def so3ExpR (eps : ℝ) (om : V3 ℝ) : ℍ[ℝ] :=
  let h := so3ExpFactor eps (sq3 om)
  ⟨so3ExpRe eps (sq3 om), h * om 0, h * om 1, h * om 2⟩

/-- jaxlie `SE3.exp`: in the Taylor branch the matrix `V` is the rotation matrix. -/
noncomputable def se3ExpR (eps : ℝ) (t : Twist ℝ) : SE3 ℝ :=
  let q := so3ExpR eps t.2
  let t2 := sq3 t.2
  let S := skewSymmetric t.2
  ⟨q, if t2 < eps then rotate q t.1
    else (1 + ((1 - cos √t2) / t2) • S + ((√t2 - sin √t2) / (√t2 * t2)) • (S * S)).mulVec t.1⟩

/-- The matrix of a rotation (mjx `math.quat_to_mat`). -/
noncomputable def quatMat (q : ℍ[ℝ]) : M3 ℝ := Matrix.of fun i j => rotate q (Pi.single j 1) i

/-- jaxlie `SO3.from_matrix`: the scalar `t` and the unnormalised quaternion `q = (w, x, y, z)` of each of the four
cases, chosen by the signs of `R22`, `R00 - R11` and `R00 + R11`. -/
noncomputable def fromMatrixCase (R : M3 ℝ) : ℝ × ℍ[ℝ] :=
  let t0 := 1 + R 0 0 - R 1 1 - R 2 2
  let t1 := 1 - R 0 0 + R 1 1 - R 2 2
  let t2 := 1 - R 0 0 - R 1 1 + R 2 2
  let t3 := 1 + R 0 0 + R 1 1 + R 2 2
  if R 2 2 < 0 then
    if R 0 0 > R 1 1 then (t0, ⟨R 2 1 - R 1 2, t0, R 1 0 + R 0 1, R 0 2 + R 2 0⟩)
    else (t1, ⟨R 0 2 - R 2 0, R 1 0 + R 0 1, t1, R 2 1 + R 1 2⟩)
  else
    if R 0 0 < - R 1 1 then (t2, ⟨R 1 0 - R 0 1, R 0 2 + R 2 0, R 2 1 + R 1 2, t2⟩)
    else (t3, ⟨t3, R 2 1 - R 1 2, R 0 2 - R 2 0, R 1 0 - R 0 1⟩)

/-- jaxlie `SO3.from_matrix`: `q * 0.5 / sqrt(t)`. -/
noncomputable def rotOfMatR (R : M3 ℝ) : ℍ[ℝ] :=
  ((1 / 2 : ℝ) / √(fromMatrixCase R).1) • (fromMatrixCase R).2

/-- Entry `i` of a twist (translational part first), and the `j`-th unit twist. -/
def twistEntry (t : Twist ℝ) (i : Fin 6) : ℝ := if h : i.val < 3 then t.1 ⟨i.val, h⟩ else t.2 ⟨i.val - 3, by omega⟩
noncomputable def unitTwist (j : Fin 6) : Twist ℝ :=
  (fun a => if a.val = j.val then 1 else 0, fun a => if a.val + 3 = j.val then 1 else 0)

/-- `jax.jacobian(f)(zeros(6))` for a differentiable `f`: the matrix of partial derivatives at zero. -/
noncomputable def jacZeroR (f : Twist ℝ → Twist ℝ) : Matrix (Fin 6) (Fin 6) ℝ :=
  fun i j => deriv (fun s : ℝ => twistEntry (f (s • unitTwist j)) i) 0

end Mjinx
