import Verif.Model.MjModel
import Mathlib.Algebra.Quaternion
import Mathlib.LinearAlgebra.CrossProduct

/-!
# Vectors, rotations, poses and `mjinx/configuration/_lie.py`

`SO3`/`SE3` are jaxlie's classes (external): a rotation is a quaternion `(w, x, y, z)`, a pose a rotation
and a translation.  The operations below are jaxlie's formulas.
-/

namespace Mjinx
open scoped Quaternion Matrix

/-- A vector in space. -/
abbrev V3 (K : Type) := Fin 3 → K
/-- A 3×3 matrix. -/
abbrev M3 (K : Type) := Matrix (Fin 3) (Fin 3) K

section
variable {K : Type} [Field K]

/-- jaxlie's `SE3`: rotation quaternion and translation. -/
structure SE3 (K : Type) [Field K] where
  rot : ℍ[K]
  trans : V3 K

/-- The imaginary part of a quaternion. -/
def imVec (q : ℍ[K]) : V3 K := ![q.imI, q.imJ, q.imK]
/-- `(0, x, y, z)` -/
def pureQuat (v : V3 K) : ℍ[K] := ⟨0, v 0, v 1, v 2⟩

/-- jaxlie `SO3.inverse`: negate the imaginary part. -/
def quatInv (q : ℍ[K]) : ℍ[K] := star q

/-- jaxlie `SO3.apply`: imaginary part of `q v q⁻¹`. -/
def rotate (q : ℍ[K]) (v : V3 K) : V3 K := imVec (q * pureQuat v * quatInv q)

namespace SE3
/-- jaxlie `SE3.identity` -/
def one : SE3 K := ⟨1, 0⟩
/-- jaxlie `SE3.multiply`, `A @ B` -/
def mul (A B : SE3 K) : SE3 K := ⟨A.rot * B.rot, rotate A.rot B.trans + A.trans⟩
/-- jaxlie `SE3.inverse` -/
def inv (A : SE3 K) : SE3 K := ⟨quatInv A.rot, - rotate (quatInv A.rot) A.trans⟩
/-- jaxlie `SE3.apply`: where a point given in the frame `A` is in the world. -/
def apply (A : SE3 K) (p : V3 K) : V3 K := rotate A.rot p + A.trans
end SE3

/-- The quaternion in entries `i .. i+3` of a configuration, order `(w, x, y, z)`.  mjinx passes
`q[[1,2,3,0]]` to `SO3.from_quaternion_xyzw`, which is the same quaternion. -/
def quatAt (q : Nat → K) (i : Nat) : ℍ[K] := ⟨q i, q (i + 1), q (i + 2), q (i + 3)⟩
/-- The three entries `i .. i+2`. -/
def vec3At (q : Nat → K) (i : Nat) : V3 K := ![q i, q (i + 1), q (i + 2)]

/-! ### `configuration/_lie.py` -/

/-- `_lie.py:93-122` `skew_symmetric` -/
def skewSymmetric (v : V3 K) : M3 K := !![0, -v 2, v 1; v 2, 0, -v 0; -v 1, v 0, 0]

/-- `_lie.py:125-156` `attitude_jacobian`: `vstack([-v.T, eye(3) * w + skew(v)])`. -/
def attitudeJacobian (q : ℍ[K]) : Matrix (Fin 4) (Fin 3) K :=
  Matrix.of (Fin.cons (fun j => - imVec q j)
    (fun i j => (if i = j then q.re else 0) + skewSymmetric (imVec q) i j))

/-- `_lie.py:15-25`, the entry for one joint. -/
def jointZero1 : JntType → List K
  | .free => [0, 0, 0, 1, 0, 0, 0]
  | .ball => [1, 0, 0, 0]
  | .hinge => [0]
  | .slide => [0]

/-- `_lie.py:8-27` `get_joint_zero`.  `jnp.concatenate([])` is a `ValueError`. -/
def getJointZero (m : MjModel K) : Except Err (List K) :=
  if m.jntType.length = 0 then .error .valueError else .ok (m.jntType.flatMap jointZero1)

/-- `jac.at[r:r+h, c:c+w].set(block)`; rows and columns outside the matrix are dropped, as in jax (the
slice then has another shape and jax raises; joints of a MuJoCo model fit). -/
def setBlock (A : Mat K) (r c h w : Nat) (B : Nat → Nat → K) : Mat K :=
  ⟨A.rows, A.cols, fun i j => if r ≤ i ∧ i < r + h ∧ c ≤ j ∧ j < c + w then B (i - r) (j - c) else A.get i j⟩

/-- `attitude_jacobian` as an entry function. -/
def attEntry (q : ℍ[K]) (i j : Nat) : K :=
  if h : i < 4 ∧ j < 3 then attitudeJacobian q ⟨i, h.1⟩ ⟨j, h.2⟩ else 0

/-- `_lie.py:189-211`: the loop over the joints; running row and column. -/
def jacDq2vLoop (q : Nat → K) : List (JntType × Nat) → Nat → Nat → Mat K → Mat K
  | [], _, _, A => A
  | (t, adr) :: rest, r, c, A =>
    match t with
    | .free =>
      let A1 := setBlock A r c 3 3 (fun i j => if i = j then 1 else 0)
      let A2 := setBlock A1 (r + 3) (c + 3) 4 3 (attEntry (quatAt q (adr + 3)))
      jacDq2vLoop q rest (r + 7) (c + 6) A2
    | .ball => jacDq2vLoop q rest (r + 4) (c + 3) (setBlock A r c 4 3 (attEntry (quatAt q adr)))
    | .hinge => jacDq2vLoop q rest (r + 1) (c + 1) (setBlock A r c 1 1 (fun _ _ => 1))
    | .slide => jacDq2vLoop q rest (r + 1) (c + 1) (setBlock A r c 1 1 (fun _ _ => 1))

/-- `_lie.py:159-212` `jac_dq2v` -/
def jacDq2v (m : MjModel K) (q : Nat → K) : Mat K :=
  jacDq2vLoop q (m.jntType.zip m.jntQposadr) 0 0 (Mat.zero m.nq m.nv)

end
end Mjinx
