import Verif.Model.SimEquality

/-!
# The simulator: rows of weld constraints

The rows that `mjx.make_constraint` (`mujoco/mjx/_src/constraint.py`, not part of /repo) makes for `weld` constraints between bodies, over the real numbers, for C116.
-/

namespace Mjinx
open scoped Quaternion Matrix

/-- An active `weld` constraint between two bodies: `eq_obj1id`, `eq_obj2id`, `eq_data[0:3]`, `eq_data[3:6]`, `eq_data[6:10]`, `eq_data[10]`. -/
structure Weld where
  body1 : Nat
  body2 : Nat
  anchor1 : V3 ℝ
  anchor2 : V3 ℝ
  relpose : ℍ[ℝ]
  torquescale : ℝ

/-- `constraint.py`, equality constraints of type `weld`: three rows for the difference of two points (the second anchor on the first body, the first anchor on the
second), and three for the vector part of the rotation between the bodies, scaled. -/
noncomputable def weldRows (m : MjModel ℝ) (d : MjData ℝ) (w : Weld) : Except Err (List EfcRow) := do
  let R1 ← jnpGet d.xmat w.body1
  let x1 ← jnpGet d.xpos w.body1
  let R2 ← jnpGet d.xmat w.body2
  let x2 ← jnpGet d.xpos w.body2
  let p1 := R1.mulVec w.anchor2 + x1
  let p2 := R2.mulVec w.anchor1 + x2
  let J1 ← pointJacobian m d p1 w.body1
  let J2 ← pointJacobian m d p2 w.body2
  let q1 ← jnpGet d.xquat w.body1
  let q2 ← jnpGet d.xquat w.body2
  let quat := q1 * w.relpose
  let quat1 := quatInv q2
  let crot := imVec (quat1 * quat)
  let jacdifr := fun k => w.torquescale • ((J1.getD k (0, 0)).2 - (J2.getD k (0, 0)).2)
  return ([0, 1, 2].map fun (a : Fin 3) => ⟨p1 a - p2 a, ⟨m.nv, fun k => (J1.getD k (0, 0)).1 a - (J2.getD k (0, 0)).1 a⟩⟩) ++
    [0, 1, 2].map fun (a : Fin 3) => ⟨w.torquescale * crot a, ⟨m.nv, fun k => (1 / 2) * imVec (quat1 * pureQuat (jacdifr k) * quat) a⟩⟩

end Mjinx
