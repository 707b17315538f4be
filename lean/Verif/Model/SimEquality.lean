import Verif.Model.Simulator

/-!
# The simulator: rows of equality constraints

`mjx.make_constraint` is external (`mujoco/mjx/_src/constraint.py`, not part of /repo).  This file writes down the rows it makes for `connect` constraints between
bodies and for `joint` constraints, over the real numbers, for C113.  The rows of `weld` constraints are in `SimWeld`; those of
friction, limits and contacts remain open.
-/

namespace Mjinx
open scoped Matrix

/-- One row of the arrays `efc_pos` and `efc_J`. -/
structure EfcRow where
  pos : ℝ
  jac : Vec ℝ

/-- An active `connect` constraint between two bodies: `eq_obj1id`, `eq_obj2id`, `eq_data[0:3]`, `eq_data[3:6]`. -/
structure Connect where
  body1 : Nat
  body2 : Nat
  anchor1 : V3 ℝ
  anchor2 : V3 ℝ

/-- `constraint.py`, equality constraints of type `connect`: the anchors in world coordinates, their difference, and the difference of their Jacobians. -/
noncomputable def connectRows (m : MjModel ℝ) (d : MjData ℝ) (c : Connect) : Except Err (List EfcRow) := do
  let R1 ← jnpGet d.xmat c.body1
  let x1 ← jnpGet d.xpos c.body1
  let R2 ← jnpGet d.xmat c.body2
  let x2 ← jnpGet d.xpos c.body2
  let p1 := R1.mulVec c.anchor1 + x1
  let p2 := R2.mulVec c.anchor2 + x2
  let J1 ← pointJacobian m d p1 c.body1
  let J2 ← pointJacobian m d p2 c.body2
  return [0, 1, 2].map fun (a : Fin 3) => ⟨p1 a - p2 a, ⟨m.nv, fun k => (J1.getD k (0, 0)).1 a - (J2.getD k (0, 0)).1 a⟩⟩

/-- An active `joint` constraint: `eq_obj1id`, `eq_obj2id` (`none` for -1) and the polynomial `eq_data[0:5]`. -/
structure Coupling where
  joint1 : Nat
  joint2 : Option Nat
  coef : Nat → ℝ

/-- `constraint.py`, equality constraints of type `joint`: `q1 - ref1 - poly(q2 - ref2)`, where `q2 - ref2` is 0 without second joint. -/
noncomputable def couplingRow (G : Geometry) (m : MjModel ℝ) (d : MjData ℝ) (k : Coupling) : EfcRow :=
  let a1 := m.jntQposadr.getD k.joint1 0
  let dif := match k.joint2 with
    | none => 0
    | some j => d.qpos.get (m.jntQposadr.getD j 0) - G.qpos0 (m.jntQposadr.getD j 0)
  let deriv := if k.joint2.isSome then ∑ i ∈ Finset.range 4, k.coef (i + 1) * ((i + 1) * dif ^ i) else 0
  { pos := d.qpos.get a1 - G.qpos0 a1 - ∑ i ∈ Finset.range 5, k.coef i * dif ^ i
    jac := ⟨m.nv, fun i => if i = m.jntDofadr.getD k.joint1 0 then 1
      else if k.joint2.map (fun j => m.jntDofadr.getD j 0) = some i then - deriv else 0⟩ }

end Mjinx
