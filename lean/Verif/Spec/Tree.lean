import Verif.Model.MjModel

/-!
# Kinematic trees
-/

namespace Mjinx.Spec
variable {K : Type}

/-- `Anc parent a b`: body `a` is body `b` or one of its ancestors; body 0 is the world. -/
inductive Anc (parent : List Nat) (a : Nat) : Nat → Prop where
  | self : Anc parent a a
  | step {b : Nat} : b ≠ 0 → Anc parent a (parent.getD b 0) → Anc parent a b

/-- MuJoCo's body tree: parents come before their children; every degree of freedom has a body. -/
structure TreeWF (m : MjModel K) : Prop where
  parent : ∀ b, 0 < b → b < m.nbody → m.bodyParentid.getD b 0 < b
  dof : ∀ b ∈ m.dofBodyid, b < m.nbody
  dofs : m.dofBodyid.length = m.nv
  pos : 0 < m.nbody

/-- The body to which an object belongs. -/
def bodyOf (m : MjModel K) : ObjType → Nat → Option Nat
  | .geom, i => m.geomBodyid[i]?
  | .site, i => m.siteBodyid[i]?
  | _, i => if i < m.nbody then some i else none

end Mjinx.Spec
