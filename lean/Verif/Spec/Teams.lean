import Verif.Spec.Simulator
import Verif.Spec.Control
import Verif.Model.Eval

/-!
# Several robots in one scene
-/

noncomputable section

namespace Mjinx.Spec

/-- The bodies in `S` are separate mechanisms: a body is in `S` iff the body it hangs on is, unless it hangs on the world. -/
def Separate (m : MjModel ℝ) (S : Nat → Prop) : Prop :=
  ∀ b, 0 < b → b < m.nbody → m.bodyParentid.getD b 0 ≠ 0 → (S b ↔ S (m.bodyParentid.getD b 0))

/-- Degree of freedom `k` moves a body in `S`. -/
def Drives (m : MjModel ℝ) (S : Nat → Prop) (k : Nat) : Prop := S (m.dofBodyid.getD k 0)

/-- Object `i` is on a body in `S`, not on the world. -/
def IsOn (m : MjModel ℝ) (S : Nat → Prop) (ty : ObjType) (i : Int) : Prop := 0 ≤ i ∧ ∃ b, bodyOf m ty i.toNat = some b ∧ b ≠ 0 ∧ S b

/-- The component is about bodies in `S` only: its joints, objects, geometries or constraint rows are.  (A centre-of-mass task is about all bodies.) -/
def IsAbout (env : Env ℝ) (m : MjModel ℝ) (S : Nat → Prop) (j : JaxComp ℝ) : Prop :=
  j.model = m ∧
  match j.kind with
  | .comTask .. => False
  | .jointTask .. | .jointBarrier .. => ∀ k ∈ j.maskIdxs, Drives m S k
  | .positionTask _ _ i ty _ | .frameTask _ _ i ty _ | .positionBarrier _ i ty _ _ _ => IsOn m S ty i
  | .selfCollision _ _ pairs _ => ∀ g ∈ pairs, IsOn m S .geom g.1 ∧ IsOn m S .geom g.2
  | .modelEquality .. => ∀ q, ∀ row ∈ eqSelect (update env m q).efcEq (update env m q).efcJ, ∀ k, ¬ Drives m S k → row.get k = 0

/-- The component does not see degrees of freedom outside `D`. -/
def Term.Sees (D : Nat → Prop) (t : Term ℝ) : Prop := ∀ r < t.jac.rows, ∀ k < t.jac.cols, ¬ D k → t.jac.get r k = 0

open Classical in
/-- The velocity `u` on the degrees of freedom in `D`, `v` on the others. -/
def joined (D : Nat → Prop) (u v : Nat → ℝ) : Nat → ℝ := fun k => if D k then u k else v k

/-- Two configurations put the mechanisms in `S` in the same place: they agree on the coordinates of the joints of `S`. -/
def PlacedSame (m : MjModel ℝ) (S : Nat → Prop) (q q' : Vec ℝ) : Prop :=
  ∀ j < m.jntType.length, Drives m S (m.jntDofadr.getD j 0) → ∀ i < (m.jntType.getD j .hinge).nq,
    q.get (m.jntQposadr.getD j 0 + i) = q'.get (m.jntQposadr.getD j 0 + i)

/-- The component looks only at `S`.  Joint tasks and barriers: the coordinates it reads are those of scalar joints of `S`.  Self-collision barriers: the contacts of two
geometries of `S` are the same when `S` is in the same place.  Equality constraints: their rows are. -/
def LooksAt (env : Env ℝ) (m : MjModel ℝ) (S : Nat → Prop) (j : JaxComp ℝ) : Prop :=
  match j.kind with
  | .jointTask _ _ _ qi | .jointBarrier _ _ _ qi => ∀ a ∈ qi, a < m.nq ∧ ∃ i < m.jntType.length, a = m.jntQposadr.getD i 0 ∧ Drives m S (m.jntDofadr.getD i 0)
  | .selfCollision .. => ∀ q q', PlacedSame m S q q' →
      (∀ t1 t2, (env.collide m (update env m q')).known t1 t2 = (env.collide m (update env m q)).known t1 t2 ∧
        (env.collide m (update env m q')).ncon t1 t2 = (env.collide m (update env m q)).ncon t1 t2) ∧
      ∀ key g n, IsOn m S .geom g.1 → IsOn m S .geom g.2 → (env.collide m (update env m q')).contact key g n = (env.collide m (update env m q)).contact key g n
  | .modelEquality .. => ∀ q q', PlacedSame m S q q' → eqSelect (update env m q').efcEq (update env m q').efcPos = eqSelect (update env m q).efcEq (update env m q).efcPos ∧
      eqSelect (update env m q').efcEq (update env m q').efcJ = eqSelect (update env m q).efcEq (update env m q).efcJ
  | _ => True

end Mjinx.Spec
