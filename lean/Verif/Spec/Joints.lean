import Verif.Model.MjModel

/-!
# Joint layout of a MuJoCo model and selected joints
-/

namespace Mjinx.Spec
variable {K : Type}

/-- The joints occupy `qpos` and `qvel` consecutively, starting at `q`, `v` and ending at `nq`, `nv`. -/
def Consecutive (nq nv : Nat) : Nat → Nat → List JntType → List Nat → List Nat → Prop
  | q, v, [], [], [] => q = nq ∧ v = nv
  | q, v, t :: ts, a :: as, b :: bs => a = q ∧ b = v ∧ Consecutive nq nv (q + t.nq) (v + t.nv) ts as bs
  | _, _, _, _, _ => False

/-- MuJoCo's joint layout: joints are stored one after the other, and every joint has a range. -/
structure JointsWF (m : MjModel K) : Prop where
  addr : Consecutive m.nq m.nv 0 0 m.jntType m.jntQposadr m.jntDofadr
  range : m.jntRange.length = m.jntType.length

/-- The joints of the model that are hinges or slides, in model order. -/
def scalarJoints (m : MjModel K) : List Nat :=
  (List.range m.jntType.length).filter (fun k => (m.jntType.getD k .free).scalar)

/-- The scalar joints selected by a mask with one entry per scalar joint (all of them without mask). -/
def selectedJoints (m : MjModel K) : Option (List Int) → List Nat
  | none => scalarJoints m
  | some f => (((scalarJoints m).zip f).filter (fun x => x.2 ≠ 0)).map Prod.fst

/-- First `qpos` coordinate of joint `k`. -/
def qposOf (m : MjModel K) (k : Nat) : Nat := m.jntQposadr.getD k 0
/-- First `qvel` coordinate of joint `k`. -/
def dofOf (m : MjModel K) (k : Nat) : Nat := m.jntDofadr.getD k 0

end Mjinx.Spec
