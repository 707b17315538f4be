import Verif.Model.Data

/-! Where the named objects are, and which axes a mask selects. -/

namespace Mjinx.Spec
open scoped Matrix
variable {K : Type} [Field K]

/-- A matrix that turns space without reflecting it. -/
def IsRotation (R : M3 K) : Prop := R * Rᵀ = 1 ∧ R.det = 1

/-- The simulator's data place the `k`-th body / geometry / site at `p`.  The data have no position of other objects
among those the components read. -/
def PlacedAt (d : MjData K) : ObjType → Nat → V3 K → Prop
  | .body, k, p => d.xpos[k]? = some p
  | .geom, k, p => d.geomXpos[k]? = some p
  | .site, k, p => d.siteXpos[k]? = some p
  | .other, _, _ => False

/-- The simulator's data orient the `k`-th body / geometry / site as `R`. -/
def OrientedAs (d : MjData K) : ObjType → Nat → M3 K → Prop
  | .body, k, R => d.xmat[k]? = some R
  | .geom, k, R => d.geomXmat[k]? = some R
  | .site, k, R => d.siteXmat[k]? = some R
  | .other, _, _ => False

/-- The simulator's data say that the frame of the `k`-th body is `S`. -/
def BodyFrame (d : MjData K) (k : Nat) (S : SE3 K) : Prop := d.xquat[k]? = some S.rot ∧ d.xpos[k]? = some S.trans

/-- The axes selected by a mask, in increasing order: those with a nonzero entry, or all of them without a mask. -/
def axesOf (all : Nat) : Option (Arr Int) → List Nat
  | none => List.range all
  | some m => (List.range (m.shape.headD 0)).filter (fun i => m.get [i] ≠ 0)

/-- The mask has one entry per axis (or there is no mask). -/
def FullMask (all : Nat) (mask : Option (Arr Int)) : Prop := ∀ m, mask = some m → m.shape = [all]

end Mjinx.Spec
