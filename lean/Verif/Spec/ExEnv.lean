import Verif.Spec.Examples
import Verif.Spec.Sim

/-! A concrete, very simple simulator for the non-vacuity examples: every body, geom and site sits at the
origin, unrotated; there are no constraint rows. -/

namespace Mjinx.Ex
open Spec

def data (m : MjModel ℚ) (q : Vec ℚ) : MjData ℚ where
  qpos := q
  xpos := List.replicate m.nbody 0
  xquat := List.replicate m.nbody 1
  xmat := List.replicate m.nbody 1
  geomXpos := List.replicate m.geomBodyid.length 0
  geomXmat := List.replicate m.geomBodyid.length 1
  siteXpos := List.replicate m.siteBodyid.length 0
  siteXmat := List.replicate m.siteBodyid.length 1
  xipos := List.replicate m.nbody 0
  subtreeCom := List.replicate m.nbody 0
  cdof := List.replicate m.nv (0, 0)
  efcEq := []
  efcPos := []
  efcJ := []

def env : Env ℚ where
  kinematics := data
  comPos := fun _ d => d
  makeConstraint := fun _ d => d
  collide := fun _ _ => { known := fun _ _ => true, ncon := fun _ _ => 1, contact := fun _ g _ => ⟨g.1 + g.2, 0, 0⟩ }
  jacrev := fun f q => Mat.zero (f q).len q.len
  jacZero := fun _ => 0
  rotOfMat := fun _ => 1
  so3Log := fun _ => 0
  se3Log := fun _ => (0, 0)
  se3Exp := fun _ => SE3.one
  quatIntegrate := fun q _ _ => q

theorem env_keeps (m : MjModel ℚ) : KeepsScalars env m := fun _ h => ⟨h, fun _ _ => rfl⟩

theorem model_wf : JointsWF model := ⟨by repeat' constructor, rfl⟩

end Mjinx.Ex
