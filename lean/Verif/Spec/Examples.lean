import Verif.Spec.Component
import Mathlib.Algebra.Order.Ring.Rat
import Mathlib.Algebra.Field.Rat

/-! Concrete data used in the non-vacuity examples beside the theorems. -/

namespace Mjinx.Ex

/-- A chain world - b1 - b2 - b3 - b4 with a free joint, a hinge, a ball joint and a slide. -/
def model : MjModel ℚ where
  nq := 13
  nv := 11
  nbody := 5
  jntType := [.free, .hinge, .ball, .slide]
  jntQposadr := [0, 7, 8, 12]
  jntDofadr := [0, 6, 7, 10]
  jntRange := [(0, 0), (-1, 1), (0, 0), (-2, 3)]
  bodyParentid := [0, 0, 1, 2, 3]
  bodyWeldid := [0, 1, 2, 3, 4]
  bodyRootid := [0, 1, 1, 1, 1]
  bodyGeomadr := [-1, 0, 1, 2, 3]
  bodyGeomnum := [0, 1, 1, 1, 1]
  bodyMass := [0, 1, 2, 3, 4]
  dofBodyid := [1, 1, 1, 1, 1, 1, 2, 3, 3, 3, 4]
  geomType := [2, 3, 2, 6]
  geomDataid := [-1, -1, -1, -1]
  geomPriority := [0, 0, 0, 0]
  geomCondim := [3, 3, 3, 1]
  geomContype := [1, 1, 1, 1]
  geomConaffinity := [1, 1, 1, 1]
  geomBodyid := [1, 2, 3, 4]
  siteBodyid := [4]
  eqType := [.connect, .joint]
  bodyNames := ["world", "b1", "b2", "b3", "b4"]
  geomNames := ["g1", "g2", "g3", "g4"]
  siteNames := ["tip"]
  otherNames := []

/-- The same chain with the last joint missing and other names. -/
def model2 : MjModel ℚ :=
  { model with
    nq := 12, nv := 10, nbody := 4
    jntType := [.free, .hinge, .ball], jntQposadr := [0, 7, 8], jntDofadr := [0, 6, 7]
    jntRange := [(0, 0), (-1, 1), (0, 0)]
    eqType := [.weld]
    bodyNames := ["world", "b1", "b2", "b3"] }

def scalar (x : ℚ) : Arr ℚ := Arr.scalar x

def taskArgs : TaskArgs ℚ := { name := "t", cost := scalar 2, gain := scalar 3, lm := 0 }

def barrierArgs : BarrierArgs ℚ := { name := "b", gain := scalar 3, sdg := 1 }

end Mjinx.Ex
