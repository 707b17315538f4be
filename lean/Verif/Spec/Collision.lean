import Verif.Model.Collision
import Verif.Model.Data
import Mathlib.Data.List.Forall2

/-!
# Which geom pairs may collide

The rules of MuJoCo's "selection" that the self-collision barrier documents, stated on the model's arrays.
-/

namespace Mjinx.Spec
variable {K : Type}

/-- Sizes and index ranges of a MuJoCo model's body and geom arrays. -/
structure CollisionWF (m : MjModel K) : Prop where
  weldLen : m.bodyWeldid.length = m.nbody
  weld : ∀ w ∈ m.bodyWeldid, w < m.nbody
  parentLen : m.bodyParentid.length = m.nbody
  parent : ∀ p ∈ m.bodyParentid, p < m.nbody
  adrLen : m.bodyGeomadr.length = m.nbody
  numLen : m.bodyGeomnum.length = m.nbody
  geoms : ∀ b < m.nbody, m.bodyGeomnum.getD b 0 = 0 ∨
    (0 ≤ m.bodyGeomadr.getD b 0 ∧ m.bodyGeomadr.getD b 0 + m.bodyGeomnum.getD b 0 ≤ m.geomContype.length)
  affinity : m.geomConaffinity.length = m.geomContype.length

/-- The body that `b` is welded to (itself if it has joints). -/
def weldOf (m : MjModel K) (b : Nat) : Nat := m.bodyWeldid.getD b 0
/-- The weld of the parent of the weld of `b`. -/
def weldParent (m : MjModel K) (b : Nat) : Nat := weldOf m (m.bodyParentid.getD (weldOf m b) 0)

/-- Two different bodies, not excluded (in either order), not welded together, neither the weld-parent of the
other. -/
structure Collidable (m : MjModel K) (excluded : List (Nat × Nat)) (b1 b2 : Nat) : Prop where
  ne : b1 ≠ b2
  notExcluded : (b1, b2) ∉ excluded ∧ (b2, b1) ∉ excluded
  notWelded : weldOf m b1 ≠ weldOf m b2
  notChild : weldOf m b1 ≠ weldParent m b2 ∧ weldOf m b2 ≠ weldParent m b1

/-- Geom `g` belongs to body `b`. -/
def GeomOf (m : MjModel K) (b : Nat) (g : Int) : Prop :=
  m.bodyGeomadr.getD b 0 ≤ g ∧ g < m.bodyGeomadr.getD b 0 + m.bodyGeomnum.getD b 0

/-- One geom's contact type is compatible with the other's affinity. -/
def MayTouch (m : MjModel K) (g1 g2 : Int) : Prop :=
  m.geomContype.getD g1.toNat 0 &&& m.geomConaffinity.getD g2.toNat 0 ≠ 0 ∨
  m.geomContype.getD g2.toNat 0 &&& m.geomConaffinity.getD g1.toNat 0 ≠ 0

/-- The listed body is body number `b` of the model. -/
def Names (m : MjModel K) (c : CollisionBody) (b : Nat) : Prop :=
  b < m.nbody ∧ match c with
    | .id i => i = b
    | .name s => m.bodyNames[b]? = some s ∧ ∀ b' < b, m.bodyNames[b']? ≠ some s
    | .other => False

/-- Every listed body is a body of the model. -/
def AllNamed (m : MjModel K) (bodies : List CollisionBody) (ids : List Nat) : Prop := List.Forall₂ (Names m) bodies ids

/-- The excluded pairs, as numbers. -/
def AllNamedPairs (m : MjModel K) (raw : List (CollisionBody × CollisionBody)) (ids : List (Nat × Nat)) : Prop :=
  List.Forall₂ (fun c b => Names m c.1 b.1 ∧ Names m c.2 b.2) raw ids

/-- Geom pair `g` must be watched for collisions between the listed bodies. -/
def Admissible (m : MjModel K) (bodies : List Nat) (excluded : List (Nat × Nat)) (g : Int × Int) : Prop :=
  ∃ b1 ∈ bodies, ∃ b2 ∈ bodies, Collidable m excluded b1 b2 ∧
    ∃ g1 g2, GeomOf m b1 g1 ∧ GeomOf m b2 g2 ∧ MayTouch m g1 g2 ∧ g = (min g1 g2, max g1 g2)

/-! ## Grouping -/

/-- Geom arrays have one entry per geom. -/
structure GeomsWF (m : MjModel K) : Prop where
  dataid : m.geomDataid.length = m.geomType.length
  priority : m.geomPriority.length = m.geomType.length
  condim : m.geomCondim.length = m.geomType.length

/-- Both members are geoms of the model. -/
def InRange (m : MjModel K) (g : Int × Int) : Prop :=
  (0 ≤ g.1 ∧ g.1 < m.geomType.length) ∧ (0 ≤ g.2 ∧ g.2 < m.geomType.length)

/-- Type, mesh and contact dimensionality of a geom. -/
def geomTypeOf (m : MjModel K) (g : Int) : Nat := m.geomType.getD g.toNat 0
def meshOf (m : MjModel K) (g : Int) : Int := m.geomDataid.getD g.toNat 0
def priorityOf (m : MjModel K) (g : Int) : Int := m.geomPriority.getD g.toNat 0
def condimOf (m : MjModel K) (g : Int) : Nat := m.geomCondim.getD g.toNat 0

/-- The pair, flipped if necessary so that the types are in increasing order. -/
def orient (m : MjModel K) (g : Int × Int) : Int × Int :=
  if geomTypeOf m g.1 > geomTypeOf m g.2 then (g.2, g.1) else g

/-- Contact dimensionality of a pair: that of the geom with higher priority, the larger of the two if equal. -/
def pairCondim (m : MjModel K) (g : Int × Int) : Nat :=
  if priorityOf m g.1 > priorityOf m g.2 then condimOf m g.1
  else if priorityOf m g.1 < priorityOf m g.2 then condimOf m g.2
  else max (condimOf m g.1) (condimOf m g.2)

/-- Group key of an oriented pair: types, meshes, contact dimensionality. -/
def keyOf (m : MjModel K) (g : Int × Int) : FunctionKey :=
  ⟨geomTypeOf m g.1, geomTypeOf m g.2, meshOf m g.1, meshOf m g.2, pairCondim m g⟩

/-- The simulator has a collision function for the types of the two geoms. -/
def HasFunction {C : Type} (f : CollisionFuncs C) (m : MjModel K) (g : Int × Int) : Prop :=
  f.known (geomTypeOf m (orient m g).1) (geomTypeOf m (orient m g).2) = true

/-- All contacts of an oriented pair, and of all pairs in order. -/
def pairContacts {C : Type} (f : CollisionFuncs C) (m : MjModel K) (g : Int × Int) : List (Contact C) :=
  (List.range (f.ncon (geomTypeOf m g.1) (geomTypeOf m g.2))).map (fun k => ⟨g, f.contact (keyOf m g) g k⟩)
def allContacts {C : Type} (f : CollisionFuncs C) (m : MjModel K) (pairs : List (Int × Int)) : List (Contact C) :=
  pairs.flatMap (fun g => pairContacts f m (orient m g))

/-! ## Jacobian rows -/

section
variable [Field K] [LinearOrder K]
/-- `row` is the derivative of the distance reported by contact `c` when its first geom is on body `b1` and its second
one on body `b2`: the normal component of the velocity of the witness point on `b2` minus that on `b1`. -/
def DistanceRow (m : MjModel K) (d : MjData K) (c : ContactVal K) (b1 b2 : Nat) (row : Nat → K) : Prop :=
  ∃ r1 r2, pointJacobian m d (c.pos - (c.dist / 2) • c.normal) b1 = .ok r1 ∧
    pointJacobian m d (c.pos + (c.dist / 2) • c.normal) b2 = .ok r2 ∧
    ∀ k, row k = ∑ a : Fin 3, c.normal a * ((r2.getD k (0, 0)).1 a - (r1.getD k (0, 0)).1 a)

/-- The body that carries a geom. -/
def geomBody (m : MjModel K) (g : Int) : Nat := m.geomBodyid.getD g.toNat 0
end

end Mjinx.Spec
