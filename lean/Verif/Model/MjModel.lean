import Verif.Model.Arr

/-!
# The parts of `mjx.Model` and `mjx.Data` that mjinx reads

These are inputs of mjinx; the fields are copied from MuJoCo's documentation of `mjModel`/`mjData`.
-/

namespace Mjinx

/-- `mj.mjtJoint` -/
inductive JntType where
  | free | ball | slide | hinge
deriving DecidableEq, Repr, Inhabited

namespace JntType
/-- Number of `qpos` entries of a joint of this type. -/
def nq : JntType → Nat
  | free => 7 | ball => 4 | slide => 1 | hinge => 1
/-- Number of `qvel` entries of a joint of this type. -/
def nv : JntType → Nat
  | free => 6 | ball => 3 | slide => 1 | hinge => 1
/-- Hinge or slide. -/
def scalar : JntType → Bool
  | free => false | ball => false | slide => true | hinge => true
end JntType

/-- `mj.mjtObj`, the object types for which mjinx distinguishes cases; `other` is everything else. -/
inductive ObjType where
  | body | geom | site | other
deriving DecidableEq, Repr, Inhabited

/-- `mj.mjtEq`; `unsupported` stands for tendon, flex, distance. -/
inductive EqType where
  | connect | weld | joint | unsupported
deriving DecidableEq, Repr, Inhabited

/-- The fields of `mjx.Model` used by mjinx. -/
structure MjModel (K : Type) where
  nq : Nat
  nv : Nat
  nbody : Nat
  jntType : List JntType
  jntQposadr : List Nat
  jntDofadr : List Nat
  jntRange : List (K × K)
  bodyParentid : List Nat
  bodyWeldid : List Nat
  bodyRootid : List Nat
  bodyGeomadr : List Int
  bodyGeomnum : List Nat
  bodyMass : List K
  dofBodyid : List Nat
  geomType : List Nat
  geomDataid : List Int
  geomPriority : List Int
  geomCondim : List Nat
  geomContype : List Nat
  geomConaffinity : List Nat
  geomBodyid : List Nat
  siteBodyid : List Nat
  eqType : List EqType
  bodyNames : List String
  geomNames : List String
  siteNames : List String
  otherNames : List String
deriving DecidableEq

namespace MjModel
variable {K : Type}

/-- `model.njnt` -/
def njnt (m : MjModel K) : Nat := m.jntType.length

/-- The names of the objects of a type, by id. -/
def names (m : MjModel K) : ObjType → List String
  | .body => m.bodyNames
  | .geom => m.geomNames
  | .site => m.siteNames
  | .other => m.otherNames

/-- `mjx.name2id(model, type, name)`: the id, or -1 if there is no such object. -/
def name2id (m : MjModel K) (t : ObjType) (s : String) : Int :=
  match (m.names t).findIdx? (· == s) with
  | some i => i
  | none => -1

/-- A model with no bodies, joints, geoms or equalities, used as a base for examples. -/
def empty : MjModel K where
  nq := 0
  nv := 0
  nbody := 0
  jntType := []
  jntQposadr := []
  jntDofadr := []
  jntRange := []
  bodyParentid := []
  bodyWeldid := []
  bodyRootid := []
  bodyGeomadr := []
  bodyGeomnum := []
  bodyMass := []
  dofBodyid := []
  geomType := []
  geomDataid := []
  geomPriority := []
  geomCondim := []
  geomContype := []
  geomConaffinity := []
  geomBodyid := []
  siteBodyid := []
  eqType := []
  bodyNames := []
  geomNames := []
  siteNames := []
  otherNames := []

end MjModel
end Mjinx
