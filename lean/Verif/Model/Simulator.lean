import Verif.Model.RealFns

/-!
# The simulator: forward kinematics of mjx

`mjx.kinematics` and `mjx.com_pos` are external (`mujoco/mjx/_src/smooth.py`, not part of /repo).  Everywhere else they are open
parameters (`Env`).  This file writes their formulas down, over the real numbers, for the properties that say what mjinx's Jacobians mean for
the motion of a robot (C107 and after).
-/

namespace Mjinx
open scoped Quaternion Matrix
open Real

/-- The fields of `mjx.Model` that only the kinematics read (`body_pos`, `body_quat`, `body_ipos`, `jnt_bodyid`, `jnt_pos`, `jnt_axis`, `qpos0`,
`geom_pos`, `geom_quat`, `site_pos`, `site_quat`). -/
structure Geometry where
  bodyPos : List (V3 ℝ)
  bodyQuat : List ℍ[ℝ]
  bodyIpos : List (V3 ℝ)
  jntBodyid : List Nat
  jntPos : List (V3 ℝ)
  jntAxis : List (V3 ℝ)
  qpos0 : Nat → ℝ
  geomPos : List (V3 ℝ)
  geomQuat : List ℍ[ℝ]
  sitePos : List (V3 ℝ)
  siteQuat : List ℍ[ℝ]

/-- mjx `math.normalize` of a quaternion. -/
noncomputable def normalizeQuat (q : ℍ[ℝ]) : ℍ[ℝ] := (√(Quaternion.normSq q))⁻¹ • q

/-- mjx `math.axis_angle_to_quat(axis, angle)` -/
noncomputable def axisAngleQuat (axis : V3 ℝ) (angle : ℝ) : ℍ[ℝ] :=
  ⟨cos (angle / 2), sin (angle / 2) * axis 0, sin (angle / 2) * axis 1, sin (angle / 2) * axis 2⟩

section
variable (G : Geometry) (m : MjModel ℝ)

/-- `smooth.py` `kinematics`, the loop over the joints of a body: what joint `j` does to the pose `T` of its body. -/
noncomputable def jointMove (q : Nat → ℝ) (T : SE3 ℝ) (j : Nat) : SE3 ℝ :=
  let a := m.jntQposadr.getD j 0
  let jp := G.jntPos.getD j 0
  match m.jntType.getD j .hinge with
  | .free => ⟨normalizeQuat (quatAt q (a + 3)), vec3At q a⟩
  | .ball =>
    let r := T.rot * normalizeQuat (quatAt q a)
    ⟨r, T.apply jp - rotate r jp⟩
  | .hinge =>
    let r := T.rot * axisAngleQuat (G.jntAxis.getD j 0) (q a - G.qpos0 a)
    ⟨r, T.apply jp - rotate r jp⟩
  | .slide => ⟨T.rot, T.trans + (q a - G.qpos0 a) • rotate T.rot (G.jntAxis.getD j 0)⟩

/-- The joints of a body, in order. -/
def jointsOfBody (b : Nat) : List Nat := (List.range m.jntType.length).filter (fun j => G.jntBodyid.getD j 0 = b)

/-- `smooth.py` `kinematics`: the poses of the bodies.  Body 0 is the world; the pose of a body is that of its parent, moved by the fixed offset of
the body and then by its joints.  Parents have smaller numbers; the result for a table in which they have not is irrelevant. -/
noncomputable def bodyPose (q : Nat → ℝ) (b : Nat) : SE3 ℝ :=
  if b = 0 then SE3.one
  else
    let p := m.bodyParentid.getD b 0
    let P := if _h : p < b then bodyPose q p else SE3.one
    (jointsOfBody G m b).foldl (jointMove G m q) (P.mul ⟨G.bodyQuat.getD b 1, G.bodyPos.getD b 0⟩)
termination_by b

/-- The pose of the body of joint `j` before its own motion: the parent's pose, the fixed offset and the earlier joints of the body. -/
noncomputable def poseBefore (q : Nat → ℝ) (j : Nat) : SE3 ℝ :=
  let b := G.jntBodyid.getD j 0
  ((jointsOfBody G m b).filter (· < j)).foldl (jointMove G m q)
    ((bodyPose G m q (m.bodyParentid.getD b 0)).mul ⟨G.bodyQuat.getD b 1, G.bodyPos.getD b 0⟩)

/-- `smooth.py` `kinematics`: `xanchor` and `xaxis` of joint `j`. -/
noncomputable def jointAnchor (q : Nat → ℝ) (j : Nat) : V3 ℝ :=
  match m.jntType.getD j .hinge with
  | .free => vec3At q (m.jntQposadr.getD j 0)
  | _ => (poseBefore G m q j).apply (G.jntPos.getD j 0)
noncomputable def jointAxis (q : Nat → ℝ) (j : Nat) : V3 ℝ :=
  match m.jntType.getD j .hinge with
  | .free => ![0, 0, 1]
  | _ => rotate (poseBefore G m q j).rot (G.jntAxis.getD j 0)

/-- `kinematics` normalises the quaternions of the configuration. -/
noncomputable def normalizedQpos (q : Nat → ℝ) : List ℝ :=
  (m.jntType.zip m.jntQposadr).flatMap fun (t, a) => match t with
    | .free => vec3List (vec3At q a) ++ quatList (normalizeQuat (quatAt q (a + 3)))
    | .ball => quatList (normalizeQuat (quatAt q a))
    | .hinge => [q a]
    | .slide => [q a]

/-- `mjx.kinematics`; `subtree_com`, `cdof` and the constraint rows are filled in later. -/
noncomputable def simKinematics (q : Vec ℝ) : MjData ℝ where
  qpos := ⟨(normalizedQpos m q.get).length, fun i => (normalizedQpos m q.get).getD i 0⟩
  xpos := (List.range m.nbody).map fun b => (bodyPose G m q.get b).trans
  xquat := (List.range m.nbody).map fun b => (bodyPose G m q.get b).rot
  xmat := (List.range m.nbody).map fun b => quatMat (bodyPose G m q.get b).rot
  geomXpos := (List.range m.geomBodyid.length).map fun g => (bodyPose G m q.get (m.geomBodyid.getD g 0)).apply (G.geomPos.getD g 0)
  geomXmat := (List.range m.geomBodyid.length).map fun g => quatMat ((bodyPose G m q.get (m.geomBodyid.getD g 0)).rot * G.geomQuat.getD g 1)
  siteXpos := (List.range m.siteBodyid.length).map fun g => (bodyPose G m q.get (m.siteBodyid.getD g 0)).apply (G.sitePos.getD g 0)
  siteXmat := (List.range m.siteBodyid.length).map fun g => quatMat ((bodyPose G m q.get (m.siteBodyid.getD g 0)).rot * G.siteQuat.getD g 1)
  xipos := (List.range m.nbody).map fun b => (bodyPose G m q.get b).apply (G.bodyIpos.getD b 0)
  subtreeCom := []
  cdof := []
  efcEq := []
  efcPos := []
  efcJ := []

/-- `smooth.py` `com_pos`, `cdof_fn` for one joint: the motion axes `(angular, linear)` of its degrees of freedom, the linear part at the centre of mass
`com` of the tree. -/
noncomputable def jointCdof (q : Nat → ℝ) (com : V3 ℝ) (j : Nat) : List (V3 ℝ × V3 ℝ) :=
  let off := com - jointAnchor G m q j
  let cols : List (V3 ℝ) := [0, 1, 2].map fun (i : Fin 3) => (quatMat (bodyPose G m q (G.jntBodyid.getD j 0)).rot)ᵀ i
  let turn := fun a : V3 ℝ => (a, crossProduct a off)
  match m.jntType.getD j .hinge with
  | .free => ([0, 1, 2].map fun (i : Fin 3) => ((0 : V3 ℝ), (Pi.single i 1 : V3 ℝ))) ++ cols.map turn
  | .ball => cols.map turn
  | .hinge => [turn (jointAxis G m q j)]
  | .slide => [(0, jointAxis G m q j)]

/-- `mjx.com_pos`: the centres of mass of the subtrees and the motion axes of all degrees of freedom.  (Inertias are not read by mjinx.) -/
noncomputable def simComPos (d : MjData ℝ) : MjData ℝ :=
  let coms := subtreeComs m d.xipos
  { d with
    subtreeCom := coms
    cdof := (List.range m.jntType.length).flatMap fun j =>
      jointCdof G m d.qpos.get (coms.getD (m.bodyRootid.getD (G.jntBodyid.getD j 0) 0) 0) j }

end

/-! ### Collisions of planes and spheres (`mujoco/mjx/_src/collision_primitive.py`) -/

/-- `_plane_sphere(plane_normal, plane_pos, sphere_pos, sphere_radius)`; the normal of a plane is the third column of its rotation matrix. -/
noncomputable def planeSphere (planePos : V3 ℝ) (planeMat : M3 ℝ) (pos : V3 ℝ) (r : ℝ) : ContactVal ℝ :=
  let n : V3 ℝ := fun a => planeMat a 2
  let dist := (pos - planePos) ⬝ᵥ n - r
  ⟨dist, pos - (r + dist / 2) • n, n⟩

/-- `_sphere_sphere(pos1, radius1, pos2, radius2)` -/
noncomputable def sphereSphere (pos1 : V3 ℝ) (r1 : ℝ) (pos2 : V3 ℝ) (r2 : ℝ) : ContactVal ℝ :=
  let gap := √(sq3 (pos2 - pos1))
  let n : V3 ℝ := if gap = 0 then ![1, 0, 0] else gap⁻¹ • (pos2 - pos1)
  let dist := gap - (r1 + r2)
  ⟨dist, pos1 + (r1 + dist / 2) • n, n⟩

end Mjinx
