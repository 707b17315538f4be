import Verif.Lemmas.SimData
import Verif.Props.AutoJacobian

/-!
# C107: frame Jacobians give the velocities of moving robots
-/

namespace Mjinx.Props
open Spec Finset
open scoped Quaternion Matrix

section
variable {env : Env ℝ} {G : Geometry} {m : MjModel ℝ} {q : Vec ℝ}

theorem bodyOf_lt (hw : RobotWF G m) {t : ObjType} {i b : Nat} (hb : bodyOf m t i = some b) : b < m.nbody := by
  cases t with
  | geom => exact hw.objects.1 b (List.mem_of_getElem? hb)
  | site => exact hw.objects.2 b (List.mem_of_getElem? hb)
  | body => simp only [bodyOf, Option.ite_none_right_eq_some, Option.some.injEq] at hb; omega
  | other => simp only [bodyOf, Option.ite_none_right_eq_some, Option.some.injEq] at hb; omega

theorem turnOf_unit (hw : RobotWF G m) (t : ObjType) (i : Nat) : Quaternion.normSq (turnOf G t i) = 1 := by
  cases t with
  | geom => exact hw.turns.1 i
  | site => exact hw.turns.2 i
  | body => simp [turnOf]
  | other => simp [turnOf]

theorem start_pose (hs : Simulates env G m) (hw : RobotWF G m) (hu : UnitQuats m q) (v : Vec ℝ) {b : Nat} (hb : b < m.nbody) :
    bodyPose G m (integrate env m q v 0).get b = bodyPose G m q.get b :=
  bodyPose_congr hw.tree (integrate_moves hs.quat hw.addr hu v).start b hb

/-- **C107**: the world-aligned Jacobian of a body, geometry or site exists, and when the robot moves from `q` with joint velocity `v`, the position of
the object changes at the rate `Jp v` and its orientation turns with the angular velocity `Jr v` (the derivative of the rotation matrix `R` is
`[Jr v]× R`). -/
theorem C107_world (hs : Simulates env G m) (hw : RobotWF G m) (hu : UnitQuats m q) {t : ObjType} {i b : Nat} (hb : bodyOf m t i = some b) :
    ∃ rows, frameJacobianWorld m (update env m q) i t = .ok rows ∧ ∀ v : Vec ℝ, ∃ (X : ℝ → V3 ℝ) (M : ℝ → M3 ℝ),
      (∀ s, objPos (update env m (integrate env m q v s)) t i = .ok (X s) ∧ objMat (update env m (integrate env m q v s)) t i = .ok (M s)) ∧
      objPos (update env m q) t i = .ok (X 0) ∧ objMat (update env m q) t i = .ok (M 0) ∧
      (∀ a, HasDerivAt (fun s => X s a) ((objVelocity rows v.get).1 a) 0) ∧
      ∀ a c, HasDerivAt (fun s => M s a c) ((skewSymmetric (objVelocity rows v.get).2 * M 0) a c) 0 := by
  have hbn := bodyOf_lt hw hb
  obtain ⟨p1, -⟩ := update_object hs q hb
  have hv := fun v : Nat → ℝ => rows_velocity hs hw hu v hbn ((bodyPose G m q.get b).apply (offsetOf G t i))
  obtain ⟨root, com, h1, h2, -⟩ := hv 0
  refine ⟨((update env m q).cdof.zip (dofMask m b)).map
      (fun x => maskRow x.2 (pointVel ((bodyPose G m q.get b).apply (offsetOf G t i) - com) x.1, x.1.1)), ?_, ?_⟩
  · rw [frameJacobianWorld]
    simp only [bind, Except.bind, objBody_bodyOf hb, p1, h1, h2]
    rfl
  · intro v
    obtain ⟨root', com', k1, k2, hvel⟩ := hv v.get
    rw [h1] at k1; cases k1
    rw [h2] at k2; cases k2
    rw [hvel]
    have e0 := start_pose hs hw hu v hbn
    obtain ⟨tw, -⟩ := body_twist hw (integrate_moves hs.quat hw.addr hu v) hu b hbn
    refine ⟨fun s => (bodyPose G m (integrate env m q v s).get b).apply (offsetOf G t i),
      fun s => quatMat ((bodyPose G m (integrate env m q v s).get b).rot * turnOf G t i), fun s => update_object hs _ hb, ?_, ?_, ?_, ?_⟩
    · rw [← e0] at p1; exact p1
    · have p2 := (update_object hs q hb).2
      rw [← e0] at p2; exact p2
    · intro a
      have := tw (offsetOf G t i) a
      simp only [e0] at this
      exact this
    · intro a c
      simp only [quatMat_mul]
      have := HasDerivAt.fun_sum (u := univ) fun (k : Fin 3) _ => (tw.rot a k).mul_const (quatMat (turnOf G t i) k c)
      refine this.congr_deriv ?_
      rw [← Matrix.mul_assoc]
      rfl

/-- **C107** (local): the local Jacobian gives the same velocities, in the axes of the object: its linear part is the velocity of the object and its
angular part the angular velocity, both turned into the frame of the object (the derivative of the rotation matrix `R` is `R [Jr v]×`). -/
theorem C107_local (hs : Simulates env G m) (hw : RobotWF G m) (hu : UnitQuats m q) {t : ObjType} {i b : Nat} (hb : bodyOf m t i = some b) :
    ∃ rows, frameJacobianLocal m (update env m q) i t = .ok rows ∧ ∀ v : Vec ℝ, ∃ (X : ℝ → V3 ℝ) (M : ℝ → M3 ℝ),
      (∀ s, objPos (update env m (integrate env m q v s)) t i = .ok (X s) ∧ objMat (update env m (integrate env m q v s)) t i = .ok (M s)) ∧
      objPos (update env m q) t i = .ok (X 0) ∧ objMat (update env m q) t i = .ok (M 0) ∧
      (∀ a, HasDerivAt (fun s => X s a) ((M 0).mulVec (objVelocity rows v.get).1 a) 0) ∧
      ∀ a c, HasDerivAt (fun s => M s a c) ((M 0 * skewSymmetric (objVelocity rows v.get).2) a c) 0 := by
  have hbn := bodyOf_lt hw hb
  obtain ⟨w, hw1, hw2⟩ := C107_world hs hw hu hb
  obtain ⟨b', pos, root, com, e1, e2, e3, e4, -⟩ := worldRows hw1
  obtain ⟨-, hR⟩ := update_object hs q hb
  obtain ⟨l, hl⟩ : ∃ l, frameJacobianLocal m (update env m q) i t = .ok l := by
    rw [frameJacobianLocal]
    simp only [bind, Except.bind, e1, e2, hR, e3, e4]
    exact ⟨_, rfl⟩
  have hunit : Quaternion.normSq ((bodyPose G m q.get b).rot * turnOf G t i) = 1 := by
    have h := (body_twist hw (integrate_moves hs.quat hw.addr hu ⟨0, fun _ => 0⟩) hu b hbn).2 0
    rw [start_pose hs hw hu _ hbn] at h
    rw [map_mul, h, turnOf_unit hw t i, one_mul]
  have ho := (quatMat_rotation hunit).1
  refine ⟨l, hl, fun v => ?_⟩
  obtain ⟨X, M, x1, x2, x3, x4, x5⟩ := hw2 v
  have hM : M 0 = quatMat ((bodyPose G m q.get b).rot * turnOf G t i) := by
    rw [hR] at x3; injection x3 with x3; exact x3.symm
  have hrec := C48_recover hR ho hw1 hl v.get
  refine ⟨X, M, x1, x2, x3, ?_, ?_⟩
  · intro a
    have := x4 a
    rw [hrec] at this
    rw [hM]; exact this
  · intro a c
    have := x5 a c
    rw [hrec, hM] at this
    rw [hM]
    refine this.congr_deriv (congrFun (congrFun ?_ a) c)
    set R := (bodyPose G m q.get b).rot * turnOf G t i
    set om := (objVelocity l v.get).2
    show skewSymmetric ((quatMat R).mulVec om) * quatMat R = quatMat R * skewSymmetric om
    apply Matrix.ext_of_mulVec_single
    intro c
    rw [← Matrix.mulVec_mulVec, ← Matrix.mulVec_mulVec, C42_cross, C42_cross, quatMat_mulVec, quatMat_mulVec, quatMat_mulVec, rotate_cross hunit]

/-- **C107** (points): the Jacobian of a point that is fixed to a body gives the velocity of that point.  (The point is given by its coordinates `x` in the
frame of the body.) -/
theorem C107_point (hs : Simulates env G m) (hw : RobotWF G m) (hu : UnitQuats m q) {b : Nat} (hbn : b < m.nbody) (x : V3 ℝ) :
    ∃ T, transformFrameToWorld (update env m q) b = .ok T ∧ ∃ rows, pointJacobian m (update env m q) (T.apply x) b = .ok rows ∧
      ∀ v : Vec ℝ, ∃ F : ℝ → SE3 ℝ, (∀ s, transformFrameToWorld (update env m (integrate env m q v s)) b = .ok (F s)) ∧ F 0 = T ∧
        ∀ a, HasDerivAt (fun s => (F s).apply x a) ((objVelocity rows v.get).1 a) 0 := by
  have hv := fun v : Nat → ℝ => rows_velocity hs hw hu v hbn ((bodyPose G m q.get b).apply x)
  obtain ⟨root, com, h1, h2, -⟩ := hv 0
  refine ⟨_, update_frame hs q hbn, ((update env m q).cdof.zip (dofMask m b)).map
      (fun y => maskRow y.2 (pointVel ((bodyPose G m q.get b).apply x - com) y.1, y.1.1)), ?_, ?_⟩
  · rw [pointJacobian]
    simp only [bind, Except.bind, h1, h2]
    rfl
  · intro v
    obtain ⟨root', com', k1, k2, hvel⟩ := hv v.get
    rw [h1] at k1; cases k1
    rw [h2] at k2; cases k2
    rw [hvel]
    have e0 := start_pose hs hw hu v hbn
    obtain ⟨tw, -⟩ := body_twist hw (integrate_moves hs.quat hw.addr hu v) hu b hbn
    refine ⟨fun s => bodyPose G m (integrate env m q v s).get b, fun s => update_frame hs _ hbn, e0, fun a => ?_⟩
    have := tw x a
    simp only [e0] at this
    exact this

end

/-! ### A robot with all kinds of joints -/

namespace Digger

/-- A floating base (body 1, free joint), an arm that turns and then slides out (body 2, hinge and slide) and a hand on a ball joint (body 3) with a tool
(site 0); a post in the world (geometry 1). -/
noncomputable def model : MjModel ℝ :=
  { (MjModel.empty : MjModel ℝ) with
    nq := 13, nv := 11, nbody := 4, jntType := [.free, .hinge, .slide, .ball], jntQposadr := [0, 7, 8, 9], jntDofadr := [0, 6, 7, 8],
    jntRange := [(0, 0), (0, 0), (0, 0), (0, 0)], bodyParentid := [0, 0, 1, 2], bodyRootid := [0, 1, 1, 1], bodyWeldid := [0, 1, 2, 3],
    dofBodyid := [1, 1, 1, 1, 1, 1, 2, 2, 3, 3, 3], bodyMass := [0, 3, 2, 1], geomBodyid := [2, 0], siteBodyid := [3],
    bodyNames := ["world", "base", "arm", "hand"] }

/-- Two rotations. -/
noncomputable def tilt : ℍ[ℝ] := ⟨3 / 5, 4 / 5, 0, 0⟩
noncomputable def flip : ℍ[ℝ] := ⟨0, 1, 0, 0⟩

theorem tilt_unit : Quaternion.normSq tilt = 1 := by
  rw [Quaternion.normSq_def']
  show (3 / 5 : ℝ) ^ 2 + (4 / 5) ^ 2 + 0 ^ 2 + 0 ^ 2 = 1
  norm_num

theorem flip_unit : Quaternion.normSq flip = 1 := by
  rw [Quaternion.normSq_def']
  show (0 : ℝ) ^ 2 + 1 ^ 2 + 0 ^ 2 + 0 ^ 2 = 1
  norm_num

noncomputable def geometry : Geometry where
  bodyPos := [0, 0, ![0, 0, 1], ![1, 0, 0]]
  bodyQuat := [1, 1, tilt, 1]
  bodyIpos := [0, 0, ![1 / 2, 0, 0], 0]
  jntBodyid := [1, 2, 2, 3]
  jntPos := [0, ![0, 1, 0], 0, ![0, 0, 1]]
  jntAxis := [0, ![0, 3 / 5, 4 / 5], ![1, 0, 0], 0]
  qpos0 := fun _ => 0
  geomPos := [![1, 0, 0], ![5, 0, 0]]
  geomQuat := [flip, 1]
  sitePos := [![0, 1, 2]]
  siteQuat := [1]

noncomputable def env : Env ℝ :=
  { Rod.env 0 with kinematics := simKinematics geometry, comPos := simComPos geometry, makeConstraint := fun _ d => d }

theorem simulates : Simulates env geometry model := ⟨fun _ => rfl, fun _ => rfl, fun d => ⟨d.efcEq, d.efcPos, d.efcJ, rfl⟩, rfl⟩

theorem cover (P : Nat → Prop) (h0 : P 0) (h1 : P 1) (h2 : P 2) (h3 : P 3) (h : ∀ j, 4 ≤ j → P j) (j : Nat) : P j := by
  rcases j with _ | _ | _ | _ | j
  · exact h0
  · exact h1
  · exact h2
  · exact h3
  · exact h _ (by omega)

theorem robot : RobotWF geometry model where
  tree := by
    refine ⟨?_, by decide, rfl, by decide⟩
    intro b h0 hb
    have : b < 4 := hb
    interval_cases b <;> decide
  addr := ⟨by repeat' constructor, rfl⟩
  joints := by
    intro j hj
    have : j < 4 := hj
    interval_cases j <;> exact ⟨by decide, by decide⟩
  dofs := rfl
  axis := by
    intro j hj ht
    have : j < 4 := hj
    interval_cases j
    · cases ht
    · show sq3 ![0, 3 / 5, 4 / 5] = 1
      simp [sq3]; norm_num
    · cases ht
    · cases ht
  quat := by
    refine cover _ ?_ ?_ ?_ ?_ ?_
    · show Quaternion.normSq (1 : ℍ[ℝ]) = 1; simp
    · show Quaternion.normSq (1 : ℍ[ℝ]) = 1; simp
    · exact tilt_unit
    · show Quaternion.normSq (1 : ℍ[ℝ]) = 1; simp
    · intro j hj
      rw [List.getD_eq_default _ _ (by exact hj)]; simp
  free := by
    intro j hj ht
    have : j < 4 := hj
    interval_cases j
    · refine ⟨rfl, ?_⟩
      intro i hi
      have : i < 4 := hi
      interval_cases i <;> decide
    all_goals cases ht
  ball := by
    intro j i hji hi _ ht
    have hi' : i < 4 := hi
    have hj : j < 4 := by omega
    interval_cases j
    · cases ht
    · cases ht
    · cases ht
    · omega
  roots := ⟨rfl, by decide⟩
  root := by
    intro b h0 hb hp
    have : b < 4 := hb
    interval_cases b
    · exact absurd rfl hp
    · rfl
    · rfl
  mass := rfl
  objects := ⟨by decide, by decide⟩
  turns := by
    constructor
    · refine cover _ ?_ ?_ ?_ ?_ ?_
      · exact flip_unit
      · show Quaternion.normSq (1 : ℍ[ℝ]) = 1; simp
      · show Quaternion.normSq (1 : ℍ[ℝ]) = 1; simp
      · show Quaternion.normSq (1 : ℍ[ℝ]) = 1; simp
      · intro j hj
        rw [List.getD_eq_default _ _ (show 2 ≤ j by omega)]; simp
    · intro j
      rcases j with _ | j
      · show Quaternion.normSq (1 : ℍ[ℝ]) = 1; simp
      · rw [List.getD_eq_default _ _ (show 1 ≤ j + 1 by omega)]; simp

/-- The base is two metres up, the arm is turned and extended. -/
noncomputable def q0 : Vec ℝ := ⟨13, fun i => [0, 0, 2, 1, 0, 0, 0, 7 / 10, 1 / 2, 0, 0, 1, 0].getD i 0⟩

theorem unit : UnitQuats model q0 := by
  intro k adr h
  have key : ∀ a, (a = 3 ∨ a = 9) → Quaternion.normSq (quatAt q0.get a) = 1 := by
    rintro a (rfl | rfl)
    · rw [Quaternion.normSq_def']
      show (1 : ℝ) ^ 2 + 0 ^ 2 + 0 ^ 2 + 0 ^ 2 = 1
      norm_num
    · rw [Quaternion.normSq_def']
      show (0 : ℝ) ^ 2 + 0 ^ 2 + 1 ^ 2 + 0 ^ 2 = 1
      norm_num
  revert h
  revert k
  refine cover _ ?_ ?_ ?_ ?_ ?_
  · intro h; cases h; exact key 3 (.inl rfl)
  · intro h; cases h
  · intro h; cases h
  · intro h; cases h; exact key 9 (.inr rfl)
  · intro k hk h
    rw [List.getD_eq_default (l := model.jntType) _ (show 4 ≤ k by omega)] at h
    cases h

/-- The tool of the digger: all hypotheses of C107 hold, for all joint velocities. -/
example : ∃ rows, frameJacobianWorld model (update env model q0) 0 .site = .ok rows ∧ ∀ v : Vec ℝ, ∃ (X : ℝ → V3 ℝ) (M : ℝ → M3 ℝ),
    (∀ s, objPos (update env model (integrate env model q0 v s)) .site 0 = .ok (X s) ∧
      objMat (update env model (integrate env model q0 v s)) .site 0 = .ok (M s)) ∧
    objPos (update env model q0) .site 0 = .ok (X 0) ∧ objMat (update env model q0) .site 0 = .ok (M 0) ∧
    (∀ a, HasDerivAt (fun s => X s a) ((objVelocity rows v.get).1 a) 0) ∧
    ∀ a c, HasDerivAt (fun s => M s a c) ((skewSymmetric (objVelocity rows v.get).2 * M 0) a c) 0 :=
  C107_world simulates robot unit (t := .site) (i := 0) (b := 3) rfl

end Digger

end Mjinx.Props
