import Verif.Props.Carry
import Verif.Props.RobotJacobian
import Verif.Props.FrameTask

/-!
# C122: two buoys, and what frame tasks do
-/

namespace Mjinx.Props
open Spec Finset Carry

namespace Flotilla

/-- Two round buoys. -/
noncomputable def model : MjModel ℝ :=
  { (MjModel.empty : MjModel ℝ) with
    nq := 14, nv := 12, nbody := 3, jntType := [.free, .free], jntQposadr := [0, 7], jntDofadr := [0, 6], jntRange := [(0, 0), (0, 0)], bodyParentid := [0, 0, 0],
    bodyRootid := [0, 1, 2], bodyWeldid := [0, 1, 2], dofBodyid := [1, 1, 1, 1, 1, 1, 2, 2, 2, 2, 2, 2], bodyMass := [0, 3, 2], siteBodyid := [1],
    geomBodyid := [1, 2], geomType := [2, 2], geomDataid := [-1, -1], geomPriority := [0, 0], geomCondim := [3, 3], bodyNames := ["world", "buoy", "other"] }

noncomputable def geometry : Geometry where
  bodyPos := [0, 0, 0]
  bodyQuat := [1, 1, 1]
  bodyIpos := [0, ![0, 0, 1], 0]
  jntBodyid := [1, 2]
  jntPos := [0, 0]
  jntAxis := [0, 0]
  qpos0 := fun _ => 0
  geomPos := [0, 0]
  geomQuat := [1, 1]
  sitePos := [![1, 0, 0]]
  siteQuat := [1]

noncomputable def env : Env ℝ :=
  { Rod.env 0 with
    kinematics := simKinematics geometry, comPos := simComPos geometry, makeConstraint := fun _ d => d
    collide := fun _ d => { known := fun _ _ => true, ncon := fun _ _ => 1, contact := fun _ g _ => sphereSphere (d.geomXpos.getD g.1.toNat 0) 1 (d.geomXpos.getD g.2.toNat 0) 1 } }

theorem simulates : Simulates env geometry model := ⟨fun _ => rfl, fun _ => rfl, fun d => ⟨d.efcEq, d.efcPos, d.efcJ, rfl⟩, rfl⟩

theorem robot : RobotWF geometry model where
  tree := by
    refine ⟨?_, by decide, rfl, by decide⟩
    intro b h0 hb
    have : b < 3 := hb
    interval_cases b <;> decide
  addr := ⟨by repeat' constructor, rfl⟩
  joints := by
    intro j hj
    have : j < 2 := hj
    interval_cases j <;> exact ⟨by decide, by decide⟩
  dofs := rfl
  axis := by
    intro j hj ht
    have : j < 2 := hj
    interval_cases j <;> cases ht
  quat := Buoy.unitOne _ (by simp [geometry])
  free := by
    intro j hj ht
    have : j < 2 := hj
    interval_cases j <;> refine ⟨rfl, ?_⟩ <;> intro i hi <;> have : i < 2 := hi <;> interval_cases i <;> decide
  ball := by
    intro j i hji hi _ ht
    have hi' : i < 2 := hi
    have hj : j < 2 := by omega
    interval_cases j <;> cases ht
  roots := ⟨rfl, by decide⟩
  root := by
    intro b h0 hb hp
    have : b < 3 := hb
    interval_cases b <;> exact absurd rfl hp
  mass := rfl
  objects := ⟨by decide, by decide⟩
  turns := ⟨Buoy.unitOne _ (by simp [geometry]), Buoy.unitOne _ (by simp [geometry])⟩

theorem floating : Floating geometry model where
  base := by
    intro b h0 hb _
    have : b < 3 := hb
    interval_cases b
    · exact ⟨0, by decide, rfl, rfl⟩
    · exact ⟨1, by decide, rfl, rfl⟩
  weightless := rfl
  worldRoot := rfl
  roots := by
    intro b h0 hb
    have : b < 3 := hb
    interval_cases b <;> decide

theorem geom_on (i : Nat) (hi : i < 2) : OnRobot model .geom i := by
  refine ⟨Int.natCast_nonneg _, ?_⟩
  interval_cases i
  · exact ⟨1, rfl, by decide⟩
  · exact ⟨2, rfl, by decide⟩

theorem geom_pos {d d' : MjData ℝ} {s : V3 ℝ} (hd : Carried model s d d') (hl : d.geomXpos.length = 2 ∧ d'.geomXpos.length = 2) {i : Int} (hi : OnRobot model .geom i) :
    d'.geomXpos.getD i.toNat 0 = d.geomXpos.getD i.toNat 0 + s := by
  obtain ⟨p, h1, h2⟩ := hd.objects .geom i hi
  obtain ⟨h0, b, hb, -⟩ := hi
  obtain ⟨k, rfl⟩ := Int.eq_ofNat_of_zero_le h0
  have hk : k < 2 := (List.getElem?_eq_some_iff.1 (show model.geomBodyid[k]? = some b from hb)).1
  have e : ∀ {l : List (V3 ℝ)} {x : V3 ℝ}, l.length = 2 → jnpGet l (k : Int) = .ok x → l.getD k 0 = x := by
    intro l x hl h
    have : jnpGet l (k : Int) = .ok (l.getD k 0) := jnpGet_some (by rw [List.getD_eq_getElem _ _ (by omega), List.getElem?_eq_getElem])
    exact Except.ok.inj (this.symm.trans h)
  show d'.geomXpos.getD k 0 = d.geomXpos.getD k 0 + s
  rw [e hl.1 h1, e hl.2 h2]

theorem contacts (s : V3 ℝ) : ContactsAlong env model s := by
  intro q
  refine ⟨fun _ _ => ⟨rfl, rfl⟩, fun key g n h1 h2 => ?_⟩
  have hk := kin_carried (s := s) robot floating q
  have hd : Carried model s (update env model q) (update env model (carry model s q)) := ⟨hk.qlen, hk.qpos, hk.objects⟩
  have hl : ∀ q, (update env model q).geomXpos.length = 2 := fun q => rfl
  show sphereSphere ((update env model (carry model s q)).geomXpos.getD g.1.toNat 0) 1 ((update env model (carry model s q)).geomXpos.getD g.2.toNat 0) 1 = _
  rw [geom_pos hd ⟨hl _, hl _⟩ h1, geom_pos hd ⟨hl _, hl _⟩ h2, sphere_along]
  rfl

noncomputable def base : JaxComp ℝ where
  model := model
  dim := 3
  vectorGain := Arr.onesMul 3 (Arr.scalar 1)
  gainFn := id
  maskIdxs := [0, 1, 2]
  kind := .comTask (Arr.eyeMul 3 (Arr.scalar 1)) 0 (Arr.zeros 3)

/-- Keep the centre of mass at the origin, bring the lamp to the origin, keep the second buoy in a box, and keep the buoys apart. -/
noncomputable def problem : JaxProblem ℝ where
  model := model
  vMin := Arr.onesMul 12 (Arr.scalar (-1))
  vMax := Arr.onesMul 12 (Arr.scalar 1)
  comps := [("balance", base), ("lamp", { base with kind := .positionTask (Arr.eyeMul 3 (Arr.scalar 1)) 0 0 .site (Arr.zeros 3) }),
    ("box", { base with dim := 6, kind := .positionBarrier 1 2 .body (Arr.onesMul 3 (Arr.scalar (-5))) (Arr.onesMul 3 (Arr.scalar 5)) (List.range 6) }),
    ("apart", { base with dim := 1, kind := .selfCollision 0 (Arr.onesMul 1 (Arr.scalar 1)) [(0, 1)] 1 })]

theorem portable (s : V3 ℝ) : ∀ c ∈ problem.comps, Portable env model s c.2 := by
  intro c hc
  have hm : 1 / 10 ^ 15 ≤ ∑ b ∈ range model.nbody, model.bodyMass.getD b 0 := by
    show 1 / 10 ^ 15 ≤ ∑ b ∈ range 3, ([0, 3, 2] : List ℝ).getD b 0
    simp [Finset.sum_range_succ]; norm_num
  simp only [problem, List.mem_cons, List.not_mem_nil, or_false] at hc
  rcases hc with rfl | rfl | rfl | rfl
  · exact ⟨rfl, rfl, hm⟩
  · exact ⟨rfl, rfl, le_rfl, 1, rfl, by decide⟩
  · exact ⟨rfl, rfl, rfl, by decide, 2, rfl, by decide⟩
  · refine ⟨rfl, contacts s, fun g hg => ?_⟩
    obtain rfl := List.mem_singleton.1 hg
    exact ⟨geom_on 0 (by decide), geom_on 1 (by decide)⟩

/-- All hypotheses of `C122_same_command_partial` and `C122_loop_partial` hold, for every place the buoys are towed to. -/
example {I : Type} (osqp : QPSolver ℝ I) (s : V3 ℝ) (q : Vec ℝ) (st : LocalIKData ℝ) (n : Nat) :
    driven env osqp model (carryProblem model s problem) (1 / 100) n (carry model s q) st =
      (driven env osqp model problem (1 / 100) n q st).map fun r => (carry model s r.1, r.2) :=
  C122_loop_partial simulates robot floating (jacrevR_along rfl) osqp (portable s) _ n q st

/-- Towing moves the buoys. -/
example (q : Vec ℝ) : (carry model ![5, 0, 0] q).get 7 = q.get 7 + 5 ∧ (carry model ![5, 0, 0] q).get 8 = q.get 8 := by
  constructor
  · rfl
  · show q.get 8 + 0 = _
    rw [add_zero]

end Flotilla

namespace Flotilla

/-- The simulator with jaxlie's functions. -/
noncomputable def frameEnv (eps : ℝ) : Env ℝ :=
  { Buoy.env with rotOfMat := rotOfMatR, se3Log := se3LogR eps, se3Exp := se3ExpR eps, jacZero := jacZeroR }

theorem frame_simulates (eps : ℝ) : Simulates (frameEnv eps) Buoy.geometry Buoy.model := ⟨fun _ => rfl, fun _ => rfl, fun d => ⟨d.efcEq, d.efcPos, d.efcJ, rfl⟩, rfl⟩

/-- The buoy upright at `(x, 0, 0)`. -/
noncomputable def place (x : ℝ) : Vec ℝ := ⟨7, fun i => if i = 0 then x else if i = 3 then 1 else 0⟩

theorem place_unit (x : ℝ) : UnitQuats Buoy.model (place x) := by
  intro k adr h
  rcases k with _ | k
  · cases h
    rw [Quaternion.normSq_def']
    show (1 : ℝ) ^ 2 + 0 ^ 2 + 0 ^ 2 + 0 ^ 2 = 1
    norm_num
  · rw [List.getD_eq_default (l := Buoy.model.jntType) _ (show 1 ≤ k + 1 by omega)] at h
    cases h

theorem place_pose (x : ℝ) : bodyPose Buoy.geometry Buoy.model (place x).get 1 = ⟨1, ![x, 0, 0]⟩ := by
  have hj : jointsOfBody Buoy.geometry Buoy.model 1 = [0] := rfl
  rw [bodyPose, if_neg (by decide)]
  simp only [hj, List.foldl_cons, List.foldl_nil]
  have h1 : quatAt (place x).get (0 + 3) = 1 := rfl
  have h2 : vec3At (place x).get 0 = ![x, 0, 0] := by
    funext a; fin_cases a <;> rfl
  show (⟨normalizeQuat (quatAt (place x).get (0 + 3)), vec3At (place x).get 0⟩ : SE3 ℝ) = _
  rw [h1, h2, normalizeQuat_unit (by simp)]

theorem quatMat_id : quatMat (1 : Quaternion ℝ) = 1 := by
  ext i j
  show rotate 1 (Pi.single j 1) i = _
  rw [rotate_one]
  fin_cases i <;> fin_cases j <;> simp

theorem rot_id : rotOfMatR (1 : M3 ℝ) = 1 := by
  have : (1 : M3 ℝ) = Arm.rz 0 := by
    ext i j
    fin_cases i <;> fin_cases j <;> simp [Arm.rz]
  rw [this, Arm.rz_zero]

theorem place_pos (eps x : ℝ) : objPos (update (frameEnv eps) Buoy.model (place x)) .body 1 = .ok ![x, 0, 0] := by
  refine Eq.trans (update_object (frame_simulates eps) (place x) (t := .body) (i := 1) (b := 1) rfl).1 ?_
  rw [place_pose]
  show Except.ok (rotate 1 0 + _) = _
  rw [rotate_zero, zero_add]

theorem place_mat (eps x : ℝ) : objMat (update (frameEnv eps) Buoy.model (place x)) .body 1 = .ok 1 := by
  refine Eq.trans (update_object (frame_simulates eps) (place x) (t := .body) (i := 1) (b := 1) rfl).2 ?_
  rw [place_pose]
  show Except.ok (quatMat (1 * 1)) = _
  rw [one_mul, quatMat_id]

/-- Turning the buoy about the vertical axis does not move its centre. -/
theorem spin_row (eps x : ℝ) : ∃ rows, frameJacobianLocal Buoy.model (update (frameEnv eps) Buoy.model (place x)) 1 .body = .ok rows ∧ rows.length = 6 ∧
    rows.getD 5 (0, 0) = (0, ![0, 0, 1]) := by
  have h1' := place_pos eps x
  have h2' := place_mat eps x
  set com := (subtreeComs Buoy.model (simKinematics Buoy.geometry Buoy.model (place x)).xipos).getD 1 0 with hcom
  have h3 : jnpGet (update (frameEnv eps) Buoy.model (place x)).subtreeCom (1 : Nat) = .ok com := by
    refine jnpGet_some ?_
    show (subtreeComs Buoy.model (simKinematics Buoy.geometry Buoy.model (place x)).xipos)[1]? = _
    rw [hcom, List.getD_eq_getElem _ _ (by rw [coms_length Buoy.robot _ (by simp [simKinematics])]; decide), List.getElem?_eq_getElem]
  have hq : ∀ k < 7, (simKinematics Buoy.geometry Buoy.model (place x)).qpos.get k = (place x).get k := (normalized_get Buoy.robot.addr (place_unit x)).2
  have hpose : bodyPose Buoy.geometry Buoy.model (simKinematics Buoy.geometry Buoy.model (place x)).qpos.get 1 = ⟨1, ![x, 0, 0]⟩ := by
    rw [← place_pose x]
    have hj : jointsOfBody Buoy.geometry Buoy.model 1 = [0] := rfl
    rw [bodyPose, bodyPose, if_neg (by decide), if_neg (by decide)]
    simp only [hj, List.foldl_cons, List.foldl_nil]
    show (⟨normalizeQuat (quatAt _ (0 + 3)), vec3At _ 0⟩ : SE3 ℝ) = ⟨normalizeQuat (quatAt _ (0 + 3)), vec3At _ 0⟩
    unfold quatAt vec3At
    simp only [Nat.zero_add]
    rw [hq 0 (by omega), hq 1 (by omega), hq 2 (by omega), hq 3 (by omega), hq (3 + 1) (by omega), hq (3 + 2) (by omega), hq (3 + 3) (by omega)]
  have hc : (update (frameEnv eps) Buoy.model (place x)).cdof = jointCdof Buoy.geometry Buoy.model (simKinematics Buoy.geometry Buoy.model (place x)).qpos.get com 0 := by
    show (List.range 1).flatMap _ = _
    simp only [List.range_succ, List.range_zero, List.nil_append, List.flatMap_cons, List.flatMap_nil, List.append_nil]
    rfl
  have hanchor : jointAnchor Buoy.geometry Buoy.model (simKinematics Buoy.geometry Buoy.model (place x)).qpos.get 0 = ![x, 0, 0] := by
    show vec3At _ 0 = _
    unfold vec3At
    rw [hq 0 (by omega), hq (0 + 1) (by omega), hq (0 + 2) (by omega)]
    funext a; fin_cases a <;> rfl
  have hm : dofMask Buoy.model 1 = [true, true, true, true, true, true] := by decide
  have hrow : frameJacobianLocal Buoy.model (update (frameEnv eps) Buoy.model (place x)) 1 .body =
      .ok (((update (frameEnv eps) Buoy.model (place x)).cdof.zip (dofMask Buoy.model 1)).map fun y =>
        maskRow y.2 ((Matrix.transpose (1 : M3 ℝ)).mulVec (pointVel (![x, 0, 0] - com) y.1), Matrix.vecMul y.1.1 (Matrix.transpose (Matrix.transpose (1 : M3 ℝ))))) := by
    unfold frameJacobianLocal
    have hb : objBody Buoy.model .body 1 = .ok (1 : Int) := rfl
    have hr : jnpGet Buoy.model.bodyRootid 1 = .ok (1 : Nat) := rfl
    simp only [bind, Except.bind, hb, h1', h2', hr, h3]
    rfl
  refine ⟨_, hrow, ?_, ?_⟩
  · rw [hc, hm]; rfl
  · rw [hc, hm]
    have hR : (Matrix.transpose (quatMat (bodyPose Buoy.geometry Buoy.model (simKinematics Buoy.geometry Buoy.model (place x)).qpos.get 1).rot) (2 : Fin 3) : V3 ℝ) = ![0, 0, 1] := by
      rw [congrArg SE3.rot hpose]
      show (Matrix.transpose (quatMat 1) (2 : Fin 3) : V3 ℝ) = _
      rw [quatMat_id]
      funext a; fin_cases a <;> simp [Matrix.transpose, Matrix.one_apply]
    have hcd : (jointCdof Buoy.geometry Buoy.model (simKinematics Buoy.geometry Buoy.model (place x)).qpos.get com 0)[5]? = some (![0, 0, 1], crossProduct ![0, 0, 1] (com - ![x, 0, 0])) := by
      rw [← hanchor, ← hR]
      rfl
    have hm5 : ([true, true, true, true, true, true] : List Bool)[5]? = some true := rfl
    rw [List.getD_eq_getElem?_getD, List.getElem?_map, List.getElem?_zip_eq_some (z := (_, true)) |>.2 ⟨hcd, hm5⟩]
    show ((Matrix.transpose (1 : M3 ℝ)).mulVec (pointVel (![x, 0, 0] - com) (![0, 0, 1], crossProduct ![0, 0, 1] (com - ![x, 0, 0]))),
      Matrix.vecMul ![0, 0, 1] (Matrix.transpose (Matrix.transpose (1 : M3 ℝ)))) = _
    rw [Matrix.transpose_one, Matrix.transpose_one, Matrix.one_mulVec, Matrix.vecMul_one]
    apply Prod.ext
    · show crossProduct ![0, 0, 1] (com - ![x, 0, 0]) + crossProduct ![0, 0, 1] (![x, 0, 0] - com) = 0
      rw [← map_add, sub_add_sub_cancel, sub_self, map_zero]
    · rfl

/-- A task of the whole pose of the buoy, with the target at `(x, 0, 0)`, upright. -/
noncomputable def frameTask (x : ℝ) : JaxComp ℝ :=
  { model := Buoy.model, dim := 6, maskIdxs := List.range 6, gainFn := id, vectorGain := Arr.onesMul 6 (Arr.scalar 1),
    kind := .frameTask (Arr.eyeMul 6 (Arr.scalar 1)) 0 1 .body ⟨[7], fun ix => match ix.headD 0 with | 0 => 1 | 4 => x | _ => 0⟩ }

end Flotilla

/-- **C122 is false for frame tasks**: a buoy sits exactly at its target.  At the origin, turning about the vertical axis
does not enter the second entry of the task; when the buoy is carried by one metre together with its target, it does. -/
theorem C122_frame_wrong {eps : ℝ} (he : 0 < eps) :
    ∃ J J' : Mat ℝ,
      evalJacobian (Flotilla.frameEnv eps) (Flotilla.frameTask 0) (update (Flotilla.frameEnv eps) Buoy.model (Flotilla.place 0)) = .ok J ∧
      evalJacobian (Flotilla.frameEnv eps) (carryComp Buoy.model ![1, 0, 0] (Flotilla.frameTask 0))
        (update (Flotilla.frameEnv eps) Buoy.model (carry Buoy.model ![1, 0, 0] (Flotilla.place 0))) = .ok J' ∧
      J.get 1 5 = 0 ∧ J'.get 1 5 = -1 := by
  have hcq : carry Buoy.model ![1, 0, 0] (Flotilla.place 0) = Flotilla.place 1 := by
    show (⟨7, _⟩ : Vec ℝ) = ⟨7, _⟩
    congr 1
    funext i
    show (if i = 0 then (0 : ℝ) else if i = 3 then 1 else 0) + ([(1 : ℝ), 0, 0, 0, 0, 0, 0] : List ℝ).getD i 0 = if i = 0 then 1 else if i = 3 then 1 else 0
    rcases i with _ | _ | _ | _ | _ | _ | _ | i <;> simp
  have hct : carryComp Buoy.model ![1, 0, 0] (Flotilla.frameTask 0) = Flotilla.frameTask 1 := by
    unfold carryComp Flotilla.frameTask
    simp only [carryArr]
    congr 3
    funext ix
    generalize ix.headD 0 = i
    rcases i with _ | _ | _ | _ | _ | _ | _ | i <;> simp [vec3]
  have key : ∀ x : ℝ, ∃ J, evalJacobian (Flotilla.frameEnv eps) (Flotilla.frameTask x) (update (Flotilla.frameEnv eps) Buoy.model (Flotilla.place x)) = .ok J ∧
      J.get 1 5 = -x := by
    intro x
    obtain ⟨rows, hrows, hlen, hrow⟩ := Flotilla.spin_row eps x
    have hf : objFrame (Flotilla.frameEnv eps) (update (Flotilla.frameEnv eps) Buoy.model (Flotilla.place x)) .body 1 = .ok ⟨1, ![x, 0, 0]⟩ := by
      unfold objFrame
      simp only [bind, Except.bind, Flotilla.place_pos, Flotilla.place_mat]
      show Except.ok (⟨rotOfMatR 1, _⟩ : SE3 ℝ) = _
      rw [Flotilla.rot_id]
    have hA : ((⟨⟨1, 0, 0, 0⟩, ![x, 0, 0]⟩ : SE3 ℝ).inv.mul (⟨1, ![x, 0, 0]⟩ : SE3 ℝ).inv) = ⟨1, ![-(2 * x), 0, 0]⟩ := by
      rw [← Arm.target]
      simp only [SE3.mul, SE3.inv, quatInv, star_one, rotate_one, mul_one]
      congr 1
      funext i
      fin_cases i <;> simp
      ring
    let jlog := jacZeroR (fun tau => se3LogR eps (((⟨⟨1, 0, 0, 0⟩, ![x, 0, 0]⟩ : SE3 ℝ).inv.mul (⟨1, ![x, 0, 0]⟩ : SE3 ℝ).inv).mul (se3ExpR eps tau)))
    have h5 : jlog 1 5 = x := by
      show jacZeroR _ 1 5 = x
      rw [hA, Arm.jac_rot he]
      simp
      ring
    refine ⟨(⟨6, rows.length, fun i j => ∑ k ∈ Finset.range 6, (mat6 jlog).neg.get i k * (rowsMat rows).get k j⟩ : Mat ℝ).gatherRows (List.range 6), ?_, ?_⟩
    · have : evalJacobian (Flotilla.frameEnv eps) (Flotilla.frameTask x) (update (Flotilla.frameEnv eps) Buoy.model (Flotilla.place x)) = (do
          let f ← objFrame (Flotilla.frameEnv eps) (update (Flotilla.frameEnv eps) Buoy.model (Flotilla.place x)) .body 1
          let fj ← frameJacobianLocal Buoy.model (update (Flotilla.frameEnv eps) Buoy.model (Flotilla.place x)) 1 .body
          let J ← (mat6 (jacZeroR (fun tau => se3LogR eps (((⟨⟨1, 0, 0, 0⟩, ![x, 0, 0]⟩ : SE3 ℝ).inv.mul f.inv).mul (se3ExpR eps tau))))).neg.mul (rowsMat fj)
          return J.gatherRows (List.range 6)) := rfl
      rw [this, hf, hrows]
      rfl
    · show ∑ k ∈ Finset.range 6, (mat6 jlog).neg.get 1 k * (rowsMat rows).get k 5 = _
      have e : ∀ k, (rowsMat rows).get k 5 = (vec6 ((0, ![0, 0, 1]) : Twist ℝ)).get k := by
        intro k; rw [← hrow]; rfl
      have h5' : (mat6 jlog).neg.get 1 5 = -x := by rw [← h5]; rfl
      simp only [e, Finset.sum_range_succ, Finset.sum_range_zero, zero_add, h5']
      simp [vec6, Vec.append, vec3]
  obtain ⟨J, h1, h2⟩ := key 0
  obtain ⟨J', h3, h4⟩ := key 1
  rw [hcq, hct]
  exact ⟨J, J', h1, h3, by rw [h2, neg_zero], h4⟩

end Mjinx.Props
