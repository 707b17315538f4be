import Verif.Props.WeldClosure
import Verif.Props.LoopClosureEx
import Mathlib.Analysis.SpecialFunctions.Trigonometric.InverseDeriv

/-!
# A clamp under control

A program and a motion that meet the hypotheses of C116: a plate that turns, welded to a carriage that slides and turns.
-/

set_option linter.unusedSectionVars false

namespace Mjinx.Props
open Mjinx Mjinx.Spec Finset
open scoped Matrix Quaternion

namespace Clamp

/-- Body 1 turns about z.  Body 2 slides along x and turns about z. -/
noncomputable def model : MjModel ℝ :=
  { (MjModel.empty : MjModel ℝ) with
    nq := 3, nv := 3, nbody := 3, jntType := [.hinge, .slide, .hinge], jntQposadr := [0, 1, 2], jntDofadr := [0, 1, 2],
    jntRange := [(0, 0), (0, 0), (0, 0)], bodyParentid := [0, 0, 0], bodyRootid := [0, 1, 2], bodyWeldid := [0, 1, 2],
    dofBodyid := [1, 2, 2], bodyMass := [0, 1, 1], bodyGeomadr := [-1, -1, -1], bodyGeomnum := [0, 0, 0],
    bodyNames := ["world", "plate", "carriage"], eqType := [.weld] }

noncomputable def geometry : Geometry where
  bodyPos := [0, 0, 0]
  bodyQuat := [1, 1, 1]
  bodyIpos := [0, 0, 0]
  jntBodyid := [1, 2, 2]
  jntPos := [0, 0, 0]
  jntAxis := [![0, 0, 1], ![1, 0, 0], ![0, 0, 1]]
  qpos0 := fun _ => 0
  geomPos := []
  geomQuat := []
  sitePos := []
  siteQuat := []

/-- The plate and the carriage are welded. -/
noncomputable def clamp : Weld := ⟨1, 2, 0, 0, 1, 1⟩

noncomputable def rowsOf (m : MjModel ℝ) (d : MjData ℝ) : List EfcRow :=
  match weldRows m d clamp with
  | .ok r => r
  | .error _ => []

noncomputable def env : Env ℝ :=
  { Rod.env 0 with
    kinematics := simKinematics geometry
    comPos := simComPos geometry
    makeConstraint := fun m d => { d with efcEq := (rowsOf m d).map (fun _ => true), efcPos := (rowsOf m d).map EfcRow.pos, efcJ := (rowsOf m d).map EfcRow.jac } }

theorem simulates : Simulates env geometry model := ⟨fun _ => rfl, fun _ => rfl, fun _ => ⟨_, _, _, rfl⟩, rfl⟩

theorem welds : SimulatesWelds env geometry model [] [clamp] [] where
  supported := by show EqType.unsupported ∉ [EqType.weld]; simp
  connects := rfl
  welds := rfl
  joints := rfl
  bodies := by intro c hc; cases hc
  welded := by
    intro c hc
    obtain rfl := List.mem_singleton.1 hc
    exact ⟨show 1 < 3 by decide, show 2 < 3 by decide, map_one _⟩
  coupled := by intro c hc; cases hc
  rows := by
    intro q d hd
    obtain ⟨r, hr⟩ : ∃ r, weldRows model d clamp = .ok r := by
      subst hd
      exact ⟨_, rfl⟩
    have e : rowsOf model d = r := by
      unfold rowsOf
      rw [hr]
    refine ⟨[], [r], [], _, rfl, CEx.mapM_one hr, rfl, ?_⟩
    show { d with efcEq := (rowsOf model d).map (fun _ => true), efcPos := (rowsOf model d).map EfcRow.pos, efcJ := (rowsOf model d).map EfcRow.jac } = _
    rw [e]
    simp

theorem robot : RobotWF geometry model where
  tree := by
    refine ⟨?_, (show ∀ b ∈ [1, 2, 2], b < 3 by decide), rfl, Nat.succ_pos _⟩
    intro b h0 hb
    have : b < 3 := hb
    interval_cases b
    · show 0 < 1; decide
    · show 0 < 2; decide
  addr := ⟨by repeat' constructor, rfl⟩
  joints := by
    intro j hj
    have : j < 3 := hj
    interval_cases j
    · exact ⟨by decide, show 1 < 3 by decide⟩
    · exact ⟨by decide, show 2 < 3 by decide⟩
    · exact ⟨by decide, show 2 < 3 by decide⟩
  dofs := rfl
  axis := by
    intro j hj ht
    have : j < 3 := hj
    interval_cases j
    · show sq3 ![0, 0, 1] = 1
      simp [sq3]
    · cases ht
    · show sq3 ![0, 0, 1] = 1
      simp [sq3]
  quat := Buoy.unitOne _ (by simp [geometry])
  free := by
    intro j hj ht
    have : j < 3 := hj
    interval_cases j <;> cases ht
  ball := by
    intro j i hji hi _ ht
    have hi' : i < 3 := hi
    have hj : j < 3 := by omega
    interval_cases j <;> cases ht
  roots := ⟨rfl, (show ∀ b < 3, [0, 1, 2].getD b 0 < 3 by decide)⟩
  root := by
    intro b h0 hb hp
    have : b < 3 := hb
    interval_cases b <;> exact absurd rfl hp
  mass := rfl
  objects := ⟨by simp [model, MjModel.empty], by simp [model, MjModel.empty]⟩
  turns := ⟨Buoy.unitOne _ (by simp [geometry]), Buoy.unitOne _ (by simp [geometry])⟩

theorem arm : RailArm geometry model where
  joints := by
    intro t ht
    have : t ∈ ([.hinge, .slide, .hinge] : List JntType) := ht
    fin_cases this <;> simp
  rails := by
    intro j hj hs i hi hh
    have hi' : i < 3 := hi
    have hj' : j < 3 := hj
    obtain rfl : j = 1 := by
      interval_cases j
      · cases hs
      · rfl
      · cases hs
    have hp : model.bodyParentid.getD (geometry.jntBodyid.getD 1 0) 0 = 0 := rfl
    refine ⟨fun h => ?_, fun h => ?_⟩
    · rw [hp] at h
      have h1 := anc_le robot.tree h (show 0 < 3 by decide)
      interval_cases i
      · exact absurd h1 (show ¬ 1 ≤ 0 by decide)
      · exact absurd h1 (show ¬ 2 ≤ 0 by decide)
      · exact absurd h1 (show ¬ 2 ≤ 0 by decide)
    · interval_cases i
      · exact absurd h.1 (by decide)
      · exact absurd h.2 (by decide)
      · exact absurd h.2 (by decide)

theorem pose1 (q : Vec ℝ) : bodyPose geometry model q.get 1 = ⟨axisAngleQuat ![0, 0, 1] (q.get 0), 0⟩ := by
  have hj : jointsOfBody geometry model 1 = [0] := rfl
  rw [bodyPose, if_neg (by decide), hj]
  have hp : model.bodyParentid.getD 1 0 = 0 := rfl
  simp only [hp, dif_pos (show 0 < 1 by decide), bodyPose_zero, List.foldl_cons, List.foldl_nil]
  have e : jointMove geometry model q.get ((SE3.one : SE3 ℝ).mul ⟨geometry.bodyQuat.getD 1 1, geometry.bodyPos.getD 1 0⟩) 0 =
      ⟨1 * 1 * axisAngleQuat ![0, 0, 1] (q.get 0 - 0),
        (rotate (1 * 1) 0 + (rotate 1 0 + 0)) - rotate (1 * 1 * axisAngleQuat ![0, 0, 1] (q.get 0 - 0)) 0⟩ := rfl
  rw [e, rotate_zero, rotate_zero, rotate_zero, sub_zero]
  simp

theorem pose2 (q : Vec ℝ) : bodyPose geometry model q.get 2 = ⟨axisAngleQuat ![0, 0, 1] (q.get 2), ![q.get 1, 0, 0]⟩ := by
  have hj : jointsOfBody geometry model 2 = [1, 2] := rfl
  rw [bodyPose, if_neg (by decide), hj]
  have hp : model.bodyParentid.getD 2 0 = 0 := rfl
  simp only [hp, dif_pos (show 0 < 2 by decide), bodyPose_zero, List.foldl_cons, List.foldl_nil]
  have e : jointMove geometry model q.get (jointMove geometry model q.get ((SE3.one : SE3 ℝ).mul ⟨geometry.bodyQuat.getD 2 1, geometry.bodyPos.getD 2 0⟩) 1) 2 =
      ⟨1 * 1 * axisAngleQuat ![0, 0, 1] (q.get 2 - 0),
        (rotate (1 * 1) 0 + ((rotate 1 0 + 0) + (q.get 1 - 0) • rotate (1 * 1) ![1, 0, 0])) - rotate (1 * 1 * axisAngleQuat ![0, 0, 1] (q.get 2 - 0)) 0⟩ := rfl
  rw [e, rotate_zero, rotate_zero, rotate_zero, sub_zero]
  simp only [one_mul, rotate_one, sub_zero, zero_add, add_zero]
  congr 1
  funext a
  fin_cases a <;> simp

theorem apart (q : Vec ℝ) : weldApart geometry model clamp q = ![- q.get 1, 0, 0] := by
  show (bodyPose geometry model q.get 1).apply 0 - (bodyPose geometry model q.get 2).apply 0 = _
  rw [pose1, pose2]
  simp only [SE3.apply, rotate_zero]
  funext a
  fin_cases a <;> simp

theorem turn (q : Vec ℝ) : weldTurn geometry model clamp q = ![0, 0, Real.sin ((q.get 0 - q.get 2) / 2)] := by
  show (1 : ℝ) • imVec (star (bodyPose geometry model q.get 2).rot * ((bodyPose geometry model q.get 1).rot * 1)) = _
  rw [pose1, pose2, one_smul, mul_one, show (q.get 0 - q.get 2) / 2 = q.get 0 / 2 - q.get 2 / 2 by ring, Real.sin_sub]
  funext a
  fin_cases a
  · show (star (axisAngleQuat ![0, 0, 1] (q.get 2)) * axisAngleQuat ![0, 0, 1] (q.get 0)).imI = 0
    simp only [Quaternion.imI_mul, Quaternion.re_star, Quaternion.imI_star, Quaternion.imJ_star, Quaternion.imK_star]
    simp [axisAngleQuat]
  · show (star (axisAngleQuat ![0, 0, 1] (q.get 2)) * axisAngleQuat ![0, 0, 1] (q.get 0)).imJ = 0
    simp only [Quaternion.imJ_mul, Quaternion.re_star, Quaternion.imI_star, Quaternion.imJ_star, Quaternion.imK_star]
    simp [axisAngleQuat]
  · show (star (axisAngleQuat ![0, 0, 1] (q.get 2)) * axisAngleQuat ![0, 0, 1] (q.get 0)).imK = _
    simp only [Quaternion.imK_mul, Quaternion.re_star, Quaternion.imI_star, Quaternion.imJ_star, Quaternion.imK_star]
    simp [axisAngleQuat]
    ring

/-! ### The program -/

/-- A hard equality constraint is made and added to a problem with speed limit 2. -/
noncomputable def ops : List (Op ℝ) :=
  [.newComp (.modelEquality "e" (Arr.scalar 1) true none), .newProblem model (Arr.scalar (-2)) (Arr.scalar 2), .add 0 0]

noncomputable def acts : List (Act ℝ) := ops.map .call ++ [.tick, .tick]

theorem clean : CleanProgram World.init (callsOf 0 acts) := by
  refine ⟨trivial, trivial, ?_, trivial, trivial, trivial⟩
  intro e h; cases h

theorem clean_ops' {more : List (Op ℝ)} (h : more = [] ∨ more = [.compile 0]) : CleanProgram World.init (ops ++ more) := by
  rcases h with rfl | rfl
  · refine ⟨trivial, trivial, ?_, trivial⟩; intro e h; cases h
  · refine ⟨trivial, trivial, ?_, trivial, trivial⟩; intro e h; cases h

theorem holds {more : List (Op ℝ)} (h : more = [] ∨ more = [.compile 0]) : HoldsLoops model 0 (fun _ => 1) (run World.init (ops ++ more)) := by
  rcases h with rfl | rfl
  · exact ⟨_, "e", 0, _, "e", Arr.scalar 1, true, none, _, _, rfl, rfl, .head _, rfl, rfl,
      ⟨_, rfl, .step (.updateModel model) .refl (fun m h => by cases h; rfl)⟩, rfl, rfl, fun _ => rfl⟩
  · exact ⟨_, "e", 0, _, "e", Arr.scalar 1, true, none, _, _, rfl, rfl, .head _, rfl, rfl,
      ⟨_, rfl, .step .compile (.step (.updateModel model) .refl (fun m h => by cases h; rfl)) (fun m h => by cases h)⟩, rfl, rfl, fun _ => rfl⟩

theorem speeds {more : List (Op ℝ)} (h : more = [] ∨ more = [.compile 0]) (ε : ℝ) :
    SpeedAtMost model 0 ε (fun _ => 2 + ε) (run World.init (ops ++ more)) := by
  rcases h with rfl | rfl
  all_goals
    refine ⟨_, rfl, fun k _ => ⟨?_, ?_⟩⟩
    · show (1 : ℝ) * 2 + ε ≤ 2 + ε
      linarith
    · show - ((1 : ℝ) * (-2)) + ε ≤ 2 + ε
      linarith

/-- What the problem compiles to. -/
theorem compiled {more : List (Op ℝ)} (h : more = [] ∨ more = [.compile 0]) :
    ∃ (P : Prob ℝ) (c : Comp ℝ) (j : JaxComp ℝ), (run World.init (ops ++ more)).probs[0]? = some P ∧ P.comps = [("e", 0)] ∧
      (∀ k, P.vMin.get [k] = -2) ∧ (∀ k, P.vMax.get [k] = 2) ∧ (run World.init (ops ++ more)).comps = [c] ∧
      (∃ a W, c.attrs.kind = .modelEquality a true W) ∧ (c.attrs.gainFn = id ∧ ∀ r, gainAt c.attrs.gain r = 1) ∧ P.model = model ∧
      (step (run World.init (ops ++ more)) (.compile 0)).1 = .ok (.compiled ⟨model, P.vMin, P.vMax, [("e", j)]⟩) ∧
      MadeBy (.modelEquality "e" (Arr.scalar 1) true none) c ∧ (jaxComponent c).1 = .ok j ∧ j.model = model ∧ (∃ a W, j.kind = .modelEquality a true W) ∧
      j.gainFn = id ∧ ∀ r, j.vectorGain.get [r] = 1 := by
  have e1 : (1 : ℝ) * (-2) = -2 := by norm_num
  have e2 : (1 : ℝ) * 2 = 2 := by norm_num
  have e3 : (1 : ℝ) * 1 = 1 := by norm_num
  rcases h with rfl | rfl
  · exact ⟨_, _, _, rfl, rfl, fun _ => e1, fun _ => e2, rfl, ⟨_, _, rfl⟩, ⟨rfl, fun _ => rfl⟩, rfl, rfl,
      ⟨_, rfl, .step (.updateModel model) .refl (fun m h => by cases h; rfl)⟩, rfl, rfl, ⟨_, _, rfl⟩, rfl, fun _ => e3⟩
  · exact ⟨_, _, _, rfl, rfl, fun _ => e1, fun _ => e2, rfl, ⟨_, _, rfl⟩, ⟨rfl, fun _ => rfl⟩, rfl, rfl,
      ⟨_, rfl, .step .compile (.step (.updateModel model) .refl (fun m h => by cases h; rfl)) (fun m h => by cases h)⟩, rfl, rfl, ⟨_, _, rfl⟩, rfl, fun _ => e3⟩

theorem model_fits : ModelFits model where
  bodies := Nat.succ_pos _
  rootLen := rfl
  root := show ∀ r ∈ [0, 1, 2], r < 3 by decide
  mass := rfl
  bodyNames := rfl
  geomNames := rfl
  siteNames := rfl
  geomBody := robot.objects.1
  siteBody := robot.objects.2
  geomLen := rfl
  contypeLen := rfl
  joints := robot.addr
  geoms := ⟨rfl, rfl, rfl⟩
  collision := by
    refine ⟨rfl, (show ∀ w ∈ [0, 1, 2], w < 3 by decide), rfl, (show ∀ p ∈ [0, 0, 0], p < 3 by decide), rfl, rfl, ?_, rfl⟩
    intro b hb
    have : b < 3 := hb
    left
    interval_cases b <;> rfl

theorem env_fits : EnvFits env model := ⟨fun _ _ => ⟨⟨rfl, rfl, rfl⟩, rfl⟩, fun _ _ _ _ => le_refl _⟩
theorem data_fits (q : Vec ℝ) : DataFits model (update env model q) := ⟨⟨rfl, rfl, rfl⟩, rfl, rfl, rfl, rfl⟩
theorem sized (q : Vec ℝ) (_hq : q.len = 3) : Sized env model (update env model q) := ⟨fun _ _ => ⟨rfl, rfl⟩, rfl, rfl, rfl⟩

/-- The velocity that closes the clamp. -/
noncomputable def closing (q : Vec ℝ) (k : Nat) : ℝ :=
  match k with
  | 0 => - 2 * (Real.sin ((q.get 0 - q.get 2) / 2) / Real.cos ((q.get 0 - q.get 2) / 2))
  | 1 => - q.get 1
  | _ => 0

theorem along (q v : Vec ℝ) (s : ℝ) (i : Nat) (hi : i < 3) : (integrate env model q v s).get i = q.get i + s * v.get i := by
  interval_cases i <;> rfl

/-- Small gaps can be closed. -/
def Near (q : Vec ℝ) : Prop := |q.get 1| ≤ 1 / 2 ∧ |Real.sin ((q.get 0 - q.get 2) / 2)| ≤ 1 / 2

theorem cos_sq {q : Vec ℝ} (h : Near q) : 3 / 4 ≤ Real.cos ((q.get 0 - q.get 2) / 2) ^ 2 := by
  have h1 := Real.sin_sq_add_cos_sq ((q.get 0 - q.get 2) / 2)
  have h2 := abs_le.1 h.2
  nlinarith [h2.1, h2.2]

theorem closing_le {q : Vec ℝ} (h : Near q) (k : Nat) : |closing q k| ≤ 2 := by
  unfold closing
  split
  · have hc := cos_sq h
    have hs := h.2
    generalize Real.cos ((q.get 0 - q.get 2) / 2) = c at *
    generalize Real.sin ((q.get 0 - q.get 2) / 2) = s at *
    have hc' : 1 / 2 ≤ |c| := by
      refine le_of_not_gt fun hlt => ?_
      have := sq_abs c
      nlinarith [abs_nonneg c]
    rw [abs_mul, abs_div, abs_neg, abs_two]
    have : |s| / |c| ≤ 1 := (div_le_one (by linarith)).2 (by linarith)
    linarith
  · rw [abs_neg]
    linarith [h.1]
  · simp

/-- The rows of the compiled constraint. -/
theorem rows {j : JaxComp ℝ} (hj : CompiledLoops model j) (q : Vec ℝ) {W : Vec ℝ} {J : Mat ℝ} (hW : evalValue env j (update env model q) = .ok W)
    (hJ : evalJacobian env j (update env model q) = .ok J) : J.rows = 6 ∧ (Near q → ∀ i < 6, rowDot J i (closing q) = - W.get i) := by
  refine ⟨?_, ?_⟩
  · obtain ⟨rs, ss, eqs, r1, r2, r3, V, J', h1, h2, h3, h4, -⟩ := weld_values simulates welds hj q
    obtain rfl := Except.ok.inj (hJ.symm.trans h2)
    have := (flatten_six ss (weld_lengths r2)).1
    rw [(mapM_mem r2).2.2] at this
    obtain rfl : rs = [] := by cases r1; rfl
    rw [h4, r3, List.length_append, List.length_append, this]
    rfl
  · intro hn
    have both : ∀ a : Fin 3, rowDot J (weldPosAt model 0 a) (closing q) = - W.get (weldPosAt model 0 a) ∧
        rowDot J (weldRotAt model 0 a) (closing q) = - W.get (weldRotAt model 0 a) := by
      intro a
      obtain ⟨W', J', w1, w2, ⟨-, -, w3, w4⟩, -, -, w5, w6⟩ := weld_row simulates robot welds hj (k := 0) rfl a (arm_unit arm q)
      obtain rfl := Except.ok.inj (hW.symm.trans w1)
      obtain rfl := Except.ok.inj (hJ.symm.trans w2)
      have hp := w4 ⟨3, closing q⟩
      have hr := w6 ⟨3, closing q⟩
      simp only [apart, turn, along _ _ _ _ (show 0 < 3 by norm_num), along _ _ _ _ (show 1 < 3 by norm_num), along _ _ _ _ (show 2 < 3 by norm_num)] at hp hr w3 w5
      rw [w3, w5]
      refine ⟨hp.unique ?_, hr.unique ?_⟩
      · fin_cases a
        · show HasDerivAt (fun s : ℝ => - (q.get 1 + s * - q.get 1)) (- - q.get 1) 0
          have e : (fun s : ℝ => - (q.get 1 + s * - q.get 1)) = fun s => - q.get 1 + id s * q.get 1 := by
            funext s
            simp only [id]
            ring
          rw [e]
          simpa using ((hasDerivAt_id (0 : ℝ)).mul_const (q.get 1)).const_add (- q.get 1)
        · show HasDerivAt (fun s : ℝ => (0 : ℝ)) (- 0) 0
          simpa using hasDerivAt_const (0 : ℝ) (0 : ℝ)
        · show HasDerivAt (fun s : ℝ => (0 : ℝ)) (- 0) 0
          simpa using hasDerivAt_const (0 : ℝ) (0 : ℝ)
      · fin_cases a
        · show HasDerivAt (fun s : ℝ => (0 : ℝ)) (- 0) 0
          simpa using hasDerivAt_const (0 : ℝ) (0 : ℝ)
        · show HasDerivAt (fun s : ℝ => (0 : ℝ)) (- 0) 0
          simpa using hasDerivAt_const (0 : ℝ) (0 : ℝ)
        · show HasDerivAt (fun s : ℝ => Real.sin ((q.get 0 + s * (- 2 * (Real.sin ((q.get 0 - q.get 2) / 2) / Real.cos ((q.get 0 - q.get 2) / 2))) -
            (q.get 2 + s * 0)) / 2)) (- Real.sin ((q.get 0 - q.get 2) / 2)) 0
          have hc : Real.cos ((q.get 0 - q.get 2) / 2) ≠ 0 := by
            intro h0
            have := cos_sq hn
            rw [h0] at this
            norm_num at this
          have hlin : ∀ x y z : ℝ, HasDerivAt (fun s : ℝ => (x + s * z - (y + s * 0)) / 2) (z / 2) 0 := fun x y z => by
            have e : (fun s : ℝ => (x + s * z - (y + s * 0)) / 2) = fun s => (x - y) / 2 + id s * (z / 2) := by
              funext s
              simp only [id]
              ring
            rw [e]
            simpa using ((hasDerivAt_id (0 : ℝ)).mul_const (z / 2)).const_add ((x - y) / 2)
          refine (hlin _ _ _).sin.congr_deriv ?_
          simp only [zero_mul, add_zero, mul_zero]
          field_simp
    intro i hi
    interval_cases i
    · exact (both 0).1
    · exact (both 1).1
    · exact (both 2).1
    · exact (both 0).2
    · exact (both 1).2
    · exact (both 2).2

theorem compiled_rows {c : Comp ℝ} {j : JaxComp ℝ} (hmade : MadeBy (.modelEquality "e" (Arr.scalar 1) true none) c) (hjc : (jaxComponent c).1 = .ok j)
    (hm : j.model = model) : CompiledLoops model j := by
  obtain ⟨c0, h0, hr⟩ := id hmade
  have hC : CompilesTo c.attrs j := jaxComponent_spec (cacheOK_reachable (hr.reachable h0)) (c' := (jaxComponent c).2) (by rw [← hjc])
  have := compiled_loops hmade hC
  rwa [hm] at this

/-- Nothing raises, and where the gaps are small the velocity that closes them is allowed. -/
theorem solved {more : List (Op ℝ)} (h : more = [] ∨ more = [.compile 0]) {P : Prob ℝ} (hP : (run World.init (ops ++ more)).probs[0]? = some P) {J : JaxProblem ℝ}
    (hJ : (step (run World.init (ops ++ more)) (.compile 0)).1 = .ok (.compiled J)) {q : Vec ℝ} (hq : q.len = 3) :
    WellSized env J (update env model q) ∧ (∃ qp, problemQP env model J (update env model q) = .ok qp) ∧
    (∀ (osqp : QPSolver ℝ Unit) (s : LocalIKData ℝ), ∃ r, localSolve env osqp model q.toArr s J = .ok r) ∧
    (Near q → ∀ ts, TermsOf (run World.init (ops ++ more)) P J env (update env model q) ts → Allowed P.model.nv P.vMin P.vMax ts (closing q)) := by
  have hcl := clean_ops' h
  obtain ⟨P', c, j, hP', hPc, hmin, hmax, hcs, ⟨a, W, hk⟩, ⟨hg, hg'⟩, hPm, hJ', hmade, hjc, hm, ⟨a', W', hjk⟩, -, -⟩ := compiled h
  rw [hP] at hP'; cases hP'
  rw [hJ'] at hJ; cases hJ
  have hL := compiled_rows hmade hjc hm
  have hmod : ∀ nj ∈ ([("e", j)] : List (String × JaxComp ℝ)), nj.2.model = model := fun nj h => by fin_cases h; exact hm
  have huse : ∀ nj ∈ ([("e", j)] : List (String × JaxComp ℝ)), Usable env nj.2 := fun nj h => by
    obtain rfl : nj = ("e", j) := List.mem_singleton.1 h
    unfold Usable
    rw [hjk]
    trivial
  have hsol := fun osqp s => (C87_solve_partial hcl hJ' hmod huse model_fits env_fits (fun q hq => ⟨sized q hq, data_fits q⟩) (I := Unit) osqp q.toArr s).2
    (congrArg (fun n => [n]) hq) (by
      intro nj h hb
      exfalso
      obtain rfl : nj = ("e", j) := List.mem_singleton.1 h
      unfold CompiledBarrier at hb
      rw [hjk] at hb
      exact hb)
  refine ⟨C68_problem_partial hcl hJ' hmod (fun nj h => settled_of_usable (huse nj h)) robot.addr (sized q hq), ?_, fun osqp s => ?_, fun hn ts hts => ?_⟩
  · obtain ⟨qp, h, -⟩ := hsol (fun _ => (Vec.zero 0, ())) ⟨Vec.zero 0⟩
    have hvec : (⟨model.nq, fun i => q.toArr.get [i]⟩ : Vec ℝ) = q := by
      rw [show model.nq = q.len from hq.symm]
      rfl
    dsimp only at h
    rw [hvec] at h
    exact ⟨qp, h⟩
  · obtain ⟨qp, -, h⟩ := hsol osqp s
    exact ⟨_, h⟩
  · unfold TermsOf at hts
    rw [hPc, hcs] at hts
    cases hts with
    | cons ht hnil =>
    cases hnil
    rename_i t
    obtain ⟨c', hc, hta, j', hj, hjac, hval⟩ := ht
    cases hc
    obtain rfl : j' = j := by simpa using hj
    obtain ⟨r1, r2⟩ := rows hL q hval hjac
    refine ⟨?_, ?_⟩
    · intro i hi
      rw [hmin, hmax]
      have := abs_le.1 (closing_le hn i)
      constructor <;> linarith [this.1, this.2]
    · intro x hx
      unfold Term.Allows
      fin_cases hx
      simp only [hta, hk]
      intro _ i hi
      rw [r2 hn i (by omega)]
      unfold Term.rate
      rw [hta, hg, hg', one_mul]
      rfl

theorem fits {more : List (Op ℝ)} (h : more = [] ∨ more = [.compile 0]) (osqp : QPSolver ℝ Unit) {q : Vec ℝ} (hq : q.len = 3) (s : LocalIKData ℝ) :
    Works env osqp model 0 ⟨run World.init (ops ++ more), q, s⟩ ∧ (Near q → CanMove env model 0 ⟨run World.init (ops ++ more), q, s⟩) := by
  obtain ⟨P, c, j, hP, -, -, -, -, -, -, -, hJ, -⟩ := compiled h
  obtain ⟨s1, s2, s3, s4⟩ := solved h hP hJ hq
  refine ⟨⟨_, _, hJ, (s3 osqp s).choose_spec⟩, ?_⟩
  intro hn J' hJ'
  dsimp only at hJ' ⊢
  rw [hJ] at hJ'; cases hJ'
  refine ⟨s1, fun P' ts hP' hts => ?_⟩
  rw [hP] at hP'; cases hP'
  exact ⟨_, s4 hn ts hts⟩

theorem off_iff (q : Vec ℝ) {e : Nat → ℝ} : WeldsOff env model [clamp] e q ↔
    ∀ a, |weldApart geometry model clamp q a| ≤ e (weldPosAt model 0 a) ∧ |weldTurn geometry model clamp q a| ≤ e (weldRotAt model 0 a) := by
  obtain ⟨hb1, hb2, -⟩ := welds.welded clamp (by simp)
  have hb := And.intro hb1 hb2
  constructor
  · exact fun h => h 0 clamp rfl _ _ ((weldOff_iff simulates hb q _ _).2 ⟨rfl, rfl⟩)
  · intro h k w hk u r hu
    match k, hk with
    | 0, hk =>
      cases hk
      obtain ⟨rfl, rfl⟩ := (weldOff_iff simulates hb q _ _).1 hu
      exact h

theorem near_iff (q : Vec ℝ) : WeldsOff env model [clamp] (fun _ => 1 / 2) q ↔ Near q := by
  rw [off_iff, apart, turn]
  constructor
  · intro h
    have h0 := (h 0).1
    have h2 := (h 2).2
    simp only [Matrix.cons_val_zero, abs_neg] at h0
    exact ⟨h0, h2⟩
  · rintro ⟨h0, h2⟩ a
    fin_cases a
    · exact ⟨by simpa using h0, by simp⟩
    · exact ⟨by simp, by simp⟩
    · exact ⟨by simp, h2⟩

theorem ticks (osqp : QPSolver ℝ Unit) {dt : ℝ} (ε : ℝ) {q0 : Vec ℝ} (hq : q0.len = 3) (s0 : LocalIKData ℝ) :
    AtEveryTick env osqp model 0 dt (fun S => HoldsLoops model 0 (fun _ => 1) S.world ∧ SpeedAtMost model 0 ε (fun _ => 2 + ε) S.world ∧
      (LoopsOff env geometry model [] [] (fun _ => 1 / 2) S.q → WeldsOff env model [clamp] (fun _ => 1 / 2) S.q → CanMove env model 0 S ∧ Works env osqp model 0 S)) ⟨World.init, q0, s0⟩ acts := by
  have h0 : ∀ more, more = [] ∨ more = [.compile 0] → ∀ q : Vec ℝ, q.len = 3 → ∀ s, HoldsLoops model 0 (fun _ => 1) (run World.init (ops ++ more)) ∧
      SpeedAtMost model 0 ε (fun _ => 2 + ε) (run World.init (ops ++ more)) ∧
      (LoopsOff env geometry model [] [] (fun _ => 1 / 2) q → WeldsOff env model [clamp] (fun _ => 1 / 2) q → CanMove env model 0 ⟨run World.init (ops ++ more), q, s⟩ ∧
        Works env osqp model 0 ⟨run World.init (ops ++ more), q, s⟩) :=
    fun more h q hq s => ⟨holds h, speeds h ε, fun _ hd => ⟨(fits h osqp hq s).2 ((near_iff q).1 hd), (fits h osqp hq s).1⟩⟩
  have hrun : (step (run World.init ops) (.compile 0)).2 = run World.init (ops ++ [.compile 0]) := by
    simp only [run, List.foldl_append, List.foldl_cons, List.foldl_nil]
  have a0 := h0 [] (.inl rfl)
  have a1 := h0 [.compile 0] (.inr rfl)
  rw [List.append_nil] at a0
  have skip : ∀ (ops : List (Op ℝ)) (G : Robot ℝ → Prop) (S : Robot ℝ) (rest : List (Act ℝ)),
      AtEveryTick env osqp model 0 dt G ⟨run S.world ops, S.q, S.data⟩ rest →
      AtEveryTick env osqp model 0 dt G S (ops.map .call ++ rest) := by
    intro ops
    induction ops with
    | nil => intro G S rest h; exact h
    | cons op ops ih => intro G S rest h; exact ⟨(fun h => by cases h), ih G _ rest h⟩
  unfold acts
  refine skip ops _ _ _ ?_
  dsimp only
  generalize run World.init (ops ++ [.compile 0]) = w1 at *
  generalize run World.init ops = w0 at *
  refine ⟨fun _ => a0 q0 hq s0, ?_⟩
  have hl := tick_len (S := ⟨w0, q0, s0⟩) env osqp robot.addr 0 dt hq
  have hw := tick_world env osqp model 0 dt ⟨w0, q0, s0⟩
  generalize controlStep env osqp model 0 dt ⟨w0, q0, s0⟩ .tick = S at hl hw
  obtain ⟨w, q, s⟩ := S
  dsimp only at hl hw
  subst hw
  refine ⟨fun _ => ?_, trivial⟩
  rw [hrun]
  exact a1 q hl s

theorem speed_sum {B : ℝ} : turnSpeed model (fun _ => B) = 2 * B := by
  unfold turnSpeed
  rw [show model.jntType.length = 3 from rfl]
  simp only [sum_range_succ, sum_range_zero]
  show 0 + (if (JntType.hinge = .hinge) then B else 0) + (if (JntType.slide = .hinge) then B else 0) + (if (JntType.hinge = .hinge) then B else 0) = 2 * B
  simp
  ring

theorem accel {B : ℝ} : weldAcceleration geometry model (fun _ => B) clamp = 0 ∧ weldTurning model (fun _ => B) clamp = 4 * B ^ 2 := by
  have g0 : gap 0 (0 : V3 ℝ) = 0 := by simp [gap, sq3]
  have h2 : armLength geometry model = 0 := by
    unfold armLength
    rw [show model.jntType.length = 3 from rfl, show model.nbody = 3 from rfl]
    simp only [sum_range_succ, sum_range_zero]
    show 0 + gap 0 (0 : V3 ℝ) + gap 0 (0 : V3 ℝ) + gap 0 (0 : V3 ℝ) + (0 + 2 * gap 0 0 + 2 * gap 0 0 + 2 * gap 0 0) = 0
    rw [g0]
    norm_num
  constructor
  · unfold weldAcceleration
    rw [h2]
    show _ * ((0 + gap 0 0) + (0 + gap 0 0)) = _
    rw [g0]
    ring
  · unfold weldTurning
    rw [speed_sum]
    show |(1 : ℝ)| * _ = _
    rw [abs_one]
    ring

/-! ### A motion -/

/-- The plate turns and the carriage slides until they meet. -/
noncomputable def path (t : ℝ) : Fin model.nq → ℝ := fun k => if k.1 = 0 then 2 * Real.arcsin (Real.exp (-t) / 2) else if k.1 = 1 then Real.exp (-t) / 2 else 0

noncomputable def vel (t : ℝ) : Vec ℝ := ⟨3, closing (vecOf (path t))⟩

theorem small {t : ℝ} (ht : 0 ≤ t) : 0 < Real.exp (-t) / 2 ∧ Real.exp (-t) / 2 ≤ 1 / 2 := by
  have h1 := Real.exp_pos (-t)
  have h2 : Real.exp (-t) ≤ 1 := Real.exp_le_one_iff.2 (by linarith)
  constructor <;> linarith

theorem path_half (t : ℝ) : ((vecOf (path t)).get 0 - (vecOf (path t)).get 2) / 2 = Real.arcsin (Real.exp (-t) / 2) := by
  show (2 * Real.arcsin (Real.exp (-t) / 2) - 0) / 2 = _
  ring

theorem path_sin {t : ℝ} (ht : 0 ≤ t) : Real.sin (((vecOf (path t)).get 0 - (vecOf (path t)).get 2) / 2) = Real.exp (-t) / 2 := by
  obtain ⟨h1, h2⟩ := small ht
  rw [path_half, Real.sin_arcsin (by linarith) (by linarith)]

theorem near_path {t : ℝ} (ht : 0 ≤ t) : Near (vecOf (path t)) := by
  obtain ⟨h1, h2⟩ := small ht
  refine ⟨?_, ?_⟩
  · show |Real.exp (-t) / 2| ≤ 1 / 2
    rwa [abs_of_pos h1]
  · rw [path_sin ht, abs_of_pos h1]
    exact h2

theorem moves (T : ℝ) : MovesWith env model T path vel where
  cont := by
    refine (continuous_pi fun k => ?_).continuousOn
    unfold path
    split
    · exact continuous_const.mul (Real.continuous_arcsin.comp (by fun_prop))
    · split <;> fun_prop
  unit := fun t _ => arm_unit arm _
  rate := by
    rintro t ht ⟨k, hk⟩
    have hk : k < 3 := hk
    obtain ⟨hs1, hs2⟩ := small ht.1
    have h0 : ∀ x y : ℝ, deriv (fun s : ℝ => x + s * y) 0 = y := fun x y => by
      have := ((hasDerivAt_id (0 : ℝ)).mul_const y).const_add x
      rw [one_mul] at this
      exact this.deriv
    have h1 : HasDerivAt (fun s : ℝ => Real.exp (-s) / 2) (- (Real.exp (-t) / 2)) t := by
      refine (((hasDerivAt_id t).neg.exp).div_const 2).congr_deriv ?_
      show Real.exp (-t) * -1 / 2 = _
      ring
    simp only [fun s => along (vecOf (path t)) (vel t) s k hk, h0]
    show HasDerivWithinAt _ (closing (vecOf (path t)) k) _ _
    interval_cases k
    · show HasDerivWithinAt (fun s : ℝ => 2 * Real.arcsin (Real.exp (-s) / 2)) (- 2 * (Real.sin (((vecOf (path t)).get 0 - (vecOf (path t)).get 2) / 2) /
        Real.cos (((vecOf (path t)).get 0 - (vecOf (path t)).get 2) / 2))) _ _
      rw [path_sin ht.1, path_half, Real.cos_arcsin]
      refine (((Real.hasDerivAt_arcsin (by linarith) (by linarith)).comp t h1).const_mul 2).hasDerivWithinAt.congr_deriv ?_
      ring
    · show HasDerivWithinAt (fun s : ℝ => Real.exp (-s) / 2) (- (Real.exp (-t) / 2)) _ _
      exact h1.hasDerivWithinAt
    · exact hasDerivWithinAt_const _ _ _

theorem flow (T : ℝ) {J : JaxProblem ℝ} (hJ : (step (run World.init ops) (.compile 0)).1 = .ok (.compiled J)) :
    FeasibleFlow env model (fun _ => J) T path vel := by
  obtain ⟨P, c, j, hP, -, -, -, -, -, -, -, hJ', -⟩ := compiled (more := []) (.inl rfl)
  rw [List.append_nil] at hP hJ'
  rw [hJ'] at hJ; cases hJ
  have key := fun t => solved (more := []) (.inl rfl) hP hJ' (q := vecOf (path t)) rfl
  refine ⟨moves T, fun _ _ => rfl, fun t _ => (key t).1, fun t ht => ?_⟩
  obtain ⟨k1, ⟨qp, k2⟩, -, k4⟩ := key t
  refine ⟨qp, k2, ?_⟩
  obtain ⟨P', ts, hP', hts, hfeas⟩ := C96_control_problem ops hJ' k1 k2
  rw [hP] at hP'; cases hP'
  exact feasibleUpTo_zero.1 (((hfeas (vel t).get).1 0).2 (allowedUpTo_zero.2 (k4 (near_path ht.1) ts hts)))

end Clamp

open Clamp in
/-- All hypotheses of `C116_rows` hold for the compiled constraint. -/
example (q : Vec ℝ) : ∃ c j, MadeBy (.modelEquality "e" (Arr.scalar 1) true none) c ∧ (jaxComponent c).1 = .ok j ∧
    ∃ V J, evalValue env j (update env model q) = .ok V ∧ evalJacobian env j (update env model q) = .ok J ∧
      (Welded (update env model q) clamp ↔ ∀ a, V.get (weldPosAt model 0 a) = 0 ∧ V.get (weldRotAt model 0 a) = 0) := by
  obtain ⟨P, c, j, -, -, -, -, -, -, -, -, -, hmade, hjc, hm, -⟩ := compiled (more := []) (.inl rfl)
  obtain ⟨V, J, h1, h2, h3⟩ := C116_rows simulates robot welds hmade hjc hm (arm_unit arm q)
  exact ⟨c, j, hmade, hjc, V, J, h1, h2, (h3 0 clamp rfl).2.2.1 one_ne_zero⟩

open Clamp in
/-- All hypotheses of `C116_flow` hold for this motion. -/
example (T : ℝ) : ∀ t ∈ Set.Icc 0 T, ∀ u0 r0 u r, WeldOff (update env model (vecOf (path 0))) clamp u0 r0 → WeldOff (update env model (vecOf (path t))) clamp u r →
    r 2 = Real.exp (-1 * t) * r0 2 := by
  obtain ⟨P, c, j, -, -, -, -, -, -, -, -, hJ, hmade, hjc, hm, hk, hid, hg⟩ := compiled (more := []) (.inl rfl)
  rw [List.append_nil] at hJ
  intro t ht u0 r0 u r h0 h1
  have := (((C116_flow simulates robot welds hmade hjc hm hk hid (flow T hJ) (fun _ _ => ⟨"e", List.mem_singleton.2 rfl⟩)) t ht 0 clamp rfl).1 u0 r0 u r h0 h1 2).2
  rw [hg] at this
  exact this

open Clamp in
/-- With rows that are off by at most 1/100 and control steps of 1/50 s, two control steps bring the plate and the carriage closer to where they belong, from every
configuration in which they are near enough. -/
example {osqp : QPSolver ℝ Unit} (ho : FindsFeasibleUpTo (1 / 100) osqp) (x0 : Fin 3 → ℝ) (s0 : LocalIKData ℝ)
    (h0 : Near (vecOf x0)) (u0 r0 u r : V3 ℝ) (hu0 : WeldOff (update env model (vecOf x0)) clamp u0 r0)
    (hu : WeldOff (update env model (Spec.control env osqp model 0 (1 / 50) ⟨World.init, vecOf x0, s0⟩ acts).q) clamp u r) (a : Fin 3) :
    |u a| ≤ (49 / 50) ^ 2 * |u0 a| + 1 / 100 ∧ |r a| ≤ (49 / 50) ^ 2 * |r0 a| + 9 / 50 := by
  have h := C116_steps (cs := []) (ws := [clamp]) (ks := []) ho (by norm_num) simulates robot arm welds (fun c hc => by cases hc) (p := 0) (dt := 1 / 50) (by norm_num)
    (V := fun _ => 2 + 1 / 100) (g := fun _ => 1) (fun _ _ => by norm_num) (e := fun _ => 1 / 2)
    ⟨fun k c hk a => by simp at hk, fun k w hk a => by
      match k, hk with
      | 0, hk => cases hk; rw [accel.1, accel.2]; constructor <;> norm_num, fun _ _ hk => by simp at hk⟩ clean x0 s0 (ticks osqp (1 / 100) rfl s0)
    ⟨fun k c hk => by simp at hk, fun k c hk => by simp at hk⟩ ((near_iff _).2 h0) 0 clamp rfl u0 r0 u r hu0 hu a
  rw [accel.1, accel.2, show ticksIn acts = 2 from rfl] at h
  refine ⟨le_trans h.1 ?_, le_trans h.2 ?_⟩
  · have := abs_nonneg (u0 a)
    norm_num
    try linarith
  · have := abs_nonneg (r0 a)
    norm_num
    try linarith

end Mjinx.Props
