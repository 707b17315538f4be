import Verif.Props.LoopClosure
import Verif.Props.Sizes
import Verif.Props.Solvable
import Verif.Props.CollisionSampledEx

/-!
# A linkage under control

A program and a motion that meet the hypotheses of C113: an arm with a hinge whose tip is connected to a carriage, and a rack coupled to the hinge.
-/

set_option linter.unusedSectionVars false

namespace Mjinx.Props
open Mjinx Mjinx.Spec Finset
open scoped Matrix Quaternion

namespace Linkage

/-- Body 1 turns about z.  Body 2 slides along x, y and z.  Body 3 slides along z. -/
noncomputable def model : MjModel ℝ :=
  { (MjModel.empty : MjModel ℝ) with
    nq := 5, nv := 5, nbody := 4, jntType := [.hinge, .slide, .slide, .slide, .slide], jntQposadr := [0, 1, 2, 3, 4], jntDofadr := [0, 1, 2, 3, 4],
    jntRange := [(0, 0), (0, 0), (0, 0), (0, 0), (0, 0)], bodyParentid := [0, 0, 0, 0], bodyRootid := [0, 1, 2, 3], bodyWeldid := [0, 1, 2, 3],
    dofBodyid := [1, 2, 2, 2, 3], bodyMass := [0, 1, 1, 1], bodyGeomadr := [-1, -1, -1, -1], bodyGeomnum := [0, 0, 0, 0],
    bodyNames := ["world", "arm", "carriage", "rack"], eqType := [.connect, .joint] }

noncomputable def geometry : Geometry where
  bodyPos := [0, 0, 0, 0]
  bodyQuat := [1, 1, 1, 1]
  bodyIpos := [0, 0, 0, 0]
  jntBodyid := [1, 2, 2, 2, 3]
  jntPos := [0, 0, 0, 0, 0]
  jntAxis := [![0, 0, 1], ![1, 0, 0], ![0, 1, 0], ![0, 0, 1], ![0, 0, 1]]
  qpos0 := fun _ => 0
  geomPos := []
  geomQuat := []
  sitePos := []
  siteQuat := []

/-- The tip of the arm is connected to the carriage. -/
noncomputable def pin : Connect := ⟨1, 2, ![1, 0, 0], 0⟩

/-- The rack moves by twice the angle of the hinge. -/
noncomputable def gears : Coupling := ⟨4, some 0, fun i => if i = 1 then 2 else 0⟩

noncomputable def rowsOf (m : MjModel ℝ) (d : MjData ℝ) : List EfcRow :=
  match connectRows m d pin with
  | .ok r => r ++ [couplingRow geometry m d gears]
  | .error _ => []

noncomputable def env : Env ℝ :=
  { Rod.env 0 with
    kinematics := simKinematics geometry, comPos := simComPos geometry
    makeConstraint := fun m d => { d with efcEq := (rowsOf m d).map (fun _ => true), efcPos := (rowsOf m d).map EfcRow.pos, efcJ := (rowsOf m d).map EfcRow.jac } }

theorem simulates : Simulates env geometry model := ⟨fun _ => rfl, fun _ => rfl, fun _ => ⟨_, _, _, rfl⟩, rfl⟩

theorem loops : SimulatesLoops env geometry model [pin] [gears] where
  supported := by show EqType.unsupported ∉ [EqType.connect, .joint]; simp
  connects := rfl
  joints := rfl
  bodies := by
    intro c hc
    obtain rfl := List.mem_singleton.1 hc
    exact ⟨show 1 < 4 by decide, show 2 < 4 by decide⟩
  coupled := by
    intro c hc
    obtain rfl := List.mem_singleton.1 hc
    refine ⟨show 4 ∈ [0, 1, 2, 3, 4] by decide, fun j hj => ?_⟩
    cases hj
    exact ⟨show 0 ∈ [0, 1, 2, 3, 4] by decide, show 0 ≠ 4 by decide⟩
  rows := by
    intro q d hd
    obtain ⟨r, hr⟩ : ∃ r, connectRows model d pin = .ok r := by
      subst hd
      exact ⟨_, rfl⟩
    have e : rowsOf model d = r ++ [couplingRow geometry model d gears] := by
      unfold rowsOf
      rw [hr]
    refine ⟨[r], [], [], _, CEx.mapM_one hr, rfl, rfl, ?_⟩
    show { d with efcEq := (rowsOf model d).map (fun _ => true), efcPos := (rowsOf model d).map EfcRow.pos, efcJ := (rowsOf model d).map EfcRow.jac } = _
    rw [e]
    simp

theorem robot : RobotWF geometry model where
  tree := by
    refine ⟨?_, (show ∀ b ∈ [1, 2, 2, 2, 3], b < 4 by decide), rfl, Nat.succ_pos _⟩
    intro b h0 hb
    have : b < 4 := hb
    interval_cases b
    · show 0 < 1; decide
    · show 0 < 2; decide
    · show 0 < 3; decide
  addr := ⟨by repeat' constructor, rfl⟩
  joints := by
    intro j hj
    have : j < 5 := hj
    interval_cases j
    · exact ⟨by decide, show 1 < 4 by decide⟩
    · exact ⟨by decide, show 2 < 4 by decide⟩
    · exact ⟨by decide, show 2 < 4 by decide⟩
    · exact ⟨by decide, show 2 < 4 by decide⟩
    · exact ⟨by decide, show 3 < 4 by decide⟩
  dofs := rfl
  axis := by
    intro j hj ht
    have : j < 5 := hj
    interval_cases j
    · show sq3 ![0, 0, 1] = 1
      simp [sq3]
    all_goals cases ht
  quat := Buoy.unitOne _ (by simp [geometry])
  free := by
    intro j hj ht
    have : j < 5 := hj
    interval_cases j <;> cases ht
  ball := by
    intro j i hji hi _ ht
    have hi' : i < 5 := hi
    have hj : j < 5 := by omega
    interval_cases j <;> cases ht
  roots := ⟨rfl, (show ∀ b < 4, [0, 1, 2, 3].getD b 0 < 4 by decide)⟩
  root := by
    intro b h0 hb hp
    have : b < 4 := hb
    interval_cases b <;> exact absurd rfl hp
  mass := rfl
  objects := ⟨by simp [model, MjModel.empty], by simp [model, MjModel.empty]⟩
  turns := ⟨Buoy.unitOne _ (by simp [geometry]), Buoy.unitOne _ (by simp [geometry])⟩

theorem arm : RailArm geometry model where
  joints := by
    intro t ht
    have : t ∈ ([.hinge, .slide, .slide, .slide, .slide] : List JntType) := ht
    fin_cases this <;> simp
  rails := by
    intro j hj hs i hi hh
    have hi' : i < 5 := hi
    have hj' : j < 5 := hj
    obtain rfl : i = 0 := by
      interval_cases i
      · rfl
      all_goals cases hh
    have hp : model.bodyParentid.getD (geometry.jntBodyid.getD j 0) 0 = 0 := by interval_cases j <;> rfl
    refine ⟨fun h => ?_, fun h => ?_⟩
    · rw [hp] at h
      have h1 := anc_le robot.tree h (show 0 < 4 by decide)
      exact absurd h1 (show ¬ 1 ≤ 0 by decide)
    · interval_cases j
      · cases hs
      all_goals exact absurd h.1 (by decide)

/-- Where the tip of the arm is when the hinge is at angle `θ`. -/
noncomputable def tip (θ : ℝ) : V3 ℝ := rotate (1 * 1 * axisAngleQuat ![0, 0, 1] θ) ![1, 0, 0]

theorem tip_zero : tip 0 = ![1, 0, 0] := by
  have : axisAngleQuat ![0, 0, 1] 0 = 1 := by
    simp [axisAngleQuat]
    try rfl
  unfold tip
  rw [this, one_mul, one_mul, rotate_one]

theorem off (q : Vec ℝ) : anchorsOff geometry model pin q = tip (q.get 0) - ![q.get 1, q.get 2, q.get 3] := by
  have p1 : (bodyPose geometry model q.get 1).apply ![1, 0, 0] = tip (q.get 0) := by
    have hj : jointsOfBody geometry model 1 = [0] := rfl
    rw [bodyPose, if_neg (by decide), hj]
    have hp : model.bodyParentid.getD 1 0 = 0 := rfl
    simp only [hp, dif_pos (show 0 < 1 by decide), bodyPose_zero, List.foldl_cons, List.foldl_nil]
    have e : (jointMove geometry model q.get ((SE3.one : SE3 ℝ).mul ⟨geometry.bodyQuat.getD 1 1, geometry.bodyPos.getD 1 0⟩) 0).apply ![1, 0, 0] =
        rotate (1 * 1 * axisAngleQuat ![0, 0, 1] (q.get 0 - 0)) ![1, 0, 0] +
          ((rotate (1 * 1) 0 + (rotate 1 0 + 0)) - rotate (1 * 1 * axisAngleQuat ![0, 0, 1] (q.get 0 - 0)) 0) := rfl
    rw [e, rotate_zero, rotate_zero, rotate_zero, sub_zero]
    simp [tip]
  have p2 : (bodyPose geometry model q.get 2).apply 0 = ![q.get 1, q.get 2, q.get 3] := by
    have hj : jointsOfBody geometry model 2 = [1, 2, 3] := rfl
    rw [bodyPose, if_neg (by decide), hj]
    have hp : model.bodyParentid.getD 2 0 = 0 := rfl
    simp only [hp, dif_pos (show 0 < 2 by decide), bodyPose_zero, List.foldl_cons, List.foldl_nil]
    have e : ∀ T : SE3 ℝ, T = (SE3.one : SE3 ℝ).mul ⟨geometry.bodyQuat.getD 2 1, geometry.bodyPos.getD 2 0⟩ → T = ⟨1, 0⟩ := by
      rintro T rfl
      show (⟨1 * 1, rotate 1 0 + 0⟩ : SE3 ℝ) = _
      rw [rotate_zero, add_zero, one_mul]
    rw [e _ rfl]
    have e1 : (jointMove geometry model q.get (jointMove geometry model q.get (jointMove geometry model q.get ⟨1, 0⟩ 1) 2) 3).apply 0 =
        rotate 1 0 + (((0 + (q.get 1 - 0) • rotate 1 ![1, 0, 0]) + (q.get 2 - 0) • rotate 1 ![0, 1, 0]) + (q.get 3 - 0) • rotate 1 ![0, 0, 1]) := rfl
    rw [e1]
    simp only [rotate_one]
    funext a
    fin_cases a <;> simp
  show (bodyPose geometry model q.get 1).apply ![1, 0, 0] - (bodyPose geometry model q.get 2).apply 0 = _
  rw [p1, p2]

theorem off_rack (q : Nat → ℝ) : couplingOff geometry model q gears = q 4 - 2 * q 0 := by
  show q 4 - 0 - ((if (0 : Nat) = 1 then 2 else 0) + (if (1 : Nat) = 1 then 2 else 0) * (q 0 - 0) + (if (2 : Nat) = 1 then 2 else 0) * (q 0 - 0) ^ 2 +
    (if (3 : Nat) = 1 then 2 else 0) * (q 0 - 0) ^ 3 + (if (4 : Nat) = 1 then 2 else 0) * (q 0 - 0) ^ 4) = _
  norm_num

/-! ### The program -/

/-- A hard equality constraint is made and added to a problem with speed limit 1. -/
noncomputable def ops : List (Op ℝ) :=
  [.newComp (.modelEquality "e" (Arr.scalar 1) true none), .newProblem model (Arr.scalar (-1)) (Arr.scalar 1), .add 0 0]

noncomputable def acts : List (Act ℝ) := ops.map .call ++ [.tick, .tick]

theorem clean : CleanProgram World.init (callsOf 0 acts) := by
  refine ⟨trivial, trivial, ?_, trivial, trivial, trivial⟩
  intro e h; cases h

theorem clean_ops' {more : List (Op ℝ)} (h : more = [] ∨ more = [.compile 0]) : CleanProgram World.init (ops ++ more) := by
  rcases h with rfl | rfl
  · refine ⟨trivial, trivial, ?_, trivial⟩; intro e h; cases h
  · refine ⟨trivial, trivial, ?_, trivial, trivial⟩; intro e h; cases h

theorem holds {more : List (Op ℝ)} (h : more = [] ∨ more = [.compile 0]) : HoldsLoops model 0 (fun _ => 1) (run World.init (ops ++ more)) := by
  rcases h with rfl | rfl
  · exact ⟨_, "e", 0, _, "e", Arr.scalar 1, true, none, _, _, rfl, rfl, .head _, rfl, rfl,
      ⟨_, rfl, .step (.updateModel model) .refl (fun m h => by cases h; rfl)⟩, rfl, rfl, fun _ => rfl⟩
  · exact ⟨_, "e", 0, _, "e", Arr.scalar 1, true, none, _, _, rfl, rfl, .head _, rfl, rfl,
      ⟨_, rfl, .step .compile (.step (.updateModel model) .refl (fun m h => by cases h; rfl)) (fun m h => by cases h)⟩, rfl, rfl, fun _ => rfl⟩

theorem speeds {more : List (Op ℝ)} (h : more = [] ∨ more = [.compile 0]) (ε : ℝ) :
    SpeedAtMost model 0 ε (fun _ => 1 + ε) (run World.init (ops ++ more)) := by
  rcases h with rfl | rfl
  all_goals
    refine ⟨_, rfl, fun k _ => ⟨?_, ?_⟩⟩
    · show (1 : ℝ) * 1 + ε ≤ 1 + ε
      linarith
    · show - ((1 : ℝ) * (-1)) + ε ≤ 1 + ε
      linarith

/-- What the problem compiles to. -/
theorem compiled {more : List (Op ℝ)} (h : more = [] ∨ more = [.compile 0]) :
    ∃ (P : Prob ℝ) (c : Comp ℝ) (j : JaxComp ℝ), (run World.init (ops ++ more)).probs[0]? = some P ∧ P.comps = [("e", 0)] ∧
      (∀ k, P.vMin.get [k] = -1) ∧ (∀ k, P.vMax.get [k] = 1) ∧ (run World.init (ops ++ more)).comps = [c] ∧
      (∃ a W, c.attrs.kind = .modelEquality a true W) ∧ (c.attrs.gainFn = id ∧ ∀ r, gainAt c.attrs.gain r = 1) ∧ P.model = model ∧
      (step (run World.init (ops ++ more)) (.compile 0)).1 = .ok (.compiled ⟨model, P.vMin, P.vMax, [("e", j)]⟩) ∧
      MadeBy (.modelEquality "e" (Arr.scalar 1) true none) c ∧ (jaxComponent c).1 = .ok j ∧ j.model = model ∧ (∃ a W, j.kind = .modelEquality a true W) ∧
      j.gainFn = id ∧ ∀ r, j.vectorGain.get [r] = 1 := by
  have e1 : (1 : ℝ) * (-1) = -1 := by norm_num
  have e2 : (1 : ℝ) * 1 = 1 := by norm_num
  rcases h with rfl | rfl
  · exact ⟨_, _, _, rfl, rfl, fun _ => e1, fun _ => e2, rfl, ⟨_, _, rfl⟩, ⟨rfl, fun _ => rfl⟩, rfl, rfl,
      ⟨_, rfl, .step (.updateModel model) .refl (fun m h => by cases h; rfl)⟩, rfl, rfl, ⟨_, _, rfl⟩, rfl, fun _ => e2⟩
  · exact ⟨_, _, _, rfl, rfl, fun _ => e1, fun _ => e2, rfl, ⟨_, _, rfl⟩, ⟨rfl, fun _ => rfl⟩, rfl, rfl,
      ⟨_, rfl, .step .compile (.step (.updateModel model) .refl (fun m h => by cases h; rfl)) (fun m h => by cases h)⟩, rfl, rfl, ⟨_, _, rfl⟩, rfl, fun _ => e2⟩

theorem model_fits : ModelFits model where
  bodies := Nat.succ_pos _
  rootLen := rfl
  root := show ∀ r ∈ [0, 1, 2, 3], r < 4 by decide
  mass := rfl
  bodyNames := rfl
  geomNames := rfl
  siteNames := rfl
  geomBody := robot.objects.1
  siteBody := robot.objects.2
  geomLen := rfl
  contypeLen := rfl
  joints := robot.addr
  geoms := ⟨rfl, rfl, rfl⟩
  collision := by
    refine ⟨rfl, (show ∀ w ∈ [0, 1, 2, 3], w < 4 by decide), rfl, (show ∀ p ∈ [0, 0, 0, 0], p < 4 by decide), rfl, rfl, ?_, rfl⟩
    intro b hb
    have : b < 4 := hb
    left
    interval_cases b <;> rfl

theorem env_fits : EnvFits env model := ⟨fun _ _ => ⟨⟨rfl, rfl, rfl⟩, rfl⟩, fun _ _ _ _ => le_refl _⟩
theorem data_fits (q : Vec ℝ) : DataFits model (update env model q) := ⟨⟨rfl, rfl, rfl⟩, rfl, rfl, rfl, rfl⟩
theorem sized (q : Vec ℝ) (_hq : q.len = 5) : Sized env model (update env model q) := ⟨fun _ _ => ⟨rfl, rfl⟩, rfl, rfl, rfl⟩

/-- The velocity that closes the gaps. -/
noncomputable def closing (q : Vec ℝ) (k : Nat) : ℝ :=
  match k with
  | 1 => anchorsOff geometry model pin q 0
  | 2 => anchorsOff geometry model pin q 1
  | 3 => anchorsOff geometry model pin q 2
  | 4 => - (q.get 4 - 2 * q.get 0)
  | _ => 0

theorem along (q v : Vec ℝ) (s : ℝ) (i : Nat) (hi : i < 5) : (integrate env model q v s).get i = q.get i + s * v.get i := by
  interval_cases i <;> rfl

/-- The rows of the compiled constraint. -/
theorem rows {j : JaxComp ℝ} (hj : CompiledLoops model j) (q : Vec ℝ) {W : Vec ℝ} {J : Mat ℝ} (hW : evalValue env j (update env model q) = .ok W)
    (hJ : evalJacobian env j (update env model q) = .ok J) : J.rows = 4 ∧ ∀ i < 4, rowDot J i (closing q) = - W.get i := by
  refine ⟨?_, ?_⟩
  · obtain ⟨rs, ws, eqs, r1, r2, r3, V, J', h1, h2, h3, h4, -⟩ := loop_values simulates loops hj q
    obtain rfl := Except.ok.inj (hJ.symm.trans h2)
    have := (flatten_three rs (connect_lengths r1)).1
    rw [(mapM_mem r1).2.2] at this
    rw [h4, r3, List.length_append, List.length_append, this, r2]
    rfl
  · intro i hi
    have hd : ∀ x y : ℝ, HasDerivAt (fun s : ℝ => x - s * y) (- y) 0 := fun x y => by
      simpa using ((hasDerivAt_id (0 : ℝ)).mul_const y).const_sub x
    have conn : ∀ a : Fin 3, rowDot J (connectRow 0 a) (closing q) = - W.get (connectRow 0 a) := by
      intro a
      obtain ⟨W', J', w1, w2, -, -, w3, w4⟩ := connect_row simulates robot loops hj (k := 0) rfl a (arm_unit arm q)
      obtain rfl := Except.ok.inj (hW.symm.trans w1)
      obtain rfl := Except.ok.inj (hJ.symm.trans w2)
      have hd' := w4 ⟨5, closing q⟩
      have e : (fun s => anchorsOff geometry model pin (integrate env model q ⟨5, closing q⟩ s) a) =
          fun s => anchorsOff geometry model pin q a - s * anchorsOff geometry model pin q a := by
        funext s
        have e1 : anchorsOff geometry model pin (integrate env model q ⟨5, closing q⟩ s) =
            anchorsOff geometry model pin q - s • anchorsOff geometry model pin q := by
          rw [off (integrate env model q ⟨5, closing q⟩ s), along _ _ _ _ (by norm_num), along _ _ _ _ (by norm_num), along _ _ _ _ (by norm_num),
            along _ _ _ _ (by norm_num)]
          show tip (q.get 0 + s * 0) - ![q.get 1 + s * anchorsOff geometry model pin q 0, q.get 2 + s * anchorsOff geometry model pin q 1,
            q.get 3 + s * anchorsOff geometry model pin q 2] = _
          rw [mul_zero, add_zero]
          rw [off q]
          generalize tip (q.get 0) = w
          funext a
          fin_cases a
          · show w 0 - (q.get 1 + s * (w 0 - q.get 1)) = (w 0 - q.get 1) - s * (w 0 - q.get 1)
            ring
          · show w 1 - (q.get 2 + s * (w 1 - q.get 2)) = (w 1 - q.get 2) - s * (w 1 - q.get 2)
            ring
          · show w 2 - (q.get 3 + s * (w 2 - q.get 3)) = (w 2 - q.get 3) - s * (w 2 - q.get 3)
            ring
        rw [e1]
        rfl
      rw [e] at hd'
      rw [w3]
      exact hd'.unique (hd _ _)
    interval_cases i
    · exact conn 0
    · exact conn 1
    · exact conn 2
    · obtain ⟨W', J', w1, w2, -, -, w3, w4⟩ := coupling_row simulates robot loops hj (k := 0) rfl (arm_unit arm q)
      obtain rfl := Except.ok.inj (hW.symm.trans w1)
      obtain rfl := Except.ok.inj (hJ.symm.trans w2)
      have hd' := w4 ⟨5, closing q⟩
      simp only [off_rack] at hd' w3
      have e : (fun s => (integrate env model q ⟨5, closing q⟩ s).get 4 - 2 * (integrate env model q ⟨5, closing q⟩ s).get 0) =
          fun s => (q.get 4 - 2 * q.get 0) - s * (q.get 4 - 2 * q.get 0) := by
        funext s
        rw [along _ _ _ _ (by norm_num), along _ _ _ _ (by norm_num)]
        show q.get 4 + s * - (q.get 4 - 2 * q.get 0) - 2 * (q.get 0 + s * 0) = _
        ring
      rw [e] at hd'
      have w3 : W.get 3 = _ := w3
      rw [w3]
      exact hd'.unique (hd _ _)

/-- Gaps of at most 1 can be closed. -/
def Near (q : Vec ℝ) : Prop := (∀ a, |anchorsOff geometry model pin q a| ≤ 1) ∧ |q.get 4 - 2 * q.get 0| ≤ 1

theorem closing_le {q : Vec ℝ} (h : Near q) (k : Nat) : |closing q k| ≤ 1 := by
  unfold closing
  split
  · exact h.1 0
  · exact h.1 1
  · exact h.1 2
  · rw [abs_neg]; exact h.2
  · simp

theorem compiled_rows {c : Comp ℝ} {j : JaxComp ℝ} (hmade : MadeBy (.modelEquality "e" (Arr.scalar 1) true none) c) (hjc : (jaxComponent c).1 = .ok j)
    (hm : j.model = model) : CompiledLoops model j := by
  obtain ⟨c0, h0, hr⟩ := id hmade
  have hC : CompilesTo c.attrs j := jaxComponent_spec (cacheOK_reachable (hr.reachable h0)) (c' := (jaxComponent c).2) (by rw [← hjc])
  have := compiled_loops hmade hC
  rwa [hm] at this

/-- Nothing raises, and where the gaps are small the velocity that closes them is allowed. -/
theorem solved {more : List (Op ℝ)} (h : more = [] ∨ more = [.compile 0]) {P : Prob ℝ} (hP : (run World.init (ops ++ more)).probs[0]? = some P) {J : JaxProblem ℝ}
    (hJ : (step (run World.init (ops ++ more)) (.compile 0)).1 = .ok (.compiled J)) {q : Vec ℝ} (hq : q.len = 5) :
    WellSized env J (update env model q) ∧ (∃ qp, problemQP env model J (update env model q) = .ok qp) ∧
    (∀ (osqp : QPSolver ℝ Unit) (s : LocalIKData ℝ), ∃ r, localSolve env osqp model q.toArr s J = .ok r) ∧
    (Near q → ∀ ts, TermsOf (run World.init (ops ++ more)) P J env (update env model q) ts → Allowed P.model.nv P.vMin P.vMax ts (closing q)) := by
  have hcl := clean_ops' h
  obtain ⟨P', c, j, hP', hPc, hmin, hmax, hcs, ⟨a, W, hk⟩, ⟨hg, hg'⟩, hPm, hJ', hmade, hjc, hm, ⟨a', W', hjk⟩, -, -⟩ := compiled h
  rw [hP] at hP'; cases hP'
  rw [hJ'] at hJ; cases hJ
  have hL := compiled_rows hmade hjc hm
  have hmod : ∀ nj ∈ ([("e", j)] : List (String × JaxComp ℝ)), nj.2.model = model := fun nj h => by fin_cases h; exact hm
  have huse : ∀ nj ∈ ([("e", j)] : List (String × JaxComp ℝ)), Usable env nj.2 := fun nj h => by
    obtain rfl : nj = ("e", j) := List.mem_singleton.1 h
    unfold Usable
    rw [hjk]
    trivial
  have hsol := fun osqp s => (C87_solve_partial hcl hJ' hmod huse model_fits env_fits (fun q hq => ⟨sized q hq, data_fits q⟩) (I := Unit) osqp q.toArr s).2
    (congrArg (fun n => [n]) hq) (by
      intro nj h hb
      exfalso
      obtain rfl : nj = ("e", j) := List.mem_singleton.1 h
      unfold CompiledBarrier at hb
      rw [hjk] at hb
      exact hb)
  refine ⟨C68_problem_partial hcl hJ' hmod (fun nj h => settled_of_usable (huse nj h)) robot.addr (sized q hq), ?_, fun osqp s => ?_, fun hn ts hts => ?_⟩
  · obtain ⟨qp, h, -⟩ := hsol (fun _ => (Vec.zero 0, ())) ⟨Vec.zero 0⟩
    have hvec : (⟨model.nq, fun i => q.toArr.get [i]⟩ : Vec ℝ) = q := by
      rw [show model.nq = q.len from hq.symm]
      rfl
    dsimp only at h
    rw [hvec] at h
    exact ⟨qp, h⟩
  · obtain ⟨qp, -, h⟩ := hsol osqp s
    exact ⟨_, h⟩
  · unfold TermsOf at hts
    rw [hPc, hcs] at hts
    cases hts with
    | cons ht hnil =>
    cases hnil
    rename_i t
    obtain ⟨c', hc, hta, j', hj, hjac, hval⟩ := ht
    cases hc
    obtain rfl : j' = j := by simpa using hj
    obtain ⟨r1, r2⟩ := rows hL q hval hjac
    refine ⟨?_, ?_⟩
    · intro i hi
      rw [hmin, hmax]
      have := abs_le.1 (closing_le hn i)
      constructor <;> linarith [this.1, this.2]
    · intro x hx
      unfold Term.Allows
      fin_cases hx
      simp only [hta, hk]
      intro _ i hi
      rw [r2 i (by omega)]
      unfold Term.rate
      rw [hta, hg, hg', one_mul]
      rfl

theorem fits {more : List (Op ℝ)} (h : more = [] ∨ more = [.compile 0]) (osqp : QPSolver ℝ Unit) {q : Vec ℝ} (hq : q.len = 5) (s : LocalIKData ℝ) :
    Works env osqp model 0 ⟨run World.init (ops ++ more), q, s⟩ ∧ (Near q → CanMove env model 0 ⟨run World.init (ops ++ more), q, s⟩) := by
  obtain ⟨P, c, j, hP, -, -, -, -, -, -, -, hJ, -⟩ := compiled h
  obtain ⟨s1, s2, s3, s4⟩ := solved h hP hJ hq
  refine ⟨⟨_, _, hJ, (s3 osqp s).choose_spec⟩, ?_⟩
  intro hn J' hJ'
  dsimp only at hJ' ⊢
  rw [hJ] at hJ'; cases hJ'
  refine ⟨s1, fun P' ts hP' hts => ?_⟩
  rw [hP] at hP'; cases hP'
  exact ⟨_, s4 hn ts hts⟩

theorem loops_off (q : Vec ℝ) {e : Nat → ℝ} : LoopsOff env geometry model [pin] [gears] e q ↔
    (∀ a, |anchorsOff geometry model pin q a| ≤ e (connectRow 0 a)) ∧ |q.get 4 - 2 * q.get 0| ≤ e 3 := by
  have hb : pin.body1 < model.nbody ∧ pin.body2 < model.nbody := loops.bodies pin (by simp)
  constructor
  · rintro ⟨h1, h2⟩
    refine ⟨h1 0 pin rfl _ ((anchorsOff_iff simulates hb q _).2 rfl), ?_⟩
    have := h2 0 gears rfl
    rw [off_rack] at this
    exact this
  · rintro ⟨h1, h2⟩
    refine ⟨fun k c hk u hu => ?_, fun k c hk => ?_⟩
    · match k, hk with
      | 0, hk =>
        cases hk
        rw [anchorsOff_iff simulates hb] at hu
        subst hu
        exact h1
    · match k, hk with
      | 0, hk =>
        cases hk
        rw [off_rack]
        exact h2

theorem ticks (osqp : QPSolver ℝ Unit) {dt : ℝ} (ε : ℝ) {q0 : Vec ℝ} (hq : q0.len = 5) (s0 : LocalIKData ℝ) :
    AtEveryTick env osqp model 0 dt (fun S => HoldsLoops model 0 (fun _ => 1) S.world ∧ SpeedAtMost model 0 ε (fun _ => 1 + ε) S.world ∧
      (LoopsOff env geometry model [pin] [gears] (fun _ => 1) S.q → CanMove env model 0 S ∧ Works env osqp model 0 S)) ⟨World.init, q0, s0⟩ acts := by
  have h0 : ∀ more, more = [] ∨ more = [.compile 0] → ∀ q : Vec ℝ, q.len = 5 → ∀ s, HoldsLoops model 0 (fun _ => 1) (run World.init (ops ++ more)) ∧
      SpeedAtMost model 0 ε (fun _ => 1 + ε) (run World.init (ops ++ more)) ∧
      (LoopsOff env geometry model [pin] [gears] (fun _ => 1) q → CanMove env model 0 ⟨run World.init (ops ++ more), q, s⟩ ∧
        Works env osqp model 0 ⟨run World.init (ops ++ more), q, s⟩) :=
    fun more h q hq s => ⟨holds h, speeds h ε, fun hd => ⟨(fits h osqp hq s).2 ((loops_off q).1 hd), (fits h osqp hq s).1⟩⟩
  have hrun : (step (run World.init ops) (.compile 0)).2 = run World.init (ops ++ [.compile 0]) := by
    simp only [run, List.foldl_append, List.foldl_cons, List.foldl_nil]
  have a0 := h0 [] (.inl rfl)
  have a1 := h0 [.compile 0] (.inr rfl)
  rw [List.append_nil] at a0
  have skip : ∀ (ops : List (Op ℝ)) (G : Robot ℝ → Prop) (S : Robot ℝ) (rest : List (Act ℝ)),
      AtEveryTick env osqp model 0 dt G ⟨run S.world ops, S.q, S.data⟩ rest →
      AtEveryTick env osqp model 0 dt G S (ops.map .call ++ rest) := by
    intro ops
    induction ops with
    | nil => intro G S rest h; exact h
    | cons op ops ih => intro G S rest h; exact ⟨(fun h => by cases h), ih G _ rest h⟩
  unfold acts
  refine skip ops _ _ _ ?_
  dsimp only
  generalize run World.init (ops ++ [.compile 0]) = w1 at *
  generalize run World.init ops = w0 at *
  refine ⟨fun _ => a0 q0 hq s0, ?_⟩
  have hl := tick_len (S := ⟨w0, q0, s0⟩) env osqp robot.addr 0 dt hq
  have hw := tick_world env osqp model 0 dt ⟨w0, q0, s0⟩
  generalize controlStep env osqp model 0 dt ⟨w0, q0, s0⟩ .tick = S at hl hw
  obtain ⟨w, q, s⟩ := S
  dsimp only at hl hw
  subst hw
  refine ⟨fun _ => ?_, trivial⟩
  rw [hrun]
  exact a1 q hl s

theorem accel {B : ℝ} : anchorAcceleration geometry model (fun _ => B) pin = B ^ 2 := by
  have g0 : gap 0 (0 : V3 ℝ) = 0 := by simp [gap, sq3]
  have g1 : gap 0 (![1, 0, 0] : V3 ℝ) = 1 := by simp [gap, sq3]
  have h1 : turnSpeed model (fun _ => B) = B := by
    unfold turnSpeed
    rw [show model.jntType.length = 5 from rfl]
    simp only [sum_range_succ, sum_range_zero]
    show 0 + (if (JntType.hinge = .hinge) then B else 0) + (if (JntType.slide = .hinge) then B else 0) + (if (JntType.slide = .hinge) then B else 0) +
      (if (JntType.slide = .hinge) then B else 0) + (if (JntType.slide = .hinge) then B else 0) = B
    simp
  have h2 : armLength geometry model = 0 := by
    unfold armLength
    rw [show model.jntType.length = 5 from rfl, show model.nbody = 4 from rfl]
    simp only [sum_range_succ, sum_range_zero]
    show 0 + gap 0 (0 : V3 ℝ) + gap 0 (0 : V3 ℝ) + gap 0 (0 : V3 ℝ) + gap 0 (0 : V3 ℝ) + (0 + 2 * gap 0 0 + 2 * gap 0 0 + 2 * gap 0 0 + 2 * gap 0 0 + 2 * gap 0 0) = 0
    rw [g0]
    norm_num
  unfold anchorAcceleration
  rw [h1, h2]
  show B ^ 2 * ((0 + gap 0 ![1, 0, 0]) + (0 + gap 0 0)) = _
  rw [g0, g1]
  ring

/-! ### A motion -/

/-- The hinge stays at 0, the carriage approaches the tip of the arm, and the rack its place. -/
noncomputable def path (t : ℝ) : Fin model.nq → ℝ := fun k => if k.1 = 1 then 1 - Real.exp (-t) else if k.1 = 4 then Real.exp (-t) else 0

noncomputable def vel (t : ℝ) : Vec ℝ := ⟨5, closing (vecOf (path t))⟩

theorem path_off (t : ℝ) : anchorsOff geometry model pin (vecOf (path t)) = ![Real.exp (-t), 0, 0] := by
  rw [off]
  show tip 0 - ![1 - Real.exp (-t), 0, 0] = _
  rw [tip_zero]
  funext a
  fin_cases a <;> simp

theorem path_rack (t : ℝ) : (vecOf (path t)).get 4 - 2 * (vecOf (path t)).get 0 = Real.exp (-t) := by
  show Real.exp (-t) - 2 * 0 = _
  ring

theorem near_path {t : ℝ} (ht : 0 ≤ t) : Near (vecOf (path t)) := by
  have h : |Real.exp (-t)| ≤ 1 := by
    rw [abs_of_pos (Real.exp_pos _)]
    exact Real.exp_le_one_iff.2 (by linarith)
  refine ⟨fun a => ?_, ?_⟩
  · rw [path_off]
    fin_cases a <;> simp [ht]
  · rw [path_rack]
    exact h

theorem moves (T : ℝ) : MovesWith env model T path vel where
  cont := by
    refine (continuous_pi fun k => ?_).continuousOn
    unfold path
    split
    · fun_prop
    · split <;> fun_prop
  unit := fun t _ => arm_unit arm _
  rate := by
    rintro t _ ⟨k, hk⟩
    have hk : k < 5 := hk
    have h0 : ∀ x y : ℝ, deriv (fun s : ℝ => x + s * y) 0 = y := fun x y => by
      have := ((hasDerivAt_id (0 : ℝ)).mul_const y).const_add x
      rw [one_mul] at this
      exact this.deriv
    have h1 : HasDerivAt (fun s : ℝ => Real.exp (-s)) (- Real.exp (-t)) t := by
      refine ((hasDerivAt_id t).neg.exp).congr_deriv ?_
      show Real.exp (-t) * -1 = _
      ring
    simp only [fun s => along (vecOf (path t)) (vel t) s k hk, h0]
    show HasDerivWithinAt _ (closing (vecOf (path t)) k) _ _
    interval_cases k
    · exact hasDerivWithinAt_const _ _ _
    · show HasDerivWithinAt (fun s : ℝ => 1 - Real.exp (-s)) (anchorsOff geometry model pin (vecOf (path t)) 0) _ _
      rw [path_off]
      exact (h1.const_sub 1).hasDerivWithinAt.congr_deriv (by simp)
    · show HasDerivWithinAt (fun s : ℝ => (0 : ℝ)) (anchorsOff geometry model pin (vecOf (path t)) 1) _ _
      rw [path_off]
      exact hasDerivWithinAt_const _ _ _
    · show HasDerivWithinAt (fun s : ℝ => (0 : ℝ)) (anchorsOff geometry model pin (vecOf (path t)) 2) _ _
      rw [path_off]
      exact hasDerivWithinAt_const _ _ _
    · show HasDerivWithinAt (fun s : ℝ => Real.exp (-s)) (- ((vecOf (path t)).get 4 - 2 * (vecOf (path t)).get 0)) _ _
      rw [path_rack]
      exact h1.hasDerivWithinAt

theorem flow (T : ℝ) {J : JaxProblem ℝ} (hJ : (step (run World.init ops) (.compile 0)).1 = .ok (.compiled J)) :
    FeasibleFlow env model (fun _ => J) T path vel := by
  obtain ⟨P, c, j, hP, -, -, -, -, -, -, -, hJ', -⟩ := compiled (more := []) (.inl rfl)
  rw [List.append_nil] at hP hJ'
  rw [hJ'] at hJ; cases hJ
  have key := fun t => solved (more := []) (.inl rfl) hP hJ' (q := vecOf (path t)) rfl
  refine ⟨moves T, fun _ _ => rfl, fun t _ => (key t).1, fun t ht => ?_⟩
  obtain ⟨k1, ⟨qp, k2⟩, -, k4⟩ := key t
  refine ⟨qp, k2, ?_⟩
  obtain ⟨P', ts, hP', hts, hfeas⟩ := C96_control_problem ops hJ' k1 k2
  rw [hP] at hP'; cases hP'
  exact feasibleUpTo_zero.1 (((hfeas (vel t).get).1 0).2 (allowedUpTo_zero.2 (k4 (near_path ht.1) ts hts)))

end Linkage

open Linkage in
/-- All hypotheses of `C113_rows` hold for the compiled constraint. -/
example (q : Vec ℝ) : ∃ c j, MadeBy (.modelEquality "e" (Arr.scalar 1) true none) c ∧ (jaxComponent c).1 = .ok j ∧
    ∃ V J, evalValue env j (update env model q) = .ok V ∧ evalJacobian env j (update env model q) = .ok J ∧ 3 < J.rows ∧ V.get 3 = q.get 4 - 2 * q.get 0 := by
  obtain ⟨P, c, j, -, -, -, -, -, -, -, -, -, hmade, hjc, hm, -⟩ := compiled (more := []) (.inl rfl)
  obtain ⟨V, J, h1, h2, -, -, h4⟩ := C113_rows simulates robot loops hmade hjc hm (arm_unit arm q)
  obtain ⟨h5, h6, -⟩ := h4 0 gears rfl
  rw [off_rack] at h6
  exact ⟨c, j, hmade, hjc, V, J, h1, h2, h5, h6⟩

open Linkage in
/-- All hypotheses of `C113_flow` hold for this motion. -/
example (T : ℝ) : ∀ t ∈ Set.Icc 0 T, ∀ u0 u, AnchorsOff (update env model (vecOf (path 0))) pin u0 → AnchorsOff (update env model (vecOf (path t))) pin u →
    u 0 = Real.exp (-1 * t) * u0 0 := by
  obtain ⟨P, c, j, -, -, -, -, -, -, -, -, hJ, hmade, hjc, hm, hk, hid, hg⟩ := compiled (more := []) (.inl rfl)
  rw [List.append_nil] at hJ
  intro t ht u0 u h0 h1
  have := ((C113_flow simulates robot loops hmade hjc hm hk hid (flow T hJ) (fun _ _ => ⟨"e", List.mem_singleton.2 rfl⟩)) t ht).1 0 pin rfl u0 u h0 h1 0
  rw [hg] at this
  exact this

open Linkage in
/-- With rows that are off by at most 1/100 and control steps of 1/50 s, two control steps bring the tip of the arm and the carriage closer, from every
configuration where they are at most 1 apart along each axis (and the rack at most 1 off). -/
example {osqp : QPSolver ℝ Unit} (ho : FindsFeasibleUpTo (1 / 100) osqp) (x0 : Fin 5 → ℝ) (s0 : LocalIKData ℝ)
    (h0 : Near (vecOf x0)) (u0 u : V3 ℝ) (hu0 : AnchorsOff (update env model (vecOf x0)) pin u0)
    (hu : AnchorsOff (update env model (Spec.control env osqp model 0 (1 / 50) ⟨World.init, vecOf x0, s0⟩ acts).q) pin u) (a : Fin 3) :
    |u a| ≤ (49 / 50) ^ 2 * |u0 a| + 21 / 1000 := by
  have h := (C113_steps (cs := [pin]) (ks := [gears]) ho (by norm_num) simulates robot arm loops (fun c hc => by
      obtain rfl := List.mem_singleton.1 hc
      exact ⟨rfl, rfl, rfl⟩) (p := 0) (dt := 1 / 50) (by norm_num) (V := fun _ => 1 + 1 / 100) (g := fun _ => 1) (fun _ _ => by norm_num) (e := fun _ => 1)
    ⟨fun k c hk a => by
      match k, hk with
      | 0, hk => cases hk; rw [accel]; norm_num, fun _ _ _ => by norm_num⟩ clean x0 s0 (ticks osqp (1 / 100) rfl s0) ((loops_off _).2 h0)).1 0 pin rfl u0 u hu0 hu a
  rw [accel, show ticksIn acts = 2 from rfl] at h
  refine le_trans h ?_
  have := abs_nonneg (u0 a)
  norm_num
  try linarith

end Mjinx.Props
