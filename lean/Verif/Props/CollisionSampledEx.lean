import Verif.Props.CollisionSampled
import Verif.Props.Sizes
import Verif.Props.Solvable

/-!
# A hoist under control

A program that meets the hypotheses of C112: a ball on a vertical rail, which also turns, must not come too close to a ball of the world, or to the floor.
-/

set_option linter.unusedSectionVars false

namespace Mjinx.Props
open Mjinx Mjinx.Spec Finset
open scoped Matrix Quaternion

namespace Hoist

/-- Body 1 slides along a vertical rail, body 2 hangs on it and turns about z; it carries a ball.  The other geom belongs to the world. -/
noncomputable def model (ty : Nat) : MjModel ℝ :=
  { (MjModel.empty : MjModel ℝ) with
    nq := 2, nv := 2, nbody := 3, jntType := [.slide, .hinge], jntQposadr := [0, 1], jntDofadr := [0, 1], jntRange := [(0, 0), (0, 0)],
    bodyParentid := [0, 0, 1], bodyRootid := [0, 1, 1], bodyWeldid := [0, 1, 2], dofBodyid := [1, 2], bodyMass := [0, 1, 1],
    bodyGeomadr := [0, -1, 1], bodyGeomnum := [1, 0, 1], geomContype := [1, 1], geomConaffinity := [1, 1],
    geomBodyid := [0, 2], geomType := [ty, 2], geomDataid := [-1, -1], geomPriority := [0, 0], geomCondim := [3, 3],
    bodyNames := ["world", "hoist", "load"], geomNames := ["obstacle", "ball"] }

noncomputable def geometry : Geometry where
  bodyPos := [0, 0, 0]
  bodyQuat := [1, 1, 1]
  bodyIpos := [0, 0, 0]
  jntBodyid := [1, 2]
  jntPos := [0, 0]
  jntAxis := [![0, 0, 1], ![0, 0, 1]]
  qpos0 := fun _ => 0
  geomPos := [![0, 0, -5], 0]
  geomQuat := [1, 1]
  sitePos := []
  siteQuat := []

noncomputable def size : List ℝ := [1 / 2, 1 / 2]

noncomputable def env : Env ℝ :=
  { Rod.env 0 with
    kinematics := simKinematics geometry, comPos := simComPos geometry, makeConstraint := fun _ d => d
    collide := fun _ d =>
      { known := fun _ _ => true, ncon := fun _ _ => 1
        contact := fun key g _ => if key.type1 = 2 then
          sphereSphere (d.geomXpos.getD g.1.toNat 0) (size.getD g.1.toNat 0) (d.geomXpos.getD g.2.toNat 0) (size.getD g.2.toNat 0)
          else planeSphere (d.geomXpos.getD g.1.toNat 0) (d.geomXmat.getD g.1.toNat 0) (d.geomXpos.getD g.2.toNat 0) (size.getD g.2.toNat 0) } }

theorem simulates (ty : Nat) : Simulates env geometry (model ty) := ⟨fun _ => rfl, fun _ => rfl, fun d => ⟨d.efcEq, d.efcPos, d.efcJ, rfl⟩, rfl⟩

theorem collides (ty : Nat) : CollidesSpheres env size (model ty) where
  known _ := ⟨rfl, rfl⟩
  ncon _ := ⟨rfl, rfl⟩
  spheres d key g h _ := by show (if key.type1 = 2 then _ else _) = _; rw [if_pos h]
  planes d key g h _ := by show (if key.type1 = 2 then _ else _) = _; rw [if_neg (by omega)]

theorem robot (ty : Nat) : RobotWF geometry (model ty) where
  tree := by
    refine ⟨?_, (show ∀ b ∈ [1, 2], b < 3 by decide), rfl, Nat.succ_pos _⟩
    intro b h0 hb
    have : b < 3 := hb
    interval_cases b
    · show 0 < 1; decide
    · show 1 < 2; decide
  addr := ⟨by repeat' constructor, rfl⟩
  joints := by
    intro j hj
    have : j < 2 := hj
    interval_cases j
    · exact ⟨by decide, show 1 < 3 by decide⟩
    · exact ⟨by decide, show 2 < 3 by decide⟩
  dofs := rfl
  axis := by
    intro j hj ht
    have : j < 2 := hj
    interval_cases j
    · cases ht
    · show sq3 ![0, 0, 1] = 1
      simp [sq3]
  quat := Buoy.unitOne _ (by simp [geometry])
  free := by
    intro j hj ht
    have : j < 2 := hj
    interval_cases j <;> cases ht
  ball := by
    intro j i hji hi _ ht
    have hi' : i < 2 := hi
    have hj : j < 2 := by omega
    interval_cases j <;> cases ht
  roots := ⟨rfl, (show ∀ b < 3, [0, 1, 1].getD b 0 < 3 by decide)⟩
  root := by
    intro b h0 hb hp
    have : b < 3 := hb
    interval_cases b
    · exact absurd rfl hp
    · rfl
  mass := rfl
  objects := ⟨(show ∀ b ∈ [0, 2], b < 3 by decide), by simp [model, MjModel.empty]⟩
  turns := ⟨Buoy.unitOne _ (by simp [geometry]), Buoy.unitOne _ (by simp [geometry])⟩

theorem arm (ty : Nat) : RailArm geometry (model ty) where
  joints := by
    intro t ht
    have : t ∈ ([.slide, .hinge] : List JntType) := ht
    fin_cases this <;> simp
  rails := by
    intro j hj hs i hi hh
    have hi' : i < 2 := hi
    have hj' : j < 2 := hj
    obtain rfl : j = 0 := by
      by_contra h
      obtain rfl : j = 1 := by omega
      cases hs
    obtain rfl : i = 1 := by
      by_contra h
      obtain rfl : i = 0 := by omega
      cases hh
    refine ⟨?_, fun h => absurd h.2 (by decide)⟩
    intro h
    have h1 := anc_le (robot ty).tree h (show 0 < 3 by decide)
    exact absurd h1 (show ¬ 2 ≤ 0 by decide)

theorem group (ty : Nat) : OneGroup (model ty) ty 2 [(0, 1)] := by
  refine ⟨⟨rfl, rfl, rfl⟩, rfl, ?_, ?_, ?_⟩
  · intro g hg
    fin_cases hg; exact ⟨⟨by decide, show (0 : Int) < 2 by decide⟩, by decide, show (1 : Int) < 2 by decide⟩
  · intro g hg
    fin_cases hg; exact ⟨rfl, rfl⟩
  · intro g hg g' hg'
    fin_cases hg; fin_cases hg'; rfl

theorem size_pos : ∀ r ∈ size, 0 ≤ r := by
  intro r hr
  fin_cases hr <;> norm_num

theorem pose1 (ty : Nat) (g : Nat → ℝ) : bodyPose geometry (model ty) g 1 = ⟨1, ![0, 0, g 0]⟩ := by
  have hj : jointsOfBody geometry (model ty) 1 = [0] := rfl
  rw [bodyPose, if_neg (by decide), hj]
  have hp : (model ty).bodyParentid.getD 1 0 = 0 := rfl
  simp only [hp, dif_pos (show 0 < 1 by decide), bodyPose_zero, List.foldl_cons, List.foldl_nil]
  have e : jointMove geometry (model ty) g ((SE3.one : SE3 ℝ).mul ⟨geometry.bodyQuat.getD 1 1, geometry.bodyPos.getD 1 0⟩) 0 =
      ⟨1 * 1, (rotate 1 0 + 0) + (g 0 - 0) • rotate (1 * 1) ![0, 0, 1]⟩ := rfl
  rw [e, one_mul, rotate_one, rotate_one, SE3.mk.injEq]
  refine ⟨rfl, ?_⟩
  funext a
  fin_cases a <;> simp

theorem pose2 (ty : Nat) (g : Nat → ℝ) : (bodyPose geometry (model ty) g 2).trans = ![0, 0, g 0] := by
  have hj : jointsOfBody geometry (model ty) 2 = [1] := rfl
  rw [bodyPose, if_neg (by decide), hj]
  have hp : (model ty).bodyParentid.getD 2 0 = 1 := rfl
  simp only [hp, dif_pos (show 1 < 2 by decide), pose1, List.foldl_cons, List.foldl_nil]
  have e : (jointMove geometry (model ty) g ((⟨1, ![0, 0, g 0]⟩ : SE3 ℝ).mul ⟨geometry.bodyQuat.getD 2 1, geometry.bodyPos.getD 2 0⟩) 1).trans =
      (rotate (1 * 1) 0 + (rotate 1 0 + ![0, 0, g 0])) - rotate (1 * 1 * axisAngleQuat ![0, 0, 1] (g 1 - 0)) 0 := rfl
  rw [e, rotate_zero, rotate_zero, rotate_zero]
  simp

theorem obstacle (ty : Nat) (q : Vec ℝ) : objPos (update env (model ty) q) .geom 0 = .ok ![0, 0, -5] ∧
    objMat (update env (model ty) q) .geom 0 = .ok (quatMat 1) := by
  have h1 := (geom_pos (j := { Beads.barrier with model := model ty }) (simulates ty) rfl q (g := 0) (by decide) (show (0 : Int) < 2 by decide)).1
  have h2 := geom_mat (j := { Beads.barrier with model := model ty }) (simulates ty) rfl q (g := 0) (by decide) (show (0 : Int) < 2 by decide)
  have hb : geomBody (model ty) 0 = 0 := rfl
  simp only [hb, bodyPose_zero] at h1 h2
  refine ⟨h1.trans ?_, h2.trans ?_⟩
  · congr 1
    show rotate 1 ![0, 0, -5] + 0 = _
    rw [rotate_one, add_zero]
  · congr 1
    show quatMat (1 * 1) = _
    rw [one_mul]

theorem ball (ty : Nat) (q : Vec ℝ) : objPos (update env (model ty) q) .geom 1 = .ok ![0, 0, q.get 0] := by
  refine (geom_pos (j := { Beads.barrier with model := model ty }) (simulates ty) rfl q (g := 1) (by decide) (show (1 : Int) < 2 by decide)).1.trans ?_
  have hb : geomBody (model ty) 1 = 2 := rfl
  simp only [hb]
  congr 1
  show rotate _ 0 + _ = _
  rw [rotate_zero, zero_add, pose2]

theorem gap_is (z : ℝ) : gap ![0, 0, -5] ![0, 0, z] = |z + 5| := by
  unfold gap
  rw [← Real.sqrt_sq_eq_abs]
  congr 1
  simp [sq3]

theorem up : normalOf (quatMat 1) = ![0, 0, 1] := Lift.up

/-- The distance and its rate, for the ball and the floor. -/
noncomputable def away (ty : Nat) (z : ℝ) : ℝ := if ty = 2 then |z + 5| - 1 else z + 5 - 1 / 2

theorem dist_is {ty : Nat} (hty : ty = 2 ∨ ty = 0) (q : Vec ℝ) : (contactOf env (model ty) q (0, 1)).dist = away ty (q.get 0) := by
  have p0 : (update env (model ty) q).geomXpos.getD 0 0 = ![0, 0, -5] := by
    have h := geom_pos (j := { Beads.barrier with model := model ty }) (simulates ty) rfl q (g := 0) (by decide) (show (0 : Int) < 2 by decide)
    exact h.2.1.trans (Except.ok.inj (h.1.symm.trans (obstacle ty q).1))
  have p1 : (update env (model ty) q).geomXpos.getD 1 0 = ![0, 0, q.get 0] := by
    have h := geom_pos (j := { Beads.barrier with model := model ty }) (simulates ty) rfl q (g := 1) (by decide) (show (1 : Int) < 2 by decide)
    exact h.2.1.trans (Except.ok.inj (h.1.symm.trans (ball ty q)))
  have p2 : (update env (model ty) q).geomXmat.getD 0 0 = quatMat 1 := by
    have h := geom_pos (j := { Beads.barrier with model := model ty }) (simulates ty) rfl q (g := 0) (by decide) (show (0 : Int) < 2 by decide)
    have h' := geom_mat (j := { Beads.barrier with model := model ty }) (simulates ty) rfl q (g := 0) (by decide) (show (0 : Int) < 2 by decide)
    exact h.2.2.trans (Except.ok.inj (h'.symm.trans (obstacle ty q).2))
  rcases hty with rfl | rfl
  · have h := sphere_contact (j := { Beads.barrier with model := model 2 }) (q := q) (collides 2) (group 2) (g := (0, 1)) (by simp)
    rw [h]
    show gap ((update env (model 2) q).geomXpos.getD 0 0) ((update env (model 2) q).geomXpos.getD 1 0) - (1 / 2 + 1 / 2) = _
    rw [p0, p1, gap_is]
    norm_num [away]
  · have h := plane_contact (j := { Beads.barrier with model := model 0 }) (collides 0) (g := (0, 1)) ⟨rfl, rfl⟩ q
    rw [h]
    show ((update env (model 0) q).geomXpos.getD 1 0 - (update env (model 0) q).geomXpos.getD 0 0) ⬝ᵥ normalOf ((update env (model 0) q).geomXmat.getD 0 0) - 1 / 2 = _
    rw [p0, p1, p2, up, dot3]
    simp [away]

theorem rate_is {ty : Nat} (hty : ty = 2 ∨ ty = 0) {q : Vec ℝ} (hq : 0 < away ty (q.get 0)) :
    ∃ σ : ℝ, (σ = 1 ∨ σ = -1) ∧ ∀ u : ℝ, rowRate env geometry (model ty) q ⟨2, fun k => if k = 0 then u else 0⟩ (0, 1) = σ * u := by
  have hd : ∀ u : ℝ, HasDerivAt (fun t : ℝ => q.get 0 + t * u) u 0 := fun u => by
    simpa using ((hasDerivAt_id (0 : ℝ)).mul_const u).const_add (q.get 0)
  rcases hty with rfl | rfl
  · have hne : |q.get 0 + 5| ≠ 0 := by
      unfold away at hq
      rw [if_pos rfl] at hq
      linarith
    have key : ∀ u : ℝ, HasDerivAt (fun t : ℝ => |q.get 0 + t * u + 5|) (rowRate env geometry (model 2) q ⟨2, fun k => if k = 0 then u else 0⟩ (0, 1)) 0 := by
      intro u
      obtain ⟨X1, X2, x1, -, -, -, -, x6⟩ := sphere_rate (j := { Beads.barrier with model := model 2 }) (q := q) (simulates 2) (robot 2) (collides 2)
        (arm_unit (arm 2) q) (group 2) (g := (0, 1)) (by simp) (by
          show objPos (update env (model 2) q) .geom 0 ≠ objPos (update env (model 2) q) .geom 1
          rw [(obstacle 2 q).1, ball]
          intro e
          have := congrFun (Except.ok.inj e) 2
          have : (-5 : ℝ) = q.get 0 := this
          rw [← this] at hne
          norm_num at hne) ⟨2, fun k => if k = 0 then u else 0⟩
      have e : (fun t => gap (X1 t) (X2 t)) = fun t : ℝ => |q.get 0 + t * u + 5| := by
        funext t
        have e1 : X1 t = ![0, 0, -5] := Except.ok.inj ((x1 t).1.symm.trans (obstacle 2 _).1)
        have e2 : X2 t = ![0, 0, q.get 0 + t * u] := Except.ok.inj ((x1 t).2.symm.trans (ball 2 _))
        rw [e1, e2, gap_is]
      rw [e] at x6
      exact x6
    rcases lt_or_gt_of_ne (abs_ne_zero.1 hne) with h | h
    · refine ⟨-1, .inr rfl, fun u => ?_⟩
      have h1 : HasDerivAt (fun t : ℝ => |q.get 0 + t * u + 5|) (-1 * u) 0 := by
        refine (((hd u).add_const 5).neg.congr_of_eventuallyEq ?_).congr_deriv (by ring)
        have := ((hd u).add_const 5).continuousAt.eventually_lt (g := fun _ => 0) continuousAt_const (by simpa using h)
        exact this.mono fun t ht => abs_of_neg ht
      exact (key u).unique h1
    · refine ⟨1, .inl rfl, fun u => ?_⟩
      have h1 : HasDerivAt (fun t : ℝ => |q.get 0 + t * u + 5|) (1 * u) 0 := by
        refine (((hd u).add_const 5).congr_of_eventuallyEq ?_).congr_deriv (by ring)
        have := (continuousAt_const (y := (0 : ℝ))).eventually_lt ((hd u).add_const 5).continuousAt (by simpa using h)
        exact this.mono fun t ht => abs_of_pos ht
      exact (key u).unique h1
  · refine ⟨1, .inl rfl, fun u => ?_⟩
    obtain ⟨X1, X2, M, x1, -, -, -, -, x6⟩ := plane_rate (j := { Beads.barrier with model := model 0 }) (q := q) (simulates 0) (robot 0) (collides 0)
      (arm_unit (arm 0) q) rfl (g := (0, 1)) ((group 0).inRange _ (by simp)) ⟨rfl, rfl⟩ ⟨2, fun k => if k = 0 then u else 0⟩
    have e : (fun t => (X2 t - X1 t) ⬝ᵥ normalOf (M t)) = fun t : ℝ => q.get 0 + t * u + 5 := by
      funext t
      have e1 : X1 t = ![0, 0, -5] := Except.ok.inj ((x1 t).1.symm.trans (obstacle 0 _).1)
      have e2 : X2 t = ![0, 0, q.get 0 + t * u] := Except.ok.inj ((x1 t).2.2.symm.trans (ball 0 _))
      have e3 : M t = quatMat 1 := Except.ok.inj ((x1 t).2.1.symm.trans (obstacle 0 _).2)
      rw [e1, e2, e3, up, dot3]
      simp
    rw [e] at x6
    rw [one_mul]
    exact x6.unique ((hd u).add_const 5)

/-! ### The program -/

noncomputable def barrierArgs : BarrierArgs ℝ := { name := "b", gain := Arr.scalar 1, sdg := 0 }

/-- A barrier over all pairs is made and added to a problem with speed limit 1. -/
noncomputable def ops (ty : Nat) : List (Op ℝ) :=
  [.newComp (.selfCollision barrierArgs (1 / 2) [] [] (-1)), .newProblem (model ty) (Arr.scalar (-1)) (Arr.scalar 1), .add 0 0]

noncomputable def acts (ty : Nat) : List (Act ℝ) := (ops ty).map .call ++ [.tick, .tick]

theorem clean (ty : Nat) : CleanProgram World.init (callsOf 0 (acts ty)) := by
  refine ⟨trivial, trivial, ?_, trivial, trivial, trivial⟩
  intro e h; cases h

theorem clean_ops' (ty : Nat) {more : List (Op ℝ)} (h : more = [] ∨ more = [.compile 0]) : CleanProgram World.init (ops ty ++ more) := by
  rcases h with rfl | rfl
  · refine ⟨trivial, trivial, ?_, trivial⟩; intro e h; cases h
  · refine ⟨trivial, trivial, ?_, trivial, trivial⟩; intro e h; cases h

theorem watches (ty : Nat) {more : List (Op ℝ)} (h : more = [] ∨ more = [.compile 0]) {dt : ℝ} (hdt : dt ≤ 1) :
    WatchesPairs (model ty) 0 dt (1 / 2) [(0, 1)] 1 (run World.init (ops ty ++ more)) := by
  have hg : (1 : ℝ) ≤ 1 ∧ (1 : ℝ) * dt ≤ 1 := ⟨le_refl _, by linarith⟩
  rcases h with rfl | rfl
  · exact ⟨_, "b", 0, _, _, _, _, rfl, rfl, .head _, rfl, rfl, rfl, rfl, rfl, fun _ _ => hg⟩
  · exact ⟨_, "b", 0, _, _, _, _, rfl, rfl, .head _, rfl, rfl, rfl, rfl, rfl, fun _ _ => hg⟩

theorem speeds (ty : Nat) {more : List (Op ℝ)} (h : more = [] ∨ more = [.compile 0]) (ε : ℝ) :
    SpeedAtMost (model ty) 0 ε (fun _ => 1 + ε) (run World.init (ops ty ++ more)) := by
  rcases h with rfl | rfl
  all_goals
    refine ⟨_, rfl, fun k _ => ⟨?_, ?_⟩⟩
    · show (1 : ℝ) * 1 + ε ≤ 1 + ε
      linarith
    · show - ((1 : ℝ) * (-1)) + ε ≤ 1 + ε
      linarith

/-- What the problem compiles to. -/
theorem compiled (ty : Nat) {more : List (Op ℝ)} (h : more = [] ∨ more = [.compile 0]) :
    ∃ (P : Prob ℝ) (c : Comp ℝ) (j : JaxComp ℝ), (run World.init (ops ty ++ more)).probs[0]? = some P ∧ P.comps = [("b", 0)] ∧
      (∀ k, P.vMin.get [k] = -1) ∧ (∀ k, P.vMax.get [k] = 1) ∧ (run World.init (ops ty ++ more)).comps = [c] ∧
      (∃ b e n p, c.attrs.kind = .selfCollision 0 (1 / 2) b e n p) ∧ (c.attrs.gainFn = id ∧ ∀ r, gainAt c.attrs.gain r = 1) ∧ P.model = model ty ∧
      (step (run World.init (ops ty ++ more)) (.compile 0)).1 = .ok (.compiled ⟨model ty, P.vMin, P.vMax, [("b", j)]⟩) ∧
      j.model = model ty ∧ Settled j ∧ j.kind = .selfCollision 0 (Arr.onesMul 1 (Arr.scalar (1 / 2))) [(0, 1)] (1 : Nat) := by
  have e1 : (1 : ℝ) * (-1) = -1 := by norm_num
  have e2 : (1 : ℝ) * 1 = 1 := by norm_num
  rcases h with rfl | rfl
  all_goals
    exact ⟨_, _, _, rfl, rfl, fun _ => e1, fun _ => e2, rfl, ⟨_, _, _, _, rfl⟩, ⟨rfl, fun _ => rfl⟩, rfl, rfl, rfl, rfl, rfl⟩

/-- As long as the distance is at least 2/5, some velocity is allowed. -/
theorem canMove {ty : Nat} (hty : ty = 2 ∨ ty = 0) {more : List (Op ℝ)} (h : more = [] ∨ more = [.compile 0]) {q : Vec ℝ} (hq : q.len = 2)
    (hd : 2 / 5 ≤ away ty (q.get 0)) (s : LocalIKData ℝ) : CanMove env (model ty) 0 ⟨run World.init (ops ty ++ more), q, s⟩ := by
  have hcl := clean_ops' ty h
  obtain ⟨P, c, j, hP, hPc, hmin, hmax, hcs, ⟨b, e, n, p, hk⟩, ⟨hg, hg'⟩, hPm, hJ, hm, hset, hjk⟩ := compiled ty h
  intro J' hJ'
  dsimp only at hJ' ⊢
  rw [hJ] at hJ'; cases hJ'
  refine ⟨C68_problem_partial hcl hJ (fun nj h => by fin_cases h; exact hm) (fun nj h => by fin_cases h; exact hset) (robot ty).addr
    ⟨fun _ _ => ⟨rfl, rfl⟩, rfl, rfl, rfl⟩, fun P' ts hP' hts => ?_⟩
  rw [hP] at hP'; cases hP'
  unfold TermsOf at hts
  rw [hPc, hcs] at hts
  cases hts with
  | cons ht hnil =>
  cases hnil
  rename_i t
  obtain ⟨c', hc, hta, j', hj, hjac, hval⟩ := ht
  cases hc
  obtain rfl : j' = j := by simpa using hj
  obtain ⟨J, V, h1, h2, h3, h4, h5⟩ := group_rows (j := j') (q := q) (s := 0) (n := 1) (by rw [hm]; exact simulates ty) (by rw [hm]; exact robot ty)
    (by rw [hm]; exact arm_unit (arm ty) q) hjk (by rw [hm]; exact (group ty).tables) (by rw [hm]; exact (group ty).bodies) (by rw [hm]; exact (group ty).inRange)
    (group_uniform (j := j') (by rw [hm]; exact collides ty) hty (by rw [hm]; exact group ty) q) (by simp) (by simp)
  rw [hm] at h1 h2 h5
  obtain rfl : J = t.jac := Except.ok.inj (h1.symm.trans hjac)
  obtain rfl : V = t.value := Except.ok.inj (h2.symm.trans hval)
  obtain ⟨k, g, -, g2, g3, g4⟩ := h5 0 (by norm_num)
  obtain rfl : g = (0, 1) := by
    have := List.mem_of_getElem? g2
    simpa using this
  obtain ⟨σ, hσ, hr⟩ := rate_is hty (q := q) (by linarith)
  rw [dist_is hty] at g3
  refine ⟨fun k => if k = 0 then σ * (1 / 10) else 0, ?_, ?_⟩
  · intro i hi
    rw [hmin, hmax]
    dsimp only
    rcases hσ with rfl | rfl <;> split <;> constructor <;> norm_num
  · intro x hx
    unfold Term.Allows
    fin_cases hx
    simp only [hta, hk]
    intro i hi
    obtain rfl : i = 0 := by omega
    have e : rowDot t.jac 0 (fun k => if k = 0 then σ * (1 / 10) else 0) = σ * (σ * (1 / 10)) := by
      rw [g4]
      exact hr (σ * (1 / 10))
    have e2 : t.rate 0 = away ty (q.get 0) - 1 / 2 := by
      unfold Term.rate
      rw [hta, hg, hg', g3, one_mul]
      rfl
    rw [e, e2]
    rcases hσ with rfl | rfl <;> linarith

theorem ticks {ty : Nat} (hty : ty = 2 ∨ ty = 0) (osqp : QPSolver ℝ Unit) {dt : ℝ} (hdt : dt ≤ 1) (ε : ℝ) {q0 : Vec ℝ} (hq : q0.len = 2) (s0 : LocalIKData ℝ) :
    AtEveryTick env osqp (model ty) 0 dt (fun S => WatchesPairs (model ty) 0 dt (1 / 2) [(0, 1)] 1 S.world ∧ SpeedAtMost (model ty) 0 ε (fun _ => 1 + ε) S.world ∧
      (2 / 5 ≤ away ty (S.q.get 0) → CanMove env (model ty) 0 S)) ⟨World.init, q0, s0⟩ (acts ty) := by
  have h0 : ∀ more, more = [] ∨ more = [.compile 0] → ∀ q : Vec ℝ, q.len = 2 → ∀ s, WatchesPairs (model ty) 0 dt (1 / 2) [(0, 1)] 1 (run World.init (ops ty ++ more)) ∧
      SpeedAtMost (model ty) 0 ε (fun _ => 1 + ε) (run World.init (ops ty ++ more)) ∧
      (2 / 5 ≤ away ty (q.get 0) → CanMove env (model ty) 0 ⟨run World.init (ops ty ++ more), q, s⟩) :=
    fun more h q hq s => ⟨watches ty h hdt, speeds ty h ε, fun hd => canMove hty h hq hd s⟩
  have hrun : (step (run World.init (ops ty)) (.compile 0)).2 = run World.init (ops ty ++ [.compile 0]) := by
    simp only [run, List.foldl_append, List.foldl_cons, List.foldl_nil]
  have a0 := h0 [] (.inl rfl)
  have a1 := h0 [.compile 0] (.inr rfl)
  rw [List.append_nil] at a0
  have skip : ∀ (ops : List (Op ℝ)) (G : Robot ℝ → Prop) (S : Robot ℝ) (rest : List (Act ℝ)),
      AtEveryTick env osqp (model ty) 0 dt G ⟨run S.world ops, S.q, S.data⟩ rest →
      AtEveryTick env osqp (model ty) 0 dt G S (ops.map .call ++ rest) := by
    intro ops
    induction ops with
    | nil => intro G S rest h; exact h
    | cons op ops ih => intro G S rest h; exact ⟨(fun h => by cases h), ih G _ rest h⟩
  unfold acts
  refine skip (ops ty) _ _ _ ?_
  dsimp only
  generalize run World.init (ops ty ++ [.compile 0]) = w1 at *
  generalize run World.init (ops ty) = w0 at *
  refine ⟨fun _ => a0 q0 hq s0, ?_⟩
  have hl := tick_len (S := ⟨w0, q0, s0⟩) env osqp (robot ty).addr 0 dt hq
  have hw := tick_world env osqp (model ty) 0 dt ⟨w0, q0, s0⟩
  generalize controlStep env osqp (model ty) 0 dt ⟨w0, q0, s0⟩ .tick = S at hl hw
  obtain ⟨w, q, s⟩ := S
  dsimp only at hl hw
  subst hw
  refine ⟨fun _ => ?_, trivial⟩
  rw [hrun]
  exact a1 q hl s

theorem weaken {ty : Nat} {osqp : QPSolver ℝ Unit} {dt : ℝ} {G H : Robot ℝ → Prop} (h : ∀ S, G S → H S) {S : Robot ℝ} {acts : List (Act ℝ)}
    (ht : AtEveryTick env osqp (model ty) 0 dt G S acts) : AtEveryTick env osqp (model ty) 0 dt H S acts := by
  induction acts generalizing S with
  | nil => trivial
  | cons a acts ih => exact ⟨fun e => h _ (ht.1 e), ih ht.2⟩

theorem speedOf (ty : Nat) {B : ℝ} : turnSpeed (model ty) (fun _ => B) = B := by
  unfold turnSpeed
  rw [show (model ty).jntType.length = 2 from rfl, sum_range_succ, sum_range_one, show (model ty).jntType.getD 0 .hinge = .slide from rfl,
    show (model ty).jntType.getD 1 .hinge = .hinge from rfl]
  simp

theorem gap0 : gap 0 (0 : V3 ℝ) = 0 := by simp [gap, sq3]

theorem long (ty : Nat) : armLength geometry (model ty) = 0 := by
  unfold armLength
  rw [show (model ty).jntType.length = 2 from rfl, show (model ty).nbody = 3 from rfl]
  simp only [sum_range_succ, sum_range_zero]
  show 0 + gap 0 (0 : V3 ℝ) + gap 0 (0 : V3 ℝ) + gap 0 (0 : V3 ℝ) + (0 + 2 * gap 0 0 + 2 * gap 0 0) = 0
  rw [gap0]
  norm_num

theorem accel {B : ℝ} (ty : Nat) : pairAcceleration geometry (model ty) (fun _ => B) (0, 1) = B ^ 2 * 5 ∧ ballAcceleration geometry (model ty) (fun _ => B) 1 = 0 := by
  have h5 : gap 0 (![0, 0, -5] : V3 ℝ) = 5 := by
    unfold gap
    rw [show sq3 ((![0, 0, -5] : V3 ℝ) - 0) = 5 ^ 2 by
      show (0 - 0 : ℝ) ^ 2 + (0 - 0) ^ 2 + (-5 - 0) ^ 2 = _
      norm_num]
    exact Real.sqrt_sq (by norm_num)
  constructor
  · unfold pairAcceleration
    rw [speedOf, long]
    show B ^ 2 * ((0 + gap 0 ![0, 0, -5]) + (0 + gap 0 0)) = _
    rw [h5, gap0]
    ring
  · unfold ballAcceleration
    rw [speedOf, long]
    show B ^ 2 * (0 + gap 0 0) = _
    rw [gap0]
    ring

theorem apart (q : Vec ℝ) {c : ℝ} (hc : 0 < c) : BallsApart (update env (model 2) q) size c (0, 1) ↔ c ≤ |q.get 0 + 5| - 1 := by
  have := balls_dist (j := { Beads.barrier with model := model 2 }) (q := q) (simulates 2) (collides 2) (group 2) hc size_pos (g := (0, 1)) (by simp)
  rw [← this, dist_is (.inl rfl)]
  rfl

theorem above (q : Vec ℝ) {c : ℝ} : BallAbove (update env (model 0) q) size c (0, 1) ↔ c ≤ q.get 0 + 5 - 1 / 2 := by
  have := floor_dist (j := { Beads.barrier with model := model 0 }) (q := q) (c := c) (simulates 0) (robot 0) (collides 0) (group 0) size_pos (g := (0, 1)) (by simp) rfl
  rw [← this, dist_is (.inr rfl)]
  rfl

end Hoist

open Hoist in
/-- With rows that are off by at most 1/100 and control steps of 1/50 s, the two balls, which are to stay 1/2 apart, stay 2/5 apart, from every
configuration where they are. -/
example {osqp : QPSolver ℝ Unit} (ho : FindsFeasibleUpTo (1 / 100) osqp) (x0 : Fin 2 → ℝ) (s0 : LocalIKData ℝ) (h0 : 2 / 5 ≤ |x0 0 + 5| - 1) :
    2 / 5 ≤ |(Spec.control env osqp (model 2) 0 (1 / 50) ⟨World.init, vecOf x0, s0⟩ (acts 2)).q.get 0 + 5| - 1 := by
  have e : (1 / 2 - 1 / 10 : ℝ) = 2 / 5 := by norm_num
  have h := C112_spheres (m := model 2) ho (simulates 2) (robot 2) (arm 2) (collides 2) size_pos (group 2) (p := 0) (dt := 1 / 50) (by norm_num)
    (V := fun _ => 1 + 1 / 100) (γ := 1) (b := 1 / 10) (dMin := 1 / 2) (by norm_num) (by norm_num)
    (fun g hg => by
      obtain rfl : g = (0, 1) := by simpa using hg
      rw [(accel 2).1]; norm_num) (clean 2) x0 s0
    (weaken (fun S hS => ⟨hS.1, hS.2.1, fun h => hS.2.2 (by
      have := (apart S.q (by norm_num)).1 (h (0, 1) (by simp))
      rw [e] at this
      exact this)⟩) (ticks (.inl rfl) osqp (by norm_num) (1 / 100) rfl s0))
    (fun g hg => by
      obtain rfl : g = (0, 1) := by simpa using hg
      rw [e]
      exact (apart _ (by norm_num)).2 h0)
  rw [e] at h
  exact (apart _ (by norm_num)).1 (h (0, 1) (by simp))

open Hoist in
/-- The same with a floor. -/
example {osqp : QPSolver ℝ Unit} (ho : FindsFeasibleUpTo (1 / 100) osqp) (x0 : Fin 2 → ℝ) (s0 : LocalIKData ℝ) (h0 : 2 / 5 ≤ x0 0 + 5 - 1 / 2) :
    2 / 5 ≤ (Spec.control env osqp (model 0) 0 (1 / 50) ⟨World.init, vecOf x0, s0⟩ (acts 0)).q.get 0 + 5 - 1 / 2 := by
  have e : (1 / 2 - 1 / 10 : ℝ) = 2 / 5 := by norm_num
  have h := C112_floors_partial (m := model 0) ho (simulates 0) (robot 0) (arm 0) (collides 0) size_pos (group 0)
    (fun g hg => by
      obtain rfl : g = (0, 1) := by simpa using hg
      rfl) (p := 0) (dt := 1 / 50) (by norm_num) (V := fun _ => 1 + 1 / 100) (γ := 1) (b := 1 / 10) (dMin := 1 / 2) (by norm_num)
    (fun g hg => by
      obtain rfl : g = (0, 1) := by simpa using hg
      rw [(accel 0).2]; norm_num) (clean 0) x0 s0
    (weaken (fun S hS => ⟨hS.1, hS.2.1, fun h => hS.2.2 (by
      have := (above S.q).1 (h (0, 1) (by simp))
      rw [e] at this
      exact this)⟩) (ticks (.inr rfl) osqp (by norm_num) (1 / 100) rfl s0))
    (fun g hg => by
      obtain rfl : g = (0, 1) := by simpa using hg
      rw [e]
      exact (above _).2 h0)
  rw [e] at h
  exact (above _).1 (h (0, 1) (by simp))

end Mjinx.Props
