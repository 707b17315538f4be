import Verif.Spec.Flow
import Verif.Spec.Solvable
import Verif.Props.AutoJacobian
import Verif.Props.ClosedLoop
import Mathlib.Analysis.Calculus.MeanValue
import Mathlib.Analysis.SpecialFunctions.ExpDeriv
import Mathlib.Analysis.SpecialFunctions.Trigonometric.Bounds

/-!
# C88: continuous motion

Barriers keep the robot safe, tasks decay exponentially, when the velocity is chosen anew at every moment.
-/

set_option linter.unusedSectionVars false

namespace Mjinx.Props
open Mjinx Mjinx.Spec Finset Set

/-! ### Differential inequalities -/

private theorem stays_nonneg {h h' φ : ℝ → ℝ} {T γ : ℝ} (hc : ContinuousOn h (Set.Icc 0 T))
    (hd : ∀ t ∈ Set.Ico 0 T, HasDerivWithinAt h (h' t) (Set.Ici t) t) (hγ : 0 ≤ γ) (hφ : ∀ y < 0, φ y ≤ 0)
    (hb : ∀ t ∈ Set.Ico 0 T, - (γ * φ (h t)) ≤ h' t) (h0 : 0 ≤ h 0) : ∀ t ∈ Set.Icc 0 T, 0 ≤ h t := by
  intro t ht
  have key : ∀ ε > 0, - h t ≤ ε * (1 + t) := by
    intro ε hε
    refine image_le_of_deriv_right_lt_deriv_boundary (f := fun s => - h s) (f' := fun s => - h' s) (a := 0) (b := T) hc.neg
      (fun s hs => (hd s hs).neg) (B := fun s => ε * (1 + s)) (B' := fun _ => ε) ?_ ?_ ?_ ht
    · show - h 0 ≤ ε * (1 + 0)
      linarith
    · intro s
      have := ((hasDerivAt_id s).const_add 1).const_mul ε
      rwa [mul_one] at this
    · intro s hs he
      have he : - h s = ε * (1 + s) := he
      have hneg : h s < 0 := by
        have : 0 < ε * (1 + s) := mul_pos hε (by have := hs.1; linarith)
        linarith
      have h1 := mul_nonneg hγ (neg_nonneg.2 (hφ _ hneg))
      have h2 := hb s hs
      show - h' s < ε
      nlinarith
  by_contra hn
  push Not at hn
  have h1 := key (- h t / (2 * (1 + t))) (div_pos (by linarith) (by have := ht.1; linarith))
  have h2 : 0 < 1 + t := by have := ht.1; linarith
  have e : - h t / (2 * (1 + t)) * (1 + t) = - h t / 2 := by
    field_simp
  rw [e] at h1
  linarith

private theorem weighted_deriv {h h' : ℝ → ℝ} {T γ : ℝ} (hd : ∀ t ∈ Set.Ico 0 T, HasDerivWithinAt h (h' t) (Set.Ici t) t) :
    ∀ t ∈ Set.Ico 0 T, HasDerivWithinAt (fun s => Real.exp (γ * s) * h s) (Real.exp (γ * t) * (γ * h t + h' t)) (Set.Ici t) t := by
  intro t ht
  have h1 : HasDerivAt (fun s : ℝ => Real.exp (γ * s)) (Real.exp (γ * t) * (γ * 1)) t := ((hasDerivAt_id t).const_mul γ).exp
  refine (h1.hasDerivWithinAt.mul (hd t ht)).congr_deriv ?_
  ring

private theorem exp_cont {h : ℝ → ℝ} {T γ : ℝ} (hc : ContinuousOn h (Set.Icc 0 T)) :
    ContinuousOn (fun s => Real.exp (γ * s) * h s) (Set.Icc 0 T) :=
  (Real.continuous_exp.comp (continuous_const.mul continuous_id)).continuousOn.mul hc

private theorem decays_slowly {h h' : ℝ → ℝ} {T γ : ℝ} (hc : ContinuousOn h (Set.Icc 0 T))
    (hd : ∀ t ∈ Set.Ico 0 T, HasDerivWithinAt h (h' t) (Set.Ici t) t)
    (hb : ∀ t ∈ Set.Ico 0 T, - (γ * h t) ≤ h' t) : ∀ t ∈ Set.Icc 0 T, Real.exp (- (γ * t)) * h 0 ≤ h t := by
  intro t ht
  have h1 := image_le_of_deriv_right_le_deriv_boundary (f := fun _ => h 0) (f' := fun _ => 0) (a := 0) (b := T) continuousOn_const
    (fun s _ => hasDerivWithinAt_const _ _ _) (B := fun s => Real.exp (γ * s) * h s) (by simp) (exp_cont hc) (weighted_deriv hd)
    (fun s hs => mul_nonneg (Real.exp_pos _).le (by have := hb s hs; linarith)) ht
  have h2 := mul_le_mul_of_nonneg_left h1 (Real.exp_pos (- (γ * t))).le
  rw [← mul_assoc, ← Real.exp_add] at h2
  simpa using h2

private theorem decays {h h' : ℝ → ℝ} {T γ : ℝ} (hc : ContinuousOn h (Set.Icc 0 T))
    (hd : ∀ t ∈ Set.Ico 0 T, HasDerivWithinAt h (h' t) (Set.Ici t) t)
    (hb : ∀ t ∈ Set.Ico 0 T, h' t = - (γ * h t)) : ∀ t ∈ Set.Icc 0 T, h t = Real.exp (- (γ * t)) * h 0 := by
  intro t ht
  refine le_antisymm ?_ (decays_slowly hc hd (fun s hs => (hb s hs).ge) t ht)
  have := decays_slowly (h := fun s => - h s) (h' := fun s => - h' s) (γ := γ) hc.neg (fun s hs => (hd s hs).neg)
    (fun s hs => by rw [hb s hs]; linarith) t ht
  linarith

/-! ### The rate of a value along a motion -/

private theorem coordsOf_vecOf {n : Nat} (x : Fin n → ℝ) : coordsOf (vecOf x) = x := by
  funext k
  exact dif_pos (show (k : Nat) < n from k.2)

section
variable {env : Env ℝ} {j : JaxComp ℝ} {f : Vec ℝ → Vec ℝ} {n : Nat} {T : ℝ} {x : ℝ → Fin j.model.nq → ℝ} {v : ℝ → Vec ℝ}

theorem value_cont (hx : ContinuousOn x (Set.Icc 0 T)) (hs : ∀ t ∈ Set.Icc 0 T, Smooth f (vecOf (x t)))
    (hn : ∀ x, (f x).len = n) {i : Nat} (hi : i < n) : ContinuousOn (fun s => (f (vecOf (x s))).get i) (Set.Icc 0 T) := by
  intro t ht
  have h1 := (hs t ht i (by rw [hn]; exact hi)).continuousAt
  rw [coordsOf_vecOf] at h1
  exact ContinuousAt.comp_continuousWithinAt (f := x) (g := fun y : Fin j.model.nq → ℝ => (f (vecOf y)).get i) h1 (hx t ht)

theorem value_rate (he : env.quatIntegrate = quatIntegrateR) (hj : JacrevExact env) (hw : JointsWF j.model)
    (hp : PositionsKept env j.model) {t : ℝ} (hq : (update env j.model (vecOf (x t))).qpos = vecOf (x t)) (hd : Differentiated j)
    (hf : ∀ x, evalValue env j (update env j.model x) = .ok (f x)) (hn : ∀ x, (f x).len = n)
    (hm : MovesWith env j.model T x v) (ht : t ∈ Set.Ico 0 T) (hs : Smooth f (vecOf (x t)))
    (hv : ∀ k < j.model.nv, angularDof j.model k = true → (v t).get k = 0)
    {J : Mat ℝ} (hJ : evalJacobian env j (update env j.model (vecOf (x t))) = .ok J) {i : Nat} (hi : i < n) :
    HasDerivWithinAt (fun s => (f (vecOf (x s))).get i) (rowDot J i (v t).get) (Set.Ici t) t := by
  have hu := hm.unit t ht
  have h1 := C78_rate_partial (d := update env j.model (vecOf (x t))) (n := n) he hj hw hp hd (by rw [hq]; rfl) (by rw [hq]; exact hu) hJ hf hn
    (by rw [hq]; exact hs) (v t) hv hi
  rw [hq] at h1
  have hF := hj.deriv f (vecOf (x t)) hs i (by rw [hn]; exact hi)
  have hγ : HasDerivAt (fun s (k : Fin j.model.nq) => (integrate env j.model (vecOf (x t)) (v t) s).get k)
      (fun k => deriv (fun s => (integrate env j.model (vecOf (x t)) (v t) s).get k) 0) 0 := by
    rw [hasDerivAt_pi]
    intro k
    exact (C44_derivative_partial he hw hu (v t) k).differentiableAt.hasDerivAt
  have h0 : (fun k : Fin j.model.nq => (integrate env j.model (vecOf (x t)) (v t) 0).get k) = coordsOf (vecOf (x t)) := by
    funext k
    exact C71_rest he hw hu (v t) 0 (Or.inl rfl) k k.2
  have h2 := HasFDerivAt.comp_hasDerivAt_of_eq (0 : ℝ) hF hγ h0.symm
  have e : (fun s => (f (integrate env j.model (vecOf (x t)) (v t) s)).get i) =
      (fun y : Fin j.model.nq → ℝ => (f (vecOf y)).get i) ∘ fun s (k : Fin j.model.nq) => (integrate env j.model (vecOf (x t)) (v t) s).get k := by
    funext s
    show (f (integrate env j.model (vecOf (x t)) (v t) s)).get i = _
    rw [integrate_vecOf hw rfl]
    rfl
  rw [e] at h1
  have h3 := h2.unique h1
  have hx : HasDerivWithinAt x (fun k => deriv (fun s => (integrate env j.model (vecOf (x t)) (v t) s).get k) 0) (Set.Ici t) t :=
    hasDerivWithinAt_pi.2 (hm.rate t ht)
  have h4 := HasFDerivAt.comp_hasDerivWithinAt_of_eq t hF hx (coordsOf_vecOf (x t))
  exact h4.congr_deriv h3

/-- The rate at which a smooth function of the coordinates changes along a motion, from its rate under `integrate`. -/
theorem path_rate {m : MjModel ℝ} {x : ℝ → Fin m.nq → ℝ} {F : (Fin m.nq → ℝ) → ℝ} {D : ℝ} (he : env.quatIntegrate = quatIntegrateR) (hw : JointsWF m)
    (hm : MovesWith env m T x v) {t : ℝ} (ht : t ∈ Set.Ico 0 T) (hF : DifferentiableAt ℝ F (x t))
    (hD : HasDerivAt (fun s => F fun k : Fin m.nq => (integrate env m (vecOf (x t)) (v t) s).get k) D 0) :
    HasDerivWithinAt (fun s => F (x s)) D (Set.Ici t) t := by
  have hu := hm.unit t ht
  have hγ : HasDerivAt (fun s (k : Fin m.nq) => (integrate env m (vecOf (x t)) (v t) s).get k)
      (fun k => deriv (fun s => (integrate env m (vecOf (x t)) (v t) s).get k) 0) 0 := by
    rw [hasDerivAt_pi]
    intro k
    exact (C44_derivative_partial he hw hu (v t) k).differentiableAt.hasDerivAt
  have h0 : (fun k : Fin m.nq => (integrate env m (vecOf (x t)) (v t) 0).get k) = x t := by
    funext k
    exact (C71_rest he hw hu (v t) 0 (Or.inl rfl) k k.2).trans (congrFun (coordsOf_vecOf (x t)) k)
  have h2 := HasFDerivAt.comp_hasDerivAt_of_eq (0 : ℝ) hF.hasFDerivAt hγ h0.symm
  have h3 := h2.unique hD
  have hx : HasDerivWithinAt x (fun k => deriv (fun s => (integrate env m (vecOf (x t)) (v t) s).get k) 0) (Set.Ici t) t :=
    hasDerivWithinAt_pi.2 (hm.rate t ht)
  have h4 := HasFDerivAt.comp_hasDerivWithinAt_of_eq t hF.hasFDerivAt hx rfl
  exact h4.congr_deriv h3

/-- What feasibility says about one barrier of the problem. -/
theorem barrier_row {ps : ℝ → JaxProblem ℝ} (hm : FeasibleFlow env j.model ps T x v) {t : ℝ} (ht : t ∈ Set.Ico 0 T)
    (hin : ∃ name, (name, j) ∈ (ps t).comps) (hb : CompiledBarrier j) {h : Vec ℝ}
    (hv : evalValue env j (update env j.model (vecOf (x t))) = .ok h) :
    ∃ J, evalJacobian env j (update env j.model (vecOf (x t))) = .ok J ∧ J.rows = h.len ∧
      ∀ i < h.len, - (j.vectorGain.get [i] * j.gainFn (h.get i)) ≤ rowDot J i (v t).get := by
  obtain ⟨name, hmem⟩ := hin
  obtain ⟨qp, hqp, hf⟩ := hm.feasible t ht
  obtain ⟨vMin, vMax, cs, p1, p2, p3, p4⟩ := problemQP_ok hqp
  have hsz := hm.sized t ht vMin vMax cs p1 p2 p3
  rw [hm.model t ht] at hsz p4
  obtain ⟨sc, hsc, hsc'⟩ := (mapM_mem p3).1 j (List.mem_map.2 ⟨(name, j), hmem, rfl⟩)
  obtain ⟨J, v', g, w1, w2, w3, w4⟩ := solverComp_ok hsc'
  rw [hv] at w2
  cases w2
  have hsc2 : ∃ s, sc = .barrier ⟨J, h, g, j.gainFn⟩ s (Vec.zero j.model.nv) := by
    unfold wrapComp at w4
    unfold CompiledBarrier at hb
    cases hk : j.kind <;> rw [hk] at w4 hb <;> dsimp only at w4 hb
    case jointBarrier => cases w4; exact ⟨_, rfl⟩
    case positionBarrier => cases w4; exact ⟨_, rfl⟩
    case selfCollision => cases w4; exact ⟨_, rfl⟩
  obtain ⟨s, rfl⟩ := hsc2
  have hB := ((C22_barrier_rows hsz p4 (v t).get).1 hf).2.1 _ _ _ hsc
  have hsh := (hsz.comps _ hsc).1
  have hrows : J.rows = h.len := hsh.value.symm
  refine ⟨J, w1, hrows, fun i hi => ?_⟩
  have := hB i (by rw [show (Evaluated.mk J h g j.gainFn).jac = J from rfl, hrows]; exact hi)
  have hg : g.get i = j.vectorGain.get [i] := by
    unfold Arr.toVec at w3
    split at w3
    · cases w3; rfl
    · cases w3
  dsimp only at this
  rw [hg] at this
  exact this

end

/-! ### C88 -/

section
variable {env : Env ℝ} {j : JaxComp ℝ} {f : Vec ℝ → Vec ℝ} {n : Nat} {T : ℝ} {x : ℝ → Fin j.model.nq → ℝ} {v : ℝ → Vec ℝ}

/-- **C88** (position barriers): if at every moment the robot moves with a velocity that satisfies the constraints of a problem
containing a position barrier, and the value of the barrier is nonnegative at the start, it stays nonnegative.  The gain has to be
nonnegative, and `gain_fn` must not be positive on violations.  Missing: velocities with rotations of free and ball joints, where it
is false (`C88_wrong`). -/
theorem C88_safe_partial (he : env.quatIntegrate = quatIntegrateR) (hj : JacrevExact env) (hw : JointsWF j.model)
    (hp : PositionsKept env j.model) (hkq : ∀ t ∈ Set.Ico 0 T, (update env j.model (vecOf (x t))).qpos = vecOf (x t)) (hd : Differentiated j) (hb : CompiledBarrier j)
    (hf : ∀ x, evalValue env j (update env j.model x) = .ok (f x)) (hn : ∀ x, (f x).len = n)
    (hs : ∀ t ∈ Set.Icc 0 T, Smooth f (vecOf (x t))) (hgain : ∀ i < n, 0 ≤ j.vectorGain.get [i]) (hφ : ∀ y < 0, j.gainFn y ≤ 0)
    {ps : ℝ → JaxProblem ℝ} (hl : FeasibleFlow env j.model ps T x v) (hin : ∀ t ∈ Set.Ico 0 T, ∃ name, (name, j) ∈ (ps t).comps)
    (hv : ∀ t ∈ Set.Ico 0 T, ∀ k < j.model.nv, angularDof j.model k = true → (v t).get k = 0)
    (hstart : ∀ i < n, 0 ≤ (f (vecOf (x 0))).get i) :
    ∀ t ∈ Set.Icc 0 T, ∀ i < n, 0 ≤ (f (vecOf (x t))).get i := by
  intro t ht i hi
  have hrow := fun t ht => barrier_row hl ht (hin t ht) hb (hf (vecOf (x t)))
  have : Nonempty (Mat ℝ) := ⟨Mat.zero 0 0⟩
  choose! J hJ hr hrow using hrow
  exact stays_nonneg (h' := fun t => rowDot (J t) i (v t).get) (value_cont hl.cont hs hn hi)
    (fun t ht => value_rate he hj hw hp (hkq t ht) hd hf hn hl.toMovesWith ht (hs t ⟨ht.1, ht.2.le⟩) (hv t ht) (hJ t ht) hi)
    (hgain i hi) hφ (fun t ht => hrow t ht i (by rw [hn]; exact hi)) (hstart i hi) t ht

/-- **C88** (position barriers, rate): with the default `gain_fn` a barrier value shrinks at most exponentially, with its gain. -/
theorem C88_rate_partial (he : env.quatIntegrate = quatIntegrateR) (hj : JacrevExact env) (hw : JointsWF j.model)
    (hp : PositionsKept env j.model) (hkq : ∀ t ∈ Set.Ico 0 T, (update env j.model (vecOf (x t))).qpos = vecOf (x t)) (hd : Differentiated j) (hb : CompiledBarrier j)
    (hf : ∀ x, evalValue env j (update env j.model x) = .ok (f x)) (hn : ∀ x, (f x).len = n)
    (hs : ∀ t ∈ Set.Icc 0 T, Smooth f (vecOf (x t))) (hid : j.gainFn = id)
    {ps : ℝ → JaxProblem ℝ} (hl : FeasibleFlow env j.model ps T x v) (hin : ∀ t ∈ Set.Ico 0 T, ∃ name, (name, j) ∈ (ps t).comps)
    (hv : ∀ t ∈ Set.Ico 0 T, ∀ k < j.model.nv, angularDof j.model k = true → (v t).get k = 0) :
    ∀ t ∈ Set.Icc 0 T, ∀ i < n,
      Real.exp (- (j.vectorGain.get [i] * t)) * (f (vecOf (x 0))).get i ≤ (f (vecOf (x t))).get i := by
  intro t ht i hi
  have hrow := fun t ht => barrier_row hl ht (hin t ht) hb (hf (vecOf (x t)))
  have : Nonempty (Mat ℝ) := ⟨Mat.zero 0 0⟩
  choose! J hJ hr hrow using hrow
  rw [hid] at hrow
  exact decays_slowly (h' := fun t => rowDot (J t) i (v t).get) (value_cont hl.cont hs hn hi)
    (fun t ht => value_rate he hj hw hp (hkq t ht) hd hf hn hl.toMovesWith ht (hs t ⟨ht.1, ht.2.le⟩) (hv t ht) (hJ t ht) hi)
    (fun t ht => hrow t ht i (by rw [hn]; exact hi)) t ht

/-- **C88** (position and centre-of-mass tasks): if at every moment the velocity meets the task, and `gain_fn` is the default, the
error decays exponentially with the gain of its row.  Missing: velocities with rotations of free and ball joints. -/
theorem C88_task_partial (he : env.quatIntegrate = quatIntegrateR) (hj : JacrevExact env) (hw : JointsWF j.model)
    (hp : PositionsKept env j.model) (hkq : ∀ t ∈ Set.Ico 0 T, (update env j.model (vecOf (x t))).qpos = vecOf (x t)) (hd : Differentiated j)
    (hf : ∀ x, evalValue env j (update env j.model x) = .ok (f x)) (hn : ∀ x, (f x).len = n)
    (hs : ∀ t ∈ Set.Icc 0 T, Smooth f (vecOf (x t))) (hid : j.gainFn = id)
    (hl : MovesWith env j.model T x v)
    (hmeet : ∀ t ∈ Set.Ico 0 T, ∃ e, evaluate env j (update env j.model (vecOf (x t))) = .ok e ∧
      ∀ i < n, rowDot e.jac i (v t).get + gained e i = 0)
    (hv : ∀ t ∈ Set.Ico 0 T, ∀ k < j.model.nv, angularDof j.model k = true → (v t).get k = 0) :
    ∀ t ∈ Set.Icc 0 T, ∀ i < n,
      (f (vecOf (x t))).get i = Real.exp (- (j.vectorGain.get [i] * t)) * (f (vecOf (x 0))).get i := by
  intro t ht i hi
  have hrow : ∀ t ∈ Set.Ico 0 T, ∃ J, evalJacobian env j (update env j.model (vecOf (x t))) = .ok J ∧
      rowDot J i (v t).get = - (j.vectorGain.get [i] * (f (vecOf (x t))).get i) := by
    intro t ht
    obtain ⟨e, h1, h2⟩ := hmeet t ht
    obtain ⟨J, h3, h1⟩ := Except.bind_eq_ok h1
    obtain ⟨w, h4, h1⟩ := Except.bind_eq_ok h1
    obtain ⟨g, h5, h1⟩ := Except.bind_eq_ok h1
    cases h1
    rw [hf] at h4
    cases h4
    refine ⟨J, h3, ?_⟩
    have := h2 i hi
    have hg : g.get i = j.vectorGain.get [i] := by
      unfold Arr.toVec at h5
      split at h5
      · cases h5; rfl
      · cases h5
    unfold gained at this
    dsimp only at this
    rw [hg, hid] at this
    simp only [id] at this
    linarith
  have : Nonempty (Mat ℝ) := ⟨Mat.zero 0 0⟩
  choose! J hJ hrow using hrow
  exact decays (h' := fun t => rowDot (J t) i (v t).get) (value_cont hl.cont hs hn hi)
    (fun t ht => value_rate he hj hw hp (hkq t ht) hd hf hn hl ht (hs t ⟨ht.1, ht.2.le⟩) (hv t ht) (hJ t ht) hi)
    (fun t ht => hrow t ht) t ht

end

/-- A hinge or slide coordinate moves at its velocity. -/
theorem scalar_path {env : Env ℝ} {m : MjModel ℝ} (hw : JointsWF m) {T : ℝ} {x : ℝ → Fin m.nq → ℝ} {v : ℝ → Vec ℝ}
    (hl : MovesWith env m T x v) {k : Nat} (hs : k ∈ scalarJoints m) :
    ContinuousOn (fun t => (vecOf (x t)).get (qposOf m k)) (Set.Icc 0 T) ∧ ∀ t ∈ Set.Ico 0 T,
      HasDerivWithinAt (fun t => (vecOf (x t)).get (qposOf m k)) ((v t).get (dofOf m k)) (Set.Ici t) t := by
  obtain ⟨hpos, hdof, -⟩ := (integrate_scalar env hw (vecOf (x 0)) (v 0) 0).2 _ hs
  have hget : ∀ t, (vecOf (x t)).get (qposOf m k) = x t ⟨qposOf m k, hpos⟩ := fun t => dif_pos hpos
  constructor
  · simp only [hget]
    exact (continuous_apply (⟨qposOf m k, hpos⟩ : Fin m.nq)).comp_continuousOn hl.cont
  · intro t ht
    simp only [hget]
    refine (hl.rate t ht ⟨qposOf m k, hpos⟩).congr_deriv ?_
    have e : (fun s => (integrate env m (vecOf (x t)) (v t) s).get (qposOf m k)) =
        fun s => (vecOf (x t)).get (qposOf m k) + s * (v t).get (dofOf m k) := by
      funext s
      exact ((integrate_scalar env hw (vecOf (x t)) (v t) s).2 _ hs).2.2
    show deriv (fun s => (integrate env m (vecOf (x t)) (v t) s).get (qposOf m k)) 0 = _
    rw [e]
    have := ((hasDerivAt_id (0 : ℝ)).mul_const ((v t).get (dofOf m k))).const_add ((vecOf (x t)).get (qposOf m k))
    rw [one_mul] at this
    exact this.deriv

/-- **C88** (joint limits): whatever was set and however often the model was replaced, if at every moment the robot moves with a
velocity that satisfies the constraints of a problem containing the joint barrier, joints that start within their limits stay there.
No bound on the gain is needed, unlike with time steps (C29). -/
theorem C88_joint_limits {a : BarrierArgs ℝ} {lo0 hi0 : Option (Arr ℝ)} {fm : Option (List Int)}
    {c0 c : Comp ℝ} {j : JaxComp ℝ} {lo hi : Arr ℝ}
    (h0 : newJointBarrier a lo0 hi0 fm = .ok c0) (hr : CleanRun c0 c) (hj : (jaxComponent c).1 = .ok j)
    (hw : JointsWF j.model) (hlo : qMin c = some lo) (hhi : qMax c = some hi)
    (flo : FitsVec lo (selectedJoints j.model fm).length)
    (fhi : FitsVec hi (selectedJoints j.model fm).length)
    {env : Env ℝ} (hk : KeepsScalars env j.model) (hφ : ∀ y < 0, j.gainFn y ≤ 0)
    (hgain : ∀ r < 2 * (selectedJoints j.model fm).length, 0 ≤ j.vectorGain.get [r])
    {T : ℝ} {x : ℝ → Fin j.model.nq → ℝ} {v : ℝ → Vec ℝ} {ps : ℝ → JaxProblem ℝ} (hl : FeasibleFlow env j.model ps T x v)
    (hin : ∀ t ∈ Set.Ico 0 T, ∃ name, (name, j) ∈ (ps t).comps)
    (hstart : ∀ i (h : i < (selectedJoints j.model fm).length),
      entry lo i ≤ (vecOf (x 0)).get (qposOf j.model (selectedJoints j.model fm)[i]) ∧
      (vecOf (x 0)).get (qposOf j.model (selectedJoints j.model fm)[i]) ≤ entry hi i) :
    ∀ t ∈ Set.Icc 0 T, ∀ i (h : i < (selectedJoints j.model fm).length),
      entry lo i ≤ (vecOf (x t)).get (qposOf j.model (selectedJoints j.model fm)[i]) ∧
      (vecOf (x t)).get (qposOf j.model (selectedJoints j.model fm)[i]) ≤ entry hi i := by
  obtain ⟨s, lo', hi', hc, qi, hkind⟩ := jointBarrier_compiled h0 hr hj hw
  have e1 : lo' = lo := by simpa [qMin, hkind] using hlo
  have e2 : hi' = hi := by simpa [qMax, hkind] using hhi
  subst e1 e2
  intro t ht i hi
  have hs := mem_selectedJoints (List.getElem_mem hi)
  obtain ⟨hpos, hdof, -⟩ := (integrate_scalar env hw (vecOf (x 0)) (v 0) 0).2 _ hs
  set a := qposOf j.model (selectedJoints j.model fm)[i] with ha
  set b := dofOf j.model (selectedJoints j.model fm)[i] with hb
  obtain ⟨hcont, hrate⟩ := scalar_path hw hl.toMovesWith hs
  have hbar : CompiledBarrier j := by unfold CompiledBarrier; rw [hc.kind]; trivial
  have hrow : ∀ t ∈ Set.Ico 0 T,
      - (j.vectorGain.get [i] * j.gainFn ((vecOf (x t)).get a - entry lo' i)) ≤ (v t).get b ∧
      - (j.vectorGain.get [(selectedJoints j.model fm).length + i] * j.gainFn (entry hi' i - (vecOf (x t)).get a)) ≤ - (v t).get b := by
    intro t ht
    obtain ⟨h, J', x1, x2, x3, x4, x5, x6⟩ := jointBarrier_eval hc hw flo fhi env
      (update env j.model (vecOf (x t))) (hk _ rfl).1
    obtain ⟨J, w1, w2, w3⟩ := barrier_row hl ht (hin t ht) hbar x1
    rw [w1] at x2; cases x2
    obtain ⟨y1, y2, y3, y4⟩ := x6 i hi
    have b1 := w3 i (by rw [x3]; omega)
    have b2 := w3 ((selectedJoints j.model fm).length + i) (by rw [x3]; omega)
    rw [rowDot_unit (by rw [x5]; exact hdof) y3] at b1
    have hneg : rowDot J' ((selectedJoints j.model fm).length + i) (v t).get = - (v t).get b := by
      have := rowDot_unit (S := J'.neg) (i := (selectedJoints j.model fm).length + i)
        (c := b) (by simp only [Mat.neg, x5]; exact hdof)
        (by intro k; simp only [Mat.neg, y4 k]; split <;> simp) (v t).get
      rw [rowDot_neg] at this
      rw [← this]; ring
    rw [hneg] at b2
    rw [y1, (hk _ rfl).2 _ hs] at b1
    rw [y2, (hk _ rfl).2 _ hs] at b2
    exact ⟨b1, b2⟩
  constructor
  · have := stays_nonneg (h := fun t => (vecOf (x t)).get a - entry lo' i) (h' := fun t => (v t).get b) (φ := j.gainFn)
      (hcont.sub continuousOn_const) (fun t ht => (hrate t ht).sub_const _) (hgain i (by omega)) hφ (fun t ht => (hrow t ht).1)
      (sub_nonneg.2 (hstart i hi).1) t ht
    linarith
  · have := stays_nonneg (h := fun t => entry hi' i - (vecOf (x t)).get a) (h' := fun t => - (v t).get b) (φ := j.gainFn)
      (continuousOn_const.sub hcont) (fun t ht => (hrate t ht).const_sub _) (hgain _ (by omega)) hφ (fun t ht => (hrow t ht).2)
      (sub_nonneg.2 (hstart i hi).2) t ht
    linarith

/-- **C88** (joint tasks): if at every moment the velocity meets the task and `gain_fn` is the default, the error of every selected
joint decays exponentially with its gain. -/
theorem C88_joint_task {a : TaskArgs ℝ} {fm : Option (List Int)} {c0 c : Comp ℝ} {j : JaxComp ℝ}
    {tq : Arr ℝ} (h0 : newJointTask a fm = .ok c0) (hr : CleanRun c0 c) (hj : (jaxComponent c).1 = .ok j)
    (hw : JointsWF j.model) (ht : targetQ c = some tq) (hnd : tq.ndim ≤ 1) {env : Env ℝ}
    (hk : KeepsScalars env j.model) (hid : j.gainFn = id) {T : ℝ} {x : ℝ → Fin j.model.nq → ℝ} {v : ℝ → Vec ℝ}
    (hl : MovesWith env j.model T x v)
    (hmeet : ∀ t ∈ Set.Ico 0 T, ∀ e, evaluate env j (update env j.model (vecOf (x t))) = .ok e →
      ∀ i < e.jac.rows, rowDot e.jac i (v t).get + gained e i = 0) :
    ∀ t ∈ Set.Icc 0 T, ∀ i (h : i < (selectedJoints j.model fm).length),
      (vecOf (x t)).get (qposOf j.model (selectedJoints j.model fm)[i]) - entry tq i =
        Real.exp (- (j.vectorGain.get [i] * t)) *
          ((vecOf (x 0)).get (qposOf j.model (selectedJoints j.model fm)[i]) - entry tq i) := by
  obtain ⟨w, lm, tq', hc, t, qi, hkind, -, -⟩ := jointTask_compiled h0 hr hj hw
  have e1 : tq' = tq := by simpa [targetQ, hkind] using ht
  subst e1
  intro t ht i hi
  have hs := mem_selectedJoints (List.getElem_mem hi)
  obtain ⟨-, hdof, -⟩ := (integrate_scalar env hw (vecOf (x 0)) (v 0) 0).2 _ hs
  obtain ⟨hcont, hrate⟩ := scalar_path hw hl hs
  refine decays (h := fun t => (vecOf (x t)).get (qposOf j.model (selectedJoints j.model fm)[i]) - entry tq' i)
    (h' := fun t => (v t).get (dofOf j.model (selectedJoints j.model fm)[i]))
    (hcont.sub continuousOn_const) (fun t ht => (hrate t ht).sub_const _) (fun t ht => ?_) t ht
  obtain ⟨e, J, x1, x2, x3, x4, x5, x6⟩ := jointTask_eval hc hw hnd env _ (hk (vecOf (x t)) rfl).1
  have hev : evaluate env j (update env j.model (vecOf (x t))) =
      .ok ⟨J, e, ⟨(selectedJoints j.model fm).length, fun i => j.vectorGain.get [i]⟩, j.gainFn⟩ := by
    unfold evaluate
    simp only [bind, Except.bind, x1, x2, toVec_of_shape hc.gain, pure, Except.pure]
  have := hmeet t ht _ hev i (by show i < J.rows; rw [x4]; exact hi)
  obtain ⟨y1, y2⟩ := x6 i hi
  unfold gained at this
  dsimp only at this
  rw [rowDot_unit (by rw [x5]; exact hdof) y2, hid, y1, (hk _ rfl).2 _ hs] at this
  simp only [id] at this
  linarith

/-! ### Concrete motions -/

/-- A problem with a single barrier: its constraints are the velocity limits and the rows of the barrier. -/
theorem single_barrier {env : Env ℝ} {j : JaxComp ℝ} {d : MjData ℝ} {J : Mat ℝ} {h : Vec ℝ} (hb : CompiledBarrier j)
    (hJ : evalJacobian env j d = .ok J) (hh : evalValue env j d = .ok h) (hg : j.vectorGain.shape = [h.len])
    (hr : J.rows = h.len) (hc : J.cols = j.model.nv) (hnz : ¬ ZeroMat J) {v : Nat → ℝ} {B : ℝ}
    (hv : ∀ i < j.model.nv, - B ≤ v i ∧ v i ≤ B)
    (hrow : ∀ i < h.len, - (j.vectorGain.get [i] * j.gainFn (h.get i)) ≤ rowDot J i v) :
    WellSized env ⟨j.model, ⟨[j.model.nv], fun _ => -B⟩, ⟨[j.model.nv], fun _ => B⟩, [("b", j)]⟩ d ∧
    ∃ qp, problemQP env j.model ⟨j.model, ⟨[j.model.nv], fun _ => -B⟩, ⟨[j.model.nv], fun _ => B⟩, [("b", j)]⟩ d = .ok qp ∧
      Feasible qp v := by
  have hsc : ∃ s, solverComp env d j = .ok (.barrier ⟨J, h, ⟨h.len, fun i => j.vectorGain.get [i]⟩, j.gainFn⟩ s (Vec.zero j.model.nv)) := by
    unfold solverComp evaluate
    simp only [bind, Except.bind, hJ, hh, toVec_of_shape hg, pure, Except.pure]
    unfold wrapComp
    unfold CompiledBarrier at hb
    cases hk : j.kind <;> rw [hk] at hb <;> dsimp only at hb
    case jointBarrier => exact ⟨_, rfl⟩
    case positionBarrier => exact ⟨_, rfl⟩
    case selfCollision => exact ⟨_, rfl⟩
  obtain ⟨s, hsc⟩ := hsc
  have hmap : ([("b", j)].map Prod.snd).mapM (solverComp env d) = .ok [_] := CEx.mapM_one hsc
  have hsh : ProblemShaped j.model.nv ⟨j.model.nv, fun _ => -B⟩ ⟨j.model.nv, fun _ => B⟩
      [SolverComp.barrier ⟨J, h, ⟨h.len, fun i => j.vectorGain.get [i]⟩, j.gainFn⟩ s (Vec.zero j.model.nv)] := by
    refine ⟨rfl, rfl, fun c hc' => ?_⟩
    obtain rfl := List.mem_singleton.1 hc'
    exact ⟨⟨hc, hr.symm, hr.symm⟩, rfl⟩
  refine ⟨?_, ?_⟩
  · intro vMin vMax cs h1 h2 h3
    cases h1
    cases h2
    have h3' : ([("b", j)].map Prod.snd).mapM (solverComp env d) = .ok cs := h3
    rw [hmap] at h3'
    cases h3'
    exact hsh
  · obtain ⟨qp, hqp⟩ := (C31_finite_partial hsh).1.2 (fun e g x hm => by
      cases List.mem_singleton.1 hm
      exact hnz)
    refine ⟨qp, ?_, ?_⟩
    · unfold problemQP
      simp only [bind, Except.bind, hmap]
      exact hqp
    · refine (C22_barrier_rows hsh hqp v).2 ⟨fun i hi => ?_, ?_, ?_⟩
      · dsimp only
        rw [neg_neg]
        exact hv i hi
      · intro e g x hm i hi
        cases List.mem_singleton.1 hm
        exact hrow i (by rw [← hr]; exact hi)
      · intro e a W hm
        cases List.mem_singleton.1 hm

/-- A barrier with a lower limit for the coordinates of a body selected by the mask, compiled for a model. -/
noncomputable def lowerLimit (m : MjModel ℝ) (body : String) (mask : List Int) (c : ℝ) : Option (JaxComp ℝ) :=
  match newPositionBarrier (K := ℝ) { name := "b", gain := Arr.scalar 1, sdg := 1 } body .body (some ⟨[1], fun _ => c⟩) none "min"
    (some (Arr.ofList mask)) with
  | .error _ => none
  | .ok c => (jaxComponent (updateModel m c).2).1.toOption

namespace Crane

theorem model_wf : JointsWF model := ⟨by repeat' constructor, rfl⟩
theorem kept : PositionsKept env model := ⟨fun _ => rfl, fun _ => rfl, fun _ => rfl, fun _ => rfl⟩
theorem unit (q : Vec ℝ) : UnitQuats model q := by
  intro k adr h
  match k with
  | 0 => cases h
  | 1 => cases h
  | k + 2 =>
    have e : (model.jntType.getD (k + 2) .hinge) = .hinge := rfl
    rw [e] at h
    cases h
theorem noAngular : ∀ k < model.nv, angularDof model k = true → False := by
  have : ∀ k < 2, angularDof model k = false := by decide
  intro k hk h
  rw [this k hk] at h
  cases h

/-- The trolley slows down towards the origin, the arm is straight. -/
noncomputable def path (t : ℝ) : Fin 2 → ℝ := ![Real.exp (-t), 0]
noncomputable def vel (t : ℝ) : Vec ℝ := ⟨2, fun k => if k = 0 then - Real.exp (-t) else 0⟩

theorem moves (T : ℝ) : MovesWith env model T path vel where
  cont := by
    refine Continuous.continuousOn (continuous_pi fun (k : Fin 2) => ?_)
    match k with
    | 0 => exact Real.continuous_exp.comp continuous_neg
    | 1 => exact continuous_const
  unit := fun t _ => unit _
  rate := by
    rintro t _ ⟨k, hk⟩
    match k, hk with
    | 0, _ =>
      have e : (fun s => (integrate env model (vecOf (path t)) (vel t) s).get 0) = fun s => Real.exp (-t) + s * - Real.exp (-t) := rfl
      show HasDerivWithinAt (fun s => Real.exp (-s)) (deriv (fun s => (integrate env model (vecOf (path t)) (vel t) s).get 0) 0) _ _
      rw [e]
      have h1 := ((hasDerivAt_id (0 : ℝ)).mul_const (- Real.exp (-t))).const_add (Real.exp (-t))
      have h2 := ((hasDerivAt_id t).neg).exp
      rw [show deriv (fun s => Real.exp (-t) + s * - Real.exp (-t)) 0 = 1 * - Real.exp (-t) from h1.deriv]
      refine h2.hasDerivWithinAt.congr_deriv ?_
      show Real.exp (-t) * -1 = _
      ring
    | 1, _ =>
      have e : (fun s => (integrate env model (vecOf (path t)) (vel t) s).get 1) = fun s => (0 : ℝ) + s * 0 := rfl
      show HasDerivWithinAt (fun _ => (0 : ℝ)) (deriv (fun s => (integrate env model (vecOf (path t)) (vel t) s).get 1) 0) _ _
      rw [e]
      simp only [mul_zero, add_zero, deriv_const]
      exact hasDerivWithinAt_const _ _ _

/-- The tip must not come closer than 2. -/
noncomputable def barrier : JaxComp ℝ := (lowerLimit model "arm" [1, 0, 0] 2).getD task
theorem barrier_made : lowerLimit model "arm" [1, 0, 0] 2 = some barrier := rfl

noncomputable def height (q : Vec ℝ) : Vec ℝ := ⟨1, fun _ => tip q 0 - 2⟩
theorem height_eq (q : Vec ℝ) : ∃ r, evalValue env barrier (update env model q) = .ok r ∧ r.len = 1 ∧ ∀ i, r.get i = tip q 0 - 2 :=
  ⟨_, rfl, rfl, fun i => by cases i <;> rfl⟩
theorem value_height (q : Vec ℝ) : evalValue env barrier (update env model q) = .ok (height q) := by
  obtain ⟨⟨n, g⟩, h1, h2, h3⟩ := height_eq q
  rw [h1]
  obtain rfl : n = 1 := h2
  rw [show g = fun _ => tip q 0 - 2 from funext h3]
  rfl

theorem smooth_height (x : Fin 2 → ℝ) : Smooth height (vecOf x) := by
  intro i _
  have h0 : DifferentiableAt ℝ (fun x : Fin 2 → ℝ => x 0) (coordsOf (vecOf x)) := differentiableAt_apply _ _
  have h1 : DifferentiableAt ℝ (fun x : Fin 2 → ℝ => x 1) (coordsOf (vecOf x)) := differentiableAt_apply _ _
  exact (h0.add (h1.cos.const_mul 2)).sub_const 2

theorem height_rate (t : ℝ) : ∃ J, evalJacobian env barrier (update env model (vecOf (path t))) = .ok J ∧ J.rows = 1 ∧ J.cols = 2 ∧
    rowDot J 0 (vel t).get = - Real.exp (-t) := by
  refine ⟨_, rfl, rfl, rfl, ?_⟩
  have h1 := C78_rate_partial (env := env) (j := barrier) (d := update env model (vecOf (path t))) (n := 1) rfl (jacrevR_exact rfl) model_wf
    kept trivial rfl (unit _) rfl value_height (fun _ => rfl) (smooth_height _) (vel t) (fun k hk h => (noAngular k hk h).elim)
    (i := 0) (by norm_num)
  have h2 : HasDerivAt (fun s : ℝ => Real.exp (-t) + s * - Real.exp (-t) + 2 * Real.cos (0 + s * 0) - 2) (1 * - Real.exp (-t)) 0 := by
    simp only [mul_zero, add_zero, Real.cos_zero]
    exact ((((hasDerivAt_id (0 : ℝ)).mul_const (- Real.exp (-t))).const_add (Real.exp (-t))).add_const _).sub_const _
  have h3 := h1.unique h2
  rw [one_mul] at h3
  exact h3

/-- The problem with that barrier and speed limit 1. -/
noncomputable def prob : JaxProblem ℝ := ⟨model, ⟨[2], fun _ => -1⟩, ⟨[2], fun _ => 1⟩, [("b", barrier)]⟩

theorem flow (T : ℝ) : FeasibleFlow env model (fun _ => prob) T path vel := by
  have key : ∀ t ∈ Set.Ico 0 T, WellSized env prob (update env model (vecOf (path t))) ∧
      ∃ qp, problemQP env model prob (update env model (vecOf (path t))) = .ok qp ∧ Feasible qp (vel t).get := by
    intro t ht
    obtain ⟨J, h1, h2, h3, h4⟩ := height_rate t
    have hpos := Real.exp_pos (-t)
    have hle : Real.exp (-t) ≤ 1 := Real.exp_le_one_iff.2 (by have := ht.1; linarith)
    refine single_barrier (j := barrier) trivial h1 (value_height _) rfl h2 h3 ?_ ?_ ?_
    · intro hz
      have : rowDot J 0 (vel t).get = 0 := by
        unfold rowDot
        exact sum_eq_zero fun k hk => by rw [hz 0 (by omega) k (mem_range.1 hk), zero_mul]
      linarith
    · intro i _
      show -1 ≤ (if i = 0 then - Real.exp (-t) else 0) ∧ (if i = 0 then - Real.exp (-t) else 0) ≤ 1
      split <;> constructor <;> linarith
    · intro i hi
      obtain rfl : i = 0 := by have : i < 1 := hi; omega
      rw [h4]
      show - ((1 : ℝ) * 1 * (Real.exp (-t) + 2 * Real.cos 0 - 2)) ≤ _
      rw [Real.cos_zero]
      linarith
  exact ⟨moves T, fun _ _ => rfl, fun t ht => (key t ht).1, fun t ht => (key t ht).2⟩

/-- All hypotheses of `C88_safe_partial` hold for this motion. -/
example (T : ℝ) : ∀ t ∈ Set.Icc 0 T, ∀ i < 1, 0 ≤ (height (vecOf (path t))).get i :=
  C88_safe_partial (j := barrier) rfl (jacrevR_exact rfl) model_wf kept (fun _ _ => rfl) trivial trivial value_height (fun _ => rfl)
    (fun _ _ => smooth_height _)
    (fun i hi => by obtain rfl : i = 0 := by omega
                    show (0 : ℝ) ≤ 1 * 1
                    norm_num)
    (fun y hy => hy.le) (flow T) (fun _ _ => ⟨"b", List.mem_singleton.2 rfl⟩) (fun _ _ k hk h => (noAngular k hk h).elim)
    (fun i _ => by
      show (0 : ℝ) ≤ Real.exp (-0) + 2 * Real.cos 0 - 2
      rw [neg_zero, Real.exp_zero, Real.cos_zero]; norm_num)

/-- So do those of `C88_rate_partial`. -/
example (T : ℝ) : ∀ t ∈ Set.Icc 0 T, ∀ i < 1,
    Real.exp (- (barrier.vectorGain.get [i] * t)) * (height (vecOf (path 0))).get i ≤ (height (vecOf (path t))).get i :=
  C88_rate_partial (j := barrier) rfl (jacrevR_exact rfl) model_wf kept (fun _ _ => rfl) trivial trivial value_height (fun _ => rfl)
    (fun _ _ => smooth_height _) rfl (flow T) (fun _ _ => ⟨"b", List.mem_singleton.2 rfl⟩) (fun _ _ k hk h => (noAngular k hk h).elim)

/-- A position task for the first coordinate of the tip with target 2. -/
noncomputable def taskArgs : TaskArgs ℝ :=
  { name := "t", cost := Arr.scalar 1, gain := Arr.scalar 1, lm := 0, mask := some (Arr.ofList [1, 0, 0]) }
theorem task_ok (cost : Arr ℝ) (h : ¬ cost.ndim > 2) : initTaskA cost 0 = .ok { cost, lmDamping := 0 } := by
  unfold initTaskA
  rw [if_neg (lt_irrefl _), if_neg h]
noncomputable def posTask0 : Comp ℝ :=
  Comp.fresh {
    name := "t", model := none, gain := Arr.scalar 1, gainFn := id, dim := 1, mask := some [1, 0, 0], maskIdxs := [0],
    kind := .positionTask { cost := Arr.scalar 1, lmDamping := 0 } ⟨"arm", .body, -1⟩ (Arr.zeros 1) }
noncomputable def posTask : JaxComp ℝ :=
  ((jaxComponent (updateTarget ⟨[1], fun _ => 2⟩ (updateModel model posTask0).2).2).1.toOption).getD task
theorem posTask_made : newPositionTask taskArgs "arm" .body = .ok posTask0 ∧ CleanRun posTask0 (updateTarget ⟨[1], fun _ => 2⟩ (updateModel model posTask0).2).2 ∧
    (jaxComponent (updateTarget ⟨[1], fun _ => 2⟩ (updateModel model posTask0).2).2).1 = .ok posTask := by
  refine ⟨?_, .step (.updateTarget ⟨[1], fun _ => 2⟩) (.step (.updateModel model) .refl (fun m h => ?_)) (fun m h => ?_), rfl⟩
  · unfold newPositionTask
    rw [show taskArgs.cost = Arr.scalar 1 from rfl, show taskArgs.lm = 0 from rfl, task_ok _ (by decide)]
    rfl
  · rfl
  · cases h

theorem value_posTask (q : Vec ℝ) : evalValue env posTask (update env model q) = .ok (height q) := by
  obtain ⟨⟨n, g⟩, h1, h2, h3⟩ : ∃ r, evalValue env posTask (update env model q) = .ok r ∧ r.len = 1 ∧ ∀ i, r.get i = tip q 0 - 2 :=
    ⟨_, rfl, rfl, fun i => by cases i <;> rfl⟩
  rw [h1]
  obtain rfl : n = 1 := h2
  rw [show g = fun _ => tip q 0 - 2 from funext h3]
  rfl

/-- All hypotheses of `C88_task_partial` hold for this motion. -/
example (T : ℝ) : ∀ t ∈ Set.Icc 0 T, ∀ i < 1,
    (height (vecOf (path t))).get i = Real.exp (- (posTask.vectorGain.get [i] * t)) * (height (vecOf (path 0))).get i := by
  refine C88_task_partial (j := posTask) rfl (jacrevR_exact rfl) model_wf kept (fun _ _ => rfl) trivial value_posTask (fun _ => rfl)
    (fun _ _ => smooth_height _) rfl (moves T) (fun t _ => ⟨_, rfl, fun i hi => ?_⟩) (fun _ _ k hk h => (noAngular k hk h).elim)
  obtain rfl : i = 0 := by omega
  obtain ⟨J, h1, -, -, h4⟩ := height_rate t
  cases h1
  have h5 := C78_rate_partial (env := env) (j := posTask) (d := update env model (vecOf (path t))) (n := 1) rfl (jacrevR_exact rfl) model_wf
    kept trivial rfl (unit _) rfl value_posTask (fun _ => rfl) (smooth_height _) (vel t) (fun k hk h => (noAngular k hk h).elim)
    (i := 0) (by norm_num)
  have h6 := C78_rate_partial (env := env) (j := barrier) (d := update env model (vecOf (path t))) (n := 1) rfl (jacrevR_exact rfl) model_wf
    kept trivial rfl (unit _) rfl value_height (fun _ => rfl) (smooth_height _) (vel t) (fun k hk h => (noAngular k hk h).elim)
    (i := 0) (by norm_num)
  have h7 := h5.unique h6
  refine Eq.trans (congrArg (· + _) (h7.trans h4)) ?_
  show - Real.exp (-t) + (1 : ℝ) * 1 * (Real.exp (-t) + 2 * Real.cos 0 - 2) = 0
  rw [Real.cos_zero]
  ring

theorem keepsScalars : KeepsScalars env model := fun _ h => ⟨h, fun _ _ => rfl⟩

noncomputable def jointTask0 : Comp ℝ :=
  Comp.fresh {
    name := "t", model := none, gain := Arr.scalar 1, gainFn := id, dim := -1, mask := none, maskIdxs := [],
    kind := .jointTask { cost := Arr.scalar 1, lmDamping := 0 } none none none }

/-- All hypotheses of `C88_joint_task` hold for this motion and the task of moving both joints to zero. -/
example (T : ℝ) : ∃ c0 c j tq, newJointTask (K := ℝ) { name := "t", cost := Arr.scalar 1, gain := Arr.scalar 1, lm := 0 } none = .ok c0 ∧
    CleanRun c0 c ∧ (jaxComponent c).1 = .ok j ∧ j.model = model ∧ targetQ c = some tq ∧ tq.ndim ≤ 1 ∧ j.gainFn = id ∧
    ∀ t ∈ Set.Ico 0 T, ∀ e, evaluate env j (update env model (vecOf (path t))) = .ok e →
      ∀ i < e.jac.rows, rowDot e.jac i (vel t).get + gained e i = 0 := by
  refine ⟨jointTask0, (updateModel model jointTask0).2, _, _, ?_, .step (.updateModel model) .refl (fun m h => ?_), rfl, rfl, rfl, by decide, rfl, fun t _ e he i hi => ?_⟩
  · unfold newJointTask
    rw [task_ok _ (by decide)]
    rfl
  · rfl
  · cases he
    have hi : i < 2 := hi
    unfold rowDot
    obtain rfl | rfl : i = 0 ∨ i = 1 := by omega
    · show ∑ k ∈ range 2, (if k = 0 then (1 : ℝ) else 0) * (if k = 0 then - Real.exp (-t) else 0) + (1 : ℝ) * 1 * (Real.exp (-t) - 0) = 0
      simp
    · show ∑ k ∈ range 2, (if k = 1 then (1 : ℝ) else 0) * (if k = 0 then - Real.exp (-t) else 0) + (1 : ℝ) * 1 * ((0 : ℝ) - 0) = 0
      simp

/-- Limits of the joint ranges. -/
noncomputable def joints0 : Comp ℝ :=
  ((newJointBarrier (K := ℝ) { name := "b", gain := Arr.scalar 1, sdg := 1 } none none none).toOption).getD posTask0
noncomputable def joints : JaxComp ℝ := ((jaxComponent (updateModel model joints0).2).1.toOption).getD task

theorem joints_flow (T : ℝ) : FeasibleFlow env model
    (fun _ => ⟨model, ⟨[2], fun _ => -1⟩, ⟨[2], fun _ => 1⟩, [("b", joints)]⟩) T path vel := by
  have key : ∀ t ∈ Set.Ico 0 T,
      WellSized env ⟨model, ⟨[2], fun _ => -1⟩, ⟨[2], fun _ => 1⟩, [("b", joints)]⟩ (update env model (vecOf (path t))) ∧
      ∃ qp, problemQP env model ⟨model, ⟨[2], fun _ => -1⟩, ⟨[2], fun _ => 1⟩, [("b", joints)]⟩ (update env model (vecOf (path t))) = .ok qp ∧
        Feasible qp (vel t).get := by
    intro t ht
    have hpos := Real.exp_pos (-t)
    have hle : Real.exp (-t) ≤ 1 := Real.exp_le_one_iff.2 (by have := ht.1; linarith)
    refine single_barrier (j := joints) trivial rfl rfl rfl rfl rfl ?_ ?_ ?_
    · intro hz
      have : (1 : ℝ) = 0 := hz 0 (by decide) 0 (by decide)
      norm_num at this
    · intro i _
      show -1 ≤ (if i = 0 then - Real.exp (-t) else 0) ∧ (if i = 0 then - Real.exp (-t) else 0) ≤ 1
      split <;> constructor <;> linarith
    · intro i hi
      have hi : i < 4 := hi
      unfold rowDot
      obtain rfl | rfl | rfl | rfl : i = 0 ∨ i = 1 ∨ i = 2 ∨ i = 3 := by omega
      · show - ((1 : ℝ) * 1 * (Real.exp (-t) - -1)) ≤ ∑ k ∈ range 2, (if k = 0 then (1 : ℝ) else 0) * (if k = 0 then - Real.exp (-t) else 0)
        simp
      · show - ((1 : ℝ) * 1 * (0 - -3)) ≤ ∑ k ∈ range 2, (if k = 1 then (1 : ℝ) else 0) * (if k = 0 then - Real.exp (-t) else 0)
        simp
      · show - ((1 : ℝ) * 1 * (1 - Real.exp (-t))) ≤ ∑ k ∈ range 2, - (if k = 0 then (1 : ℝ) else 0) * (if k = 0 then - Real.exp (-t) else 0)
        simp
      · show - ((1 : ℝ) * 1 * (3 - 0)) ≤ ∑ k ∈ range 2, - (if k = 1 then (1 : ℝ) else 0) * (if k = 0 then - Real.exp (-t) else 0)
        simp
  exact ⟨moves T, fun _ _ => rfl, fun t ht => (key t ht).1, fun t ht => (key t ht).2⟩

/-- All hypotheses of `C88_joint_limits` hold for this motion. -/
example (T : ℝ) : ∃ lo hi, qMin (updateModel model joints0).2 = some lo ∧ qMax (updateModel model joints0).2 = some hi ∧
    ∀ t ∈ Set.Icc 0 T, ∀ i (h : i < (selectedJoints model none).length),
      entry lo i ≤ (vecOf (path t)).get (qposOf model (selectedJoints model none)[i]) ∧
      (vecOf (path t)).get (qposOf model (selectedJoints model none)[i]) ≤ entry hi i := by
  refine ⟨_, _, rfl, rfl, ?_⟩
  refine C88_joint_limits (a := { name := "b", gain := Arr.scalar 1, sdg := 1 }) (lo0 := none) (hi0 := none) (c0 := joints0) (j := joints) rfl (.step (.updateModel model) .refl (fun m h => ?_)) rfl model_wf rfl rfl
    (.inr (.inr rfl)) (.inr (.inr rfl)) keepsScalars (fun y hy => hy.le) ?_ (joints_flow T) (fun _ _ => ⟨"b", List.mem_singleton.2 rfl⟩) ?_
  · rfl
  · intro r _
    show (0 : ℝ) ≤ 1 * 1
    norm_num
  · intro i hi
    have hi : i < 2 := hi
    obtain rfl | rfl : i = 0 ∨ i = 1 := by omega
    · show (-1 : ℝ) ≤ Real.exp (-0) ∧ Real.exp (-0) ≤ 1
      rw [neg_zero, Real.exp_zero]
      norm_num
    · show (-3 : ℝ) ≤ 0 ∧ (0 : ℝ) ≤ 3
      norm_num

end Crane

/-! ### A boom: a trolley on a slide that carries a rod of length 1 on a ball joint -/

namespace Boom
open scoped Quaternion

noncomputable def arm (q : Vec ℝ) : V3 ℝ := (Quaternion.normSq (quatAt q.get 1))⁻¹ • rotate (quatAt q.get 1) ![1, 0, 0]
noncomputable def tip (q : Vec ℝ) : V3 ℝ := ![arm q 0, q.get 0 + arm q 1, arm q 2]

noncomputable def env : Env ℝ := { Rod.env 0 with kinematics := fun _ q => { Rod.data 0 q with xpos := [0, tip q] } }

noncomputable def model : MjModel ℝ :=
  { (MjModel.empty : MjModel ℝ) with
    nq := 5, nv := 4, nbody := 2, jntType := [.slide, .ball], jntQposadr := [0, 1], jntDofadr := [0, 1], jntRange := [(-1, 1), (0, 0)],
    bodyParentid := [0, 0], bodyRootid := [0, 1], bodyWeldid := [0, 1], dofBodyid := [1, 1, 1, 1], bodyMass := [0, 1],
    bodyNames := ["world", "arm"] }

theorem model_wf : JointsWF model := ⟨by repeat' constructor, rfl⟩
theorem kept : PositionsKept env model := ⟨fun _ => rfl, fun _ => rfl, fun _ => rfl, fun _ => rfl⟩

/-- The tip must not go below zero in the direction of the slide. -/
noncomputable def barrier : JaxComp ℝ := (lowerLimit model "arm" [0, 1, 0] 0).getD Crane.barrier
theorem barrier_made : lowerLimit model "arm" [0, 1, 0] 0 = some barrier := rfl

noncomputable def height (q : Vec ℝ) : Vec ℝ := ⟨1, fun _ => tip q 1 - 0⟩
theorem value_height (q : Vec ℝ) : evalValue env barrier (update env model q) = .ok (height q) := by
  obtain ⟨⟨n, g⟩, h1, h2, h3⟩ : ∃ r, evalValue env barrier (update env model q) = .ok r ∧ r.len = 1 ∧ ∀ i, r.get i = tip q 1 - 0 :=
    ⟨_, rfl, rfl, fun i => by cases i <;> rfl⟩
  rw [h1]
  obtain rfl : n = 1 := h2
  rw [show g = fun _ => tip q 1 - 0 from funext h3]
  rfl

/-- The trolley moves back while the rod turns about the vertical axis. -/
noncomputable def path (t : ℝ) : Fin 5 → ℝ := ![- (3 / 2 * Real.sin t), Real.cos (t / 2), 0, 0, Real.sin (t / 2)]
noncomputable def vel (t : ℝ) : Vec ℝ := ⟨4, fun k => if k = 0 then - (3 / 2 * Real.cos t) else if k = 3 then 1 else 0⟩

theorem unit (t : ℝ) : UnitQuats model (vecOf (path t)) := by
  intro k adr h
  match k with
  | 0 => cases h
  | 1 =>
    cases h
    rw [Quaternion.normSq_def']
    show Real.cos (t / 2) ^ 2 + 0 ^ 2 + 0 ^ 2 + Real.sin (t / 2) ^ 2 = 1
    have := Real.sin_sq_add_cos_sq (t / 2)
    linarith
  | k + 2 =>
    have e : (model.jntType.getD (k + 2) .hinge) = .hinge := rfl
    rw [e] at h
    cases h

/-- Turning by `w` about the vertical axis from the configuration at time `t`. -/
theorem quat_turn (t w s : ℝ) (v : Vec ℝ) (h1 : v.get 1 = 0) (h2 : v.get 2 = 0) (h3 : v.get 3 = w) (hw : 0 < w) :
    quatAt (integrate env model (vecOf (path t)) v s).get 1 = ⟨Real.cos (t / 2 + s * w / 2), 0, 0, Real.sin (t / 2 + s * w / 2)⟩ := by
  have hq : quatAt (integrate env model (vecOf (path t)) v s).get 1 = quatIntegrateR (quatAt (vecOf (path t)).get 1) (vec3At v.get 1) s := rfl
  rw [hq, quatIntegrateR_unit (unit t 1 1 rfl)]
  have hs : sq3 (vec3At v.get 1) = w ^ 2 := by simp [sq3, vec3At, h1, h2, h3]
  have hn : √(sq3 (vec3At v.get 1)) = w := by rw [hs, Real.sqrt_sq hw.le]
  have hax : axisQuat (vec3At v.get 1) s = ⟨Real.cos (s * w / 2), 0, 0, Real.sin (s * w / 2)⟩ := by
    unfold axisQuat
    simp only [hn]
    ext <;> simp [vec3At, h1, h2, h3, hw.ne']
  rw [hax]
  have hp : quatAt (vecOf (path t)).get 1 = ⟨Real.cos (t / 2), 0, 0, Real.sin (t / 2)⟩ := rfl
  rw [hp]
  ext
  · refine (Quaternion.re_mul _ _).trans ?_
    show Real.cos (t / 2) * Real.cos (s * w / 2) - 0 * 0 - 0 * 0 - Real.sin (t / 2) * Real.sin (s * w / 2) = Real.cos (t / 2 + s * w / 2)
    rw [Real.cos_add]; ring
  · refine (Quaternion.imI_mul _ _).trans ?_
    show Real.cos (t / 2) * 0 + 0 * Real.cos (s * w / 2) + 0 * Real.sin (s * w / 2) - Real.sin (t / 2) * 0 = 0
    ring
  · refine (Quaternion.imJ_mul _ _).trans ?_
    show Real.cos (t / 2) * 0 - 0 * Real.sin (s * w / 2) + 0 * Real.cos (s * w / 2) + Real.sin (t / 2) * 0 = 0
    ring
  · refine (Quaternion.imK_mul _ _).trans ?_
    show Real.cos (t / 2) * Real.sin (s * w / 2) + 0 * 0 - 0 * 0 + Real.sin (t / 2) * Real.cos (s * w / 2) = Real.sin (t / 2 + s * w / 2)
    rw [Real.sin_add]; ring

theorem arm_turn {q : Vec ℝ} {a : ℝ} (h : quatAt q.get 1 = ⟨Real.cos a, 0, 0, Real.sin a⟩) : arm q 1 = Real.sin (2 * a) := by
  have c0 : (quatAt q.get 1).re = Real.cos a := congrArg QuaternionAlgebra.re h
  have c1 : (quatAt q.get 1).imI = 0 := congrArg QuaternionAlgebra.imI h
  have c2 : (quatAt q.get 1).imJ = 0 := congrArg QuaternionAlgebra.imJ h
  have c3 : (quatAt q.get 1).imK = Real.sin a := congrArg QuaternionAlgebra.imK h
  show (Quaternion.normSq (quatAt q.get 1))⁻¹ * rotate (quatAt q.get 1) ![1, 0, 0] 1 = _
  rw [Quaternion.normSq_def', rotate_apply1, Real.sin_two_mul, c0, c1, c2, c3]
  have := Real.sin_sq_add_cos_sq a
  have e : Real.cos a ^ 2 + 0 ^ 2 + 0 ^ 2 + Real.sin a ^ 2 = 1 := by linarith
  rw [e]
  simp
  ring

theorem height_turn (t w s : ℝ) (v : Vec ℝ) (h1 : v.get 1 = 0) (h2 : v.get 2 = 0) (h3 : v.get 3 = w) (hw : 0 < w) :
    (height (integrate env model (vecOf (path t)) v s)).get 0 = - (3 / 2 * Real.sin t) + s * v.get 0 + Real.sin (t + s * w) := by
  have ha := arm_turn (quat_turn t w s v h1 h2 h3 hw)
  have e : (height (integrate env model (vecOf (path t)) v s)).get 0 =
    (- (3 / 2 * Real.sin t) + s * v.get 0 + arm (integrate env model (vecOf (path t)) v s) 1) - 0 := rfl
  rw [e, ha, sub_zero]
  congr 2
  ring

theorem height_path (t : ℝ) : (height (vecOf (path t))).get 0 = - (1 / 2 * Real.sin t) := by
  have ha : arm (vecOf (path t)) 1 = Real.sin (2 * (t / 2)) := arm_turn rfl
  have e : (height (vecOf (path t))).get 0 = (- (3 / 2 * Real.sin t) + arm (vecOf (path t)) 1) - 0 := rfl
  rw [e, ha, show 2 * (t / 2) = t by ring]
  ring

theorem smooth_height (t : ℝ) : Smooth height (vecOf (path t)) := by
  intro i _
  have hc : ∀ j : Fin 5, DifferentiableAt ℝ (fun x : Fin 5 → ℝ => x j) (coordsOf (vecOf (path t))) := fun j => differentiableAt_apply j _
  have h0 := hc 0
  have h1 := hc 1
  have h2 := hc 2
  have h3 := hc 3
  have h4 := hc 4
  have hn : (coordsOf (vecOf (path t)) (1 : Fin 5)) ^ 2 + (coordsOf (vecOf (path t)) (2 : Fin 5)) ^ 2 +
      (coordsOf (vecOf (path t)) (3 : Fin 5)) ^ 2 + (coordsOf (vecOf (path t)) (4 : Fin 5)) ^ 2 ≠ 0 := by
    show Real.cos (t / 2) ^ 2 + 0 ^ 2 + 0 ^ 2 + Real.sin (t / 2) ^ 2 ≠ 0
    have := Real.sin_sq_add_cos_sq (t / 2)
    have e : Real.cos (t / 2) ^ 2 + 0 ^ 2 + 0 ^ 2 + Real.sin (t / 2) ^ 2 = 1 := by linarith
    rw [e]; norm_num
  have hinv : DifferentiableAt ℝ (fun x : Fin 5 → ℝ => (x 1 ^ 2 + x 2 ^ 2 + x 3 ^ 2 + x 4 ^ 2)⁻¹)
      (coordsOf (vecOf (path t))) := ((((h1.pow 2).add (h2.pow 2)).add (h3.pow 2)).add (h4.pow 2)).inv hn
  have e : ∀ x : Fin 5 → ℝ, (height (vecOf x)).get i =
      x 0 + (x 1 ^ 2 + x 2 ^ 2 + x 3 ^ 2 + x 4 ^ 2)⁻¹ * (2 * (x 2 * x 3 + x 1 * x 4)) := by
    intro x
    have e1 : (height (vecOf x)).get i = x 0 + (Quaternion.normSq (quatAt (vecOf x).get 1))⁻¹ * rotate (quatAt (vecOf x).get 1) ![1, 0, 0] 1 - 0 := rfl
    have c0 : (quatAt (vecOf x).get 1).re = x 1 := rfl
    have c1 : (quatAt (vecOf x).get 1).imI = x 2 := rfl
    have c2 : (quatAt (vecOf x).get 1).imJ = x 3 := rfl
    have c3 : (quatAt (vecOf x).get 1).imK = x 4 := rfl
    rw [e1, Quaternion.normSq_def', rotate_apply1, c0, c1, c2, c3]
    simp
  show DifferentiableAt ℝ (fun x : Fin 5 → ℝ => (height (vecOf x)).get i) _
  simp only [e]
  exact h0.add (hinv.mul (((h2.mul h3).add (h1.mul h4)).const_mul 2))

theorem moves (T : ℝ) : MovesWith env model T path vel where
  cont := by
    refine Continuous.continuousOn (continuous_pi fun (k : Fin 5) => ?_)
    match k with
    | 0 => exact (continuous_const.mul Real.continuous_sin).neg
    | 1 => exact Real.continuous_cos.comp (continuous_id.div_const 2)
    | 2 => exact continuous_const
    | 3 => exact continuous_const
    | 4 => exact Real.continuous_sin.comp (continuous_id.div_const 2)
  unit := fun t _ => unit t
  rate := by
    rintro t _ ⟨k, hk⟩
    have hq : ∀ s, quatAt (integrate env model (vecOf (path t)) (vel t) s).get 1 =
        ⟨Real.cos (t / 2 + s * 1 / 2), 0, 0, Real.sin (t / 2 + s * 1 / 2)⟩ := fun s => quat_turn t 1 s (vel t) rfl rfl rfl one_pos
    have hh : HasDerivAt (fun s : ℝ => t / 2 + s * 1 / 2) (1 * 1 / 2) 0 := (((hasDerivAt_id (0 : ℝ)).mul_const 1).div_const 2).const_add _
    have ht : HasDerivAt (fun s : ℝ => s / 2) (1 / 2) t := (hasDerivAt_id t).div_const 2
    match k, hk with
    | 0, _ =>
      have e : (fun s => (integrate env model (vecOf (path t)) (vel t) s).get 0) =
        fun s => - (3 / 2 * Real.sin t) + s * - (3 / 2 * Real.cos t) := rfl
      show HasDerivWithinAt (fun s => - (3 / 2 * Real.sin s)) (deriv (fun s => (integrate env model (vecOf (path t)) (vel t) s).get 0) 0) _ _
      rw [e]
      have h1 := ((hasDerivAt_id (0 : ℝ)).mul_const (- (3 / 2 * Real.cos t))).const_add (- (3 / 2 * Real.sin t))
      rw [show deriv (fun s => - (3 / 2 * Real.sin t) + s * - (3 / 2 * Real.cos t)) 0 = 1 * - (3 / 2 * Real.cos t) from h1.deriv, one_mul]
      exact ((Real.hasDerivAt_sin t).const_mul (3 / 2)).neg.hasDerivWithinAt
    | 1, _ =>
      have e : (fun s => (integrate env model (vecOf (path t)) (vel t) s).get 1) = fun s => Real.cos (t / 2 + s * 1 / 2) :=
        funext fun s => congrArg QuaternionAlgebra.re (hq s)
      show HasDerivWithinAt (fun s => Real.cos (s / 2)) (deriv (fun s => (integrate env model (vecOf (path t)) (vel t) s).get 1) 0) _ _
      rw [e, hh.cos.deriv]
      refine ht.cos.hasDerivWithinAt.congr_deriv ?_
      simp
    | 2, _ =>
      have e : (fun s => (integrate env model (vecOf (path t)) (vel t) s).get 2) = fun _ => 0 :=
        funext fun s => congrArg QuaternionAlgebra.imI (hq s)
      show HasDerivWithinAt (fun _ => (0 : ℝ)) (deriv (fun s => (integrate env model (vecOf (path t)) (vel t) s).get 2) 0) _ _
      rw [e, deriv_const]
      exact hasDerivWithinAt_const _ _ _
    | 3, _ =>
      have e : (fun s => (integrate env model (vecOf (path t)) (vel t) s).get 3) = fun _ => 0 :=
        funext fun s => congrArg QuaternionAlgebra.imJ (hq s)
      show HasDerivWithinAt (fun _ => (0 : ℝ)) (deriv (fun s => (integrate env model (vecOf (path t)) (vel t) s).get 3) 0) _ _
      rw [e, deriv_const]
      exact hasDerivWithinAt_const _ _ _
    | 4, _ =>
      have e : (fun s => (integrate env model (vecOf (path t)) (vel t) s).get 4) = fun s => Real.sin (t / 2 + s * 1 / 2) :=
        funext fun s => congrArg QuaternionAlgebra.imK (hq s)
      show HasDerivWithinAt (fun s => Real.sin (s / 2)) (deriv (fun s => (integrate env model (vecOf (path t)) (vel t) s).get 4) 0) _ _
      rw [e, hh.sin.deriv]
      refine ht.sin.hasDerivWithinAt.congr_deriv ?_
      simp

/-- What the code takes for the rate of the height: it counts the turning twice. -/
theorem height_rate (t : ℝ) : ∃ J, evalJacobian env barrier (update env model (vecOf (path t))) = .ok J ∧ J.rows = 1 ∧ J.cols = 4 ∧
    rowDot J 0 (vel t).get = 1 / 2 * Real.cos t := by
  obtain ⟨J, hJ, hrows⟩ : ∃ J, evalJacobian env barrier (update env model (vecOf (path t))) = .ok J ∧ J.rows = 1 := ⟨_, rfl, rfl⟩
  have hcols : J.cols = 4 := auto_cols (env := env) (j := barrier) (d := update env model (vecOf (path t))) (jacrevR_exact rfl) model_wf kept
    trivial rfl hJ value_height
  refine ⟨J, hJ, hrows, hcols, ?_⟩
  let v' : Vec ℝ := ⟨4, fun k => if k = 0 then - (3 / 2 * Real.cos t) else if k = 3 then 2 else 0⟩
  have h1 := C78_rate (env := env) (j := barrier) (d := update env model (vecOf (path t))) (n := 1) rfl (jacrevR_exact rfl) model_wf
    kept trivial rfl (unit t) hJ value_height (fun _ => rfl) (smooth_height t) v' (i := 0) (by norm_num)
  have e : (fun s => (height (integrate env model (vecOf (path t)) v' s)).get 0) =
      fun s => - (3 / 2 * Real.sin t) + s * - (3 / 2 * Real.cos t) + Real.sin (t + s * 2) :=
    funext fun s => height_turn t 2 s v' rfl rfl rfl two_pos
  have h1 : HasDerivAt (fun s => (height (integrate env model (vecOf (path t)) v' s)).get 0) _ 0 := h1
  rw [e] at h1
  have hh : HasDerivAt (fun s : ℝ => t + s * 2) (1 * 2) 0 := ((hasDerivAt_id (0 : ℝ)).mul_const 2).const_add _
  have h2 := (((hasDerivAt_id (0 : ℝ)).mul_const (- (3 / 2 * Real.cos t))).const_add (- (3 / 2 * Real.sin t))).add hh.sin
  have h3 := h1.unique h2
  have h4 : ∑ k ∈ range 4, J.get 0 k * ((if angularDof model k then 1 / 2 else 1) * v'.get k) = rowDot J 0 (vel t).get := by
    unfold rowDot
    rw [hcols]
    refine sum_congr rfl fun k hk => ?_
    have hk := mem_range.1 hk
    obtain rfl | rfl | rfl | rfl : k = 0 ∨ k = 1 ∨ k = 2 ∨ k = 3 := by omega
    · show J.get 0 0 * ((if angularDof model 0 then 1 / 2 else 1) * - (3 / 2 * Real.cos t)) = J.get 0 0 * - (3 / 2 * Real.cos t)
      rw [show angularDof model 0 = false from rfl]
      simp
    · show J.get 0 1 * ((if angularDof model 1 then 1 / 2 else 1) * 0) = J.get 0 1 * 0
      simp
    · show J.get 0 2 * ((if angularDof model 2 then 1 / 2 else 1) * 0) = J.get 0 2 * 0
      simp
    · show J.get 0 3 * ((if angularDof model 3 then 1 / 2 else 1) * 2) = J.get 0 3 * 1
      rw [show angularDof model 3 = true from rfl]
      simp
  rw [← h4]
  refine h3.trans ?_
  simp
  ring

/-- The problem with that barrier and speed limit 2. -/
noncomputable def prob : JaxProblem ℝ := ⟨model, ⟨[4], fun _ => -2⟩, ⟨[4], fun _ => 2⟩, [("b", barrier)]⟩

theorem flow : FeasibleFlow env model (fun _ => prob) (1 / 2) path vel := by
  have key : ∀ t ∈ Set.Ico (0 : ℝ) (1 / 2), WellSized env prob (update env model (vecOf (path t))) ∧
      ∃ qp, problemQP env model prob (update env model (vecOf (path t))) = .ok qp ∧ Feasible qp (vel t).get := by
    intro t ht
    obtain ⟨J, h1, h2, h3, h4⟩ := height_rate t
    have hsin : Real.sin t ≤ 1 / 2 := le_trans (Real.sin_le ht.1) ht.2.le
    have hcos : 7 / 8 ≤ Real.cos t := by
      have := Real.one_sub_sq_div_two_le_cos (x := t)
      have h5 := ht.1
      have h6 := ht.2
      nlinarith
    have hcos' := Real.cos_le_one t
    refine single_barrier (j := barrier) trivial h1 (value_height _) rfl h2 h3 ?_ ?_ ?_
    · intro hz
      have : rowDot J 0 (vel t).get = 0 := by
        unfold rowDot
        exact sum_eq_zero fun k hk => by rw [hz 0 (by omega) k (mem_range.1 hk), zero_mul]
      linarith
    · intro i _
      show -2 ≤ (if i = 0 then - (3 / 2 * Real.cos t) else if i = 3 then 1 else 0) ∧
        (if i = 0 then - (3 / 2 * Real.cos t) else if i = 3 then 1 else 0) ≤ (2 : ℝ)
      split
      · constructor <;> linarith
      · split <;> norm_num
    · intro i hi
      obtain rfl : i = 0 := by have : i < 1 := hi; omega
      rw [h4, height_path]
      show - ((1 : ℝ) * 1 * - (1 / 2 * Real.sin t)) ≤ _
      linarith
  exact ⟨moves _, fun _ _ => rfl, fun t ht => (key t ht).1, fun t ht => (key t ht).2⟩

end Boom

/-- **C88 is false** with rotations of free and ball joints: the rod starts with its tip on the limit of the barrier, at every moment
the velocity satisfies the constraints of the problem, and at every later moment the tip is beyond the limit. -/
theorem C88_wrong : FeasibleFlow Boom.env Boom.model (fun _ => Boom.prob) (1 / 2) Boom.path Boom.vel ∧
    (∀ q, evalValue Boom.env Boom.barrier (update Boom.env Boom.model q) = .ok (Boom.height q)) ∧
    (Boom.height (vecOf (Boom.path 0))).get 0 = 0 ∧
    ∀ t ∈ Set.Ioc (0 : ℝ) (1 / 2), (Boom.height (vecOf (Boom.path t))).get 0 < 0 := by
  refine ⟨Boom.flow, Boom.value_height, ?_, fun t ht => ?_⟩
  · rw [Boom.height_path, Real.sin_zero]
    norm_num
  · rw [Boom.height_path]
    have := Real.sin_pos_of_pos_of_le_one ht.1 (by have := ht.2; linarith)
    linarith

end Mjinx.Props
