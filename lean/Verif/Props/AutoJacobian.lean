import Verif.Spec.Deriv
import Verif.Props.Integrate
import Verif.Props.Sizes
import Mathlib.Analysis.Calculus.Deriv.Add
import Mathlib.Analysis.Calculus.Deriv.Mul
import Mathlib.Analysis.Calculus.Deriv.Prod

/-!
# C78: Jacobians obtained by automatic differentiation

The centre-of-mass task, the position task and the position barrier do not compute a Jacobian of their own: they differentiate their
value with respect to the configuration and map the result to velocities.
-/

set_option linter.unusedSectionVars false

namespace Mjinx.Props
open Mjinx Mjinx.Spec Finset
open scoped Quaternion

/-! ### `jax.jacrev` -/

theorem sum_proj {n : Nat} (L : (Fin n → ℝ) →L[ℝ] ℝ) :
    L = ∑ k : Fin n, L (Pi.single k 1) • (ContinuousLinearMap.proj k : (Fin n → ℝ) →L[ℝ] ℝ) := by
  ext x
  have := LinearMap.pi_apply_eq_sum_univ L.toLinearMap x
  simp only [ContinuousLinearMap.coe_coe] at this
  rw [this, _root_.sum_apply]
  refine Finset.sum_congr rfl fun k _ => ?_
  simp only [_root_.smul_apply, ContinuousLinearMap.proj_apply, smul_eq_mul]
  rw [mul_comm]
  congr 2
  funext j
  simp [Pi.single_apply, eq_comm]

/-- The assumption on `jax.jacrev` is met by the matrix of partial derivatives. -/
theorem jacrevR_exact {env : Env ℝ} (h : env.jacrev = jacrevR) : JacrevExact env := by
  refine ⟨fun f q => by rw [h]; rfl, fun f q hs i hi => ?_⟩
  have hd := (hs i hi).hasFDerivAt
  rw [sum_proj (fderiv ℝ (fun x : Fin q.len → ℝ => (f (vecOf x)).get i) (coordsOf q))] at hd
  rw [h]
  refine hd.congr_fderiv ?_
  refine Finset.sum_congr rfl fun k _ => ?_
  congr 1
  simp [jacrevR]

/-! ### Weights of velocity entries -/

theorem vec3List_scale (w v : Nat → ℝ) (b : Nat) (h0 : w b = 1) (h1 : w (b + 1) = 1) (h2 : w (b + 2) = 1) :
    vec3List (vec3At (fun k => w k * v k) b) = vec3List (vec3At v b) := by
  simp [vec3List, vec3At, h0, h1, h2]

theorem quatList_scale (q : ℍ[ℝ]) (w v : Nat → ℝ) (b : Nat) (h0 : w b = 1 / 2) (h1 : w (b + 1) = 1 / 2) (h2 : w (b + 2) = 1 / 2) :
    quatList (q * pureQuat (vec3At (fun k => w k * v k) b)) = (quatList (q * pureQuat (vec3At v b))).map (fun x => 1 / 2 * x) := by
  have e : pureQuat (vec3At (fun k => w k * v k) b) = (1 / 2 : ℝ) • pureQuat (vec3At v b) := by
    ext
    · show (0 : ℝ) = 1 / 2 * 0
      rw [mul_zero]
    · show w b * v b = 1 / 2 * v b
      rw [h0]
    · show w (b + 1) * v (b + 1) = 1 / 2 * v (b + 1)
      rw [h1]
    · show w (b + 2) * v (b + 2) = 1 / 2 * v (b + 2)
      rw [h2]
  rw [e, mul_smul_comm]
  rfl

/-- Halving the angular velocities halves the entries of quaternions and keeps all others. -/
theorem dqList_scale (q w v : Nat → ℝ) : ∀ (ts : List JntType) (a b : Nat),
    (∀ k < (ts.flatMap dofKinds).length, w (b + k) = if (ts.flatMap dofKinds).getD k false then 1 / 2 else 1) →
    dqList q (fun k => w k * v k) ts a b =
      List.zipWith (fun c x => (if c then 1 / 2 else 1) * x) (ts.flatMap coordKinds) (dqList q v ts a b)
  | [], _, _, _ => rfl
  | t :: ts, a, b, hw => by
    have key : ∀ n, (dofKinds t).length = n → ∀ k < (ts.flatMap dofKinds).length,
        w (b + n + k) = if (ts.flatMap dofKinds).getD k false then 1 / 2 else 1 := by
      intro n hn k hk
      have := hw (n + k) (by rw [List.flatMap_cons, List.length_append, hn]; omega)
      rw [List.flatMap_cons, List.getD_append_right _ _ _ _ (by omega), hn, Nat.add_sub_cancel_left] at this
      rw [Nat.add_assoc]; exact this
    have here : ∀ k < (dofKinds t).length, w (b + k) = if (dofKinds t).getD k false then 1 / 2 else 1 := by
      intro k hk
      have := hw k (by rw [List.flatMap_cons, List.length_append]; omega)
      rwa [List.flatMap_cons, List.getD_append _ _ _ _ hk] at this
    rw [List.flatMap_cons]
    cases t with
    | free =>
      have ih := dqList_scale q w v ts (a + 7) (b + 6) (key 6 rfl)
      have e0 : w b = 1 := by simpa [dofKinds] using here 0 (by decide)
      have e1 : w (b + 1) = 1 := by simpa [dofKinds] using here 1 (by decide)
      have e2 : w (b + 2) = 1 := by simpa [dofKinds] using here 2 (by decide)
      have e3 : w (b + 3) = 1 / 2 := by simpa [dofKinds] using here 3 (by decide)
      have e4 : w (b + 3 + 1) = 1 / 2 := by simpa [dofKinds] using here 4 (by decide)
      have e5 : w (b + 3 + 2) = 1 / 2 := by simpa [dofKinds] using here 5 (by decide)
      simp only [dqList]
      rw [ih, vec3List_scale w v b e0 e1 e2, quatList_scale _ w v (b + 3) e3 e4 e5, List.zipWith_append (by rfl)]
      congr 1
      simp [coordKinds, vec3List, quatList]
    | ball =>
      have ih := dqList_scale q w v ts (a + 4) (b + 3) (key 3 rfl)
      have e3 : w b = 1 / 2 := by simpa [dofKinds] using here 0 (by decide)
      have e4 : w (b + 1) = 1 / 2 := by simpa [dofKinds] using here 1 (by decide)
      have e5 : w (b + 2) = 1 / 2 := by simpa [dofKinds] using here 2 (by decide)
      simp only [dqList]
      rw [ih, quatList_scale _ w v b e3 e4 e5, List.zipWith_append (by rfl)]
      congr 1
    | hinge =>
      have ih := dqList_scale q w v ts (a + 1) (b + 1) (key 1 rfl)
      have e0 : w b = 1 := by simpa [dofKinds] using here 0 (by decide)
      simp only [dqList]
      rw [ih]
      simp [coordKinds, e0]
    | slide =>
      have ih := dqList_scale q w v ts (a + 1) (b + 1) (key 1 rfl)
      have e0 : w b = 1 := by simpa [dofKinds] using here 0 (by decide)
      simp only [dqList]
      rw [ih]
      simp [coordKinds, e0]

theorem dqList_length (q v : Nat → ℝ) : ∀ (ts : List JntType) (a b : Nat), (dqList q v ts a b).length = (ts.flatMap coordKinds).length
  | [], _, _ => rfl
  | t :: ts, a, b => by
    rw [List.flatMap_cons, List.length_append]
    cases t <;> simp only [dqList, List.length_append, List.length_cons, dqList_length q v ts, vec3List, quatList, coordKinds, List.length_nil] <;> omega

/-- Weight of velocity entry `k`: one half for angular velocities of free and ball joints. -/
noncomputable def dofWeight (m : MjModel ℝ) (k : Nat) : ℝ := if angularDof m k then 1 / 2 else 1

theorem jacDq2v_weight {m : MjModel ℝ} (hw : JointsWF m) (q v : Nat → ℝ) (i : Nat) :
    rowDot (jacDq2v m q) i (fun k => dofWeight m k * v k) = (if quatCoord m i then 1 / 2 else 1) * rowDot (jacDq2v m q) i v := by
  rw [jacDq2v_row hw, jacDq2v_row hw, dqList_scale q (dofWeight m) v m.jntType 0 0 (fun k _ => by rw [Nat.zero_add]; rfl)]
  unfold quatCoord
  have hl := dqList_length q v m.jntType 0 0
  by_cases h : i < (m.jntType.flatMap coordKinds).length
  · rw [List.getD_eq_getElem _ _ (by rw [List.length_zipWith, hl]; omega), List.getElem_zipWith, List.getD_eq_getElem _ _ h,
      List.getD_eq_getElem _ _ (by omega)]
  · rw [List.getD_eq_default _ _ (by rw [List.length_zipWith, hl]; omega), List.getD_eq_default _ _ (by omega : (dqList q v m.jntType 0 0).length ≤ i), mul_zero]

/-! ### Models without quaternions -/

theorem nv_le_nq (t : JntType) : t.nv ≤ t.nq := by cases t <;> decide
theorem nv_eq_nq {t : JntType} (h : t.nv = t.nq) : t.scalar = true := by cases t <;> first | rfl | (exact absurd h (by decide))

theorem sum_nv_le : ∀ ts : List JntType, (ts.map JntType.nv).sum ≤ (ts.map JntType.nq).sum
  | [] => le_rfl
  | t :: ts => by
    have := sum_nv_le ts
    have := nv_le_nq t
    simp only [List.map_cons, List.sum_cons]; omega

theorem all_scalar : ∀ {ts : List JntType}, (ts.map JntType.nv).sum = (ts.map JntType.nq).sum → ∀ t ∈ ts, t.scalar = true
  | [], _, t, ht => by cases ht
  | t' :: ts, h, t, ht => by
    have h1 := sum_nv_le ts
    have h2 := nv_le_nq t'
    simp only [List.map_cons, List.sum_cons] at h
    rcases List.mem_cons.1 ht with rfl | ht
    · exact nv_eq_nq (by omega)
    · exact all_scalar (by omega) t ht

theorem dqList_scalar (q v : Nat → ℝ) : ∀ (ts : List JntType) (a b : Nat), (∀ t ∈ ts, t.scalar = true) →
    ∀ i < ts.length, (dqList q v ts a b).getD i 0 = v (b + i)
  | [], _, _, _, i, hi => by simp at hi
  | t :: ts, a, b, h, i, hi => by
    have ht := h t (List.mem_cons_self ..)
    have ih := fun a => dqList_scalar q v ts a (b + 1) (fun t ht => h t (List.mem_cons_of_mem _ ht))
    cases t with
    | free => cases ht
    | ball => cases ht
    | hinge =>
      cases i with
      | zero => rfl
      | succ i =>
        simp only [dqList, List.getD_cons_succ]
        rw [ih _ i (by simpa using hi)]; congr 1; omega
    | slide =>
      cases i with
      | zero => rfl
      | succ i =>
        simp only [dqList, List.getD_cons_succ]
        rw [ih _ i (by simpa using hi)]; congr 1; omega

theorem dofKinds_scalar : ∀ {ts : List JntType}, (∀ t ∈ ts, t.scalar = true) → ∀ k, (ts.flatMap dofKinds).getD k false = false
  | [], _, k => by simp
  | t :: ts, h, k => by
    have ht := h t (List.mem_cons_self ..)
    have ih := dofKinds_scalar (fun t ht => h t (List.mem_cons_of_mem _ ht)) (ts := ts)
    rw [List.flatMap_cons]
    cases t with
    | free => cases ht
    | ball => cases ht
    | hinge => cases k with
      | zero => rfl
      | succ k => simpa [dofKinds] using ih k
    | slide => cases k with
      | zero => rfl
      | succ k => simpa [dofKinds] using ih k

theorem sum_nq_scalar : ∀ {ts : List JntType}, (∀ t ∈ ts, t.scalar = true) → (ts.map JntType.nq).sum = ts.length
  | [], _ => rfl
  | t :: ts, h => by
    have ht := h t (List.mem_cons_self ..)
    have ih := sum_nq_scalar (fun t ht => h t (List.mem_cons_of_mem _ ht)) (ts := ts)
    cases t with
    | free => cases ht
    | ball => cases ht
    | hinge => simp only [List.map_cons, List.sum_cons, ih, List.length_cons, JntType.nq]; omega
    | slide => simp only [List.map_cons, List.sum_cons, ih, List.length_cons, JntType.nq]; omega

/-- With as many velocities as coordinates there is no free and no ball joint. -/
theorem scalar_of_eq {m : MjModel ℝ} (hw : JointsWF m) (h : m.nq = m.nv) :
    (∀ k, angularDof m k = false) ∧ ∀ (q v : Nat → ℝ), ∀ i < m.nq, rowDot (jacDq2v m q) i v = v i := by
  obtain ⟨-, -, h1, h2⟩ := consecutive_layout hw.addr
  have hs := all_scalar (ts := m.jntType) (by omega)
  refine ⟨dofKinds_scalar hs, fun q v i hi => ?_⟩
  rw [jacDq2v_row hw, dqList_scalar q v m.jntType 0 0 hs i (by rw [sum_nq_scalar hs] at h1; omega), Nat.zero_add]

/-! ### The rate of change of a differentiated function -/

theorem integrate_vecOf {env : Env ℝ} {m : MjModel ℝ} (hw : JointsWF m) {q : Vec ℝ} (hq : q.len = m.nq) (v : Vec ℝ) (t : ℝ) :
    integrate env m q v t = vecOf (fun k : Fin q.len => (integrate env m q v t).get k) := by
  have hl : (integrate env m q v t).len = q.len := by rw [C71_size hw, hq]
  have hg : (integrate env m q v t).get = fun i => if h : i < q.len then (integrate env m q v t).get i else 0 := by
    funext i
    by_cases h : i < q.len
    · rw [dif_pos h]
    · rw [dif_neg h]
      show (integrateLoop env.quatIntegrate q.get v.get t m.jntType 0 0).getD i 0 = 0
      rw [List.getD_eq_default]
      have : (integrateLoop env.quatIntegrate q.get v.get t m.jntType 0 0).length = q.len := hl
      omega
  show (⟨_, _⟩ : Vec ℝ) = ⟨q.len, fun i => if h : i < q.len then (integrate env m q v t).get i else 0⟩
  rw [← hg, ← hl]
  rfl

theorem rate_core {env : Env ℝ} (he : env.quatIntegrate = quatIntegrateR) (hj : JacrevExact env) {m : MjModel ℝ} (hw : JointsWF m)
    {q : Vec ℝ} (hq : q.len = m.nq) (hu : UnitQuats m q) {f : Vec ℝ → Vec ℝ} (hs : Smooth f q) (v : Vec ℝ) {i : Nat}
    (hi : i < (f (vecOf (coordsOf q))).len) :
    HasDerivAt (fun t => (f (integrate env m q v t)).get i)
      (∑ k ∈ range q.len, (env.jacrev f q).get i k * rowDot (jacDq2v m q.get) k (fun l => dofWeight m l * v.get l)) 0 := by
  have hF := hj.deriv f q hs i hi
  let γ : ℝ → Fin q.len → ℝ := fun t k => (integrate env m q v t).get k
  have h0 : γ 0 = coordsOf q := by
    funext k
    exact C71_rest he hw hu v 0 (Or.inl rfl) k (by rw [← hq]; exact k.2)
  have hγ : HasDerivAt γ (fun k => rowDot (jacDq2v m q.get) k (fun l => dofWeight m l * v.get l)) 0 := by
    rw [hasDerivAt_pi]
    intro k
    rw [jacDq2v_weight hw]
    exact C44_derivative_partial he hw hu v k
  have hc := HasFDerivAt.comp_hasDerivAt_of_eq (0 : ℝ) hF hγ h0.symm
  have e : (fun t => (f (integrate env m q v t)).get i) = (fun x : Fin q.len → ℝ => (f (vecOf x)).get i) ∘ γ := by
    funext t
    show (f (integrate env m q v t)).get i = (f (vecOf (γ t))).get i
    rw [integrate_vecOf hw hq]
  rw [e]
  refine hc.congr_deriv ?_
  rw [_root_.sum_apply, ← Fin.sum_univ_eq_sum_range (fun k => (env.jacrev f q).get i k * rowDot (jacDq2v m q.get) k (fun l => dofWeight m l * v.get l))]
  rfl

/-! ### C78 -/

/-- `com_pos` and `make_constraint` leave the positions of objects as `kinematics` computed them, and `com_pos` computes the centres of
mass as the centre-of-mass task does. -/
structure PositionsKept (env : Env ℝ) (m : MjModel ℝ) : Prop where
  body : ∀ q, (update env m q).xpos = (env.kinematics m q).xpos
  geom : ∀ q, (update env m q).geomXpos = (env.kinematics m q).geomXpos
  site : ∀ q, (update env m q).siteXpos = (env.kinematics m q).siteXpos
  com : ∀ q, (update env m q).subtreeCom = subtreeComs m (env.kinematics m q).xipos

/-- The components that have no Jacobian of their own: centre-of-mass task, position task, position barrier. -/
def Differentiated (j : JaxComp ℝ) : Prop :=
  match j.kind with
  | .comTask .. => True
  | .positionTask .. => True
  | .positionBarrier .. => True
  | _ => False

theorem objPos_kept {env : Env ℝ} {m : MjModel ℝ} (hp : PositionsKept env m) (q : Vec ℝ) (t : ObjType) (i : Int) :
    objPos (update env m q) t i = objPos (env.kinematics m q) t i := by
  cases t <;> simp only [objPos, hp.body, hp.geom, hp.site]

theorem auto_value {env : Env ℝ} {j : JaxComp ℝ} (hp : PositionsKept env j.model) (hd : Differentiated j) {d : MjData ℝ} {J : Mat ℝ}
    (hJ : evalJacobian env j d = .ok J) {f : Vec ℝ → Vec ℝ} (hf : ∀ x, evalValue env j (update env j.model x) = .ok (f x)) :
    (if j.model.nq ≠ j.model.nv then (env.jacrev f d.qpos).mul (jacDq2v j.model d.qpos.get) else .ok (env.jacrev f d.qpos)) = .ok J := by
  have key : ∀ b, (∀ x, evalValue env j (if b = true then comUpdate env j.model x else env.kinematics j.model x) = .ok (f x)) →
      autoJacobian env j d b = .ok J →
      (if j.model.nq ≠ j.model.nv then (env.jacrev f d.qpos).mul (jacDq2v j.model d.qpos.get) else .ok (env.jacrev f d.qpos)) = .ok J := by
    intro b hb h
    unfold autoJacobian at h
    simp only [hb, bind, Except.bind, Except.toOption, Option.getD_some] at h
    exact h
  unfold evalJacobian at hJ
  unfold Differentiated at hd
  split at hd
  · rename_i hk
    rw [hk] at hJ
    refine key true (fun x => ?_) hJ
    rw [← hf x]
    unfold evalValue
    rw [hk]
    simp only [if_pos, hp.com]
    rfl
  · rename_i hk
    rw [hk] at hJ
    refine key false (fun x => ?_) hJ
    rw [← hf x]
    unfold evalValue
    rw [hk]
    simp only [objPos_kept hp, Bool.false_eq_true, if_false]
  · rename_i hk
    rw [hk] at hJ
    refine key false (fun x => ?_) hJ
    rw [← hf x]
    unfold evalValue
    rw [hk]
    simp only [objPos_kept hp, Bool.false_eq_true, if_false]
  · exact hd.elim

section
variable {env : Env ℝ} {j : JaxComp ℝ} {d : MjData ℝ} {J : Mat ℝ} {f : Vec ℝ → Vec ℝ} {n : Nat}

/-- **C78**, what the code computes: when the robot moves from the configuration of the data with velocity `v`, the value of a
centre-of-mass task, position task or position barrier changes at the rate `J v`, except that the angular velocities of free and ball joints
count only half. -/
theorem C78_rate (he : env.quatIntegrate = quatIntegrateR) (hj : JacrevExact env) (hw : JointsWF j.model) (hp : PositionsKept env j.model)
    (hd : Differentiated j) (hq : d.qpos.len = j.model.nq) (hu : UnitQuats j.model d.qpos) (hJ : evalJacobian env j d = .ok J)
    (hf : ∀ x, evalValue env j (update env j.model x) = .ok (f x)) (hn : ∀ x, (f x).len = n) (hs : Smooth f d.qpos)
    (v : Vec ℝ) {i : Nat} (hi : i < n) :
    HasDerivAt (fun t => (f (integrate env j.model d.qpos v t)).get i)
      (∑ k ∈ range j.model.nv, J.get i k * ((if angularDof j.model k then 1 / 2 else 1) * v.get k)) 0 := by
  have h := rate_core he hj hw hq hu hs v (i := i) (by rw [hn]; exact hi)
  refine h.congr_deriv ?_
  have hv := auto_value hp hd hJ hf
  by_cases hne : j.model.nq = j.model.nv
  · rw [if_neg (by simpa using hne)] at hv
    cases hv
    rw [hq, hne]
    obtain ⟨-, h2⟩ := scalar_of_eq hw hne
    refine sum_congr rfl fun k hk => ?_
    rw [h2 _ _ k (by rw [hne]; exact mem_range.1 hk)]
    rfl
  · rw [if_pos hne] at hv
    unfold Mat.mul at hv
    split at hv
    · cases hv
      rw [hj.cols]
      simp only [sum_mul]
      rw [sum_comm]
      refine sum_congr rfl fun k _ => ?_
      unfold rowDot
      rw [mul_sum]
      have hc : (jacDq2v j.model d.qpos.get).cols = j.model.nv :=
        (jacLoop_spec d.qpos.get (fun _ => 0) (Mat.zero j.model.nq j.model.nv) hw.addr rfl (fun _ _ _ => rfl)).1
      rw [hc]
      refine sum_congr rfl fun l _ => ?_
      unfold dofWeight
      ring
    · cases hv

theorem auto_cols (hj : JacrevExact env) (hw : JointsWF j.model) (hp : PositionsKept env j.model)
    (hd : Differentiated j) (hq : d.qpos.len = j.model.nq) (hJ : evalJacobian env j d = .ok J)
    (hf : ∀ x, evalValue env j (update env j.model x) = .ok (f x)) : J.cols = j.model.nv := by
  have hv := auto_value hp hd hJ hf
  by_cases hne : j.model.nq = j.model.nv
  · rw [if_neg (by simpa using hne)] at hv
    cases hv
    rw [hj.cols, hq, hne]
  · rw [if_pos hne] at hv
    unfold Mat.mul at hv
    split at hv
    · cases hv
      exact (jacLoop_spec d.qpos.get (fun _ => 0) (Mat.zero j.model.nq j.model.nv) hw.addr rfl (fun _ _ _ => rfl)).1
    · cases hv

/-- **C78** is true of exactly the velocities whose angular part the Jacobian does not see: `J v` is the rate of change of entry `i` if and
only if the entries of `J v` that belong to angular velocities of free and ball joints add up to zero. -/
theorem C78_iff (he : env.quatIntegrate = quatIntegrateR) (hj : JacrevExact env) (hw : JointsWF j.model) (hp : PositionsKept env j.model)
    (hd : Differentiated j) (hq : d.qpos.len = j.model.nq) (hu : UnitQuats j.model d.qpos) (hJ : evalJacobian env j d = .ok J)
    (hf : ∀ x, evalValue env j (update env j.model x) = .ok (f x)) (hn : ∀ x, (f x).len = n) (hs : Smooth f d.qpos)
    (v : Vec ℝ) {i : Nat} (hi : i < n) :
    HasDerivAt (fun t => (f (integrate env j.model d.qpos v t)).get i) (rowDot J i v.get) 0 ↔
      ∑ k ∈ range j.model.nv, (if angularDof j.model k then J.get i k * v.get k else 0) = 0 := by
  have h := C78_rate he hj hw hp hd hq hu hJ hf hn hs v hi
  have hc := auto_cols hj hw hp hd hq hJ hf
  have e : ∑ k ∈ range j.model.nv, J.get i k * ((if angularDof j.model k then 1 / 2 else 1) * v.get k) =
      rowDot J i v.get - 1 / 2 * ∑ k ∈ range j.model.nv, (if angularDof j.model k then J.get i k * v.get k else 0) := by
    unfold rowDot
    rw [hc, mul_sum, ← sum_sub_distrib]
    refine sum_congr rfl fun k _ => ?_
    split <;> ring
  rw [e] at h
  constructor
  · intro h'
    have := h'.unique h
    linarith
  · intro h0
    rw [h0, mul_zero, sub_zero] at h
    exact h

/-- **C78**, what holds: the value changes at the rate `J v` for every velocity without angular velocity of free and ball joints; in
particular for every velocity if the robot has only hinges and slides.  Missing: rotations of free and ball joints, for which it is false
(`C78_wrong`). -/
theorem C78_rate_partial (he : env.quatIntegrate = quatIntegrateR) (hj : JacrevExact env) (hw : JointsWF j.model)
    (hp : PositionsKept env j.model)
    (hd : Differentiated j) (hq : d.qpos.len = j.model.nq) (hu : UnitQuats j.model d.qpos) (hJ : evalJacobian env j d = .ok J)
    (hf : ∀ x, evalValue env j (update env j.model x) = .ok (f x)) (hn : ∀ x, (f x).len = n) (hs : Smooth f d.qpos)
    (v : Vec ℝ) (hv : ∀ k < j.model.nv, angularDof j.model k = true → v.get k = 0) {i : Nat} (hi : i < n) :
    HasDerivAt (fun t => (f (integrate env j.model d.qpos v t)).get i) (rowDot J i v.get) 0 := by
  refine (C78_iff he hj hw hp hd hq hu hJ hf hn hs v hi).2 (sum_eq_zero fun k hk => ?_)
  split
  · rename_i h
    rw [hv k (mem_range.1 hk) h, mul_zero]
  · rfl

end

/-! ### A rod on a ball joint -/

namespace Rod

/-- Forward kinematics of a rod of length `l` on a ball joint: the quaternion is normalised, then the tip is rotated (as mjx does). -/
noncomputable def tip (l : ℝ) (q : Vec ℝ) : V3 ℝ := (Quaternion.normSq (quatAt q.get 0))⁻¹ • rotate (quatAt q.get 0) ![l, 0, 0]

noncomputable def data (l : ℝ) (q : Vec ℝ) : MjData ℝ where
  qpos := q
  xpos := [0, tip l q]
  xquat := [1, quatAt q.get 0]
  xmat := []
  geomXpos := []
  geomXmat := []
  siteXpos := []
  siteXmat := []
  xipos := []
  subtreeCom := []
  cdof := []
  efcEq := []
  efcPos := []
  efcJ := []

noncomputable def env (l : ℝ) : Env ℝ where
  kinematics := fun _ q => data l q
  comPos := fun m d => { d with subtreeCom := subtreeComs m d.xipos }
  makeConstraint := fun _ d => d
  collide := fun _ _ => { known := fun _ _ => true, ncon := fun _ _ => 1, contact := fun _ _ _ => ⟨0, 0, 0⟩ }
  jacrev := jacrevR
  jacZero := jacZeroR
  rotOfMat := fun _ => 1
  so3Log := so3LogR (1 / 100000)
  se3Log := se3LogR (1 / 100000)
  se3Exp := fun _ => SE3.one
  quatIntegrate := quatIntegrateR

noncomputable def model : MjModel ℝ :=
  { (MjModel.empty : MjModel ℝ) with
    nq := 4, nv := 3, nbody := 2, jntType := [.ball], jntQposadr := [0], jntDofadr := [0], jntRange := [(0, 0)],
    bodyParentid := [0, 0], bodyRootid := [0, 1], bodyWeldid := [0, 1], dofBodyid := [1, 1, 1], bodyMass := [0, 1],
    bodyNames := ["world", "rod"] }

theorem model_wf : JointsWF model := ⟨by repeat' constructor, rfl⟩

/-- A position task for the tip with the origin as target. -/
noncomputable def task : JaxComp ℝ where
  dim := 3
  model := model
  vectorGain := Arr.scalar 1
  gainFn := id
  maskIdxs := [0, 1, 2]
  kind := .positionTask (Arr.scalar 1) 0 1 .body ⟨[3], fun _ => 0⟩

/-- No rotation. -/
def q0 : Vec ℝ := ⟨4, fun i => if i = 0 then 1 else 0⟩
/-- Turning about the vertical axis. -/
def v : Vec ℝ := ⟨3, fun i => if i = 2 then 1 else 0⟩

theorem unit : UnitQuats model q0 := by
  intro k adr h
  match k with
  | 0 => cases h; rw [Quaternion.normSq_def']; simp [quatAt, q0, model]
  | k + 1 =>
    have e : (model.jntType.getD (k + 1) .hinge) = .hinge := rfl
    rw [e] at h
    cases h

theorem kept (l : ℝ) : PositionsKept (env l) model := ⟨fun _ => rfl, fun _ => rfl, fun _ => rfl, fun _ => rfl⟩

noncomputable def value (l : ℝ) (q : Vec ℝ) : Vec ℝ :=
  ⟨3, fun i => ((vec3 (tip l q)).gather [0, 1, 2]).get i - 0⟩

theorem value_eq (l : ℝ) (q : Vec ℝ) : evalValue (env l) task (update (env l) model q) = .ok (value l q) := rfl

theorem value_entry (l : ℝ) (i : Nat) : ∃ k : Fin 3, ∀ q, (value l q).get i = tip l q k := by
  match i with
  | 0 => exact ⟨0, fun q => sub_zero _⟩
  | 1 => exact ⟨1, fun q => sub_zero _⟩
  | 2 => exact ⟨2, fun q => sub_zero _⟩
  | n + 3 => exact ⟨0, fun q => sub_zero _⟩

theorem normSq_quatAt (q : Nat → ℝ) : Quaternion.normSq (quatAt q 0) = q 0 ^ 2 + q 1 ^ 2 + q 2 ^ 2 + q 3 ^ 2 := by
  rw [Quaternion.normSq_def']; rfl

theorem smooth (l : ℝ) : Smooth (value l) q0 := by
  intro i _
  obtain ⟨k, hk⟩ := value_entry l i
  simp only [hk]
  have hc : ∀ j : Fin 4, DifferentiableAt ℝ (fun x : Fin q0.len → ℝ => x j) (coordsOf q0) := fun j => differentiableAt_apply j _
  have h0 := hc 0
  have h1 := hc 1
  have h2 := hc 2
  have h3 := hc 3
  have hn : (coordsOf q0 (0 : Fin 4)) ^ 2 + (coordsOf q0 (1 : Fin 4)) ^ 2 + (coordsOf q0 (2 : Fin 4)) ^ 2 + (coordsOf q0 (3 : Fin 4)) ^ 2 ≠ 0 := by
    simp [coordsOf, q0]
  have hinv : DifferentiableAt ℝ (fun x : Fin q0.len → ℝ => (x (0 : Fin 4) ^ 2 + x (1 : Fin 4) ^ 2 + x (2 : Fin 4) ^ 2 + x (3 : Fin 4) ^ 2)⁻¹)
      (coordsOf q0) := ((((h0.pow 2).add (h1.pow 2)).add (h2.pow 2)).add (h3.pow 2)).inv hn
  have e : ∀ x : Fin q0.len → ℝ, tip l (vecOf x) k =
      (x (0 : Fin 4) ^ 2 + x (1 : Fin 4) ^ 2 + x (2 : Fin 4) ^ 2 + x (3 : Fin 4) ^ 2)⁻¹ * rotate (quatAt (vecOf x).get 0) ![l, 0, 0] k := by
    intro x
    show (Quaternion.normSq (quatAt (vecOf x).get 0))⁻¹ * _ = _
    rw [normSq_quatAt]
    rfl
  simp only [e]
  refine hinv.mul ?_
  have q0e : ∀ x : Fin q0.len → ℝ, (quatAt (vecOf x).get 0).re = x (0 : Fin 4) := fun _ => rfl
  have q1e : ∀ x : Fin q0.len → ℝ, (quatAt (vecOf x).get 0).imI = x (1 : Fin 4) := fun _ => rfl
  have q2e : ∀ x : Fin q0.len → ℝ, (quatAt (vecOf x).get 0).imJ = x (2 : Fin 4) := fun _ => rfl
  have q3e : ∀ x : Fin q0.len → ℝ, (quatAt (vecOf x).get 0).imK = x (3 : Fin 4) := fun _ => rfl
  fin_cases k
  · show DifferentiableAt ℝ (fun x => rotate _ _ 0) _
    simp only [rotate_apply0, q0e, q1e, q2e, q3e]
    fun_prop
  · show DifferentiableAt ℝ (fun x => rotate _ _ 1) _
    simp only [rotate_apply1, q0e, q1e, q2e, q3e]
    fun_prop
  · show DifferentiableAt ℝ (fun x => rotate _ _ 2) _
    simp only [rotate_apply2, q0e, q1e, q2e, q3e]
    fun_prop

/-- Turning about the vertical axis moves the tip sideways, at a rate that is the length of the rod. -/
theorem rate (l : ℝ) : HasDerivAt (fun t => (value l (integrate (env l) model q0 v t)).get 1) l 0 := by
  have e : ∀ t, (value l (integrate (env l) model q0 v t)).get 1 = 2 * (Real.cos (t / 2) * Real.sin (t / 2)) * l := by
    intro t
    have hq : quatAt (integrate (env l) model q0 v t).get 0 = quatIntegrateR (quatAt q0.get 0) (vec3At v.get 0) t := rfl
    have hone : quatAt q0.get 0 = 1 := by ext <;> simp [quatAt, q0]
    have hs : sq3 (vec3At v.get 0) = 1 := by simp [sq3, vec3At, v]
    have hr : quatIntegrateR (quatAt q0.get 0) (vec3At v.get 0) t = axisQuat (vec3At v.get 0) t := by
      rw [hone, quatIntegrateR_unit (by simp), one_mul]
    have hv : (value l (integrate (env l) model q0 v t)).get 1 = tip l (integrate (env l) model q0 v t) 1 := sub_zero _
    rw [hv]
    show (Quaternion.normSq (quatAt (integrate (env l) model q0 v t).get 0))⁻¹ *
      rotate (quatAt (integrate (env l) model q0 v t).get 0) ![l, 0, 0] 1 = _
    rw [hq, hr, axisQuat_normSq, inv_one, one_mul, rotate_apply1]
    have a0 : (axisQuat (vec3At v.get 0) t).re = Real.cos (t / 2) := by simp [axisQuat, hs]
    have a1 : (axisQuat (vec3At v.get 0) t).imI = 0 := by simp [axisQuat, vec3At, v]
    have a2 : (axisQuat (vec3At v.get 0) t).imJ = 0 := by simp [axisQuat, vec3At, v]
    have a3 : (axisQuat (vec3At v.get 0) t).imK = Real.sin (t / 2) := by
      have h2 : vec3At v.get 0 2 = 1 := by simp [vec3At, v]
      simp [axisQuat, hs, h2]
    rw [a0, a1, a2, a3]
    simp
  simp only [e]
  have hh : HasDerivAt (fun t : ℝ => t / 2) (1 / 2) 0 := (hasDerivAt_id (0 : ℝ)).div_const 2
  have hd := (((hh.cos).mul (hh.sin)).const_mul 2).mul_const l
  refine hd.congr_deriv ?_
  simp

end Rod

/-- **C78 is false** for rotations of free and ball joints: a rod of length `l` on a ball joint, turning about the vertical axis.  The error of
the position task of its tip changes at the rate `l` in the second entry, the Jacobian says `2 l`. -/
theorem C78_wrong (l : ℝ) : ∃ (J : Mat ℝ) (e : Vec ℝ → Vec ℝ),
    evalJacobian (Rod.env l) Rod.task (update (Rod.env l) Rod.model Rod.q0) = .ok J ∧
    (∀ q, evalValue (Rod.env l) Rod.task (update (Rod.env l) Rod.model q) = .ok (e q)) ∧
    HasDerivAt (fun t => (e (integrate (Rod.env l) Rod.model Rod.q0 Rod.v t)).get 1) l 0 ∧
    rowDot J 1 Rod.v.get = 2 * l := by
  obtain ⟨J, hJ⟩ : ∃ J, evalJacobian (Rod.env l) Rod.task (update (Rod.env l) Rod.model Rod.q0) = .ok J := ⟨_, rfl⟩
  refine ⟨J, Rod.value l, hJ, Rod.value_eq l, Rod.rate l, ?_⟩
  have h := C78_rate (env := Rod.env l) (j := Rod.task) (d := update (Rod.env l) Rod.model Rod.q0) (n := 3) rfl (jacrevR_exact rfl) Rod.model_wf (Rod.kept l) trivial rfl Rod.unit hJ
    (Rod.value_eq l) (fun _ => rfl) (Rod.smooth l) Rod.v (i := 1) (by norm_num)
  have h1 := h.unique (Rod.rate l)
  have hc : J.cols = 3 := auto_cols (env := Rod.env l) (j := Rod.task) (d := update (Rod.env l) Rod.model Rod.q0) (jacrevR_exact rfl) Rod.model_wf (Rod.kept l) trivial rfl hJ (Rod.value_eq l)
  have hnv : Rod.task.model.nv = 3 := rfl
  unfold rowDot
  rw [hc]
  rw [hnv] at h1
  have ha : ∀ k < 3, angularDof Rod.task.model k = true := by decide
  rw [← h1, mul_sum]
  refine sum_congr rfl fun k hk => ?_
  rw [if_pos (ha k (mem_range.1 hk))]
  ring

/-! A crane: a trolley on a slide that carries an arm of length 2 on a hinge.  All hypotheses of `C78_rate_partial` hold at every
configuration and for every velocity. -/
namespace Crane

noncomputable def tip (q : Vec ℝ) : V3 ℝ := ![q.get 0 + 2 * Real.cos (q.get 1), 2 * Real.sin (q.get 1), 0]

noncomputable def env : Env ℝ := { Rod.env 0 with kinematics := fun _ q => { Rod.data 0 q with xpos := [0, tip q] } }

noncomputable def model : MjModel ℝ :=
  { (MjModel.empty : MjModel ℝ) with
    nq := 2, nv := 2, nbody := 2, jntType := [.slide, .hinge], jntQposadr := [0, 1], jntDofadr := [0, 1], jntRange := [(-1, 1), (-3, 3)],
    bodyParentid := [0, 0], bodyRootid := [0, 1], bodyWeldid := [0, 1], dofBodyid := [1, 1], bodyMass := [0, 1],
    bodyNames := ["world", "arm"] }

noncomputable def task : JaxComp ℝ := { Rod.task with model := model }

noncomputable def value (q : Vec ℝ) : Vec ℝ := ⟨3, fun i => ((vec3 (tip q)).gather [0, 1, 2]).get i - 0⟩

theorem smooth (q : Vec ℝ) (h : q.len = 2) : Smooth value q := by
  obtain ⟨n, g⟩ := q
  obtain rfl : n = 2 := h
  intro i _
  have hk : ∃ k : Fin 3, ∀ q, (value q).get i = tip q k := by
    match i with
    | 0 => exact ⟨0, fun q => sub_zero _⟩
    | 1 => exact ⟨1, fun q => sub_zero _⟩
    | 2 => exact ⟨2, fun q => sub_zero _⟩
    | n + 3 => exact ⟨0, fun q => sub_zero _⟩
  obtain ⟨k, hk⟩ := hk
  simp only [hk]
  have h0 : DifferentiableAt ℝ (fun x : Fin 2 → ℝ => x 0) (coordsOf ⟨2, g⟩) := differentiableAt_apply _ _
  have h1 : DifferentiableAt ℝ (fun x : Fin 2 → ℝ => x 1) (coordsOf ⟨2, g⟩) := differentiableAt_apply _ _
  fin_cases k
  · exact h0.add (h1.cos.const_mul 2)
  · exact h1.sin.const_mul 2
  · exact differentiableAt_const 0

example (q v : Vec ℝ) (hq : q.len = 2) : ∃ J, evalJacobian env task (update env model q) = .ok J ∧
    ∀ i < 3, HasDerivAt (fun t => (value (integrate env model q v t)).get i) (rowDot J i v.get) 0 := by
  refine ⟨_, rfl, fun i hi => ?_⟩
  refine C78_rate_partial (env := env) (j := task) (d := update env model q) (n := 3) rfl (jacrevR_exact rfl) ⟨by repeat' constructor, rfl⟩
    ⟨fun _ => rfl, fun _ => rfl, fun _ => rfl, fun _ => rfl⟩ trivial hq ?_ rfl (fun _ => rfl) (fun _ => rfl) (smooth q hq) v ?_ hi
  · intro k adr h
    match k with
    | 0 => cases h
    | 1 => cases h
    | k + 2 =>
      have e : (task.model.jntType.getD (k + 2) .hinge) = .hinge := rfl
      rw [e] at h
      cases h
  · intro k hk h
    have : ∀ k < 2, angularDof task.model k = false := by decide
    rw [this k hk] at h
    cases h

end Crane

end Mjinx.Props
