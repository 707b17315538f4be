import Verif.Props.LoopClosure
import Verif.Lemmas.Spin
import Verif.Spec.Welds

/-!
# C116: hard equality constraints keep bodies welded
-/

set_option linter.unusedSectionVars false

namespace Mjinx.Props
open Mjinx Mjinx.Spec Finset
open scoped Matrix Quaternion

theorem flatten_six {α : Type} (rs : List (List α)) (h : ∀ r ∈ rs, r.length = 6) : rs.flatten.length = 6 * rs.length ∧
    ∀ k r, rs[k]? = some r → ∀ a < 6, rs.flatten[6 * k + a]? = r[a]? := by
  induction rs with
  | nil => exact ⟨rfl, fun k r h => by simp at h⟩
  | cons r0 rs ih =>
    obtain ⟨l1, l2⟩ := ih fun r hr => h r (by simp [hr])
    have h0 := h r0 (by simp)
    refine ⟨by rw [List.flatten_cons, List.length_append, l1, h0, List.length_cons]; ring, fun k r hk a ha => ?_⟩
    rw [List.flatten_cons]
    cases k with
    | zero =>
      simp only [List.getElem?_cons_zero, Option.some.injEq] at hk
      subst hk
      rw [List.getElem?_append_left (by omega)]
      simp
    | succ k =>
      rw [List.getElem?_cons_succ] at hk
      rw [List.getElem?_append_right (by omega), h0, ← l2 k r hk a ha]
      congr 1
      omega

section
variable {env : Env ℝ} {G : Geometry} {m : MjModel ℝ} {cs : List Connect} {ws : List Weld} {ks : List Coupling}

theorem weld_lengths {d : MjData ℝ} {rs : List (List EfcRow)} (h : ws.mapM (weldRows m d) = .ok rs) : ∀ r ∈ rs, r.length = 6 := by
  intro r hr
  obtain ⟨c, -, hc⟩ := (mapM_mem h).2.1 r hr
  unfold weldRows at hc
  obtain ⟨_, _, hc⟩ := Except.bind_eq_ok hc
  obtain ⟨_, _, hc⟩ := Except.bind_eq_ok hc
  obtain ⟨_, _, hc⟩ := Except.bind_eq_ok hc
  obtain ⟨_, _, hc⟩ := Except.bind_eq_ok hc
  obtain ⟨_, _, hc⟩ := Except.bind_eq_ok hc
  obtain ⟨_, _, hc⟩ := Except.bind_eq_ok hc
  obtain ⟨_, _, hc⟩ := Except.bind_eq_ok hc
  obtain ⟨_, _, hc⟩ := Except.bind_eq_ok hc
  cases hc
  rfl

theorem welds_loops (hl : SimulatesWelds env G m cs ws ks) : SimulatesLoops env G m cs ks where
  supported := hl.supported
  connects := hl.connects
  joints := hl.joints
  bodies := hl.bodies
  coupled := hl.coupled
  rows := by
    intro q d hd
    obtain ⟨rs, ss, os, eqs, h1, h2, h3, h4⟩ := hl.rows q d hd
    refine ⟨rs, ss.flatten, os, eqs, h1, ?_, h3, h4⟩
    rw [(flatten_six ss (weld_lengths h2)).1, (mapM_mem h2).2.2, hl.welds]

/-- The rows of a compiled equality constraint, with welds. -/
theorem weld_values (hs : Simulates env G m) (hl : SimulatesWelds env G m cs ws ks) {j : JaxComp ℝ} (hj : CompiledLoops m j) (q : Vec ℝ) :
    ∃ (rs ss : List (List EfcRow)) (eqs : List EfcRow), cs.mapM (connectRows m (simComPos G m (simKinematics G m q))) = .ok rs ∧
      ws.mapM (weldRows m (simComPos G m (simKinematics G m q))) = .ok ss ∧
      eqs = rs.flatten ++ ss.flatten ++ ks.map (couplingRow G m (simComPos G m (simKinematics G m q))) ∧
      ∃ V J, evalValue env j (update env m q) = .ok V ∧ evalJacobian env j (update env m q) = .ok J ∧ V.len = eqs.length ∧ J.rows = eqs.length ∧ J.cols = m.nv ∧
        ∀ i e, eqs[i]? = some e → V.get i = e.pos ∧ ∀ k, J.get i k = e.jac.get k := by
  obtain ⟨rs, ss, os, eqs, r1, r2, r3, r4⟩ := hl.rows q _ rfl
  have hu : update env m q = env.makeConstraint m (simComPos G m (simKinematics G m q)) := by rw [update, hs.kinematics, hs.comPos]
  rw [r4] at hu
  refine ⟨rs, ss, eqs, r1, r2, r3, rows_values hj hl.supported ?_ hu⟩
  rw [r3, List.length_append, List.length_append, (flatten_three rs (connect_lengths r1)).1, (mapM_mem r1).2.2, (flatten_six ss (weld_lengths r2)).1,
    (mapM_mem r2).2.2, List.length_map, hl.connects, hl.joints, hl.welds]

/-- How far the frames of a weld are apart. -/
noncomputable def weldApart (G : Geometry) (m : MjModel ℝ) (w : Weld) (q : Vec ℝ) : V3 ℝ :=
  (bodyPose G m q.get w.body1).apply w.anchor2 - (bodyPose G m q.get w.body2).apply w.anchor1
noncomputable def weldTurn (G : Geometry) (m : MjModel ℝ) (w : Weld) (q : Vec ℝ) : V3 ℝ :=
  w.torquescale • imVec (star (bodyPose G m q.get w.body2).rot * ((bodyPose G m q.get w.body1).rot * w.relpose))

theorem weldOff_iff (hs : Simulates env G m) {w : Weld} (hb : w.body1 < m.nbody ∧ w.body2 < m.nbody) (q : Vec ℝ) (u r : V3 ℝ) :
    WeldOff (update env m q) w u r ↔ u = weldApart G m w q ∧ r = weldTurn G m w q := by
  unfold WeldOff
  rw [update_frame hs q hb.1, update_frame hs q hb.2]
  constructor
  · rintro ⟨T1, T2, h1, h2, rfl, rfl⟩
    cases h1; cases h2
    exact ⟨rfl, rfl⟩
  · rintro ⟨rfl, rfl⟩
    exact ⟨_, _, rfl, rfl, rfl, rfl⟩

theorem weld_rows (hs : Simulates env G m) {w : Weld} (hb : w.body1 < m.nbody ∧ w.body2 < m.nbody) (q : Vec ℝ) {r : List EfcRow}
    (h : weldRows m (simComPos G m (simKinematics G m q)) w = .ok r) : ∃ J1 J2,
      pointJacobian m (update env m q) ((bodyPose G m q.get w.body1).apply w.anchor2) w.body1 = .ok J1 ∧
      pointJacobian m (update env m q) ((bodyPose G m q.get w.body2).apply w.anchor1) w.body2 = .ok J2 ∧
      ∀ a : Fin 3, r[a.1]? = some ⟨weldApart G m w q a, ⟨m.nv, fun k => (J1.getD k (0, 0)).1 a - (J2.getD k (0, 0)).1 a⟩⟩ ∧
        r[3 + a.1]? = some ⟨weldTurn G m w q a, ⟨m.nv, fun k => (1 / 2) * imVec (star (bodyPose G m q.get w.body2).rot *
          pureQuat (w.torquescale • ((J1.getD k (0, 0)).2 - (J2.getD k (0, 0)).2)) * ((bodyPose G m q.get w.body1).rot * w.relpose)) a⟩⟩ := by
  have get : ∀ {α : Type} (f : Nat → α) {b : Nat}, b < m.nbody → jnpGet ((List.range m.nbody).map f) (b : Int) = .ok (f b) := by
    intro α f b hb
    refine jnpGet_some ?_
    rw [List.getElem?_map, List.getElem?_range hb]; rfl
  have x1 : ∀ {b : Nat}, b < m.nbody → jnpGet (simComPos G m (simKinematics G m q)).xmat (b : Int) = .ok (quatMat (bodyPose G m q.get b).rot) := fun h => get _ h
  have x2 : ∀ {b : Nat}, b < m.nbody → jnpGet (simComPos G m (simKinematics G m q)).xpos (b : Int) = .ok (bodyPose G m q.get b).trans := fun h => get _ h
  have x3 : ∀ {b : Nat}, b < m.nbody → jnpGet (simComPos G m (simKinematics G m q)).xquat (b : Int) = .ok (bodyPose G m q.get b).rot := fun h => get _ h
  have hpj : ∀ p b, pointJacobian m (update env m q) p b = pointJacobian m (simComPos G m (simKinematics G m q)) p b := by
    obtain ⟨e, p, J, hu⟩ := update_fields hs q
    intro p b
    rw [hu]
    rfl
  have hap : ∀ (T : SE3 ℝ) (x : V3 ℝ), (quatMat T.rot).mulVec x + T.trans = T.apply x := fun T x => by rw [quatMat_mulVec]; rfl
  unfold weldRows at h
  simp only [x1 hb.1, x1 hb.2, x2 hb.1, x2 hb.2, x3 hb.1, x3 hb.2, bind, Except.bind, hap] at h
  split at h
  · cases h
  rename_i J1 h1
  split at h
  · cases h
  rename_i J2 h2
  refine ⟨J1, J2, (hpj _ _).trans h1, (hpj _ _).trans h2, fun a => ?_⟩
  cases h
  fin_cases a <;> exact ⟨rfl, rfl⟩

/-- The quaternion of a body turns with the angular velocity that the Jacobian of its points gives. -/
theorem body_quat_rate (hs : Simulates env G m) (hw : RobotWF G m) {q : Vec ℝ} (hu : UnitQuats m q) {b : Nat} (hb : b < m.nbody) {p : V3 ℝ}
    {rows : List (V3 ℝ × V3 ℝ)} (hJ : pointJacobian m (update env m q) p b = .ok rows) (v : Vec ℝ) :
    HasDerivAt (fun s => (bodyPose G m (integrate env m q v s).get b).rot)
      ((1 / 2 : ℝ) • (pureQuat (objVelocity rows v.get).2 * (bodyPose G m q.get b).rot)) 0 := by
  have hm := integrate_moves hs.quat hw.addr hu v
  obtain ⟨tw, hunit⟩ := body_twist hw hm hu b hb
  obtain ⟨root, com, h1, h2, hvel⟩ := rows_velocity hs hw hu v.get hb p
  have hrows : rows = ((update env m q).cdof.zip (dofMask m b)).map (fun x => maskRow x.2 (pointVel (p - com) x.1, x.1.1)) := by
    rw [pointJacobian] at hJ
    simp only [bind, Except.bind, h1, h2] at hJ
    exact (Except.ok.inj hJ).symm
  have hom := congrArg Prod.snd hvel
  rw [← hrows] at hom
  -- the quaternion is differentiable
  have hvec : ∀ s, integrate env m q v s = vecOf (fun k : Fin m.nq => (integrate env m q v s).get k) := by
    intro s
    have hl := C71_size (env := env) hw.addr q v s
    have hg : (integrate env m q v s).get = fun i => if h : i < m.nq then (integrate env m q v s).get i else 0 := by
      funext i
      by_cases h : i < m.nq
      · rw [dif_pos h]
      · rw [dif_neg h]
        show (integrateLoop env.quatIntegrate q.get v.get s m.jntType 0 0).getD i 0 = 0
        rw [List.getD_eq_default]
        have : (integrateLoop env.quatIntegrate q.get v.get s m.jntType 0 0).length = m.nq := hl
        omega
    show (⟨_, _⟩ : Vec ℝ) = ⟨m.nq, fun i => if h : i < m.nq then (integrate env m q v s).get i else 0⟩
    rw [← hg, ← hl]
    rfl
  let x : ℝ → Fin m.nq → ℝ := fun s k => (integrate env m q v s).get k
  have hx : DifferentiableAt ℝ x 0 := differentiableAt_pi.2 fun k => (C44_derivative_partial hs.quat hw.addr hu v k).differentiableAt
  have hu0 : UnitQuats m (vecOf (x 0)) := by
    rw [← hvec 0]
    exact C71_unit hs.quat hw.addr (fun k adr h h0 => by
      have := hu k adr h
      rw [h0] at this
      simp at this) v 0
  have hsm := bodyPose_smooth (G := G) (k := 1) (unit_nonzero hu0) b
  have hdiff : ∃ r', HasDerivAt (fun s => (bodyPose G m (integrate env m q v s).get b).rot) r' 0 := by
    have e : (fun s => (bodyPose G m (integrate env m q v s).get b).rot) = fun s => (bodyPose G m (vecOf (x s)).get b).rot := by
      funext s
      rw [hvec s]
    have d : ∀ {f : (Fin m.nq → ℝ) → ℝ}, ContDiffAt ℝ 1 f (x 0) → HasDerivAt (fun s => f (x s)) (deriv (fun s => f (x s)) 0) 0 := fun {f} hf =>
      (DifferentiableAt.comp (0 : ℝ) (hf.differentiableAt (by simp)) hx).hasDerivAt
    rw [e]
    exact ⟨⟨_, _, _, _⟩, hasDerivAt_quat.2 ⟨d hsm.re, d hsm.imI, d hsm.imJ, d hsm.imK⟩⟩
  obtain ⟨r', hr'⟩ := hdiff
  have := quat_turn hr' hunit tw.rot
  rw [hom]
  rw [this, start_pose hs hw hu v hb] at hr'
  exact hr'

/-- The rate of the rotation between the frames of a weld. -/
theorem weldTurn_rate (hs : Simulates env G m) (hw : RobotWF G m) {q : Vec ℝ} (hu : UnitQuats m q) {w : Weld} (hb : w.body1 < m.nbody ∧ w.body2 < m.nbody)
    {p1 p2 : V3 ℝ} {J1 J2 : List (V3 ℝ × V3 ℝ)} (h1 : pointJacobian m (update env m q) p1 w.body1 = .ok J1)
    (h2 : pointJacobian m (update env m q) p2 w.body2 = .ok J2) (v : Vec ℝ) (a : Fin 3) :
    HasDerivAt (fun s => weldTurn G m w (integrate env m q v s) a)
      (∑ k ∈ range m.nv, (1 / 2) * imVec (star (bodyPose G m q.get w.body2).rot *
          pureQuat (w.torquescale • ((J1.getD k (0, 0)).2 - (J2.getD k (0, 0)).2)) * ((bodyPose G m q.get w.body1).rot * w.relpose)) a * v.get k) 0 := by
  have d1 := body_quat_rate hs hw hu hb.1 h1 v
  have d2 := hasDerivAt_star (body_quat_rate hs hw hu hb.2 h2 v)
  have hd := hasDerivAt_imVec (d2.mul (d1.mul_const w.relpose)) a
  refine (hd.const_mul w.torquescale).congr_deriv ?_
  rw [start_pose hs hw hu v hb.1, start_pose hs hw hu v hb.2]
  set A := (bodyPose G m q.get w.body1).rot
  set B := (bodyPose G m q.get w.body2).rot
  -- the vector part, as a linear map of the angular velocity
  let L : V3 ℝ →ₗ[ℝ] ℝ :=
    { toFun := fun x => imVec (star B * pureQuat x * (A * w.relpose)) a
      map_add' := fun x y => by
        have : pureQuat (x + y) = pureQuat x + pureQuat y := by ext <;> simp [pureQuat_re, pureQuat_imI, pureQuat_imJ, pureQuat_imK]
        rw [this, mul_add, add_mul]
        fin_cases a <;> simp [imVec]
      map_smul' := fun c x => by
        have : pureQuat (c • x) = c • pureQuat x := by ext <;> simp [pureQuat_re, pureQuat_imI, pureQuat_imJ, pureQuat_imK]
        rw [this, mul_smul_comm, smul_mul_assoc]
        fin_cases a <;> simp [imVec] }
  have hL : ∀ x, imVec (star B * pureQuat x * (A * w.relpose)) a = L x := fun x => rfl
  simp only [hL]
  have e1 : star ((1 / 2 : ℝ) • (pureQuat (objVelocity J2 v.get).2 * B)) * (A * w.relpose) + star B * ((1 / 2 : ℝ) • (pureQuat (objVelocity J1 v.get).2 * A) * w.relpose) =
      (1 / 2 : ℝ) • (star B * pureQuat (objVelocity J1 v.get).2 * (A * w.relpose) - star B * pureQuat (objVelocity J2 v.get).2 * (A * w.relpose)) := by
    rw [Quaternion.star_smul, star_mul, star_pureQuat, smul_mul_assoc, smul_mul_assoc, mul_smul_comm, ← smul_add]
    congr 1
    noncomm_ring
  have e2 : imVec (star ((1 / 2 : ℝ) • (pureQuat (objVelocity J2 v.get).2 * B)) * (A * w.relpose) +
      star B * ((1 / 2 : ℝ) • (pureQuat (objVelocity J1 v.get).2 * A) * w.relpose)) a = (1 / 2) * (L (objVelocity J1 v.get).2 - L (objVelocity J2 v.get).2) := by
    rw [e1, ← hL, ← hL]
    generalize star B * pureQuat (objVelocity J1 v.get).2 * (A * w.relpose) = X
    generalize star B * pureQuat (objVelocity J2 v.get).2 * (A * w.relpose) = Y
    fin_cases a <;> simp [imVec]
  rw [e2, objVelocity_extend J1 v.get (point_rows hs hw h1).le, objVelocity_extend J2 v.get (point_rows hs hw h2).le, Prod.snd_sum, Prod.snd_sum, map_sum, map_sum,
    ← Finset.sum_sub_distrib, Finset.mul_sum, Finset.mul_sum]
  refine Finset.sum_congr rfl fun k _ => ?_
  simp only [Prod.smul_snd, map_smul, map_sub, smul_eq_mul]
  ring

/-- The rows of a weld. -/
theorem weld_row (hs : Simulates env G m) (hw : RobotWF G m) (hl : SimulatesWelds env G m cs ws ks) {j : JaxComp ℝ} (hj : CompiledLoops m j) {k : Nat} {w : Weld}
    (hk : ws[k]? = some w) (a : Fin 3) {q : Vec ℝ} (hu : UnitQuats m q) :
    ∃ V J, evalValue env j (update env m q) = .ok V ∧ evalJacobian env j (update env m q) = .ok J ∧
      (weldPosAt m k a < J.rows ∧ weldPosAt m k a < V.len ∧ V.get (weldPosAt m k a) = weldApart G m w q a ∧
        ∀ v : Vec ℝ, HasDerivAt (fun s => weldApart G m w (integrate env m q v s) a) (rowDot J (weldPosAt m k a) v.get) 0) ∧
      weldRotAt m k a < J.rows ∧ weldRotAt m k a < V.len ∧ V.get (weldRotAt m k a) = weldTurn G m w q a ∧
        ∀ v : Vec ℝ, HasDerivAt (fun s => weldTurn G m w (integrate env m q v s) a) (rowDot J (weldRotAt m k a) v.get) 0 := by
  obtain ⟨rs, ss, eqs, r1, r2, r3, V, J, h1, h2, h3, h4, h5, h6⟩ := weld_values hs hl hj q
  obtain ⟨hb1, hb2, -⟩ := hl.welded w (List.mem_of_getElem? hk)
  have hb := And.intro hb1 hb2
  obtain ⟨r, hr, hwr⟩ := (mapM_get r2).2 k w hk
  obtain ⟨J1, J2, e1, e2, e3⟩ := weld_rows hs hb q hwr
  have hrs := connect_lengths r1
  have hss := weld_lengths r2
  have hrow : ∀ i < 6, ∀ e, r[i]? = some e → eqs[3 * m.eqType.count .connect + (6 * k + i)]? = some e := by
    intro i hi e he
    have := (flatten_six ss hss).2 k r hr i hi
    rw [he] at this
    obtain ⟨hlt, -⟩ := List.getElem?_eq_some_iff.1 this
    have hlen : rs.flatten.length = 3 * m.eqType.count .connect := by rw [(flatten_three rs hrs).1, (mapM_mem r1).2.2, hl.connects]
    rw [r3, List.append_assoc, List.getElem?_append_right (by omega), hlen, Nat.add_sub_cancel_left, List.getElem?_append_left hlt]
    exact this
  have hp := hrow a.1 (by omega) _ (e3 a).1
  have hq := hrow (3 + a.1) (by omega) _ (e3 a).2
  have lp := (List.getElem?_eq_some_iff.1 hp).1
  have lq := (List.getElem?_eq_some_iff.1 hq).1
  obtain ⟨g1, g2⟩ := h6 _ _ hp
  obtain ⟨g3, g4⟩ := h6 _ _ hq
  refine ⟨V, J, h1, h2, ⟨by unfold weldPosAt; omega, by unfold weldPosAt; omega, g1, fun v => ?_⟩, by unfold weldRotAt; omega, by unfold weldRotAt; omega, g3, fun v => ?_⟩
  · obtain ⟨T1, t1, rows1, p1, d1⟩ := C107_point hs hw hu hb.1 w.anchor2
    obtain ⟨T2, t2, rows2, p2, d2⟩ := C107_point hs hw hu hb.2 w.anchor1
    rw [update_frame hs q hb.1] at t1; cases t1
    rw [update_frame hs q hb.2] at t2; cases t2
    rw [e1] at p1; cases p1
    rw [e2] at p2; cases p2
    obtain ⟨F1, f1, -, f3⟩ := d1 v
    obtain ⟨F2, f4, -, f6⟩ := d2 v
    have q1 : ∀ s, F1 s = bodyPose G m (integrate env m q v s).get w.body1 := fun s => Except.ok.inj ((f1 s).symm.trans (update_frame hs _ hb.1))
    have q2 : ∀ s, F2 s = bodyPose G m (integrate env m q v s).get w.body2 := fun s => Except.ok.inj ((f4 s).symm.trans (update_frame hs _ hb.2))
    have hd := (f3 a).sub (f6 a)
    simp only [q1, q2] at hd
    refine hd.congr_deriv ?_
    rw [objVelocity_extend J1 v.get (point_rows hs hw e1).le, objVelocity_extend J2 v.get (point_rows hs hw e2).le, rowDot, h5, Prod.fst_sum, Prod.fst_sum,
      Finset.sum_apply, Finset.sum_apply, ← Finset.sum_sub_distrib]
    refine Finset.sum_congr rfl fun i _ => ?_
    rw [weldPosAt, g2]
    simp only [Prod.smul_fst, Pi.smul_apply, smul_eq_mul]
    ring
  · refine (weldTurn_rate hs hw hu hb e1 e2 v a).congr_deriv ?_
    rw [rowDot, h5]
    refine Finset.sum_congr rfl fun i _ => ?_
    rw [weldRotAt, g4]

/-! ### What the rows mean -/

/-- A unit quaternion without vector part does not turn. -/
theorem rotate_scalar {q : ℍ[ℝ]} (hu : Quaternion.normSq q = 1) (h : imVec q = 0) (p : V3 ℝ) : rotate q p = p := by
  have h0 : q.imI = 0 := congrFun h 0
  have h1 : q.imJ = 0 := congrFun h 1
  have h2 : q.imK = 0 := congrFun h 2
  rw [Quaternion.normSq_def', h0, h1, h2] at hu
  have hr : q.re * q.re = 1 := by nlinarith
  rw [← quatMat_mulVec, quatMat_entries, h0, h1, h2]
  funext a
  fin_cases a <;> simp [Matrix.mulVec, dotProduct, Fin.sum_univ_three, sq, hr]

theorem vector_of_fixed {q : ℍ[ℝ]} (hu : Quaternion.normSq q = 1) (h : ∀ p, rotate q p = p) : imVec q = 0 := by
  have hM : quatMat q = 1 := by
    symm
    exact mat_eq_quatMat fun v => by rw [h v, Matrix.one_mulVec]
  rw [quatMat_entries] at hM
  have h00 := congrFun (congrFun hM 0) 0
  have h11 := congrFun (congrFun hM 1) 1
  have h22 := congrFun (congrFun hM 2) 2
  simp at h00 h11 h22
  rw [Quaternion.normSq_def'] at hu
  have i0 : q.imI ^ 2 = 0 := by nlinarith
  have i1 : q.imJ ^ 2 = 0 := by nlinarith
  have i2 : q.imK ^ 2 = 0 := by nlinarith
  funext a
  fin_cases a
  · exact pow_eq_zero_iff (two_ne_zero) |>.1 i0
  · exact pow_eq_zero_iff (two_ne_zero) |>.1 i1
  · exact pow_eq_zero_iff (two_ne_zero) |>.1 i2

/-- All rows of a weld are zero exactly when the bodies are where the weld wants them. -/
theorem welded_iff (hs : Simulates env G m) (hw : RobotWF G m) {q : Vec ℝ} (hu : UnitQuats m q) {w : Weld} (hb : w.body1 < m.nbody ∧ w.body2 < m.nbody)
    (hr : Quaternion.normSq w.relpose = 1) (ht : w.torquescale ≠ 0) :
    Welded (update env m q) w ↔ weldApart G m w q = 0 ∧ weldTurn G m w q = 0 := by
  have hunit : ∀ b < m.nbody, Quaternion.normSq (bodyPose G m q.get b).rot = 1 := fun b hb => by
    have h := (body_twist hw (integrate_moves hs.quat hw.addr hu ⟨0, fun _ => 0⟩) hu b hb).2 0
    rwa [start_pose hs hw hu _ hb] at h
  have u1 := hunit _ hb.1
  have u2 := hunit _ hb.2
  unfold Welded
  rw [update_frame hs q hb.1, update_frame hs q hb.2]
  unfold weldApart weldTurn
  set T1 := bodyPose G m q.get w.body1
  set T2 := bodyPose G m q.get w.body2
  have hun : Quaternion.normSq (star T2.rot * (T1.rot * w.relpose)) = 1 := by rw [map_mul, map_mul, Quaternion.normSq_star, u1, u2, hr]; norm_num
  have hinv : ∀ x y : V3 ℝ, rotate (star T2.rot) x = y ↔ x = rotate T2.rot y := by
    intro x y
    have h1 : T2.rot * star T2.rot = 1 := by rw [Quaternion.self_mul_star, u2]; rfl
    have h2 : star T2.rot * T2.rot = 1 := by rw [Quaternion.star_mul_self, u2]; rfl
    constructor
    · rintro rfl
      rw [← rotate_mul, h1, rotate_one]
    · rintro rfl
      rw [← rotate_mul, h2, rotate_one]
  have key : (∀ p, T1.apply (w.anchor2 + rotate w.relpose p) = T2.apply (w.anchor1 + p)) ↔
      T1.apply w.anchor2 - T2.apply w.anchor1 = 0 ∧ ∀ p, rotate (star T2.rot * (T1.rot * w.relpose)) p = p := by
    have e1 : ∀ p, T1.apply (w.anchor2 + rotate w.relpose p) = T1.apply w.anchor2 + rotate T1.rot (rotate w.relpose p) := fun p => by
      simp only [SE3.apply, rotate_add]; abel
    have e2 : ∀ p, T2.apply (w.anchor1 + p) = T2.apply w.anchor1 + rotate T2.rot p := fun p => by
      simp only [SE3.apply, rotate_add]; abel
    simp only [e1, e2, rotate_mul, hinv]
    constructor
    · intro h
      have h0 := h 0
      simp only [rotate_zero, add_zero] at h0
      refine ⟨sub_eq_zero.2 h0, fun p => ?_⟩
      have := h p
      rw [h0] at this
      exact add_left_cancel this
    · rintro ⟨h0, h1⟩ p
      rw [sub_eq_zero.1 h0, h1 p]
  constructor
  · rintro ⟨S1, S2, h1, h2, h3⟩
    cases h1; cases h2
    obtain ⟨k1, k2⟩ := key.1 h3
    exact ⟨k1, by rw [vector_of_fixed hun k2, smul_zero]⟩
  · rintro ⟨h1, h2⟩
    refine ⟨T1, T2, rfl, rfl, key.2 ⟨h1, fun p => ?_⟩⟩
    refine rotate_scalar hun ?_ p
    exact (smul_eq_zero.1 h2).resolve_left ht

/-- **C116** (rows): on a robot with any joints, a compiled equality constraint reports for every weld of the model how far the origins of its frames are apart and how
far they are turned against each other.  These six values are zero exactly when the bodies are where the weld wants them.  The rows of the Jacobian give the rates at
which they change. -/
theorem C116_rows (hs : Simulates env G m) (hw : RobotWF G m) (hl : SimulatesWelds env G m cs ws ks) {n : String} {gain : Arr ℝ} {hard : Bool} {soft : Option (Arr ℝ)}
    {c : Comp ℝ} (hc : MadeBy (.modelEquality n gain hard soft) c) {j : JaxComp ℝ} (hj : (jaxComponent c).1 = .ok j) (hm : j.model = m)
    {q : Vec ℝ} (hu : UnitQuats m q) :
    ∃ V J, evalValue env j (update env m q) = .ok V ∧ evalJacobian env j (update env m q) = .ok J ∧ ∀ k w, ws[k]? = some w →
      (∀ a, weldPosAt m k a < J.rows ∧ weldRotAt m k a < J.rows) ∧
      WeldOff (update env m q) w (fun a => V.get (weldPosAt m k a)) (fun a => V.get (weldRotAt m k a)) ∧
      (w.torquescale ≠ 0 → (Welded (update env m q) w ↔ ∀ a, V.get (weldPosAt m k a) = 0 ∧ V.get (weldRotAt m k a) = 0)) ∧
      ∀ v : Vec ℝ, ∃ u r : ℝ → V3 ℝ, (∀ s, WeldOff (update env m (integrate env m q v s)) w (u s) (r s)) ∧
        ∀ a, HasDerivAt (fun s => u s a) (rowDot J (weldPosAt m k a) v.get) 0 ∧ HasDerivAt (fun s => r s a) (rowDot J (weldRotAt m k a) v.get) 0 := by
  have hC : CompilesTo c.attrs j := by
    obtain ⟨c0, h0, hr⟩ := hc
    exact jaxComponent_spec (cacheOK_reachable (hr.reachable h0)) (c' := (jaxComponent c).2) (by rw [← hj])
  have hL := compiled_loops hc hC
  rw [hm] at hL
  obtain ⟨rs, ss, eqs, -, -, -, V, J, h1, h2, -⟩ := weld_values hs hl hL q
  refine ⟨V, J, h1, h2, fun k w hk => ?_⟩
  obtain ⟨hb1, hb2, hunit⟩ := hl.welded w (List.mem_of_getElem? hk)
  have hb := And.intro hb1 hb2
  have hrow : ∀ a, (weldPosAt m k a < J.rows ∧ V.get (weldPosAt m k a) = weldApart G m w q a ∧
      ∀ v : Vec ℝ, HasDerivAt (fun s => weldApart G m w (integrate env m q v s) a) (rowDot J (weldPosAt m k a) v.get) 0) ∧
      weldRotAt m k a < J.rows ∧ V.get (weldRotAt m k a) = weldTurn G m w q a ∧
      ∀ v : Vec ℝ, HasDerivAt (fun s => weldTurn G m w (integrate env m q v s) a) (rowDot J (weldRotAt m k a) v.get) 0 := by
    intro a
    obtain ⟨V', J', e1, e2, ⟨e3, -, e4, e5⟩, e6, -, e7, e8⟩ := weld_row hs hw hl hL hk a hu
    rw [h1] at e1; cases e1
    rw [h2] at e2; cases e2
    exact ⟨⟨e3, e4, e5⟩, e6, e7, e8⟩
  have hp : (fun a => V.get (weldPosAt m k a)) = weldApart G m w q := funext fun a => (hrow a).1.2.1
  have hq : (fun a => V.get (weldRotAt m k a)) = weldTurn G m w q := funext fun a => (hrow a).2.2.1
  refine ⟨fun a => ⟨(hrow a).1.1, (hrow a).2.1⟩, (weldOff_iff hs hb q _ _).2 ⟨hp, hq⟩, fun ht => ?_, fun v => ?_⟩
  · rw [welded_iff hs hw hu hb hunit ht]
    constructor
    · rintro ⟨i1, i2⟩ a
      rw [(hrow a).1.2.1, (hrow a).2.2.1, i1, i2]
      exact ⟨rfl, rfl⟩
    · intro h
      exact ⟨funext fun a => by rw [← (hrow a).1.2.1]; exact (h a).1, funext fun a => by rw [← (hrow a).2.2.1]; exact (h a).2⟩
  · exact ⟨_, _, fun s => (weldOff_iff hs hb _ _ _).2 ⟨rfl, rfl⟩, fun a => ⟨(hrow a).1.2.2 v, (hrow a).2.2.2 v⟩⟩

/-! ### Continuous motion -/

variable {T : ℝ} {x : ℝ → Fin m.nq → ℝ} {v : ℝ → Vec ℝ}

/-- **C116**: continuous control with a hard equality constraint, on a robot with any joints.  If at every moment the robot moves with a velocity that satisfies the
constraints of a problem containing the equality constraint (with the default `gain_fn`), then every one of the six errors of every weld decays exponentially with the
gain of its row.  In particular, bodies that are welded stay welded. -/
theorem C116_flow (hs : Simulates env G m) (hw : RobotWF G m) (hl : SimulatesWelds env G m cs ws ks) {n : String} {gain : Arr ℝ} {hard : Bool} {soft : Option (Arr ℝ)}
    {c : Comp ℝ} (hc : MadeBy (.modelEquality n gain hard soft) c) {j : JaxComp ℝ} (hj : (jaxComponent c).1 = .ok j) (hm : j.model = m)
    (hk : ∃ a W, j.kind = .modelEquality a true W) (hid : j.gainFn = id) {ps : ℝ → JaxProblem ℝ} (hf : FeasibleFlow env m ps T x v)
    (hin : ∀ t ∈ Set.Ico 0 T, ∃ name, (name, j) ∈ (ps t).comps) :
    ∀ t ∈ Set.Icc 0 T, ∀ k w, ws[k]? = some w →
      (∀ u0 r0 u r, WeldOff (update env m (vecOf (x 0))) w u0 r0 → WeldOff (update env m (vecOf (x t))) w u r →
        ∀ a, u a = Real.exp (- j.vectorGain.get [weldPosAt m k a] * t) * u0 a ∧ r a = Real.exp (- j.vectorGain.get [weldRotAt m k a] * t) * r0 a) ∧
      (w.torquescale ≠ 0 → Welded (update env m (vecOf (x 0))) w → Welded (update env m (vecOf (x t))) w) := by
  have hC : CompilesTo c.attrs j := by
    obtain ⟨c0, h0, hr⟩ := hc
    exact jaxComponent_spec (cacheOK_reachable (hr.reachable h0)) (c' := (jaxComponent c).2) (by rw [← hj])
  have hL := compiled_loops hc hC
  rw [hm] at hL
  intro t ht k w hkw
  obtain ⟨hb1, hb2, hunit⟩ := hl.welded w (List.mem_of_getElem? hkw)
  have hb := And.intro hb1 hb2
  have hpos : ∀ a, weldApart G m w (vecOf (x t)) a = Real.exp (- j.vectorGain.get [weldPosAt m k a] * t) * weldApart G m w (vecOf (x 0)) a := by
    intro a
    refine row_decays (F := fun q => weldApart G m w q a) hs hw hf hin hk hid (fun q _ hu => ?_) (fun y hu => ?_) t ht
    · obtain ⟨V, J, e1, e2, e3, -⟩ := weld_row hs hw hl hL hkw a hu
      exact ⟨V, J, e1, e2, e3⟩
    · have hp := fun b off => ((bodyPose_smooth (G := G) (k := 1) (unit_nonzero hu) b).apply (p := fun _ => off) (fun _ => contDiffAt_const) a).differentiableAt (by simp)
      exact (hp w.body1 w.anchor2).sub (hp w.body2 w.anchor1)
  have hrot : ∀ a, weldTurn G m w (vecOf (x t)) a = Real.exp (- j.vectorGain.get [weldRotAt m k a] * t) * weldTurn G m w (vecOf (x 0)) a := by
    intro a
    refine row_decays (F := fun q => weldTurn G m w q a) hs hw hf hin hk hid (fun q _ hu => ?_) (fun y hu => ?_) t ht
    · obtain ⟨V, J, e1, e2, -, e3⟩ := weld_row hs hw hl hL hkw a hu
      exact ⟨V, J, e1, e2, e3⟩
    · have s1 := (bodyPose_smooth (G := G) (k := 1) (unit_nonzero hu) w.body1).quat
      have s2 := (bodyPose_smooth (G := G) (k := 1) (unit_nonzero hu) w.body2).quat
      have s3 : SmoothQuat 1 (fun y => star (bodyPose G m (vecOf y).get w.body2).rot) y := by
        obtain ⟨i0, i1, i2, i3⟩ := s2
        refine ⟨?_, ?_, ?_, ?_⟩
        · simpa using i0
        · simp only [Quaternion.imI_star]; exact i1.neg
        · simp only [Quaternion.imJ_star]; exact i2.neg
        · simp only [Quaternion.imK_star]; exact i3.neg
      have s4 := s3.mul (s1.mul (s := fun _ => w.relpose) ⟨contDiffAt_const, contDiffAt_const, contDiffAt_const, contDiffAt_const⟩)
      have s5 : ContDiffAt ℝ 1 (fun y : Fin m.nq → ℝ => imVec (star (bodyPose G m (vecOf y).get w.body2).rot * ((bodyPose G m (vecOf y).get w.body1).rot * w.relpose)) a) y := by
        fin_cases a
        · exact s4.imI
        · exact s4.imJ
        · exact s4.imK
      exact (s5.differentiableAt (by simp)).const_mul _
  refine ⟨fun u0 r0 u r h0 h1 a => ?_, fun hts h0 => ?_⟩
  · obtain ⟨rfl, rfl⟩ := (weldOff_iff hs hb _ _ _).1 h0
    obtain ⟨rfl, rfl⟩ := (weldOff_iff hs hb _ _ _).1 h1
    exact ⟨hpos a, hrot a⟩
  · rcases eq_or_ne t 0 with rfl | hne
    · exact h0
    have hT : 0 < T := lt_of_lt_of_le (lt_of_le_of_ne ht.1 hne.symm) ht.2
    have hu := unit_closed hT hf.toMovesWith
    obtain ⟨z1, z2⟩ := (welded_iff hs hw (hu 0 ⟨le_rfl, hT.le⟩) hb hunit hts).1 h0
    refine (welded_iff hs hw (hu t ht) hb hunit hts).2 ⟨funext fun a => ?_, funext fun a => ?_⟩
    · rw [hpos a, z1]; simp
    · rw [hrot a, z2]; simp

/-! ### Control steps of finite length -/

/-- While the robot moves with bounded constant velocity, the rotation between the frames of a weld turns within bounds. -/
theorem weld_spins (hs : Simulates env G m) (hw : RobotWF G m) (ha : RailArm G m) {V : Nat → ℝ} {q v : Vec ℝ} (hv : ∀ k < m.nv, |v.get k| ≤ V k) {w : Weld}
    (hb : w.body1 < m.nbody ∧ w.body2 < m.nbody) (hr : Quaternion.normSq w.relpose = 1) :
    Spins (turnSpeed m V) (fun s => star (bodyPose G m (integrate env m q v s).get w.body2).rot * ((bodyPose G m (integrate env m q v s).get w.body1).rot * w.relpose)) := by
  have hm := integrate_moves hs.quat hw.addr (arm_unit ha q) v
  have hbody : ∀ b < m.nbody, Spins (turnSpeed m V / 2) (fun s => (bodyPose G m (integrate env m q v s).get b).rot) := by
    intro b hb
    refine (body_spins hw (arm_joint ha) hm b hb).mono ((upTo_le (fun j => div_nonneg (turnRate_nonneg m _ j) zero_le_two) _).trans ?_)
    rw [← Finset.sum_div]
    refine div_le_div_of_nonneg_right (sum_le_sum fun j hj => ?_) zero_le_two
    have hj := mem_range.1 hj
    unfold turnRate
    split
    · rename_i ht
      refine hv _ ((integrate_scalar env hw.addr q v 0).2 j (mem_scalarJoints.2 ⟨hj, ?_⟩)).2.1
      rw [List.getD_eq_getElem _ _ hj]
      exact arm_scalar ha _ (List.getElem_mem hj)
    · exact le_rfl
  refine ((hbody _ hb.2).star.mul ((hbody _ hb.1).mul (spins_const hr))).mono ?_
  linarith

/-- One step seen by the rotation between the frames of a weld. -/
theorem weldTurn_step (hs : Simulates env G m) (hw : RobotWF G m) (ha : RailArm G m) {w : Weld} (hb : w.body1 < m.nbody ∧ w.body2 < m.nbody)
    (hr : Quaternion.normSq w.relpose = 1) (a : Fin 3) {q : Vec ℝ} {V : Nat → ℝ} {v : Vec ℝ} (hv : ∀ k < m.nv, |v.get k| ≤ V k) {dt ρ : ℝ} (hdt : 0 ≤ dt)
    (hρ : HasDerivAt (fun s => weldTurn G m w (integrate env m q v s) a) ρ 0) :
    |weldTurn G m w (integrate env m q v dt) a - weldTurn G m w q a - dt * ρ| ≤ weldTurning m V w * dt ^ 2 / 2 := by
  obtain ⟨f1, f2, h1, h2, h3⟩ := weld_spins hs hw ha hv (q := q) hb hr
  have d1 : ∀ s, HasDerivAt (fun s => weldTurn G m w (integrate env m q v s) a) (w.torquescale * imVec (f1 s) a) s := fun s => (hasDerivAt_imVec (h1 s) a).const_mul _
  have d2 : ∀ s, HasDerivAt (fun s => w.torquescale * imVec (f1 s) a) (w.torquescale * imVec (f2 s) a) s := fun s => (hasDerivAt_imVec (h2 s) a).const_mul _
  obtain rfl := hρ.unique (d1 0)
  have e0 : ∀ b < m.nbody, bodyPose G m (integrate env m q v 0).get b = bodyPose G m q.get b := fun b hb =>
    start_pose hs hw (arm_unit ha q) v hb
  have e1 : weldTurn G m w (integrate env m q v 0) = weldTurn G m w q := by
    unfold weldTurn
    rw [e0 _ hb.1, e0 _ hb.2]
  rw [← e1]
  refine second_order (φ := fun s => weldTurn G m w (integrate env m q v s) a) (φ' := fun s => w.torquescale * imVec (f1 s) a) hdt (fun t _ => d1 t) fun t ht => ?_
  have := (convex_univ (𝕜 := ℝ) (E := ℝ)).norm_image_sub_le_of_norm_hasDerivWithin_le (f := fun s => w.torquescale * imVec (f1 s) a)
    (f' := fun s => w.torquescale * imVec (f2 s) a) (C := weldTurning m V w) (fun s _ => (d2 s).hasDerivWithinAt)
    (fun s _ => by
      rw [Real.norm_eq_abs, abs_mul]
      exact mul_le_mul_of_nonneg_left ((imVec_le _ _).trans (h3 s).2.2) (abs_nonneg _)) (Set.mem_univ 0) (Set.mem_univ t)
  rw [sub_zero, Real.norm_eq_abs, Real.norm_eq_abs, abs_of_nonneg ht.1] at this
  exact this

/-- The connection of the origins of the frames of a weld. -/
def originsOf (w : Weld) : Connect := ⟨w.body1, w.body2, w.anchor2, w.anchor1⟩

/-- **C116** (control steps of finite length): control programs with a hard equality constraint, on arms with hinges, possibly on rails, with `connect` constraints,
welds and linear joint couplings.  A program may mix calls of the API and control steps.  If at every control step the problem contains the equality constraint with
gains `g`, `0 < g` and `g * dt ≤ 1`, the solver satisfies rows up to `ε`, and joint velocities are limited to `V`, then every control step brings the bodies of every
weld closer to where they belong by the factor `1 - g * dt`, up to `(ε + a * dt / 2) / g`, where `a` is the acceleration of the origins or of the rotation. -/
theorem C116_steps {I : Type} {osqp : QPSolver ℝ I} {ε : ℝ} (ho : FindsFeasibleUpTo ε osqp) (hε : 0 ≤ ε) (hs : Simulates env G m) (hw : RobotWF G m) (ha : RailArm G m)
    (hl : SimulatesWelds env G m cs ws ks) (hlin : ∀ c ∈ ks, c.coef 2 = 0 ∧ c.coef 3 = 0 ∧ c.coef 4 = 0) {p : Nat} {dt : ℝ} (hdt : 0 ≤ dt) {V : Nat → ℝ}
    {g : Nat → ℝ} (hg : ∀ r < couplingAt m ks.length, 0 < g r ∧ g r * dt ≤ 1) {e : Nat → ℝ}
    (he : (∀ k c, cs[k]? = some c → ∀ a, (ε + anchorAcceleration G m V c * dt / 2) / g (connectRow k a) ≤ e (connectRow k a)) ∧
      (∀ k w, ws[k]? = some w → ∀ a, (ε + weldAcceleration G m V w * dt / 2) / g (weldPosAt m k a) ≤ e (weldPosAt m k a) ∧
        (ε + weldTurning m V w * dt / 2) / g (weldRotAt m k a) ≤ e (weldRotAt m k a)) ∧
      ∀ k c, ks[k]? = some c → ε / g (couplingAt m k) ≤ e (couplingAt m k))
    {acts : List (Act ℝ)} (hclean : CleanProgram World.init (callsOf p acts)) (x0 : Fin m.nq → ℝ) (s0 : LocalIKData ℝ)
    (hticks : AtEveryTick env osqp m p dt (fun S => HoldsLoops m p g S.world ∧ SpeedAtMost m p ε V S.world ∧
      (LoopsOff env G m cs ks e S.q → WeldsOff env m ws e S.q → CanMove env m p S ∧ Works env osqp m p S)) ⟨World.init, vecOf x0, s0⟩ acts)
    (hstart : LoopsOff env G m cs ks e (vecOf x0)) (hwstart : WeldsOff env m ws e (vecOf x0)) :
    ∀ k w, ws[k]? = some w → ∀ u0 r0 u r, WeldOff (update env m (vecOf x0)) w u0 r0 →
      WeldOff (update env m (Spec.control env osqp m p dt ⟨World.init, vecOf x0, s0⟩ acts).q) w u r → ∀ a,
        |u a| ≤ (1 - g (weldPosAt m k a) * dt) ^ ticksIn acts * |u0 a| + (ε + weldAcceleration G m V w * dt / 2) / g (weldPosAt m k a) ∧
        |r a| ≤ (1 - g (weldRotAt m k a) * dt) ^ ticksIn acts * |r0 a| + (ε + weldTurning m V w * dt / 2) / g (weldRotAt m k a) := by
  -- the rows: coordinates of `connect` constraints, welds (origin or rotation), and couplings
  let ι := ({kc : Nat × Connect // cs[kc.1]? = some kc.2} × Fin 3) ⊕ ({kw : Nat × Weld // ws[kw.1]? = some kw.2} × Fin 3) ⊕
    ({kw : Nat × Weld // ws[kw.1]? = some kw.2} × Fin 3) ⊕ {kc : Nat × Coupling // ks[kc.1]? = some kc.2}
  let r : ι → Nat := fun
    | .inl i => connectRow i.1.1.1 i.2
    | .inr (.inl i) => weldPosAt m i.1.1.1 i.2
    | .inr (.inr (.inl i)) => weldRotAt m i.1.1.1 i.2
    | .inr (.inr (.inr i)) => couplingAt m i.1.1
  let F : ι → Vec ℝ → ℝ := fun
    | .inl i, q => anchorsOff G m i.1.1.2 q i.2
    | .inr (.inl i), q => weldApart G m i.1.1.2 q i.2
    | .inr (.inr (.inl i)), q => weldTurn G m i.1.1.2 q i.2
    | .inr (.inr (.inr i)), q => couplingOff G m q.get i.1.2
  let L : ι → ℝ := fun
    | .inl i => anchorAcceleration G m V i.1.1.2
    | .inr (.inl i) => weldAcceleration G m V i.1.1.2
    | .inr (.inr (.inl i)) => weldTurning m V i.1.1.2
    | .inr (.inr (.inr _)) => 0
  have hll := welds_loops hl
  have hb : ∀ (k : Nat) (c : Connect), cs[k]? = some c → c.body1 < m.nbody ∧ c.body2 < m.nbody := fun k c hk => hl.bodies c (List.mem_of_getElem? hk)
  have hbw : ∀ (k : Nat) (w : Weld), ws[k]? = some w → w.body1 < m.nbody ∧ w.body2 < m.nbody := fun k w hk =>
    ⟨(hl.welded w (List.mem_of_getElem? hk)).1, (hl.welded w (List.mem_of_getElem? hk)).2.1⟩
  have hiff : ∀ q, LoopsOff env G m cs ks e q ∧ WeldsOff env m ws e q ↔ ∀ i : ι, |F i q| ≤ e (r i) := by
    intro q
    constructor
    · rintro ⟨⟨h1, h2⟩, h3⟩ (⟨⟨⟨k, c⟩, hk⟩, a⟩ | ⟨⟨⟨k, w⟩, hk⟩, a⟩ | ⟨⟨⟨k, w⟩, hk⟩, a⟩ | ⟨⟨k, c⟩, hk⟩)
      · exact h1 k c hk _ ((anchorsOff_iff hs (hb k c hk) q _).2 rfl) a
      · exact (h3 k w hk _ _ ((weldOff_iff hs (hbw k w hk) q _ _).2 ⟨rfl, rfl⟩) a).1
      · exact (h3 k w hk _ _ ((weldOff_iff hs (hbw k w hk) q _ _).2 ⟨rfl, rfl⟩) a).2
      · exact h2 k c hk
    · intro h
      refine ⟨⟨fun k c hk u hu a => ?_, fun k c hk => h (.inr (.inr (.inr ⟨(k, c), hk⟩)))⟩, fun k w hk u r hu a => ?_⟩
      · rw [anchorsOff_iff hs (hb k c hk)] at hu
        subst hu
        exact h (.inl (⟨(k, c), hk⟩, a))
      · obtain ⟨rfl, rfl⟩ := (weldOff_iff hs (hbw k w hk) q _ _).1 hu
        exact ⟨h (.inr (.inl (⟨(k, w), hk⟩, a))), h (.inr (.inr (.inl (⟨(k, w), hk⟩, a))))⟩
  simp only [← and_imp, hiff] at hticks
  have hstart := (hiff _).1 ⟨hstart, hwstart⟩
  have hgap : ∀ u w : V3 ℝ, 0 ≤ gap u w := fun u w => Real.sqrt_nonneg _
  have hLn : ∀ i : ι, 0 ≤ L i := by
    have : 0 ≤ armLength G m := add_nonneg (sum_nonneg fun _ _ => hgap _ _) (sum_nonneg fun _ _ => mul_nonneg zero_le_two (hgap _ _))
    rintro (i | i | i | i)
    · exact mul_nonneg (sq_nonneg _) (add_nonneg (add_nonneg this (hgap _ _)) (add_nonneg this (hgap _ _)))
    · exact mul_nonneg (sq_nonneg _) (add_nonneg (add_nonneg this (hgap _ _)) (add_nonneg this (hgap _ _)))
    · exact mul_nonneg (abs_nonneg _) (sq_nonneg _)
    · exact le_rfl
  have hc := hl.connects
  have hwc := hl.welds
  have hrun := held_run (F := F) (r := r) (L := L) (e := fun i => e (r i)) (V := V) ho hε hw.addr hdt (fun i => hg _ (by
      rcases i with ⟨⟨⟨k, c⟩, hk⟩, a⟩ | ⟨⟨⟨k, w⟩, hk⟩, a⟩ | ⟨⟨⟨k, w⟩, hk⟩, a⟩ | ⟨⟨k, c⟩, hk⟩
      · have := (List.getElem?_eq_some_iff.1 hk).1
        show 3 * k + a.1 < 3 * _ + 6 * _ + _
        dsimp only at this
        omega
      · have := (List.getElem?_eq_some_iff.1 hk).1
        show 3 * _ + (6 * k + a.1) < 3 * _ + 6 * _ + _
        dsimp only at this
        omega
      · have := (List.getElem?_eq_some_iff.1 hk).1
        show 3 * _ + (6 * k + (3 + a.1)) < 3 * _ + 6 * _ + _
        dsimp only at this
        omega
      · have := (List.getElem?_eq_some_iff.1 hk).1
        show _ + k < _ + ks.length
        dsimp only at this
        omega)) hLn (by
    rintro (⟨⟨⟨k, c⟩, hk⟩, a⟩ | ⟨⟨⟨k, w⟩, hk⟩, a⟩ | ⟨⟨⟨k, w⟩, hk⟩, a⟩ | ⟨⟨k, c⟩, hk⟩) j q hj
    · obtain ⟨W, J, w1, w2, w3, -, w4, w5⟩ := connect_row hs hw hll hj hk a (arm_unit ha q)
      exact ⟨W, J, w1, w2, w3, w4, fun v hv => connect_step hs hw ha (hb k c hk) a hv hdt (w5 v)⟩
    · obtain ⟨W, J, w1, w2, ⟨w3, -, w4, w5⟩, -⟩ := weld_row hs hw hl hj hk a (arm_unit ha q)
      exact ⟨W, J, w1, w2, w3, w4, fun v hv => connect_step (c := originsOf w) hs hw ha (hbw k w hk) a hv hdt (w5 v)⟩
    · obtain ⟨W, J, w1, w2, -, w3, -, w4, w5⟩ := weld_row hs hw hl hj hk a (arm_unit ha q)
      exact ⟨W, J, w1, w2, w3, w4, fun v hv => weldTurn_step hs hw ha (hbw k w hk) (hl.welded w (List.mem_of_getElem? hk)).2.2 a hv hdt (w5 v)⟩
    · obtain ⟨W, J, w1, w2, w3, -, w4, w5⟩ := coupling_row hs hw hll hj hk (arm_unit ha q)
      refine ⟨W, J, w1, w2, w3, w4, fun v hv => ?_⟩
      have hc := hl.coupled c (List.mem_of_getElem? hk)
      have := coupling_step (dt := dt) hw.addr hc.1 (fun j h => (hc.2 j h).1) (hlin c (List.mem_of_getElem? hk)) (w5 v)
      show |couplingOff G m (integrate env m q v dt).get c - couplingOff G m q.get c - _| ≤ 0 * dt ^ 2 / 2
      rw [this]
      simp)
    (by
      rintro (⟨⟨⟨k, c⟩, hk⟩, a⟩ | ⟨⟨⟨k, w⟩, hk⟩, a⟩ | ⟨⟨⟨k, w⟩, hk⟩, a⟩ | ⟨⟨k, c⟩, hk⟩)
      · exact he.1 k c hk a
      · exact (he.2.1 k w hk a).1
      · exact (he.2.1 k w hk a).2
      · have := he.2.2 k c hk
        show (ε + 0 * dt / 2) / g (couplingAt m k) ≤ _
        rw [zero_mul, zero_div, add_zero]
        exact this) acts _ (sane_start (m := m) (q0 := vecOf x0) rfl s0) hclean hticks hstart
  intro k w hk u0 r0 u r' h0 h1 a
  obtain ⟨rfl, rfl⟩ := (weldOff_iff hs (hbw k w hk) _ _ _).1 h0
  obtain ⟨rfl, rfl⟩ := (weldOff_iff hs (hbw k w hk) _ _ _).1 h1
  exact ⟨hrun (.inr (.inl (⟨(k, w), hk⟩, a))), hrun (.inr (.inr (.inl (⟨(k, w), hk⟩, a))))⟩

end
end Mjinx.Props
