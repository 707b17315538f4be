import Verif.Props.CollisionSampled
import Verif.Props.Equality
import Verif.Spec.Loops

/-!
# C113: hard equality constraints close kinematic loops
-/

set_option linter.unusedSectionVars false

namespace Mjinx.Props
open Mjinx Mjinx.Spec Finset
open scoped Matrix Quaternion

/-! ### Rows -/

theorem eqSelect_split {α β : Type} (f : β → α) (xs ys : List β) :
    eqSelect (xs.map (fun _ => true) ++ ys.map (fun _ => false)) ((xs ++ ys).map f) = xs.map f := by
  induction xs with
  | nil =>
    induction ys with
    | nil => rfl
    | cons y ys ih => simpa [eqSelect] using ih
  | cons x xs ih =>
    simp only [eqSelect, List.map_cons, List.cons_append, List.zip_cons_cons, List.filter_cons_of_pos] at ih ⊢
    rw [ih]

theorem eqRows_count (es : List EqType) (h : EqType.unsupported ∉ es) :
    countEqRows es = .ok (3 * es.count .connect + 6 * es.count .weld + es.count .joint) := by
  refine ((countEqRows_spec es).1 _).2 ⟨fun e he hn => ?_, ?_⟩
  · cases e with
    | unsupported => exact h he
    | _ => cases hn
  · induction es with
    | nil => rfl
    | cons e es ih =>
      have := ih (fun h' => h (by simp [h']))
      rw [List.map_cons, List.sum_cons, ← this]
      cases e with
      | unsupported => exact absurd (List.mem_cons_self ..) h
      | _ => simp [eqRowCount]; omega

theorem flatten_three {α : Type} (rs : List (List α)) (h : ∀ r ∈ rs, r.length = 3) : rs.flatten.length = 3 * rs.length ∧
    ∀ k r, rs[k]? = some r → ∀ a < 3, rs.flatten[3 * k + a]? = r[a]? := by
  induction rs with
  | nil => exact ⟨rfl, fun k r h => by simp at h⟩
  | cons r0 rs ih =>
    obtain ⟨l1, l2⟩ := ih fun r hr => h r (by simp [hr])
    have h0 := h r0 (by simp)
    refine ⟨by rw [List.flatten_cons, List.length_append, l1, h0, List.length_cons]; ring, fun k r hk a ha => ?_⟩
    rw [List.flatten_cons]
    cases k with
    | zero =>
      simp only [List.getElem?_cons_zero, Option.some.injEq] at hk
      subst hk
      rw [List.getElem?_append_left (by omega)]
      simp
    | succ k =>
      rw [List.getElem?_cons_succ] at hk
      rw [List.getElem?_append_right (by omega), h0, ← l2 k r hk a ha]
      congr 1
      omega

theorem consecutive_dofs {nq nv : Nat} : ∀ {q v : Nat} {ts : List JntType} {as bs : List Nat}, Consecutive nq nv q v ts as bs →
    bs.length = ts.length ∧ (∀ b ∈ bs, v ≤ b) ∧ bs.Pairwise (· < ·)
  | q, v, [], [], [], _ => ⟨rfl, by simp, .nil⟩
  | q, v, t :: ts, a :: as, b :: bs, h => by
    obtain ⟨-, rfl, h3⟩ := h
    obtain ⟨i1, i2, i3⟩ := consecutive_dofs h3
    have : 0 < t.nv := by cases t <;> decide
    refine ⟨by simp [i1], ?_, List.pairwise_cons.2 ⟨fun b' hb' => ?_, i3⟩⟩
    · intro b' hb'
      rcases List.mem_cons.1 hb' with rfl | hb'
      · exact le_rfl
      · have := i2 b' hb'; omega
    · have := i2 b' hb'; omega
  | _, _, [], [], _ :: _, h => by simp [Consecutive] at h
  | _, _, [], _ :: _, _, h => by simp [Consecutive] at h
  | _, _, _ :: _, [], _, h => by simp [Consecutive] at h
  | _, _, _ :: _, _ :: _, [], h => by simp [Consecutive] at h

/-- Different joints have different degrees of freedom. -/
theorem dofs_differ {m : MjModel ℝ} (hw : JointsWF m) {i j : Nat} (hi : i < m.jntType.length) (hj : j < m.jntType.length) (h : i ≠ j) : dofOf m i ≠ dofOf m j := by
  obtain ⟨h1, -, h3⟩ := consecutive_dofs hw.addr
  have hp := List.pairwise_iff_getElem.1 h3
  unfold dofOf
  rw [List.getD_eq_getElem _ _ (h1 ▸ hi), List.getD_eq_getElem _ _ (h1 ▸ hj)]
  rcases Nat.lt_or_gt_of_ne h with h | h
  · exact (hp i j (h1 ▸ hi) (h1 ▸ hj) h).ne
  · exact (hp j i (h1 ▸ hj) (h1 ▸ hi) h).ne'

section
variable {env : Env ℝ} {G : Geometry} {m : MjModel ℝ} {cs : List Connect} {ks : List Coupling}

/-- A component that is the equality constraint of a model, compiled. -/
structure CompiledLoops (m : MjModel ℝ) (j : JaxComp ℝ) : Prop where
  model : j.model = m
  kind : ∃ a b w, j.kind = .modelEquality a b w
  rows : EqType.unsupported ∉ m.eqType → j.maskIdxs = List.range (3 * m.eqType.count .connect + 6 * m.eqType.count .weld + m.eqType.count .joint)

theorem compiled_loops {n : String} {gain : Arr ℝ} {hard : Bool} {soft : Option (Arr ℝ)} {c : Comp ℝ} (hc : MadeBy (.modelEquality n gain hard soft) c)
    {j : JaxComp ℝ} (hC : CompilesTo c.attrs j) : CompiledLoops j.model j := by
  obtain ⟨c0, h0, hr⟩ := hc
  obtain ⟨ht, hI⟩ := eqInv_clean h0 hr
  obtain ⟨k, h1, h2, h3⟩ := hI _ hC.model
  refine ⟨rfl, ?_, fun hu => ?_⟩
  · have hK := hC.kind
    cases hk : c.attrs.kind <;> rw [hk] at ht <;> cases ht
    rw [hk] at hK
    cases hjk : j.kind <;> rw [hjk] at hK <;> simp only [KindOf] at hK
    exact ⟨_, _, _, rfl⟩
  · rw [eqRows_count _ hu] at h1
    cases h1
    rw [hC.maskIdxs, h3, h2, Int.toNat_natCast, ite_self]

theorem connect_lengths {d : MjData ℝ} {rs : List (List EfcRow)} (h : cs.mapM (connectRows m d) = .ok rs) : ∀ r ∈ rs, r.length = 3 := by
  intro r hr
  obtain ⟨c, -, hc⟩ := (mapM_mem h).2.1 r hr
  unfold connectRows at hc
  obtain ⟨_, _, hc⟩ := Except.bind_eq_ok hc
  obtain ⟨_, _, hc⟩ := Except.bind_eq_ok hc
  obtain ⟨_, _, hc⟩ := Except.bind_eq_ok hc
  obtain ⟨_, _, hc⟩ := Except.bind_eq_ok hc
  obtain ⟨_, _, hc⟩ := Except.bind_eq_ok hc
  obtain ⟨_, _, hc⟩ := Except.bind_eq_ok hc
  cases hc
  rfl

/-- The values and the Jacobian of a compiled equality constraint are the rows of the simulator. -/
theorem rows_values {j : JaxComp ℝ} (hj : CompiledLoops m j) (hsup : EqType.unsupported ∉ m.eqType) {d d' : MjData ℝ} {eqs os : List EfcRow}
    (hlen : eqs.length = 3 * m.eqType.count .connect + 6 * m.eqType.count .weld + m.eqType.count .joint)
    (hd : d' = { d with
      efcEq := eqs.map (fun _ => true) ++ os.map (fun _ => false)
      efcPos := (eqs ++ os).map EfcRow.pos
      efcJ := (eqs ++ os).map EfcRow.jac }) :
    ∃ V J, evalValue env j d' = .ok V ∧ evalJacobian env j d' = .ok J ∧ V.len = eqs.length ∧ J.rows = eqs.length ∧ J.cols = m.nv ∧
      ∀ i e, eqs[i]? = some e → V.get i = e.pos ∧ ∀ k, J.get i k = e.jac.get k := by
  have hm := hj.rows hsup
  rw [← hlen] at hm
  obtain ⟨a, b, w, hk⟩ := hj.kind
  rw [hd]
  unfold evalValue evalJacobian
  rw [hk]
  dsimp only
  rw [eqSelect_split, eqSelect_split]
  refine ⟨_, _, rfl, rfl, by simp [Vec.gather, hm], by simp [Mat.gatherRows, hm], by rw [← hj.model]; rfl, ?_⟩
  intro i e he
  obtain ⟨hi, he⟩ := List.getElem?_eq_some_iff.1 he
  have hi' : i < j.maskIdxs.length := by rw [hm]; simpa using hi
  have hidx : j.maskIdxs[i] = i := by simp only [hm, List.getElem_range]
  have hgd : (j.maskIdxs[i]?).getD 0 = i := by rw [List.getElem?_eq_getElem hi', hidx]; rfl
  constructor
  · rw [gather_get hi' (by simp only [hidx, List.length_map]; exact hi), hidx]
    show (eqs.map EfcRow.pos).getD i 0 = _
    rw [List.getD_eq_getElem _ _ (by simpa using hi), List.getElem_map, he]
  · intro k
    have : min i ((eqs.map EfcRow.jac).length - 1) = i := by rw [List.length_map]; omega
    simp only [Mat.gatherRows, hgd, this]
    rw [List.getD_eq_getElem _ _ (by simpa using hi), List.getElem_map, he]

/-- The rows of a compiled equality constraint. -/
theorem loop_values (hs : Simulates env G m) (hl : SimulatesLoops env G m cs ks) {j : JaxComp ℝ} (hj : CompiledLoops m j) (q : Vec ℝ) :
    ∃ (rs : List (List EfcRow)) (ws eqs : List EfcRow), cs.mapM (connectRows m (simComPos G m (simKinematics G m q))) = .ok rs ∧
      ws.length = 6 * m.eqType.count .weld ∧ eqs = rs.flatten ++ ws ++ ks.map (couplingRow G m (simComPos G m (simKinematics G m q))) ∧
      ∃ V J, evalValue env j (update env m q) = .ok V ∧ evalJacobian env j (update env m q) = .ok J ∧ V.len = eqs.length ∧ J.rows = eqs.length ∧ J.cols = m.nv ∧
        ∀ i e, eqs[i]? = some e → V.get i = e.pos ∧ ∀ k, J.get i k = e.jac.get k := by
  obtain ⟨rs, ws, os, eqs, r1, r2, r3, r4⟩ := hl.rows q _ rfl
  have hu : update env m q = env.makeConstraint m (simComPos G m (simKinematics G m q)) := by rw [update, hs.kinematics, hs.comPos]
  rw [r4] at hu
  refine ⟨rs, ws, eqs, r1, r2, r3, rows_values hj hl.supported ?_ hu⟩
  rw [r3, List.length_append, List.length_append, (flatten_three rs (connect_lengths r1)).1, (mapM_mem r1).2.2, r2, List.length_map, hl.connects, hl.joints]

/-- How far the anchors are apart. -/
noncomputable def anchorsOff (G : Geometry) (m : MjModel ℝ) (c : Connect) (q : Vec ℝ) : V3 ℝ :=
  (bodyPose G m q.get c.body1).apply c.anchor1 - (bodyPose G m q.get c.body2).apply c.anchor2

theorem anchorsOff_iff (hs : Simulates env G m) {c : Connect} (hb : c.body1 < m.nbody ∧ c.body2 < m.nbody) (q : Vec ℝ) (u : V3 ℝ) :
    AnchorsOff (update env m q) c u ↔ u = anchorsOff G m c q := by
  unfold AnchorsOff
  rw [update_frame hs q hb.1, update_frame hs q hb.2]
  constructor
  · rintro ⟨T1, T2, h1, h2, rfl⟩
    cases h1; cases h2
    rfl
  · rintro rfl
    exact ⟨_, _, rfl, rfl, rfl⟩

theorem connect_rows (hs : Simulates env G m) {c : Connect} (hb : c.body1 < m.nbody ∧ c.body2 < m.nbody) (q : Vec ℝ) {r : List EfcRow}
    (h : connectRows m (simComPos G m (simKinematics G m q)) c = .ok r) : ∃ J1 J2,
      pointJacobian m (update env m q) ((bodyPose G m q.get c.body1).apply c.anchor1) c.body1 = .ok J1 ∧
      pointJacobian m (update env m q) ((bodyPose G m q.get c.body2).apply c.anchor2) c.body2 = .ok J2 ∧
      ∀ a : Fin 3, r[a.1]? = some ⟨anchorsOff G m c q a, ⟨m.nv, fun k => (J1.getD k (0, 0)).1 a - (J2.getD k (0, 0)).1 a⟩⟩ := by
  have get : ∀ {α : Type} (f : Nat → α) {b : Nat}, b < m.nbody → jnpGet ((List.range m.nbody).map f) (b : Int) = .ok (f b) := by
    intro α f b hb
    refine jnpGet_some ?_
    rw [List.getElem?_map, List.getElem?_range hb]; rfl
  have x1 : ∀ {b : Nat}, b < m.nbody → jnpGet (simComPos G m (simKinematics G m q)).xmat (b : Int) = .ok (quatMat (bodyPose G m q.get b).rot) := fun h => get _ h
  have x2 : ∀ {b : Nat}, b < m.nbody → jnpGet (simComPos G m (simKinematics G m q)).xpos (b : Int) = .ok (bodyPose G m q.get b).trans := fun h => get _ h
  have hpj : ∀ p b, pointJacobian m (update env m q) p b = pointJacobian m (simComPos G m (simKinematics G m q)) p b := by
    obtain ⟨e, p, J, hu⟩ := update_fields hs q
    intro p b
    rw [hu]
    rfl
  have hap : ∀ (T : SE3 ℝ) (x : V3 ℝ), (quatMat T.rot).mulVec x + T.trans = T.apply x := fun T x => by rw [quatMat_mulVec]; rfl
  unfold connectRows at h
  simp only [x1 hb.1, x1 hb.2, x2 hb.1, x2 hb.2, bind, Except.bind, hap] at h
  split at h
  · cases h
  rename_i J1 h1
  split at h
  · cases h
  rename_i J2 h2
  refine ⟨J1, J2, (hpj _ _).trans h1, (hpj _ _).trans h2, fun a => ?_⟩
  cases h
  fin_cases a <;> rfl

/-- The row of one coordinate of a `connect` constraint. -/
theorem connect_row (hs : Simulates env G m) (hw : RobotWF G m) (hl : SimulatesLoops env G m cs ks) {j : JaxComp ℝ} (hj : CompiledLoops m j) {k : Nat} {c : Connect}
    (hk : cs[k]? = some c) (a : Fin 3) {q : Vec ℝ} (hu : UnitQuats m q) :
    ∃ V J, evalValue env j (update env m q) = .ok V ∧ evalJacobian env j (update env m q) = .ok J ∧ connectRow k a < J.rows ∧ connectRow k a < V.len ∧
      V.get (connectRow k a) = anchorsOff G m c q a ∧
      ∀ v : Vec ℝ, HasDerivAt (fun s => anchorsOff G m c (integrate env m q v s) a) (rowDot J (connectRow k a) v.get) 0 := by
  obtain ⟨rs, ws, eqs, r1, -, r3, V, J, h1, h2, h3, h4, h5, h6⟩ := loop_values hs hl hj q
  have hb := hl.bodies c (List.mem_of_getElem? hk)
  obtain ⟨r, hr, hcr⟩ := (mapM_get r1).2 k c hk
  obtain ⟨J1, J2, e1, e2, e3⟩ := connect_rows hs hb q hcr
  have hrs := connect_lengths r1
  have hrow : eqs[connectRow k a]? = some ⟨anchorsOff G m c q a, ⟨m.nv, fun k => (J1.getD k (0, 0)).1 a - (J2.getD k (0, 0)).1 a⟩⟩ := by
    have := (flatten_three rs hrs).2 k r hr a a.2
    rw [e3] at this
    obtain ⟨hlt, -⟩ := List.getElem?_eq_some_iff.1 this
    rw [r3, List.append_assoc, connectRow, List.getElem?_append_left hlt]
    exact this
  have hlt : connectRow k a < eqs.length := (List.getElem?_eq_some_iff.1 hrow).1
  obtain ⟨g1, g2⟩ := h6 _ _ hrow
  refine ⟨V, J, h1, h2, by omega, by omega, g1, fun v => ?_⟩
  obtain ⟨T1, t1, rows1, p1, d1⟩ := C107_point hs hw hu hb.1 c.anchor1
  obtain ⟨T2, t2, rows2, p2, d2⟩ := C107_point hs hw hu hb.2 c.anchor2
  rw [update_frame hs q hb.1] at t1; cases t1
  rw [update_frame hs q hb.2] at t2; cases t2
  rw [e1] at p1; cases p1
  rw [e2] at p2; cases p2
  obtain ⟨F1, f1, -, f3⟩ := d1 v
  obtain ⟨F2, f4, -, f6⟩ := d2 v
  have q1 : ∀ s, F1 s = bodyPose G m (integrate env m q v s).get c.body1 := fun s => Except.ok.inj ((f1 s).symm.trans (update_frame hs _ hb.1))
  have q2 : ∀ s, F2 s = bodyPose G m (integrate env m q v s).get c.body2 := fun s => Except.ok.inj ((f4 s).symm.trans (update_frame hs _ hb.2))
  have hd := (f3 a).sub (f6 a)
  simp only [q1, q2] at hd
  refine hd.congr_deriv ?_
  rw [objVelocity_extend J1 v.get (point_rows hs hw e1).le, objVelocity_extend J2 v.get (point_rows hs hw e2).le, rowDot, h5, Prod.fst_sum, Prod.fst_sum,
    Finset.sum_apply, Finset.sum_apply, ← Finset.sum_sub_distrib]
  refine Finset.sum_congr rfl fun i _ => ?_
  rw [g2]
  simp only [Prod.smul_fst, Pi.smul_apply, smul_eq_mul]
  ring

/-- The row of a joint coupling. -/
theorem coupling_row (hs : Simulates env G m) (hw : RobotWF G m) (hl : SimulatesLoops env G m cs ks) {j : JaxComp ℝ} (hj : CompiledLoops m j) {k : Nat} {c : Coupling}
    (hk : ks[k]? = some c) {q : Vec ℝ} (hu : UnitQuats m q) :
    ∃ V J, evalValue env j (update env m q) = .ok V ∧ evalJacobian env j (update env m q) = .ok J ∧ couplingAt m k < J.rows ∧ couplingAt m k < V.len ∧
      V.get (couplingAt m k) = couplingOff G m q.get c ∧
      ∀ v : Vec ℝ, HasDerivAt (fun s => couplingOff G m (integrate env m q v s).get c) (rowDot J (couplingAt m k) v.get) 0 := by
  obtain ⟨rs, ws, eqs, r1, r2, r3, V, J, h1, h2, h3, h4, h5, h6⟩ := loop_values hs hl hj q
  have hrs := connect_lengths r1
  have hrow : eqs[couplingAt m k]? = some (couplingRow G m (simComPos G m (simKinematics G m q)) c) := by
    have hlen : (rs.flatten ++ ws).length = 3 * m.eqType.count .connect + 6 * m.eqType.count .weld := by
      rw [List.length_append, (flatten_three rs hrs).1, (mapM_mem r1).2.2, r2, hl.connects]
    rw [r3, couplingAt, ← hlen, List.getElem?_append_right (by omega), Nat.add_sub_cancel_left, List.getElem?_map, hk]
    rfl
  have hlt : couplingAt m k < eqs.length := (List.getElem?_eq_some_iff.1 hrow).1
  obtain ⟨g1, g2⟩ := h6 _ _ hrow
  obtain ⟨j1, j2⟩ := hl.coupled c (List.mem_of_getElem? hk)
  have hsc := fun v s => (integrate_scalar env hw.addr q v s).2
  have hqp : ∀ i ∈ scalarJoints m, (simComPos G m (simKinematics G m q)).qpos.get (qposOf m i) = q.get (qposOf m i) := fun i hi =>
    (normalized_get hw.addr hu).2 _ (hsc q 0 i hi).1
  refine ⟨V, J, h1, h2, by omega, by omega, ?_, fun v => ?_⟩
  · rw [g1]
    unfold couplingRow couplingOff
    have e1 := hqp _ j1
    cases hc2 : c.joint2 with
    | none =>
      simp only [sum_range_succ, sum_range_zero]
      simp only [qposOf] at e1 ⊢
      rw [e1]
      ring
    | some i =>
      have e2 := hqp _ (j2 i hc2).1
      simp only [sum_range_succ, sum_range_zero]
      simp only [qposOf] at e1 e2 ⊢
      rw [e1, e2]
      ring
  · have hd : ∀ i ∈ scalarJoints m, HasDerivAt (fun s => (integrate env m q v s).get (qposOf m i) - G.qpos0 (qposOf m i)) (v.get (dofOf m i)) 0 := by
      intro i hi
      simp only [fun s => (hsc v s i hi).2.2]
      have := (((hasDerivAt_id (0 : ℝ)).mul_const (v.get (dofOf m i))).const_add (q.get (qposOf m i))).sub_const (G.qpos0 (qposOf m i))
      rw [one_mul] at this
      exact this
    have hz : ∀ i ∈ scalarJoints m, (integrate env m q v 0).get (qposOf m i) = q.get (qposOf m i) := fun i hi => by
      rw [(hsc v 0 i hi).2.2, zero_mul, add_zero]
    have hn := (hsc v 0 _ j1).2.1
    rw [rowDot, h5]
    simp only [g2]
    unfold couplingRow couplingOff
    cases hc2 : c.joint2 with
    | none =>
      simp only [Option.map_none, reduceCtorEq, if_false]
      refine ((hd _ j1).sub_const _).congr_deriv ?_
      simp only [ite_mul, one_mul, zero_mul]
      rw [Finset.sum_ite_eq' (range m.nv), if_pos (show m.jntDofadr.getD c.joint1 0 ∈ range m.nv from mem_range.2 hn)]
      rfl
    | some i =>
      obtain ⟨hi, hne⟩ := j2 i hc2
      have e2 := hqp _ hi
      have hn2 := (hsc v 0 _ hi).2.1
      have hdof : dofOf m i ≠ dofOf m c.joint1 := dofs_differ hw.addr (mem_scalarJoints.1 hi).1 (mem_scalarJoints.1 j1).1 hne
      have hy := hd _ hi
      refine ((hd _ j1).sub (((((hy.const_mul (c.coef 1)).const_add (c.coef 0)).add ((hy.pow 2).const_mul (c.coef 2))).add ((hy.pow 3).const_mul (c.coef 3))).add
        ((hy.pow 4).const_mul (c.coef 4)))).congr_deriv ?_
      simp only [Option.map_some, Option.isSome_some, if_true, Option.some.injEq, hz _ hi]
      have e3 : ∀ D : ℝ, ∑ l ∈ range m.nv, (if l = dofOf m c.joint1 then (1 : ℝ) else if dofOf m i = l then - D else 0) * v.get l =
          v.get (dofOf m c.joint1) - D * v.get (dofOf m i) := by
        intro D
        have : ∀ l, (if l = dofOf m c.joint1 then (1 : ℝ) else if dofOf m i = l then - D else 0) * v.get l =
            (if l = dofOf m c.joint1 then v.get l else 0) + (if dofOf m i = l then - D * v.get l else 0) := by
          intro l
          by_cases h1 : l = dofOf m c.joint1
          · subst h1
            simp [hdof]
          · simp [h1]
        simp only [this]
        rw [Finset.sum_add_distrib, Finset.sum_ite_eq', Finset.sum_ite_eq, if_pos (mem_range.2 hn), if_pos (mem_range.2 hn2)]
        ring
      refine Eq.trans ?_ (e3 _).symm
      simp only [sum_range_succ, sum_range_zero]
      simp only [qposOf] at e2 ⊢
      rw [e2]
      push_cast
      ring

/-- **C113** (rows): on a robot with any joints, a compiled equality constraint reports, for every `connect` constraint of the model, how far its two anchors are apart,
and for every joint coupling, how far its first joint is from where the second wants it.  The rows of its Jacobian give the rates at which these change. -/
theorem C113_rows (hs : Simulates env G m) (hw : RobotWF G m) (hl : SimulatesLoops env G m cs ks) {n : String} {gain : Arr ℝ} {hard : Bool} {soft : Option (Arr ℝ)}
    {c : Comp ℝ} (hc : MadeBy (.modelEquality n gain hard soft) c) {j : JaxComp ℝ} (hj : (jaxComponent c).1 = .ok j) (hm : j.model = m)
    {q : Vec ℝ} (hu : UnitQuats m q) :
    ∃ V J, evalValue env j (update env m q) = .ok V ∧ evalJacobian env j (update env m q) = .ok J ∧ V.len = J.rows ∧
      (∀ k c, cs[k]? = some c → ∀ a, connectRow k a < J.rows ∧ (∃ u, AnchorsOff (update env m q) c u ∧ V.get (connectRow k a) = u a) ∧
        ∀ v : Vec ℝ, ∃ u : ℝ → V3 ℝ, (∀ s, AnchorsOff (update env m (integrate env m q v s)) c (u s)) ∧
          HasDerivAt (fun s => u s a) (rowDot J (connectRow k a) v.get) 0) ∧
      ∀ k c, ks[k]? = some c → couplingAt m k < J.rows ∧ V.get (couplingAt m k) = couplingOff G m q.get c ∧
        ∀ v : Vec ℝ, HasDerivAt (fun s => couplingOff G m (integrate env m q v s).get c) (rowDot J (couplingAt m k) v.get) 0 := by
  have hC : CompilesTo c.attrs j := by
    obtain ⟨c0, h0, hr⟩ := hc
    exact jaxComponent_spec (cacheOK_reachable (hr.reachable h0)) (c' := (jaxComponent c).2) (by rw [← hj])
  have hL := compiled_loops hc hC
  rw [hm] at hL
  obtain ⟨rs, ws, eqs, -, -, -, V, J, h1, h2, h3, h4, -⟩ := loop_values hs hl hL q
  refine ⟨V, J, h1, h2, h3.trans h4.symm, fun k c hk a => ?_, fun k c hk => ?_⟩
  · obtain ⟨V', J', e1, e2, e3, -, e4, e5⟩ := connect_row hs hw hl hL hk a hu
    rw [h1] at e1; cases e1
    rw [h2] at e2; cases e2
    have hb := hl.bodies c (List.mem_of_getElem? hk)
    exact ⟨e3, ⟨_, (anchorsOff_iff hs hb q _).2 rfl, e4⟩, fun v => ⟨_, fun s => (anchorsOff_iff hs hb _ _).2 rfl, e5 v⟩⟩
  · obtain ⟨V', J', e1, e2, e3, -, e4, e5⟩ := coupling_row hs hw hl hL hk hu
    rw [h1] at e1; cases e1
    rw [h2] at e2; cases e2
    exact ⟨e3, e4, e5⟩

/-! ### Continuous motion -/

variable {T : ℝ} {x : ℝ → Fin m.nq → ℝ} {v : ℝ → Vec ℝ}

/-- What feasibility says about a hard equality constraint of the problem. -/
theorem equality_row {ps : ℝ → JaxProblem ℝ} (hm : FeasibleFlow env m ps T x v) {t : ℝ} (ht : t ∈ Set.Ico 0 T) {j : JaxComp ℝ}
    (hin : ∃ name, (name, j) ∈ (ps t).comps) (hk : ∃ a W, j.kind = .modelEquality a true W) {h : Vec ℝ} (hv : evalValue env j (update env m (vecOf (x t))) = .ok h)
    {J : Mat ℝ} (hJ : evalJacobian env j (update env m (vecOf (x t))) = .ok J) :
    ∀ i < J.rows, rowDot J i (v t).get = - (j.vectorGain.get [i] * j.gainFn (h.get i)) := by
  obtain ⟨name, hmem⟩ := hin
  obtain ⟨qp, hqp, hf⟩ := hm.feasible t ht
  obtain ⟨vMin, vMax, cs, p1, p2, p3, p4⟩ := problemQP_ok hqp
  have hsz := hm.sized t ht vMin vMax cs p1 p2 p3
  rw [hm.model t ht] at hsz p4
  obtain ⟨sc, hsc, hsc'⟩ := (mapM_mem p3).1 j (List.mem_map.2 ⟨(name, j), hmem, rfl⟩)
  obtain ⟨J', v', g, w1, w2, w3, w4⟩ := solverComp_ok hsc'
  rw [hv] at w2; cases w2
  rw [hJ] at w1; cases w1
  obtain ⟨a, W, hk⟩ := hk
  unfold wrapComp at w4
  rw [hk] at w4
  dsimp only at w4
  cases hW : W.toMat with
  | error e => rw [hW] at w4; cases w4
  | ok W' =>
    rw [hW] at w4
    cases w4
    intro i hi
    have := ((C22_barrier_rows hsz p4 (v t).get).1 hf).2.2 _ _ _ hsc i hi
    have hg : g.get i = j.vectorGain.get [i] := by
      unfold Arr.toVec at w3
      split at w3
      · cases w3; rfl
      · cases w3
    dsimp only at this
    rw [hg] at this
    exact this

/-- A quantity that falls in proportion to itself. -/
theorem exp_decay {f : ℝ → ℝ} {g : ℝ} (hc : ContinuousOn f (Set.Icc 0 T)) (hd : ∀ t ∈ Set.Ico 0 T, HasDerivWithinAt f (- (g * f t)) (Set.Ici t) t) :
    ∀ t ∈ Set.Icc 0 T, f t = Real.exp (- g * t) * f 0 := by
  have he : ∀ t, HasDerivAt (fun t => Real.exp (g * t)) (Real.exp (g * t) * g) t := fun t => by
    have := ((hasDerivAt_id t).const_mul g).exp
    simpa using this
  have h := constant_of_has_deriv_right_zero (f := fun t => Real.exp (g * t) * f t) (a := 0) (b := T)
    ((Continuous.continuousOn (by fun_prop)).mul hc) (fun t ht => by
      refine ((he t).hasDerivWithinAt.mul (hd t ht)).congr_deriv ?_
      ring)
  intro t ht
  have := h t ht
  simp only [mul_zero, Real.exp_zero, one_mul] at this
  rw [← this, ← mul_assoc, ← Real.exp_add]
  simp

/-- One row along a motion. -/
theorem row_decays (hs : Simulates env G m) (hw : RobotWF G m) {ps : ℝ → JaxProblem ℝ} (hf : FeasibleFlow env m ps T x v) {j : JaxComp ℝ}
    (hin : ∀ t ∈ Set.Ico 0 T, ∃ name, (name, j) ∈ (ps t).comps) (hk : ∃ a W, j.kind = .modelEquality a true W) (hid : j.gainFn = id) {r : Nat} {F : Vec ℝ → ℝ}
    (hrow : ∀ q : Vec ℝ, q.len = m.nq → UnitQuats m q → ∃ V J, evalValue env j (update env m q) = .ok V ∧ evalJacobian env j (update env m q) = .ok J ∧ r < J.rows ∧ r < V.len ∧
      V.get r = F q ∧ ∀ v : Vec ℝ, HasDerivAt (fun s => F (integrate env m q v s)) (rowDot J r v.get) 0)
    (hsm : ∀ y : Fin m.nq → ℝ, UnitQuats m (vecOf y) → DifferentiableAt ℝ (fun y => F (vecOf y)) y) :
    ∀ t ∈ Set.Icc 0 T, F (vecOf (x t)) = Real.exp (- j.vectorGain.get [r] * t) * F (vecOf (x 0)) := by
  by_cases hT : 0 < T
  · have hu := unit_closed hT hf.toMovesWith
    refine exp_decay (f := fun t => F (vecOf (x t))) (fun t ht => ?_) (fun t ht => ?_)
    · exact ContinuousAt.comp_continuousWithinAt (f := x) (g := fun y => F (vecOf y)) (hsm _ (hu t ht)).continuousAt (hf.cont t ht)
    · obtain ⟨V, J, h1, h2, h3, -, h4, h5⟩ := hrow (vecOf (x t)) rfl (hf.unit t ht)
      have h6 := equality_row hf ht (hin t ht) hk h1 h2 r h3
      rw [hid, h4] at h6
      have h7 := h5 (v t)
      rw [h6] at h7
      refine path_rate (x := x) (F := fun y => F (vecOf y)) hs.quat hw.addr hf.toMovesWith ht (hsm _ (hf.unit t ht)) ?_
      refine h7.congr_of_eventuallyEq (Filter.Eventually.of_forall fun s => ?_)
      dsimp only
      rw [show vecOf (fun k : Fin m.nq => (integrate env m (vecOf (x t)) (v t) s).get k) = integrate env m (vecOf (x t)) (v t) s from
        (integrate_vecOf (env := env) hw.addr (q := vecOf (x t)) rfl (v t) s).symm]
  · intro t ht
    rw [show t = 0 from le_antisymm (by have := ht.2; linarith) ht.1]
    simp

/-- **C113**: continuous control with a hard equality constraint, on a robot with any joints.  If at every moment the robot moves with a velocity that satisfies the
constraints of a problem containing the equality constraint (with the default `gain_fn`), then every coordinate of the offset of the anchors of every `connect`
constraint, and the error of every joint coupling, decays exponentially with the gain of its row.  In particular, loops that are closed stay closed. -/
theorem C113_flow (hs : Simulates env G m) (hw : RobotWF G m) (hl : SimulatesLoops env G m cs ks) {n : String} {gain : Arr ℝ} {hard : Bool} {soft : Option (Arr ℝ)}
    {c : Comp ℝ} (hc : MadeBy (.modelEquality n gain hard soft) c) {j : JaxComp ℝ} (hj : (jaxComponent c).1 = .ok j) (hm : j.model = m)
    (hk : ∃ a W, j.kind = .modelEquality a true W) (hid : j.gainFn = id) {ps : ℝ → JaxProblem ℝ} (hf : FeasibleFlow env m ps T x v)
    (hin : ∀ t ∈ Set.Ico 0 T, ∃ name, (name, j) ∈ (ps t).comps) :
    ∀ t ∈ Set.Icc 0 T,
      (∀ k c, cs[k]? = some c → ∀ u0 u, AnchorsOff (update env m (vecOf (x 0))) c u0 → AnchorsOff (update env m (vecOf (x t))) c u →
        ∀ a, u a = Real.exp (- j.vectorGain.get [connectRow k a] * t) * u0 a) ∧
      ∀ k c, ks[k]? = some c →
        couplingOff G m (vecOf (x t)).get c = Real.exp (- j.vectorGain.get [couplingAt m k] * t) * couplingOff G m (vecOf (x 0)).get c := by
  have hC : CompilesTo c.attrs j := by
    obtain ⟨c0, h0, hr⟩ := hc
    exact jaxComponent_spec (cacheOK_reachable (hr.reachable h0)) (c' := (jaxComponent c).2) (by rw [← hj])
  have hL := compiled_loops hc hC
  rw [hm] at hL
  intro t ht
  refine ⟨fun k c hck u0 u h0 h1 a => ?_, fun k c hck => ?_⟩
  · have hb := hl.bodies c (List.mem_of_getElem? hck)
    rw [anchorsOff_iff hs hb] at h0 h1
    subst h0 h1
    refine row_decays (F := fun q => anchorsOff G m c q a) hs hw hf hin hk hid (fun q _ hu => connect_row hs hw hl hL hck a hu) (fun y hu => ?_) t ht
    have hp := fun b off => ((bodyPose_smooth (G := G) (k := 1) (unit_nonzero hu) b).apply (p := fun _ => off) (fun _ => contDiffAt_const) a).differentiableAt (by simp)
    exact (hp c.body1 c.anchor1).sub (hp c.body2 c.anchor2)
  · refine row_decays (F := fun q => couplingOff G m q.get c) hs hw hf hin hk hid (fun q _ hu => coupling_row hs hw hl hL hck hu) (fun y hu => ?_) t ht
    have hp : ∀ i, DifferentiableAt ℝ (fun y : Fin m.nq → ℝ => (vecOf y).get i - G.qpos0 i) y := fun i =>
      ((coord_smooth (k := 1) i y).differentiableAt (by simp)).sub_const _
    unfold couplingOff
    cases c.joint2 with
    | none =>
      dsimp only
      exact (hp (qposOf m c.joint1)).sub_const _
    | some i =>
      have h1 := hp (qposOf m c.joint1)
      have h2 := hp (qposOf m i)
      dsimp only
      exact h1.sub (((((h2.const_mul _).const_add _).add ((h2.pow 2).const_mul _)).add ((h2.pow 3).const_mul _)).add ((h2.pow 4).const_mul _))

/-! ### Control steps of finite length -/

/-- One control step with a hard equality constraint, seen by some of its rows. -/
theorem held_step {I : Type} {osqp : QPSolver ℝ I} {ε : ℝ} (ho : FindsFeasibleUpTo ε osqp) {p : Nat} {dt : ℝ} (hdt : 0 ≤ dt) {V : Nat → ℝ} {g : Nat → ℝ}
    {r : Nat} {F : Vec ℝ → ℝ} {L : ℝ}
    (hrow : ∀ (j : JaxComp ℝ) (q : Vec ℝ), CompiledLoops m j → ∃ W J, evalValue env j (update env m q) = .ok W ∧ evalJacobian env j (update env m q) = .ok J ∧ r < J.rows ∧
      W.get r = F q ∧ ∀ v : Vec ℝ, (∀ k < m.nv, |v.get k| ≤ V k) → |F (integrate env m q v dt) - F q - dt * rowDot J r v.get| ≤ L * dt ^ 2 / 2)
    {S : Robot ℝ} (hS : Sane m S) (hH : HoldsLoops m p g S.world) (hV : SpeedAtMost m p ε V S.world) (hM : CanMove env m p S) (hW : Works env osqp m p S) :
    |F (controlStep env osqp m p dt S .tick).q - (1 - g r * dt) * F S.q| ≤ dt * (ε + L * dt / 2) := by
  obtain ⟨J, s, hJ, hsol⟩ := hW
  obtain ⟨P, name, k, c, n, gain, hard, soft, act, cost, hP, hPm, hmem, hcomp, hcm, hmade, hkind, hid, hgain⟩ := hH
  obtain ⟨hsz, hmove⟩ := hM J hJ
  obtain ⟨qp, ts, hts, hqm, hfeas⟩ := tick_moves_upTo (dt := dt) hS hJ hsol hP hPm hsz
  obtain ⟨u, hu⟩ := hmove P ts hP hts
  have hall := ((hfeas _).1 ε).1 (ho qp ⟨u, feasibleUpTo_zero.1 (((hfeas u).1 0).2 (allowedUpTo_zero.2 hu))⟩)
  obtain ⟨t, htm, c', hc', hta, j, hj, hjac, hval⟩ := entry_mem hts hmem
  rw [hcomp] at hc'; cases hc'
  obtain ⟨P', hP', hVk⟩ := hV
  rw [hP] at hP'; cases hP'
  obtain ⟨ops, hops⟩ := hS.reach
  rw [hops] at hJ hP hcomp
  have hC := compiled_entry hJ hP hmem hcomp hj
  have hjm : j.model = m := by
    have := hC.model
    rw [hcm] at this
    exact (Option.some.inj this).symm
  have hL := compiled_loops hmade hC
  rw [hjm] at hL
  have hv : ∀ k < m.nv, |(osqp qp).1.get k| ≤ V k := by
    intro k hk
    obtain ⟨l1, l2⟩ := hall.1 k (by rw [hPm]; exact hk)
    obtain ⟨l3, l4⟩ := hVk k hk
    exact abs_le.2 ⟨by linarith, by linarith⟩
  have hB := hall.2 t htm
  unfold Term.AllowsUpTo at hB
  rw [hta, hkind] at hB
  obtain ⟨W, J', w1, w2, w3, w4, w5⟩ := hrow j S.q hL
  obtain rfl : J' = t.jac := Except.ok.inj (w2.symm.trans hjac)
  obtain rfl : W = t.value := Except.ok.inj (w1.symm.trans hval)
  have hb := hB rfl r w3
  have hst := w5 _ hv
  rw [← hqm] at hst
  unfold Term.rate at hb
  rw [hta, hid, hgain, w4] at hb
  simp only [id] at hb
  generalize F (controlStep env osqp m p dt S .tick).q = y1 at *
  generalize F S.q = y0 at *
  generalize rowDot t.jac r (osqp qp).1.get = ρ at *
  have h1 := abs_le.1 hb
  have h2 := abs_le.1 hst
  have h3 := mul_le_mul_of_nonneg_left h1.1 hdt
  have h4 := mul_le_mul_of_nonneg_left h1.2 hdt
  refine abs_le.2 ⟨?_, ?_⟩ <;> nlinarith [h2.1, h2.2]

/-- Control programs with a hard equality constraint, seen by some of its rows. -/
theorem held_run {I ι : Type} {osqp : QPSolver ℝ I} {ε : ℝ} (ho : FindsFeasibleUpTo ε osqp) (hε : 0 ≤ ε) (hw : JointsWF m) {p : Nat} {dt : ℝ} (hdt : 0 ≤ dt) {V : Nat → ℝ}
    {g : Nat → ℝ} {r : ι → Nat} (hg : ∀ i, 0 < g (r i) ∧ g (r i) * dt ≤ 1) {F : ι → Vec ℝ → ℝ} {L : ι → ℝ} (hL : ∀ i, 0 ≤ L i)
    (hrow : ∀ i, ∀ (j : JaxComp ℝ) (q : Vec ℝ), CompiledLoops m j → ∃ W J, evalValue env j (update env m q) = .ok W ∧ evalJacobian env j (update env m q) = .ok J ∧ r i < J.rows ∧
      W.get (r i) = F i q ∧ ∀ v : Vec ℝ, (∀ k < m.nv, |v.get k| ≤ V k) → |F i (integrate env m q v dt) - F i q - dt * rowDot J (r i) v.get| ≤ L i * dt ^ 2 / 2)
    {e : ι → ℝ} (he : ∀ i, (ε + L i * dt / 2) / g (r i) ≤ e i) (acts : List (Act ℝ)) (S : Robot ℝ) (hS : Sane m S) (hcp : CleanProgram S.world (callsOf p acts))
    (ht : AtEveryTick env osqp m p dt (fun S => HoldsLoops m p g S.world ∧ SpeedAtMost m p ε V S.world ∧
      ((∀ i, |F i S.q| ≤ e i) → CanMove env m p S ∧ Works env osqp m p S)) S acts) (hoff : ∀ i, |F i S.q| ≤ e i) :
    ∀ i, |F i (Spec.control env osqp m p dt S acts).q| ≤ (1 - g (r i) * dt) ^ ticksIn acts * |F i S.q| + (ε + L i * dt / 2) / g (r i) := by
  have key : ∀ (acts : List (Act ℝ)) (S : Robot ℝ), Sane m S → CleanProgram S.world (callsOf p acts) →
      AtEveryTick env osqp m p dt (fun S => HoldsLoops m p g S.world ∧ SpeedAtMost m p ε V S.world ∧
        ((∀ i, |F i S.q| ≤ e i) → CanMove env m p S ∧ Works env osqp m p S)) S acts → (∀ i, |F i S.q| ≤ e i) →
      ∀ i, |F i (Spec.control env osqp m p dt S acts).q| ≤ (1 - g (r i) * dt) ^ ticksIn acts * |F i S.q| +
        (1 - (1 - g (r i) * dt) ^ ticksIn acts) * ((ε + L i * dt / 2) / g (r i)) := by
    intro acts
    induction acts with
    | nil => intro S _ _ _ _ i; simp [Spec.control, ticksIn]
    | cons a acts ih =>
      intro S hS hcp ht hoff i
      obtain ⟨hS', hcp'⟩ := sane_step env osqp hw p dt hS hcp
      have next := ih _ hS' hcp' ht.2
      cases a with
      | call op => exact next hoff i
      | tick =>
        obtain ⟨h1, h2, h3⟩ := ht.1 rfl
        obtain ⟨h3, h4⟩ := h3 hoff
        have hone : ∀ i, |F i (controlStep env osqp m p dt S .tick).q| ≤ (1 - g (r i) * dt) * |F i S.q| +
            (1 - (1 - g (r i) * dt)) * ((ε + L i * dt / 2) / g (r i)) := by
          intro i
          have hs := held_step ho hdt (hrow i) hS h1 h2 h3 h4
          obtain ⟨g1, g2⟩ := hg i
          have hf : dt * (ε + L i * dt / 2) = (1 - (1 - g (r i) * dt)) * ((ε + L i * dt / 2) / g (r i)) := by field_simp; ring
          rw [← hf]
          generalize F i (controlStep env osqp m p dt S .tick).q = y1 at *
          generalize F i S.q = y0 at *
          have := abs_sub_abs_le_abs_sub y1 ((1 - g (r i) * dt) * y0)
          rw [abs_mul, abs_of_nonneg (show 0 ≤ 1 - g (r i) * dt by linarith)] at this
          linarith
        have hoff' : ∀ i, |F i (controlStep env osqp m p dt S .tick).q| ≤ e i := by
          intro i
          obtain ⟨g1, g2⟩ := hg i
          refine le_trans (hone i) ?_
          have a1 := mul_le_mul_of_nonneg_left (hoff i) (show 0 ≤ 1 - g (r i) * dt by linarith)
          have a2 := mul_le_mul_of_nonneg_left (he i) (show 0 ≤ 1 - (1 - g (r i) * dt) by have := mul_nonneg g1.le hdt; linarith)
          linarith
        have hn := next hoff' i
        have hs := hone i
        obtain ⟨g1, g2⟩ := hg i
        show |F i (Spec.control env osqp m p dt (controlStep env osqp m p dt S .tick) acts).q| ≤
          (1 - g (r i) * dt) ^ (ticksIn acts + 1) * _ + (1 - (1 - g (r i) * dt) ^ (ticksIn acts + 1)) * _
        have hpow := pow_nonneg (show 0 ≤ 1 - g (r i) * dt by linarith) (ticksIn acts)
        have h5 := mul_le_mul_of_nonneg_left hs hpow
        refine le_trans hn ?_
        rw [pow_succ]
        linarith
  intro i
  obtain ⟨g1, g2⟩ := hg i
  refine le_trans (key acts _ hS hcp ht hoff i) ?_
  have h1 : 0 ≤ (1 - g (r i) * dt) ^ ticksIn acts := pow_nonneg (by linarith) _
  have h2 : 0 ≤ (ε + L i * dt / 2) / g (r i) := div_nonneg (by have := hL i; positivity) g1.le
  nlinarith

/-- One step seen by the anchors of a `connect` constraint. -/
theorem connect_step (hs : Simulates env G m) (hw : RobotWF G m) (ha : RailArm G m) {c : Connect} (hb : c.body1 < m.nbody ∧ c.body2 < m.nbody) (a : Fin 3) {q : Vec ℝ}
    {V : Nat → ℝ} {v : Vec ℝ} (hv : ∀ k < m.nv, |v.get k| ≤ V k) {dt ρ : ℝ} (hdt : 0 ≤ dt)
    (hρ : HasDerivAt (fun s => anchorsOff G m c (integrate env m q v s) a) ρ 0) :
    |anchorsOff G m c (integrate env m q v dt) a - anchorsOff G m c q a - dt * ρ| ≤ anchorAcceleration G m V c * dt ^ 2 / 2 := by
  have f1 := arm_drift hs hw ha hv (q := q) hb.1 c.anchor1
  have f2 := arm_drift hs hw ha hv (q := q) hb.2 c.anchor2
  have hd : Drifting (turnSpeed m V) ((armLength G m + gap 0 c.anchor1) + (armLength G m + gap 0 c.anchor2))
      (fun s => anchorsOff G m c (integrate env m q v s)) := by
    have := f1.addDrift (drift_neg f2)
    simp only [← sub_eq_add_neg] at this
    exact this
  obtain ⟨ρ', d1, d2⟩ := drift_along hd (u := Pi.single a 1) (by fin_cases a <;> simp [len3, sq3]) hdt
  simp only [single_dotProduct, one_mul] at d1 d2
  obtain rfl : ρ = ρ' := hρ.unique d1
  have e0 : ∀ b < m.nbody, bodyPose G m (integrate env m q v 0).get b = bodyPose G m q.get b := fun b hb =>
    start_pose hs hw (arm_unit ha q) v hb
  have e1 : anchorsOff G m c (integrate env m q v 0) = anchorsOff G m c q := by
    unfold anchorsOff
    rw [e0 _ hb.1, e0 _ hb.2]
  rw [e1] at d2
  exact d2

/-- One step seen by a linear joint coupling. -/
theorem coupling_step (hw : JointsWF m) {c : Coupling} (h1 : c.joint1 ∈ scalarJoints m) (h2 : ∀ j, c.joint2 = some j → j ∈ scalarJoints m)
    (hlin : c.coef 2 = 0 ∧ c.coef 3 = 0 ∧ c.coef 4 = 0) {q v : Vec ℝ} {dt ρ : ℝ}
    (hρ : HasDerivAt (fun s => couplingOff G m (integrate env m q v s).get c) ρ 0) :
    couplingOff G m (integrate env m q v dt).get c - couplingOff G m q.get c - dt * ρ = 0 := by
  have hsc := fun s i hi => ((integrate_scalar env hw q v s).2 i hi).2.2
  obtain ⟨A, B, hAB⟩ : ∃ A B : ℝ, ∀ s, couplingOff G m (integrate env m q v s).get c = A + s * B ∧ couplingOff G m q.get c = A := by
    unfold couplingOff
    obtain ⟨l2, l3, l4⟩ := hlin
    rw [l2, l3, l4]
    cases hc : c.joint2 with
    | none =>
      refine ⟨_, v.get (dofOf m c.joint1), fun s => ⟨?_, rfl⟩⟩
      dsimp only
      rw [hsc s _ h1]
      ring
    | some i =>
      refine ⟨_, v.get (dofOf m c.joint1) - c.coef 1 * v.get (dofOf m i), fun s => ⟨?_, rfl⟩⟩
      dsimp only
      rw [hsc s _ h1, hsc s _ (h2 i hc)]
      ring
  have hd : HasDerivAt (fun s => couplingOff G m (integrate env m q v s).get c) B 0 := by
    simp only [fun s => (hAB s).1]
    simpa using ((hasDerivAt_id (0 : ℝ)).mul_const B).const_add A
  rw [hρ.unique hd, (hAB dt).1, (hAB dt).2]
  ring

/-- **C113** (control steps of finite length): control programs with a hard equality constraint, on arms with hinges, possibly on rails.  A program may mix calls of the
API and control steps.  If at every control step the problem contains the equality constraint with gains `g`, `0 < g` and `g * dt ≤ 1`, the solver satisfies rows up to
`ε`, and joint velocities are limited to `V`, then every control step brings the anchors of every `connect` constraint and the joints of every (linear) coupling closer to where they
belong by the factor `1 - g * dt`, up to `(ε + a * dt / 2) / g` with the acceleration `a` of the anchors, and up to `ε / g` for couplings. -/
theorem C113_steps {I : Type} {osqp : QPSolver ℝ I} {ε : ℝ} (ho : FindsFeasibleUpTo ε osqp) (hε : 0 ≤ ε) (hs : Simulates env G m) (hw : RobotWF G m) (ha : RailArm G m)
    (hl : SimulatesLoops env G m cs ks) (hlin : ∀ c ∈ ks, c.coef 2 = 0 ∧ c.coef 3 = 0 ∧ c.coef 4 = 0) {p : Nat} {dt : ℝ} (hdt : 0 ≤ dt) {V : Nat → ℝ}
    {g : Nat → ℝ} (hg : ∀ r < couplingAt m ks.length, 0 < g r ∧ g r * dt ≤ 1) {e : Nat → ℝ}
    (he : (∀ k c, cs[k]? = some c → ∀ a, (ε + anchorAcceleration G m V c * dt / 2) / g (connectRow k a) ≤ e (connectRow k a)) ∧
      ∀ k c, ks[k]? = some c → ε / g (couplingAt m k) ≤ e (couplingAt m k))
    {acts : List (Act ℝ)} (hclean : CleanProgram World.init (callsOf p acts)) (x0 : Fin m.nq → ℝ) (s0 : LocalIKData ℝ)
    (hticks : AtEveryTick env osqp m p dt (fun S => HoldsLoops m p g S.world ∧ SpeedAtMost m p ε V S.world ∧
      (LoopsOff env G m cs ks e S.q → CanMove env m p S ∧ Works env osqp m p S)) ⟨World.init, vecOf x0, s0⟩ acts)
    (hstart : LoopsOff env G m cs ks e (vecOf x0)) :
    (∀ k c, cs[k]? = some c → ∀ u0 u, AnchorsOff (update env m (vecOf x0)) c u0 →
      AnchorsOff (update env m (Spec.control env osqp m p dt ⟨World.init, vecOf x0, s0⟩ acts).q) c u → ∀ a,
        |u a| ≤ (1 - g (connectRow k a) * dt) ^ ticksIn acts * |u0 a| + (ε + anchorAcceleration G m V c * dt / 2) / g (connectRow k a)) ∧
    ∀ k c, ks[k]? = some c → |couplingOff G m (Spec.control env osqp m p dt ⟨World.init, vecOf x0, s0⟩ acts).q.get c| ≤
      (1 - g (couplingAt m k) * dt) ^ ticksIn acts * |couplingOff G m (vecOf x0).get c| + ε / g (couplingAt m k) := by
  -- the rows: coordinates of `connect` constraints, and couplings
  let ι := ({kc : Nat × Connect // cs[kc.1]? = some kc.2} × Fin 3) ⊕ {kc : Nat × Coupling // ks[kc.1]? = some kc.2}
  let r : ι → Nat := fun
    | .inl i => connectRow i.1.1.1 i.2
    | .inr i => couplingAt m i.1.1
  let F : ι → Vec ℝ → ℝ := fun
    | .inl i, q => anchorsOff G m i.1.1.2 q i.2
    | .inr i, q => couplingOff G m q.get i.1.2
  let L : ι → ℝ := fun
    | .inl i => anchorAcceleration G m V i.1.1.2
    | .inr _ => 0
  have hb : ∀ (k : Nat) (c : Connect), cs[k]? = some c → c.body1 < m.nbody ∧ c.body2 < m.nbody := fun k c hk => hl.bodies c (List.mem_of_getElem? hk)
  have hiff : ∀ q, LoopsOff env G m cs ks e q ↔ ∀ i : ι, |F i q| ≤ e (r i) := by
    intro q
    constructor
    · rintro ⟨h1, h2⟩ (⟨⟨⟨k, c⟩, hk⟩, a⟩ | ⟨⟨k, c⟩, hk⟩)
      · exact h1 k c hk _ ((anchorsOff_iff hs (hb k c hk) q _).2 rfl) a
      · exact h2 k c hk
    · intro h
      refine ⟨fun k c hk u hu a => ?_, fun k c hk => h (.inr ⟨(k, c), hk⟩)⟩
      rw [anchorsOff_iff hs (hb k c hk)] at hu
      subst hu
      exact h (.inl (⟨(k, c), hk⟩, a))
  simp only [hiff] at hticks hstart
  have hgap : ∀ u w : V3 ℝ, 0 ≤ gap u w := fun u w => Real.sqrt_nonneg _
  have hLn : ∀ i : ι, 0 ≤ L i := by
    rintro (i | i)
    · have : 0 ≤ armLength G m := add_nonneg (sum_nonneg fun _ _ => hgap _ _) (sum_nonneg fun _ _ => mul_nonneg zero_le_two (hgap _ _))
      exact mul_nonneg (sq_nonneg _) (add_nonneg (add_nonneg this (hgap _ _)) (add_nonneg this (hgap _ _)))
    · exact le_rfl
  have hrun := held_run (F := F) (r := r) (L := L) (e := fun i => e (r i)) (V := V) ho hε hw.addr hdt (fun i => hg _ (by
      rcases i with ⟨⟨⟨k, c⟩, hk⟩, a⟩ | ⟨⟨k, c⟩, hk⟩
      · have := (List.getElem?_eq_some_iff.1 hk).1
        have hc := hl.connects
        show 3 * k + a.1 < 3 * _ + 6 * _ + _
        dsimp only at this
        omega
      · have := (List.getElem?_eq_some_iff.1 hk).1
        show _ + k < _ + ks.length
        dsimp only at this
        omega)) hLn (by
    rintro (⟨⟨⟨k, c⟩, hk⟩, a⟩ | ⟨⟨k, c⟩, hk⟩) j q hj
    · obtain ⟨W, J, w1, w2, w3, -, w4, w5⟩ := connect_row hs hw hl hj hk a (arm_unit ha q)
      exact ⟨W, J, w1, w2, w3, w4, fun v hv => connect_step hs hw ha (hb k c hk) a hv hdt (w5 v)⟩
    · obtain ⟨W, J, w1, w2, w3, -, w4, w5⟩ := coupling_row hs hw hl hj hk (arm_unit ha q)
      refine ⟨W, J, w1, w2, w3, w4, fun v hv => ?_⟩
      have hc := hl.coupled c (List.mem_of_getElem? hk)
      have := coupling_step (dt := dt) hw.addr hc.1 (fun j h => (hc.2 j h).1) (hlin c (List.mem_of_getElem? hk)) (w5 v)
      show |couplingOff G m (integrate env m q v dt).get c - couplingOff G m q.get c - _| ≤ 0 * dt ^ 2 / 2
      rw [this]
      simp)
    (by
      rintro (⟨⟨⟨k, c⟩, hk⟩, a⟩ | ⟨⟨k, c⟩, hk⟩)
      · exact he.1 k c hk a
      · have := he.2 k c hk
        show (ε + 0 * dt / 2) / g (couplingAt m k) ≤ _
        rw [zero_mul, zero_div, add_zero]
        exact this) acts _ (sane_start (m := m) (q0 := vecOf x0) rfl s0) hclean hticks hstart
  refine ⟨fun k c hk u0 u h0 h1 a => ?_, fun k c hk => ?_⟩
  · rw [anchorsOff_iff hs (hb k c hk)] at h0 h1
    subst h0 h1
    exact hrun (.inl (⟨(k, c), hk⟩, a))
  · have : _ ≤ _ * _ + (ε + 0 * dt / 2) / g (couplingAt m k) := hrun (.inr ⟨(k, c), hk⟩)
    rw [zero_mul, zero_div, add_zero] at this
    exact this

end
end Mjinx.Props
