import Verif.Lemmas.MotionAxes

/-!
# The data of the simulator
-/

namespace Mjinx
open Real Props Spec Finset
open scoped Quaternion Matrix

/-- Lists with one block per joint, by configuration addresses. -/
theorem consecutive_qblock {α : Type} {nq nv : Nat} (x : α) (B : JntType × Nat → List α) (hB : ∀ t a, (B (t, a)).length = t.nq) :
    ∀ {q v : Nat} {ts : List JntType} {as bs : List Nat}, Consecutive nq nv q v ts as bs →
    q + ((ts.zip as).flatMap B).length = nq ∧
    ∀ j < ts.length, q ≤ as.getD j 0 ∧ as.getD j 0 + (ts.getD j .hinge).nq ≤ nq ∧ ∀ i < (ts.getD j .hinge).nq,
      ((ts.zip as).flatMap B).getD (as.getD j 0 - q + i) x = (B (ts.getD j .hinge, as.getD j 0)).getD i x
  | q, v, [], [], [], h => by
    obtain ⟨rfl, _⟩ := h; simp
  | q, v, t :: ts, a :: as, b :: bs, h => by
    obtain ⟨rfl, _, h3⟩ := h
    obtain ⟨i1, i2⟩ := consecutive_qblock x B hB h3
    have h0 := hB t a
    rw [List.zip_cons_cons, List.flatMap_cons]
    refine ⟨by rw [List.length_append, h0]; omega, ?_⟩
    intro j hj
    cases j with
    | zero =>
      refine ⟨le_rfl, by simp only [List.getD_cons_zero]; omega, ?_⟩
      intro i hi
      simp only [List.getD_cons_zero] at hi ⊢
      rw [Nat.sub_self, Nat.zero_add, List.getD_append _ _ _ _ (by omega)]
    | succ j =>
      obtain ⟨k1, k2, k3⟩ := i2 j (by simpa using hj)
      simp only [List.getD_cons_succ]
      refine ⟨by omega, k2, ?_⟩
      intro i hi
      rw [List.getD_append_right _ _ _ _ (by omega), ← k3 i hi]
      congr 1; omega
  | _, _, [], [], _ :: _, h => by simp [Consecutive] at h
  | _, _, [], _ :: _, _, h => by simp [Consecutive] at h
  | _, _, _ :: _, [], _, h => by simp [Consecutive] at h
  | _, _, _ :: _, _ :: _, [], h => by simp [Consecutive] at h

variable {env : Env ℝ} {G : Geometry} {m : MjModel ℝ}

theorem quatNorm_normalize {q : ℍ[ℝ]} (h : q ≠ 0) : Quaternion.normSq (normalizeQuat q) = 1 := by
  have hp : 0 < Quaternion.normSq q := lt_of_le_of_ne Quaternion.normSq_nonneg (Ne.symm (Quaternion.normSq_ne_zero.2 h))
  rw [normalizeQuat, Quaternion.normSq_smul, inv_pow, Real.sq_sqrt hp.le, inv_mul_cancel₀ hp.ne']

/-- Normalising the quaternions of a configuration whose quaternions are normalised. -/
theorem normalized_get (hw : JointsWF m) {q : Vec ℝ} (hu : UnitQuats m q) :
    (normalizedQpos m q.get).length = m.nq ∧ ∀ k < m.nq, (normalizedQpos m q.get).getD k 0 = q.get k := by
  unfold normalizedQpos
  obtain ⟨h1, h2⟩ := consecutive_qblock (0 : ℝ) (fun (p : JntType × Nat) => match p.1 with
    | .free => vec3List (vec3At q.get p.2) ++ quatList (normalizeQuat (quatAt q.get (p.2 + 3)))
    | .ball => quatList (normalizeQuat (quatAt q.get p.2))
    | .hinge => [q.get p.2]
    | .slide => [q.get p.2]) (fun t a => by cases t <;> rfl) hw.addr
  refine ⟨by rw [← h1, Nat.zero_add]; rfl, ?_⟩
  intro k hk
  obtain ⟨j, hj, i, hi, e⟩ := coord_cover hw.addr k (Nat.zero_le _) hk
  obtain ⟨_, _, h3⟩ := h2 j hj
  have := h3 i hi
  rw [Nat.sub_zero] at this
  rw [e]
  refine Eq.trans ?_ (this.trans ?_)
  · rfl
  · cases ht : m.jntType.getD j .hinge with
    | hinge => rw [ht] at hi; obtain rfl : i = 0 := by have : i < 1 := hi; omega
               rfl
    | slide => rw [ht] at hi; obtain rfl : i = 0 := by have : i < 1 := hi; omega
               rfl
    | ball =>
      rw [ht] at hi
      dsimp only
      rw [normalizeQuat_unit (hu j _ (by rw [ht]; rfl))]
      have : i < 4 := hi
      interval_cases i <;> rfl
    | free =>
      rw [ht] at hi
      dsimp only
      rw [normalizeQuat_unit (hu j _ (by rw [ht]; rfl))]
      have : i < 7 := hi
      interval_cases i <;> rfl

theorem joint_coords (hw : JointsWF m) {q q' : Nat → ℝ} (h : ∀ k < m.nq, q k = q' k) {j : Nat} (hj : j < m.jntType.length) :
    ∀ i < (m.jntType.getD j .hinge).nq, q (qposOf m j + i) = q' (qposOf m j + i) := by
  obtain ⟨_, h2⟩ := consecutive_qblock (0 : ℕ) (fun (p : JntType × Nat) => List.replicate p.1.nq 0) (fun t a => by simp) hw.addr
  obtain ⟨_, hle, _⟩ := h2 j hj
  intro i hi
  apply h
  have : m.jntQposadr.getD j 0 = qposOf m j := rfl
  omega

theorem ball_coords (hw : JointsWF m) {q q' : Nat → ℝ} (h : ∀ k < m.nq, q k = q' k) {j : Nat} (hj : j < m.jntType.length)
    (ht : m.jntType.getD j .hinge = .ball) : quatAt q (qposOf m j) = quatAt q' (qposOf m j) := by
  have key := joint_coords hw h hj
  rw [ht] at key
  have k0 := key 0 (by decide); have k1 := key 1 (by decide); have k2 := key 2 (by decide); have k3 := key 3 (by decide)
  rw [Nat.add_zero] at k0
  simp only [quatAt, k0, k1, k2, k3]; rfl

theorem free_coords (hw : JointsWF m) {q q' : Nat → ℝ} (h : ∀ k < m.nq, q k = q' k) {j : Nat} (hj : j < m.jntType.length)
    (ht : m.jntType.getD j .hinge = .free) : vec3At q (qposOf m j) = vec3At q' (qposOf m j) ∧
      quatAt q (qposOf m j + 3) = quatAt q' (qposOf m j + 3) := by
  have key := joint_coords hw h hj
  rw [ht] at key
  have k0 := key 0 (by decide); have k1 := key 1 (by decide); have k2 := key 2 (by decide); have k3 := key 3 (by decide)
  have k4 := key 4 (by decide); have k5 := key 5 (by decide); have k6 := key 6 (by decide)
  rw [Nat.add_zero] at k0
  simp only [quatAt, vec3At, Nat.add_assoc, Nat.reduceAdd, k0, k1, k2, k3, k4, k5, k6]
  exact ⟨trivial, rfl⟩

theorem scalar_coords (hw : JointsWF m) {q q' : Nat → ℝ} (h : ∀ k < m.nq, q k = q' k) {j : Nat} (hj : j < m.jntType.length) :
    q (qposOf m j) = q' (qposOf m j) :=
  joint_coords hw h hj 0 (by cases m.jntType.getD j .hinge <;> decide)

theorem same_of_get (hw : JointsWF m) {q q' : Nat → ℝ} (h : ∀ k < m.nq, q k = q' k) : SameJoints G m q q' := by
  intro j hj T
  unfold jointMove
  have e : m.jntQposadr.getD j 0 = qposOf m j := rfl
  rw [e]
  cases ht : m.jntType.getD j .hinge with
  | hinge => simp only [scalar_coords hw h hj]
  | slide => simp only [scalar_coords hw h hj]
  | ball => simp only [ball_coords hw h hj ht]
  | free => simp only [(free_coords hw h hj ht).1, (free_coords hw h hj ht).2]

theorem unit_of_get (hw : JointsWF m) {q : Vec ℝ} (hu : UnitQuats m q) {q' : Nat → ℝ} (h : ∀ k < m.nq, q' k = q.get k) :
    ∀ k adr, quatAdr (m.jntType.getD k .hinge) (m.jntQposadr.getD k 0) = some adr → Quaternion.normSq (quatAt q' adr) = 1 := by
  intro k adr ha
  have hk := hu k adr ha
  by_cases hl : k < m.jntType.length
  · cases ht : m.jntType.getD k .hinge with
    | hinge => rw [ht] at ha; cases ha
    | slide => rw [ht] at ha; cases ha
    | ball => rw [ht] at ha; cases ha; rw [← hk]; exact congrArg _ (ball_coords hw h hl ht)
    | free => rw [ht] at ha; cases ha; rw [← hk]; exact congrArg _ (free_coords hw h hl ht).2
  · rw [List.getD_eq_default _ _ (by omega)] at ha
    cases ha

theorem jointTwist_congr (hw : RobotWF G m) {q q' : Nat → ℝ} (h : ∀ k < m.nq, q k = q' k) (v : Nat → ℝ) {j : Nat} (hj : j < m.jntType.length) :
    jointTwist G m q v j = jointTwist G m q' v j := by
  have hp : poseBefore G m q j = poseBefore G m q' j := by
    obtain ⟨b0, b1⟩ := hw.joints j hj
    rw [poseBefore_stage q hj, poseBefore_stage q' hj, stage_congr hw.tree (same_of_get hw.addr h) b0 b1 j hj.le]
  unfold jointTwist moveTwist
  rw [hp]
  cases ht : m.jntType.getD j .hinge with
  | hinge => rfl
  | slide => rfl
  | ball => simp only [ball_coords hw.addr h hj ht]
  | free => simp only [(free_coords hw.addr h hj ht).1, (free_coords hw.addr h hj ht).2]

/-- Place of an object on its body. -/
def offsetOf (G : Geometry) : ObjType → Nat → V3 ℝ
  | .geom, i => G.geomPos.getD i 0
  | .site, i => G.sitePos.getD i 0
  | _, _ => 0
def turnOf (G : Geometry) : ObjType → Nat → ℍ[ℝ]
  | .geom, i => G.geomQuat.getD i 1
  | .site, i => G.siteQuat.getD i 1
  | _, _ => 1

theorem update_fields (hs : Simulates env G m) (q : Vec ℝ) : ∃ e p J,
    update env m q = { simComPos G m (simKinematics G m q) with efcEq := e, efcPos := p, efcJ := J } := by
  obtain ⟨e, p, J, h⟩ := hs.constraint (simComPos G m (simKinematics G m q))
  exact ⟨e, p, J, by rw [update, hs.kinematics, hs.comPos, h]⟩

private theorem map_range_get {α : Type} (f : Nat → α) {n i : Nat} (h : i < n) : ((List.range n).map f)[i]? = some (f i) := by
  rw [List.getElem?_map, List.getElem?_range h]; rfl

theorem update_object (hs : Simulates env G m) (q : Vec ℝ) {t : ObjType} {i b : Nat} (hb : bodyOf m t i = some b) :
    objPos (update env m q) t i = .ok ((bodyPose G m q.get b).apply (offsetOf G t i)) ∧
    objMat (update env m q) t i = .ok (quatMat ((bodyPose G m q.get b).rot * turnOf G t i)) := by
  obtain ⟨e, p, J, hu⟩ := update_fields hs q
  rw [hu]
  cases t with
  | geom =>
    have hb' : m.geomBodyid[i]? = some b := hb
    obtain ⟨hi, hbi⟩ := List.getElem?_eq_some_iff.1 hb'
    have hg : m.geomBodyid.getD i 0 = b := by rw [List.getD_eq_getElem _ _ hi, hbi]
    constructor
    · refine jnpGet_some (Eq.trans (map_range_get _ hi) ?_)
      rw [hg]; rfl
    · refine jnpGet_some (Eq.trans (map_range_get _ hi) ?_)
      rw [hg]; rfl
  | site =>
    have hb' : m.siteBodyid[i]? = some b := hb
    obtain ⟨hi, hbi⟩ := List.getElem?_eq_some_iff.1 hb'
    have hg : m.siteBodyid.getD i 0 = b := by rw [List.getD_eq_getElem _ _ hi, hbi]
    constructor
    · refine jnpGet_some (Eq.trans (map_range_get _ hi) ?_)
      rw [hg]; rfl
    · refine jnpGet_some (Eq.trans (map_range_get _ hi) ?_)
      rw [hg]; rfl
  | body =>
    simp only [bodyOf, Option.ite_none_right_eq_some, Option.some.injEq] at hb
    obtain ⟨hi, rfl⟩ := hb
    constructor
    · refine jnpGet_some (Eq.trans (map_range_get _ hi) ?_)
      simp [offsetOf, SE3.apply, rotate_zero]
    · refine jnpGet_some (Eq.trans (map_range_get _ hi) ?_)
      simp [turnOf]
  | other =>
    simp only [bodyOf, Option.ite_none_right_eq_some, Option.some.injEq] at hb
    obtain ⟨hi, rfl⟩ := hb
    constructor
    · refine jnpGet_some (Eq.trans (map_range_get _ hi) ?_)
      simp [offsetOf, SE3.apply, rotate_zero]
    · refine jnpGet_some (Eq.trans (map_range_get _ hi) ?_)
      simp [turnOf]

theorem update_frame (hs : Simulates env G m) (q : Vec ℝ) {b : Nat} (hb : b < m.nbody) :
    transformFrameToWorld (update env m q) b = .ok (bodyPose G m q.get b) := by
  obtain ⟨e, p, J, hu⟩ := update_fields hs q
  rw [hu, transformFrameToWorld]
  have h1 : jnpGet (simComPos G m (simKinematics G m q)).xquat b = .ok (bodyPose G m q.get b).rot := jnpGet_some (map_range_get _ hb)
  have h2 : jnpGet (simComPos G m (simKinematics G m q)).xpos b = .ok (bodyPose G m q.get b).trans := jnpGet_some (map_range_get _ hb)
  simp only [bind, Except.bind, h1, h2]
  rfl

theorem bodyTreeSum_length {α : Type} [Add α] [Zero α] (parent : List Nat) : ∀ (n : Nat) (x : List α), (bodyTreeSum parent n x).length = x.length
  | 0, _ => rfl
  | n + 1, x => by rw [bodyTreeSum, bodyTreeSum_length parent n]; simp

theorem coms_length (hw : RobotWF G m) (x : List (V3 ℝ)) (hx : x.length = m.nbody) : (subtreeComs m x).length = m.nbody := by
  simp [subtreeComs, bodyTreeSum_length, hx, hw.mass]

theorem velocity_sum (pos : V3 ℝ) (n : Nat) (F : Nat → V3 ℝ × V3 ℝ) :
    ∑ k ∈ range n, (pointVel pos (F k), (F k).1) = (pointVel pos (∑ k ∈ range n, F k), (∑ k ∈ range n, F k).1) := by
  induction n with
  | zero => simp [pointVel_zero]; rfl
  | succ n ih =>
    rw [sum_range_succ, sum_range_succ, ih, pointVel_add]
    rfl

open Classical in
/-- The Jacobian of a point of body `b`, in the data of the simulator: its rows combine to the velocity of the point. -/
theorem rows_velocity (hs : Simulates env G m) (hw : RobotWF G m) {q : Vec ℝ} (hu : UnitQuats m q) (v : Nat → ℝ) {b : Nat} (hb : b < m.nbody) (pos : V3 ℝ) :
    ∃ root com, jnpGet m.bodyRootid b = .ok root ∧ jnpGet (update env m q).subtreeCom root = .ok com ∧
      objVelocity (((update env m q).cdof.zip (dofMask m b)).map (fun x => maskRow x.2 (pointVel (pos - com) x.1, x.1.1))) v =
        (pointVel pos (∑ j ∈ range m.jntType.length, if Anc m.bodyParentid (G.jntBodyid.getD j 0) b then jointTwist G m q.get v j else 0),
          (∑ j ∈ range m.jntType.length, if Anc m.bodyParentid (G.jntBodyid.getD j 0) b then jointTwist G m q.get v j else 0).1) := by
  obtain ⟨e, p, J, hup⟩ := update_fields hs q
  set coms := subtreeComs m (simKinematics G m q).xipos with hcoms
  have hcl : coms.length = m.nbody := coms_length hw _ (by simp [simKinematics])
  have hr0 : m.bodyRootid[b]? = some (m.bodyRootid.getD b 0) := by
    rw [List.getD_eq_getElem _ _ (by rw [hw.roots.1]; exact hb), List.getElem?_eq_getElem]
  have hrl := hw.roots.2 b hb
  have hc0 : coms[m.bodyRootid.getD b 0]? = some (coms.getD (m.bodyRootid.getD b 0) 0) := by
    rw [List.getD_eq_getElem coms _ (by rw [hcl]; exact hrl), List.getElem?_eq_getElem]
  refine ⟨m.bodyRootid.getD b 0, coms.getD (m.bodyRootid.getD b 0) 0, jnpGet_some hr0, ?_, ?_⟩
  · rw [hup]; exact jnpGet_some hc0
  · rw [hup]
    have hcd : ({ simComPos G m (simKinematics G m q) with efcEq := e, efcPos := p, efcJ := J } : MjData ℝ).cdof =
        (List.range m.jntType.length).flatMap fun j => jointCdof G m (simKinematics G m q).qpos.get
          (coms.getD (m.bodyRootid.getD (G.jntBodyid.getD j 0) 0) 0) j := rfl
    rw [hcd]
    obtain ⟨n1, n2⟩ := normalized_get hw.addr hu
    have hq' : ∀ k < m.nq, (simKinematics G m q).qpos.get k = q.get k := n2
    generalize (simKinematics G m q).qpos.get = q' at *
    have hu' := unit_of_get hw.addr hu hq'
    have htw : ∀ j ∈ range m.jntType.length, jointTwist G m q' v j = jointTwist G m q.get v j :=
      fun j hj => jointTwist_congr hw hq' v (mem_range.1 hj)
    obtain ⟨l1, l2⟩ := dof_sum (v := v) hw hu' coms hb
    generalize ((List.range m.jntType.length).flatMap fun j => jointCdof G m q'
          (coms.getD (m.bodyRootid.getD (G.jntBodyid.getD j 0) 0) 0) j) = cd at *
    have hsum : (∑ j ∈ range m.jntType.length, if Anc m.bodyParentid (G.jntBodyid.getD j 0) b then jointTwist G m q.get v j else 0) =
        ∑ j ∈ range m.jntType.length, if Anc m.bodyParentid (G.jntBodyid.getD j 0) b then jointTwist G m q' v j else 0 :=
      sum_congr rfl fun j hj => by rw [htw j hj]
    rw [hsum, ← l2]
    unfold objVelocity
    have hlen : ((cd.zip (dofMask m b)).map (fun x => maskRow x.2 (pointVel (pos - coms.getD (m.bodyRootid.getD b 0) 0) x.1, x.1.1))).length = m.nv := by
      simp [l1, dofMask_length, hw.tree.dofs]
    rw [hlen]
    have hrow : ∀ k ∈ range m.nv, v k • ((cd.zip (dofMask m b)).map
        (fun x => maskRow x.2 (pointVel (pos - coms.getD (m.bodyRootid.getD b 0) 0) x.1, x.1.1))).getD k (0, 0) =
        (pointVel pos (if Anc m.bodyParentid (m.dofBodyid.getD k 0) b then v k • atOrigin (coms.getD (m.bodyRootid.getD b 0) 0) (cd.getD k (0, 0)) else 0),
          (if Anc m.bodyParentid (m.dofBodyid.getD k 0) b then v k • atOrigin (coms.getD (m.bodyRootid.getD b 0) 0) (cd.getD k (0, 0)) else 0).1) := by
      intro k hk
      rw [mem_range] at hk
      have hk' : k < m.dofBodyid.length := by rw [hw.tree.dofs]; exact hk
      rw [zip_map_getD _ _ _ _ (0, 0) false _ (by omega) (by rw [dofMask_length]; exact hk')]
      by_cases ha : Anc m.bodyParentid (m.dofBodyid.getD k 0) b
      · rw [(dofMask_iff hw.tree b hb k hk').2 ha, if_pos ha, pointVel_smul, ← pointVel_atOrigin]
        rfl
      · rw [mask_false hw.tree hb ha hk', if_neg ha, pointVel_zero]
        simp [maskRow]
    rw [sum_congr rfl hrow]
    exact velocity_sum _ _ _

end Mjinx
