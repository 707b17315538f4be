import Verif.Spec.Carry
import Verif.Props.RobotSampled
import Verif.Lemmas.Structure

/-! # The simulated data of a robot that is carried elsewhere -/

namespace Mjinx
open Real Props Spec Finset
open scoped Quaternion Matrix

namespace Carry
variable {env : Env ℝ} {G : Geometry} {m : MjModel ℝ} {s : V3 ℝ}

theorem offsets_length (t : JntType) : (baseOffsets s t).length = t.nq := by cases t <;> rfl

/-- The offsets by the addresses of the joints. -/
theorem offset_at (hw : JointsWF m) : (m.jntType.flatMap (baseOffsets s)).length = m.nq ∧ ∀ j < m.jntType.length, ∀ i < (m.jntType.getD j .hinge).nq,
    baseOffset m s (m.jntQposadr.getD j 0 + i) = (baseOffsets s (m.jntType.getD j .hinge)).getD i 0 := by
  obtain ⟨h1, h2⟩ := consecutive_qblock (0 : ℝ) (fun p : JntType × Nat => baseOffsets s p.1) (fun t a => offsets_length t) hw.addr
  have e : (m.jntType.zip m.jntQposadr).flatMap (fun p : JntType × Nat => baseOffsets s p.1) = m.jntType.flatMap (baseOffsets s) := by
    conv_rhs => rw [← List.map_fst_zip (l₁ := m.jntType) (l₂ := m.jntQposadr) (by rw [(consecutive_lengths hw.addr).1]), List.flatMap_map]
  rw [e] at h1 h2
  refine ⟨by omega, fun j hj i hi => ?_⟩
  have := (h2 j hj).2.2 i hi
  rw [Nat.sub_zero] at this
  exact this

theorem offset_beyond (hw : JointsWF m) {i : Nat} (hi : m.nq ≤ i) : baseOffset m s i = 0 := by
  unfold baseOffset
  rw [List.getD_eq_default _ _ (by rw [(offset_at hw).1]; exact hi)]

variable {q q' : Nat → ℝ}

/-- Configurations that differ by the offsets. -/
def Along (m : MjModel ℝ) (s : V3 ℝ) (q q' : Nat → ℝ) : Prop := ∀ i, q' i = q i + baseOffset m s i

theorem along_carry (q : Vec ℝ) : Along m s q.get (carry m s q).get := fun _ => rfl

theorem free_pos (hw : JointsWF m) (ha : Along m s q q') {j : Nat} (hj : j < m.jntType.length) (ht : m.jntType.getD j .hinge = .free) :
    vec3At q' (m.jntQposadr.getD j 0) = vec3At q (m.jntQposadr.getD j 0) + s ∧ quatAt q' (m.jntQposadr.getD j 0 + 3) = quatAt q (m.jntQposadr.getD j 0 + 3) := by
  have h := (offset_at (s := s) hw).2 j hj
  rw [ht] at h
  have h' : ∀ i < 7, q' (m.jntQposadr.getD j 0 + i) = q (m.jntQposadr.getD j 0 + i) + (baseOffsets s .free).getD i 0 := fun i hi => by rw [ha, h i hi]
  constructor
  · unfold vec3At
    have h0 := h' 0 (by omega)
    have h1 := h' 1 (by omega)
    have h2 := h' 2 (by omega)
    rw [Nat.add_zero] at h0
    rw [h0, h1, h2]
    funext i
    fin_cases i <;> rfl
  · unfold quatAt
    have h3 := h' 3 (by omega)
    have h4 := h' 4 (by omega)
    have h5 := h' 5 (by omega)
    have h6 := h' 6 (by omega)
    rw [h3, show m.jntQposadr.getD j 0 + 3 + 1 = m.jntQposadr.getD j 0 + 4 from rfl, show m.jntQposadr.getD j 0 + 3 + 2 = m.jntQposadr.getD j 0 + 5 from rfl,
      show m.jntQposadr.getD j 0 + 3 + 3 = m.jntQposadr.getD j 0 + 6 from rfl, h4, h5, h6]
    simp [baseOffsets]
    rfl

theorem ball_same (hw : JointsWF m) (ha : Along m s q q') {j : Nat} (hj : j < m.jntType.length) (ht : m.jntType.getD j .hinge = .ball) :
    quatAt q' (m.jntQposadr.getD j 0) = quatAt q (m.jntQposadr.getD j 0) := by
  have h := (offset_at (s := s) hw).2 j hj
  rw [ht] at h
  have h' : ∀ i < 4, q' (m.jntQposadr.getD j 0 + i) = q (m.jntQposadr.getD j 0 + i) + (baseOffsets s .ball).getD i 0 := fun i hi => by rw [ha, h i hi]
  unfold quatAt
  have h0 := h' 0 (by omega)
  rw [Nat.add_zero] at h0
  rw [h0, h' 1 (by omega), h' 2 (by omega), h' 3 (by omega)]
  simp [baseOffsets]
  rfl

theorem scalar_same (hw : JointsWF m) (ha : Along m s q q') {j : Nat} (hj : j < m.jntType.length)
    (ht : m.jntType.getD j .hinge = .hinge ∨ m.jntType.getD j .hinge = .slide) : q' (m.jntQposadr.getD j 0) = q (m.jntQposadr.getD j 0) := by
  have h := (offset_at (s := s) hw).2 j hj 0 (by rcases ht with ht | ht <;> rw [ht] <;> exact Nat.one_pos)
  rw [Nat.add_zero] at h
  rw [ha, h]
  rcases ht with ht | ht <;> rw [ht] <;> simp [baseOffsets]

/-- A pose moved by `s`. -/
def slid (s : V3 ℝ) (T : SE3 ℝ) : SE3 ℝ := ⟨T.rot, T.trans + s⟩

theorem slid_apply (T : SE3 ℝ) (p : V3 ℝ) : (slid s T).apply p = T.apply p + s := by
  unfold slid SE3.apply; rw [add_assoc]

theorem slid_mul (T U : SE3 ℝ) : (slid s T).mul U = slid s (T.mul U) := by
  unfold slid SE3.mul; rw [add_assoc]

theorem move_slid (hw : JointsWF m) (ha : Along m s q q') {j : Nat} (hj : j < m.jntType.length) (T : SE3 ℝ) :
    jointMove G m q' (slid s T) j = slid s (jointMove G m q T j) := by
  unfold jointMove
  cases ht : m.jntType.getD j .hinge <;> dsimp only
  case free => rw [(free_pos hw ha hj ht).1, (free_pos hw ha hj ht).2]; rfl
  case ball => rw [ball_same hw ha hj ht, slid_apply]; unfold slid; dsimp only; congr 1; abel
  case hinge => rw [scalar_same hw ha hj (.inl ht), slid_apply]; unfold slid; dsimp only; congr 1; abel
  case slide => rw [scalar_same hw ha hj (.inr ht)]; unfold slid; dsimp only; congr 1; abel

theorem move_free (hw : JointsWF m) (ha : Along m s q q') {j : Nat} (hj : j < m.jntType.length) (ht : m.jntType.getD j .hinge = .free) (T T' : SE3 ℝ) :
    jointMove G m q' T' j = slid s (jointMove G m q T j) := by
  unfold jointMove
  rw [ht]
  dsimp only
  rw [(free_pos hw ha hj ht).1, (free_pos hw ha hj ht).2]; rfl

theorem fold_slid (hw : JointsWF m) (ha : Along m s q q') : ∀ (l : List Nat), (∀ j ∈ l, j < m.jntType.length) → ∀ T : SE3 ℝ,
    l.foldl (jointMove G m q') (slid s T) = slid s (l.foldl (jointMove G m q) T)
  | [], _, _ => rfl
  | j :: l, h, T => by
    rw [List.foldl_cons, List.foldl_cons, move_slid hw ha (h j (by simp)), fold_slid hw ha l (fun i hi => h i (by simp [hi]))]

theorem mem_joints {b j : Nat} : j ∈ jointsOfBody G m b ↔ j < m.jntType.length ∧ G.jntBodyid.getD j 0 = b := by
  simp [jointsOfBody]

/-- A body with a free joint has no other joints. -/
theorem joints_free (hw : RobotWF G m) {b j : Nat} (hj : j < m.jntType.length) (hb : G.jntBodyid.getD j 0 = b) (ht : m.jntType.getD j .hinge = .free) :
    jointsOfBody G m b = [j] := by
  have h1 : ∀ i ∈ jointsOfBody G m b, i = j := fun i hi => (hw.free j hj ht).2 i (mem_joints.1 hi).1 ((mem_joints.1 hi).2.trans hb.symm)
  have h2 : (jointsOfBody G m b).Nodup := List.nodup_range.filter _
  have h3 : j ∈ jointsOfBody G m b := mem_joints.2 ⟨hj, hb⟩
  match h : jointsOfBody G m b, h1, h2, h3 with
  | [], _, _, h3 => cases h3
  | [x], h1, _, _ => rw [h1 x (by simp)]
  | x :: y :: l, h1, h2, _ =>
    have ex := h1 x (by simp)
    have ey := h1 y (by simp)
    rw [ex, ey] at h2
    simp at h2

/-- All bodies but the world move along. -/
theorem pose_slid (hw : RobotWF G m) (hf : Floating G m) (ha : Along m s q q') : ∀ b, 0 < b → b < m.nbody → bodyPose G m q' b = slid s (bodyPose G m q b) := by
  intro b
  induction b using Nat.strong_induction_on with
  | _ b ih =>
    intro h0 hb
    have hp := hw.tree.parent b h0 hb
    rw [bodyPose, bodyPose, if_neg (by omega), if_neg (by omega)]
    dsimp only
    rw [dif_pos hp, dif_pos hp]
    by_cases hz : m.bodyParentid.getD b 0 = 0
    · obtain ⟨j, hj, hjb, ht⟩ := hf.base b h0 hb hz
      rw [joints_free hw hj hjb ht, List.foldl_cons, List.foldl_nil, List.foldl_cons, List.foldl_nil]
      exact move_free hw.addr ha hj ht _ _
    · rw [ih _ hp (by omega) (by omega), slid_mul]
      exact fold_slid hw.addr ha _ (fun j hj => (mem_joints.1 hj).1) _

/-- The configuration, as the kinematics store it, moves along. -/
theorem qpos_slid (hw : JointsWF m) (ha : Along m s q q') :
    (normalizedQpos m q).length = m.nq ∧ (normalizedQpos m q').length = m.nq ∧ Along m s (fun i => (normalizedQpos m q).getD i 0) fun i => (normalizedQpos m q').getD i 0 := by
  have key : ∀ q : Nat → ℝ, (normalizedQpos m q).length = m.nq ∧ ∀ j < m.jntType.length, ∀ i < (m.jntType.getD j .hinge).nq,
      (normalizedQpos m q).getD (m.jntQposadr.getD j 0 + i) 0 = (match m.jntType.getD j .hinge with
        | .free => vec3List (vec3At q (m.jntQposadr.getD j 0)) ++ quatList (normalizeQuat (quatAt q (m.jntQposadr.getD j 0 + 3)))
        | .ball => quatList (normalizeQuat (quatAt q (m.jntQposadr.getD j 0)))
        | .hinge => [q (m.jntQposadr.getD j 0)]
        | .slide => [q (m.jntQposadr.getD j 0)]).getD i 0 := by
    intro q
    obtain ⟨h1, h2⟩ := consecutive_qblock (0 : ℝ) (fun (p : JntType × Nat) => match p.1 with
      | .free => vec3List (vec3At q p.2) ++ quatList (normalizeQuat (quatAt q (p.2 + 3)))
      | .ball => quatList (normalizeQuat (quatAt q p.2))
      | .hinge => [q p.2]
      | .slide => [q p.2]) (fun t a => by cases t <;> rfl) hw.addr
    refine ⟨by rw [← h1, Nat.zero_add]; rfl, fun j hj i hi => ?_⟩
    have := (h2 j hj).2.2 i hi
    rw [Nat.sub_zero] at this
    exact this
  obtain ⟨l1, k1⟩ := key q
  obtain ⟨l2, k2⟩ := key q'
  refine ⟨l1, l2, fun i => ?_⟩
  dsimp only
  by_cases hi : i < m.nq
  · obtain ⟨j, hj, i, hi', rfl⟩ := coord_cover hw.addr i (Nat.zero_le _) hi
    clear hi
    rename' hi' => hi
    rw [k1 j hj i hi, k2 j hj i hi, (offset_at hw).2 j hj i hi]
    cases ht : m.jntType.getD j .hinge <;> rw [ht] at hi <;> dsimp only
    case free =>
      rw [(free_pos hw ha hj ht).1, (free_pos hw ha hj ht).2]
      have : i < 7 := hi
      interval_cases i <;> simp [vec3List, quatList, baseOffsets]
    case ball =>
      rw [ball_same hw ha hj ht]
      have : i < 4 := hi
      interval_cases i <;> simp [baseOffsets]
    case hinge =>
      rw [scalar_same hw ha hj (.inl ht)]
      obtain rfl : i = 0 := by have : i < 1 := hi; omega
      simp [baseOffsets]
    case slide =>
      rw [scalar_same hw ha hj (.inr ht)]
      obtain rfl : i = 0 := by have : i < 1 := hi; omega
      simp [baseOffsets]
  · rw [List.getD_eq_default _ _ (by omega), List.getD_eq_default _ _ (by omega), offset_beyond hw (by omega), add_zero]

/-- What moves along in the data, and what stays: everything that components other than self-collision barriers and frame tasks read. -/
structure Carried (m : MjModel ℝ) (s : V3 ℝ) (d d' : MjData ℝ) : Prop where
  qlen : d.qpos.len = m.nq
  qpos : d'.qpos = carry m s d.qpos
  objects : ∀ ty i, OnRobot m ty i → ∃ p, objPos d ty i = .ok p ∧ objPos d' ty i = .ok (p + s)

theorem kin_carried (hw : RobotWF G m) (hf : Floating G m) (q : Vec ℝ) : Carried m s (simKinematics G m q) (simKinematics G m (carry m s q)) := by
  obtain ⟨l1, l2, h⟩ := qpos_slid hw.addr (along_carry (m := m) (s := s) q)
  have hrange : ∀ {n i : Nat} (f : Nat → V3 ℝ), i < n → jnpGet ((List.range n).map f) (i : Int) = .ok (f i) := by
    intro n i f hi
    exact jnpGet_some (by rw [List.getElem?_map, List.getElem?_range hi]; rfl)
  refine ⟨l1, ?_, ?_⟩
  · show (⟨_, _⟩ : Vec ℝ) = ⟨_, _⟩
    congr 1
    · exact l2.trans l1.symm
    · funext i; exact h i
  · rintro ty i ⟨hi, b, hb, hb0⟩
    obtain ⟨i, rfl⟩ := Int.eq_ofNat_of_zero_le hi
    have hb' : bodyOf m ty i = some b := hb
    have hbn := body_lt hw hb'
    have hs := pose_slid hw hf (along_carry (m := m) (s := s) q) b (by omega) hbn
    cases ty with
    | geom =>
      have hg : m.geomBodyid[i]? = some b := hb'
      obtain ⟨hi, rfl⟩ := List.getElem?_eq_some_iff.1 hg
      refine ⟨_, hrange _ hi, ?_⟩
      refine (hrange _ hi).trans ?_
      rw [List.getD_eq_getElem _ _ hi, hs, slid_apply]
    | site =>
      have hg : m.siteBodyid[i]? = some b := hb'
      obtain ⟨hi, rfl⟩ := List.getElem?_eq_some_iff.1 hg
      refine ⟨_, hrange _ hi, ?_⟩
      refine (hrange _ hi).trans ?_
      rw [List.getD_eq_getElem _ _ hi, hs, slid_apply]
    | body | other =>
      simp only [bodyOf, Option.ite_none_right_eq_some, Option.some.injEq] at hb'
      obtain ⟨hi, rfl⟩ := hb'
      refine ⟨_, hrange _ hi, ?_⟩
      refine (hrange _ hi).trans ?_
      rw [hs]; rfl

/-- The centre of mass of the robot moves along. -/
theorem com_carried (hw : RobotWF G m) (hf : Floating G m) (hm : 1 / 10 ^ 15 ≤ ∑ b ∈ range m.nbody, m.bodyMass.getD b 0) (q : Vec ℝ) :
    ∃ c, npGet m.bodyRootid 0 = .ok 0 ∧ jnpGet (subtreeComs m (simKinematics G m q).xipos) (0 : Nat) = .ok c ∧
      jnpGet (subtreeComs m (simKinematics G m (carry m s q)).xipos) (0 : Nat) = .ok (c + s) := by
  have hr : npGet m.bodyRootid 0 = .ok 0 := by
    refine npGet_some (i := 0) ?_
    have h0 := hw.tree.pos
    have hl : 0 < m.bodyRootid.length := by rw [hw.roots.1]; exact h0
    have := hf.worldRoot
    rw [List.getD_eq_getElem _ _ hl] at this
    rw [List.getElem?_eq_getElem hl, this]
  refine ⟨_, hr, jnpGet_some (subtreeComs_root hw.tree (by simp [simKinematics]) hw.mass hm), ?_⟩
  rw [jnpGet_some (subtreeComs_root hw.tree (xipos := (simKinematics G m (carry m s q)).xipos) (by simp [simKinematics]) hw.mass hm)]
  congr 1
  funext a
  show massMean m _ a = massMean m _ a + s a
  have hM : totalMass m ≠ 0 := ne_of_gt (lt_of_lt_of_le (by norm_num) hm)
  unfold massMean
  rw [div_add' _ _ _ hM]
  congr 1
  unfold totalMass
  rw [mul_sum, ← sum_add_distrib]
  refine sum_congr rfl fun b hb => ?_
  rw [mem_range] at hb
  by_cases h0 : b = 0
  · subst h0; rw [hf.weightless]; ring
  · have e : ∀ q, (simKinematics G m q).xipos.getD b 0 = (bodyPose G m q.get b).apply (G.bodyIpos.getD b 0) := by
      intro q
      show ((List.range m.nbody).map _).getD b 0 = _
      rw [List.getD_eq_getElem _ _ (by simpa using hb)]
      simp
    rw [e, e, pose_slid hw hf (along_carry q) b (by omega) hb, slid_apply]
    show _ * (_ + s a) = _
    ring

/-! ## Motion axes -/

theorem anchor_slid (hw : RobotWF G m) (hf : Floating G m) (ha : Along m s q q') {j : Nat} (hj : j < m.jntType.length) :
    jointAnchor G m q' j = jointAnchor G m q j + s ∧ jointAxis G m q' j = jointAxis G m q j := by
  by_cases ht : m.jntType.getD j .hinge = .free
  · unfold jointAnchor jointAxis
    rw [ht]
    exact ⟨(free_pos hw.addr ha hj ht).1, rfl⟩
  · obtain ⟨h0, hb⟩ := hw.joints j hj
    have hp := hw.tree.parent _ h0 hb
    have hz : m.bodyParentid.getD (G.jntBodyid.getD j 0) 0 ≠ 0 := by
      intro hz
      obtain ⟨i, hi, hib, hit⟩ := hf.base _ h0 hb hz
      obtain rfl := (hw.free i hi hit).2 j hj hib.symm
      exact ht hit
    have hpose : poseBefore G m q' j = slid s (poseBefore G m q j) := by
      unfold poseBefore
      dsimp only
      rw [pose_slid hw hf ha _ (by omega) (by omega), slid_mul]
      exact fold_slid hw.addr ha _ (fun i hi => (mem_joints.1 (List.mem_of_mem_filter hi)).1) _
    unfold jointAnchor jointAxis
    rw [hpose]
    cases h : m.jntType.getD j .hinge <;> first | exact absurd h ht | exact ⟨slid_apply _ _, rfl⟩

theorem cdof_slid (hw : RobotWF G m) (hf : Floating G m) (ha : Along m s q q') {j : Nat} (hj : j < m.jntType.length) (c : V3 ℝ) :
    jointCdof G m q' (c + s) j = jointCdof G m q c j := by
  obtain ⟨h1, h2⟩ := anchor_slid hw hf ha hj
  obtain ⟨h0, hb⟩ := hw.joints j hj
  unfold jointCdof
  rw [h1, h2, pose_slid hw hf ha _ h0 hb, add_sub_add_right_eq_sub]
  rfl

open Classical in
/-- The centres of mass of the robot's bodies move along. -/
theorem coms_slid (hw : RobotWF G m) (hf : Floating G m) (q : Vec ℝ) {b : Nat} (h0 : 0 < b) (hb : b < m.nbody) :
    ∃ c, (subtreeComs m (simKinematics G m q).xipos)[b]? = some c ∧ (subtreeComs m (simKinematics G m (carry m s q)).xipos)[b]? = some (c + s) := by
  have hlen : ∀ q, (simKinematics G m q).xipos.length = m.nbody := fun q => by simp [simKinematics]
  refine ⟨_, C61_subtrees hw.tree (hlen q) hw.mass hb, ?_⟩
  rw [C61_subtrees hw.tree (hlen _) hw.mass hb]
  have e : ∀ c, c ≠ 0 → c < m.nbody → (simKinematics G m (carry m s q)).xipos.getD c 0 = (simKinematics G m q).xipos.getD c 0 + s := by
    intro c hc hcn
    have e : ∀ q, (simKinematics G m q).xipos.getD c 0 = (bodyPose G m q.get c).apply (G.bodyIpos.getD c 0) := by
      intro q
      show ((List.range m.nbody).map _).getD c 0 = _
      rw [List.getD_eq_getElem _ _ (by simpa using hcn)]
      simp
    rw [e, e, pose_slid hw hf (along_carry q) c (by omega) hcn, slid_apply]
  congr 1
  by_cases hm : subtreeMass m b < 1 / 10 ^ 15
  · rw [if_pos hm, if_pos hm]
    exact e b (by omega) hb
  · rw [if_neg hm, if_neg hm]
    have hM : subtreeMass m b ≠ 0 := ne_of_gt (lt_of_lt_of_le (by norm_num) (not_lt.1 hm))
    funext a
    show subtreeMean m _ b a = subtreeMean m _ b a + s a
    unfold subtreeMean
    rw [div_add' _ _ _ hM]
    congr 1
    have hmass : s a * subtreeMass m b = ∑ c ∈ range m.nbody, if Anc m.bodyParentid b c then m.bodyMass.getD c 0 * s a else 0 := by
      unfold subtreeMass
      rw [mul_sum]
      exact sum_congr rfl fun c _ => by split <;> ring
    rw [hmass, ← sum_add_distrib]
    refine sum_congr rfl fun c hc => ?_
    rw [mem_range] at hc
    split
    · by_cases h0 : c = 0
      · subst h0; rw [hf.weightless]; ring
      · rw [e c h0 hc]
        show _ * (_ + s a) = _
        ring
    · ring

/-! ## Contacts -/

theorem dictAppend_elem {κ β : Type} [DecidableEq κ] {k : κ} {x : β} : ∀ {d : List (κ × List β)} {kg : κ × List β} {y : β}, kg ∈ dictAppend d k x → y ∈ kg.2 →
    y = x ∨ ∃ kg' ∈ d, y ∈ kg'.2
  | [], kg, y, h, hy => by
    obtain rfl := List.mem_singleton.1 h
    exact .inl (List.mem_singleton.1 hy)
  | (k', xs) :: d, kg, y, h, hy => by
    unfold dictAppend at h
    split at h
    · rcases List.mem_cons.1 h with rfl | h
      · rcases List.mem_append.1 hy with hy | hy
        · exact .inr ⟨(k', xs), List.mem_cons_self, hy⟩
        · exact .inl (List.mem_singleton.1 hy)
      · exact .inr ⟨kg, by simp [h], hy⟩
    · rcases List.mem_cons.1 h with rfl | h
      · exact .inr ⟨(k', xs), List.mem_cons_self, hy⟩
      · rcases dictAppend_elem h hy with e | ⟨kg', h1, h2⟩
        · exact .inl e
        · exact .inr ⟨kg', by simp [h1], h2⟩

/-- Every grouped pair is one of the given pairs, perhaps with the geometries exchanged. -/
theorem groups_elem {P : Int × Int → Prop} (hswap : ∀ g, P g → P (g.2, g.1)) {pairs : List (Int × Int)} (hp : ∀ g ∈ pairs, P g)
    {gs : List (FunctionKey × List (Int × Int))} (h : geomGroups m pairs = .ok gs) : ∀ kg ∈ gs, ∀ g ∈ kg.2, P g := by
  unfold geomGroups at h
  suffices H : ∀ (pairs : List (Int × Int)), (∀ g ∈ pairs, P g) → ∀ acc : List (FunctionKey × List (Int × Int)), (∀ kg ∈ acc, ∀ g ∈ kg.2, P g) →
      pairs.foldlM (fun acc g => do let kg ← pairKey m g; return dictAppend acc kg.1 kg.2) acc = .ok gs → ∀ kg ∈ gs, ∀ g ∈ kg.2, P g from
    H pairs hp [] (by simp) h
  intro pairs
  induction pairs with
  | nil => intro _ acc ha h; cases h; exact ha
  | cons g pairs ih =>
    intro hp acc ha h
    rw [List.foldlM_cons] at h
    obtain ⟨acc', h1, h2⟩ := Except.bind_eq_ok h
    refine ih (fun g hg => hp g (by simp [hg])) acc' ?_ h2
    obtain ⟨kg, hk, h3⟩ := Except.bind_eq_ok h1
    cases h3
    have hkg : P kg.2 := by
      unfold pairKey at hk
      obtain ⟨t1, -, hk⟩ := Except.bind_eq_ok hk
      obtain ⟨t2, -, hk⟩ := Except.bind_eq_ok hk
      dsimp only at hk
      obtain ⟨_, -, hk⟩ := Except.bind_eq_ok hk
      obtain ⟨_, -, hk⟩ := Except.bind_eq_ok hk
      obtain ⟨_, -, hk⟩ := Except.bind_eq_ok hk
      obtain ⟨_, -, hk⟩ := Except.bind_eq_ok hk
      obtain ⟨_, -, hk⟩ := Except.bind_eq_ok hk
      obtain ⟨_, -, hk⟩ := Except.bind_eq_ok hk
      obtain ⟨_, -, hk⟩ := Except.bind_eq_ok hk
      obtain ⟨_, -, hk⟩ := Except.bind_eq_ok hk
      cases hk
      dsimp only
      split
      · exact hswap g (hp g (by simp))
      · exact hp g (by simp)
    intro kg' hkg' y hy
    rcases dictAppend_elem hkg' hy with rfl | ⟨kg'', h5, h6⟩
    · exact hkg
    · exact ha _ h5 _ h6

theorem runGroup_along {C : Type} {f f' : CollisionFuncs C} (h : C → C) (kg : FunctionKey × List (Int × Int))
    (hn : f'.ncon kg.1.type1 kg.1.type2 = f.ncon kg.1.type1 kg.1.type2) (hc : ∀ g ∈ kg.2, ∀ n, f'.contact kg.1 g n = h (f.contact kg.1 g n)) :
    runGroup f' kg = (runGroup f kg).map (fun c => (⟨c.geom, h c.val⟩ : Contact C)) := by
  have e : (kg.2.flatMap fun g => (List.range (f.ncon kg.1.type1 kg.1.type2)).map (f'.contact kg.1 g)) =
      (kg.2.flatMap fun g => (List.range (f.ncon kg.1.type1 kg.1.type2)).map (f.contact kg.1 g)).map h := by
    rw [List.map_flatMap]
    refine List.flatMap_congr fun g hg => ?_
    rw [List.map_map]
    exact List.map_congr_left fun n _ => hc g hg n
  unfold runGroup
  dsimp only
  rw [hn, e, List.map_zipWith, List.zipWith_map_right]

theorem contacts_along {C : Type} {f f' : CollisionFuncs C} (h : C → C) {P : Int × Int → Prop} (hswap : ∀ g, P g → P (g.2, g.1))
    (hk : ∀ t1 t2, f'.known t1 t2 = f.known t1 t2 ∧ f'.ncon t1 t2 = f.ncon t1 t2) (hc : ∀ key g n, P g → f'.contact key g n = h (f.contact key g n))
    {pairs : List (Int × Int)} (hp : ∀ g ∈ pairs, P g) :
    computeCollisionPairs f' m pairs = (computeCollisionPairs f m pairs).map (List.map fun c => (⟨c.geom, h c.val⟩ : Contact C)) := by
  unfold computeCollisionPairs
  rcases hg : geomGroups m pairs with e | gs
  · rfl
  have hP := groups_elem hswap hp hg
  simp only [bind, Except.bind, (hk _ _).1]
  by_cases hkn : (gs.any fun kg => !f.known kg.1.type1 kg.1.type2) = true
  · rw [if_pos hkn, if_pos hkn]
    rfl
  · rw [if_neg hkn, if_neg hkn]
    simp only [pure, Except.pure, Except.map]
    congr 1
    have e : (gs.map fun kg => (kg.1, runGroup f' kg)) =
        (gs.map fun kg => (kg.1, runGroup f kg)).map fun g => (g.1, g.2.map fun c => (⟨c.geom, h c.val⟩ : Contact C)) := by
      rw [List.map_map]
      exact List.map_congr_left fun kg hkg => by
        rw [runGroup_along h kg (hk _ _).2 fun g hg n => hc _ _ _ (hP kg hkg g hg)]; rfl
    rw [e, Structure.condimGroups_map (List.map fun c => (⟨c.geom, h c.val⟩ : Contact C)), ← List.map_mergeSort (r := fun a b => decide (a.1 ≤ b.1)) (by intros; rfl)]
    generalize (condimGroups (gs.map fun kg => (kg.1, runGroup f kg))).mergeSort (fun a b => decide (a.1 ≤ b.1)) = l
    rw [List.flatMap_map, List.map_flatten]
    congr 1
    rw [List.map_flatMap]

end Carry
end Mjinx
