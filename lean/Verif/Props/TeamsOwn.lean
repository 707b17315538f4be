import Verif.Props.Teams
import Verif.Lemmas.Carry

/-!
# C123: where the other robots are does not matter
-/

set_option linter.unusedSectionVars false

noncomputable section

namespace Mjinx.Props
open Spec Finset

variable {env : Env ℝ} {G : Geometry} {m : MjModel ℝ} {S : Nat → Prop} {q q' : Vec ℝ}

/-! ### Poses -/

private theorem dof_body (hw : RobotWF G m) {j : Nat} (hj : j < m.jntType.length) : m.dofBodyid.getD (m.jntDofadr.getD j 0) 0 = G.jntBodyid.getD j 0 := by
  obtain ⟨_, d2⟩ := consecutive_block 0 hw.addr.addr
    (fun j => List.replicate (m.jntType.getD j .hinge).nv (G.jntBodyid.getD j 0)) (fun j _ => List.length_replicate)
  rw [← hw.dofs] at d2
  obtain ⟨_, _, e2⟩ := d2 j hj
  have h0 : 0 < (m.jntType.getD j .hinge).nv := by cases m.jntType.getD j .hinge <;> decide
  have := e2 0 h0
  rw [Nat.sub_zero, Nat.add_zero] at this
  rw [this, List.getD_eq_getElem _ _ (by simpa using h0), List.getElem_replicate]

private theorem quat_same {f g : Nat → ℝ} {a : Nat} (h : ∀ i < 4, f (a + i) = g (a + i)) : quatAt f a = quatAt g a := by
  unfold quatAt
  have h0 := h 0 (by omega)
  rw [Nat.add_zero] at h0
  rw [h0, h 1 (by omega), h 2 (by omega), h 3 (by omega)]

private theorem vec3_same {f g : Nat → ℝ} {a : Nat} (h : ∀ i < 3, f (a + i) = g (a + i)) : vec3At f a = vec3At g a := by
  unfold vec3At
  have h0 := h 0 (by omega)
  rw [Nat.add_zero] at h0
  rw [h0, h 1 (by omega), h 2 (by omega)]

private theorem move_same (hw : RobotWF G m) (h : PlacedSame m S q q') {j : Nat} (hj : j < m.jntType.length) (hSj : S (G.jntBodyid.getD j 0)) (T : SE3 ℝ) :
    jointMove G m q.get T j = jointMove G m q'.get T j := by
  have hk := h j hj (show S _ by rw [dof_body hw hj]; exact hSj)
  unfold jointMove
  cases ht : m.jntType.getD j .hinge <;> rw [ht] at hk <;> dsimp only
  case free =>
    rw [vec3_same fun i hi => hk i (show i < 7 by omega), quat_same (f := q.get) (g := q'.get) (a := m.jntQposadr.getD j 0 + 3) fun i hi => by rw [add_assoc]; exact hk (3 + i) (show 3 + i < 7 by omega)]
  case ball => rw [quat_same fun i hi => hk i hi]
  case hinge => have := hk 0 Nat.one_pos; rw [Nat.add_zero] at this; rw [this]
  case slide => have := hk 0 Nat.one_pos; rw [Nat.add_zero] at this; rw [this]

private theorem pose_same (hw : RobotWF G m) (hS : Separate m S) (h : PlacedSame m S q q') : ∀ b < m.nbody, S b → bodyPose G m q.get b = bodyPose G m q'.get b := by
  intro b
  induction b using Nat.strong_induction_on with
  | _ b ih =>
    intro hb hSb
    by_cases h0 : b = 0
    · subst h0; rw [bodyPose_zero, bodyPose_zero]
    · have hp := hw.tree.parent b (by omega) hb
      rw [bodyPose_stage hw.tree _ (by omega) hb, bodyPose_stage hw.tree _ (by omega) hb]
      have key : ∀ n ≤ m.jntType.length, stage G m q.get b n = stage G m q'.get b n := by
        intro n
        induction n with
        | zero =>
          intro _
          rw [stage_zero, stage_zero]
          by_cases hz : m.bodyParentid.getD b 0 = 0
          · rw [hz, bodyPose_zero, bodyPose_zero]
          · rw [ih _ hp (by omega) ((hS b (by omega) hb hz).1 hSb)]
        | succ n ihn =>
          intro hn
          rw [stage_succ, stage_succ, ihn (by omega)]
          split
          · rename_i he
            exact move_same hw h (by omega) (by rw [he]; exact hSb) _
          · rfl
      exact key _ le_rfl

private theorem integrate_same (hw : RobotWF G m) (h : PlacedSame m S q q') (v : Vec ℝ) (t : ℝ) : PlacedSame m S (integrate env m q v t) (integrate env m q' v t) := by
  intro j hj hD i hi
  have hk := h j hj hD
  have e : ∀ q : Vec ℝ, (integrate env m q v t).get (m.jntQposadr.getD j 0 + i) = _ := fun q => integrate_get env hw.addr q v t j hj i hi
  rw [e q, e q']
  have e1 : qposOf m j = m.jntQposadr.getD j 0 := rfl
  rw [e1]
  congr 1
  unfold intBlock
  cases ht : m.jntType.getD j .hinge <;> rw [ht] at hk <;> dsimp only
  case free =>
    rw [vec3_same fun i hi => hk i (show i < 7 by omega), quat_same (f := q.get) (g := q'.get) (a := m.jntQposadr.getD j 0 + 3) fun i hi => by rw [add_assoc]; exact hk (3 + i) (show 3 + i < 7 by omega)]
  case ball => rw [quat_same fun i hi => hk i hi]
  case hinge => have := hk 0 Nat.one_pos; rw [Nat.add_zero] at this; rw [this]
  case slide => have := hk 0 Nat.one_pos; rw [Nat.add_zero] at this; rw [this]

private theorem object_same (hs : Simulates env G m) (hw : RobotWF G m) (hS : Separate m S) (h : PlacedSame m S q q') {ty : ObjType} {i : Int} (ho : IsOn m S ty i) :
    objPos (update env m q') ty i = objPos (update env m q) ty i ∧ objMat (update env m q') ty i = objMat (update env m q) ty i := by
  obtain ⟨hi, b, hb, -, hSb⟩ := ho
  obtain ⟨i, rfl⟩ := Int.eq_ofNat_of_zero_le hi
  have hb : bodyOf m ty i = some b := hb
  have hp := pose_same hw hS h b (bodyOf_lt hw hb) hSb
  obtain ⟨a1, a2⟩ := update_object hs q hb
  obtain ⟨b1, b2⟩ := update_object hs q' hb
  rw [hp] at a1 a2
  exact ⟨b1.trans a1.symm, b2.trans a2.symm⟩

/-! ### Values -/

/-- Arrays with the same entries. -/
private def SameVec (a b : Vec ℝ) : Prop := a.len = b.len ∧ ∀ i < a.len, a.get i = b.get i

private theorem SameVec.refl (a : Vec ℝ) : SameVec a a := ⟨rfl, fun _ _ => rfl⟩

private theorem sub_same {a a' b b' V V' : Vec ℝ} (ha : SameVec a a') (hb : SameVec b b') (h : subVec a b = .ok V) (h' : subVec a' b' = .ok V') : SameVec V V' := by
  unfold subVec Vec.zip at h h'
  rw [← ha.1, ← hb.1] at h'
  split at h
  · rename_i e
    rw [if_pos e] at h'
    cases h; cases h'
    exact ⟨rfl, fun i hi => by dsimp only; rw [ha.2 i hi, hb.2 i (e ▸ hi)]⟩
  · rename_i e
    rw [if_neg e] at h'
    split at h
    · rename_i e1
      rw [if_pos e1] at h'
      cases h; cases h'
      exact ⟨rfl, fun i hi => by dsimp only; rw [ha.2 0 (by omega), hb.2 i hi]⟩
    · rename_i e1
      rw [if_neg e1] at h'
      split at h
      · rename_i e2
        rw [if_pos e2] at h'
        cases h; cases h'
        exact ⟨rfl, fun i hi => by dsimp only; rw [ha.2 i hi, hb.2 0 (by omega)]⟩
      · cases h

private theorem bounds_same {x x' l h V V' : Vec ℝ} (hx : SameVec x x') (e : boundsValue x l h = .ok V) (e' : boundsValue x' l h = .ok V') : SameVec V V' := by
  unfold boundsValue at e e'
  obtain ⟨a, a1, e⟩ := Except.bind_eq_ok e
  obtain ⟨b, b1, e⟩ := Except.bind_eq_ok e
  obtain ⟨a', a1', e'⟩ := Except.bind_eq_ok e'
  obtain ⟨b', b1', e'⟩ := Except.bind_eq_ok e'
  cases e; cases e'
  obtain ⟨l1, g1⟩ := sub_same hx (.refl l) a1 a1'
  obtain ⟨l2, g2⟩ := sub_same (.refl h) hx b1 b1'
  refine ⟨show a.len + b.len = a'.len + b'.len by rw [l1, l2], fun i hi => ?_⟩
  have hi : i < a.len + b.len := hi
  show (if i < a.len then a.get i else b.get (i - a.len)) = if i < a'.len then a'.get i else b'.get (i - a'.len)
  rw [← l1]
  split
  · exact g1 i ‹_›
  · exact g2 _ (by omega)

private theorem coords_same (hs : Simulates env G m) (hw : RobotWF G m) {x x' : Fin m.nq → ℝ} (hu : UnitQuats m (vecOf x)) (hu' : UnitQuats m (vecOf x'))
    (h : PlacedSame m S (vecOf x) (vecOf x')) {qi : List Nat}
    (hq : ∀ a ∈ qi, a < m.nq ∧ ∃ i < m.jntType.length, a = m.jntQposadr.getD i 0 ∧ Drives m S (m.jntDofadr.getD i 0)) :
    SameVec ((update env m (vecOf x)).qpos.gather qi) ((update env m (vecOf x')).qpos.gather qi) := by
  rw [sim_qpos hs hw.addr hu, sim_qpos hs hw.addr hu']
  refine ⟨rfl, fun i hi => ?_⟩
  have hi : i < qi.length := hi
  obtain ⟨hb, j, hj, e, hD⟩ := hq qi[i] (List.getElem_mem hi)
  rw [gather_get hi hb, gather_get hi hb, e]
  have h0 : 0 < (m.jntType.getD j .hinge).nq := by cases m.jntType.getD j .hinge <;> decide
  exact h j hj hD 0 h0

private theorem contacts_same (hl : ∀ q q', PlacedSame m S q q' →
      (∀ t1 t2, (env.collide m (update env m q')).known t1 t2 = (env.collide m (update env m q)).known t1 t2 ∧
        (env.collide m (update env m q')).ncon t1 t2 = (env.collide m (update env m q)).ncon t1 t2) ∧
      ∀ key g n, IsOn m S .geom g.1 → IsOn m S .geom g.2 → (env.collide m (update env m q')).contact key g n = (env.collide m (update env m q)).contact key g n)
    {pairs : List (Int × Int)} (hp : ∀ g ∈ pairs, IsOn m S .geom g.1 ∧ IsOn m S .geom g.2) (h : PlacedSame m S q q') :
    computeCollisionPairs (env.collide m (update env m q')) m pairs = computeCollisionPairs (env.collide m (update env m q)) m pairs := by
  obtain ⟨h1, h2⟩ := hl q q' h
  rw [Carry.contacts_along id (P := fun g => IsOn m S .geom g.1 ∧ IsOn m S .geom g.2) (fun g hg => ⟨hg.2, hg.1⟩) h1 (fun key g n hg => h2 key g n hg.1 hg.2) hp]
  have e : (fun c : Contact (ContactVal ℝ) => (⟨c.geom, id c.val⟩ : Contact (ContactVal ℝ))) = id := by funext c; rfl
  rw [e]
  cases computeCollisionPairs (env.collide m (update env m q)) m pairs with
  | error => rfl
  | ok cs => show Except.ok (List.map id cs) = _; rw [List.map_id]

private theorem frame_same {d d' : MjData ℝ} {ty : ObjType} {i : Int} (h1 : objPos d' ty i = objPos d ty i) (h2 : objMat d' ty i = objMat d ty i) :
    objFrame env d' ty i = objFrame env d ty i := by
  unfold objFrame
  rw [h1, h2]

/-- **C123 (values).** A component about `S` has the same value wherever the other mechanisms are. -/
theorem C123_own_value (hs : Simulates env G m) (hw : RobotWF G m) (hS : Separate m S) {j : JaxComp ℝ} (ha : IsAbout env m S j) (hl : LooksAt env m S j)
    {x x' : Fin m.nq → ℝ} (hu : UnitQuats m (vecOf x)) (hu' : UnitQuats m (vecOf x')) (h : PlacedSame m S (vecOf x) (vecOf x')) {V V' : Vec ℝ}
    (hV : evalValue env j (update env m (vecOf x)) = .ok V) (hV' : evalValue env j (update env m (vecOf x')) = .ok V') :
    V.len = V'.len ∧ ∀ i < V.len, V.get i = V'.get i := by
  obtain ⟨hm, ha⟩ := ha
  unfold LooksAt at hl
  unfold evalValue at hV hV'
  cases hk : j.kind <;> rw [hk] at ha hl hV hV' <;> dsimp only at ha hl hV hV'
  case jointTask =>
    obtain ⟨t, t1, hV⟩ := Except.bind_eq_ok hV
    obtain ⟨t', t2, hV'⟩ := Except.bind_eq_ok hV'
    rw [t1] at t2; cases t2
    exact sub_same (coords_same hs hw hu hu' h hl) (.refl t) hV hV'
  case jointBarrier =>
    obtain ⟨t, t1, hV⟩ := Except.bind_eq_ok hV
    obtain ⟨u, u1, hV⟩ := Except.bind_eq_ok hV
    obtain ⟨t', t2, hV'⟩ := Except.bind_eq_ok hV'
    obtain ⟨u', u2, hV'⟩ := Except.bind_eq_ok hV'
    rw [t1] at t2; cases t2
    rw [u1] at u2; cases u2
    exact bounds_same (coords_same hs hw hu hu' h hl) hV hV'
  case positionTask =>
    rw [(object_same hs hw hS h ha).1, hV] at hV'
    cases hV'
    exact SameVec.refl V
  case positionBarrier =>
    rw [(object_same hs hw hS h ha).1, hV] at hV'
    cases hV'
    exact SameVec.refl V
  case frameTask =>
    obtain ⟨h1, h2⟩ := object_same hs hw hS h ha
    rw [frame_same h1 h2, hV] at hV'
    cases hV'
    exact SameVec.refl V
  case selfCollision =>
    unfold selfCollisionValue at hV hV'
    rw [hm, contacts_same hl ha h] at hV'
    rw [hm, hV'] at hV
    cases hV
    exact SameVec.refl V
  case modelEquality =>
    rw [(hl _ _ h).1, hV] at hV'
    cases hV'
    exact SameVec.refl V

/-! ### Jacobians -/

private theorem skew_inj {a b : V3 ℝ} (h : skewSymmetric a = skewSymmetric b) : a = b := by
  have e : ∀ i j, skewSymmetric a i j = skewSymmetric b i j := fun i j => by rw [h]
  have h0 := e 2 1
  have h1 := e 0 2
  have h2 := e 1 0
  simp [skewSymmetric] at h0 h1 h2
  funext i
  fin_cases i
  · exact h0
  · exact h1
  · exact h2

private theorem pose_unit (hs : Simulates env G m) (hw : RobotWF G m) (hu : UnitQuats m q) {b : Nat} (hb : b < m.nbody) : Quaternion.normSq (bodyPose G m q.get b).rot = 1 := by
  have h := (body_twist hw (integrate_moves hs.quat hw.addr hu ⟨0, fun _ => 0⟩) hu b hb).2 0
  rw [start_pose hs hw hu _ hb] at h
  exact h

private theorem local_length (hs : Simulates env G m) (hw : RobotWF G m) {i : Int} {t : ObjType} {rows : List (V3 ℝ × V3 ℝ)}
    (h : frameJacobianLocal m (update env m q) i t = .ok rows) : rows.length = m.nv := by
  obtain ⟨b, pos, rot, root, com, -, -, -, -, -, e⟩ := localRows h
  rw [e]
  simp [dofMask_length, hw.tree.dofs, cdof_length hs hw q]

private theorem local_same (hs : Simulates env G m) (hw : RobotWF G m) (hS : Separate m S) (hu : UnitQuats m q) (hu' : UnitQuats m q') (h : PlacedSame m S q q')
    {ty : ObjType} {i : Int} (ho : IsOn m S ty i) {r r' : List (V3 ℝ × V3 ℝ)} (hr : frameJacobianLocal m (update env m q) i ty = .ok r)
    (hr' : frameJacobianLocal m (update env m q') i ty = .ok r') {k : Nat} (hk : k < m.nv) : r.getD k (0, 0) = r'.getD k (0, 0) := by
  have ho' := ho
  obtain ⟨hi, b, hb, -, hSb⟩ := ho
  obtain ⟨i, rfl⟩ := Int.eq_ofNat_of_zero_le hi
  have hb : bodyOf m ty i = some b := hb
  obtain ⟨r1, e1, f1⟩ := C107_local hs hw hu hb
  obtain ⟨r2, e2, f2⟩ := C107_local hs hw hu' hb
  obtain rfl := Except.ok.inj (e1.symm.trans hr)
  obtain rfl := Except.ok.inj (e2.symm.trans hr')
  obtain ⟨X, M, a1, a2, a3, a4, a5⟩ := f1 (oneDof k)
  obtain ⟨X', M', b1, b2, b3, b4, b5⟩ := f2 (oneDof k)
  have eX : ∀ s, X' s = X s ∧ M' s = M s := by
    intro s
    obtain ⟨o1, o2⟩ := object_same hs hw hS (integrate_same (env := env) hw h (oneDof k) s) ho'
    rw [(a1 s).1, (b1 s).1] at o1
    rw [(a1 s).2, (b1 s).2] at o2
    exact ⟨Except.ok.inj o1, Except.ok.inj o2⟩
  obtain rfl : X' = X := funext fun s => (eX s).1
  obtain rfl : M' = M := funext fun s => (eX s).2
  rw [velocity_oneDof (by rw [local_length hs hw e1]; exact hk)] at a4 a5
  rw [velocity_oneDof (by rw [local_length hs hw e2]; exact hk)] at b4 b5
  have hM : M' 0 = quatMat ((bodyPose G m q.get b).rot * turnOf G ty i) := by
    rw [(update_object hs q hb).2] at a3
    exact (Except.ok.inj a3).symm
  have hO : (M' 0).transpose * M' 0 = 1 := by
    rw [hM]
    exact mul_eq_one_comm.1 (quatMat_rotation (by rw [map_mul, pose_unit hs hw hu (bodyOf_lt hw hb), turnOf_unit hw ty i, one_mul])).1
  refine Prod.ext ?_ (skew_inj ?_)
  · have e : (M' 0).mulVec (r1.getD k (0, 0)).1 = (M' 0).mulVec (r2.getD k (0, 0)).1 := funext fun a => (a4 a).unique (b4 a)
    have := congrArg (M' 0).transpose.mulVec e
    rw [Matrix.mulVec_mulVec, Matrix.mulVec_mulVec, hO, Matrix.one_mulVec, Matrix.one_mulVec] at this
    exact this
  · have e : M' 0 * skewSymmetric (r1.getD k (0, 0)).2 = M' 0 * skewSymmetric (r2.getD k (0, 0)).2 := Matrix.ext fun a c => (a5 a c).unique (b5 a c)
    have := congrArg ((M' 0).transpose * ·) e
    simp only [← mul_assoc, hO, one_mul] at this
    exact this

private theorem point_length (hs : Simulates env G m) (hw : RobotWF G m) {p : V3 ℝ} {b : Int} {rows : List (V3 ℝ × V3 ℝ)}
    (h : pointJacobian m (update env m q) p b = .ok rows) : rows.length = m.nv := by
  unfold pointJacobian at h
  obtain ⟨root, -, h⟩ := Except.bind_eq_ok h
  obtain ⟨com, -, h⟩ := Except.bind_eq_ok h
  cases h
  simp [dofMask_length, hw.tree.dofs, cdof_length hs hw q]

private theorem point_same (hs : Simulates env G m) (hw : RobotWF G m) (hS : Separate m S) (hu : UnitQuats m q) (hu' : UnitQuats m q') (h : PlacedSame m S q q')
    {b : Nat} (hb : b < m.nbody) (hSb : S b) {p : V3 ℝ} {r r' : List (V3 ℝ × V3 ℝ)} (hr : pointJacobian m (update env m q) p b = .ok r)
    (hr' : pointJacobian m (update env m q') p b = .ok r') {k : Nat} (hk : k < m.nv) : (r.getD k (0, 0)).1 = (r'.getD k (0, 0)).1 := by
  have hp := pose_same hw hS h b hb hSb
  have ep : (bodyPose G m q.get b).apply ((bodyPose G m q.get b).inv.apply p) = p := SE3.apply_inv (pose_unit hs hw hu hb) p
  obtain ⟨T1, t1, r1, e1, f1⟩ := C107_point hs hw hu hb ((bodyPose G m q.get b).inv.apply p)
  obtain ⟨T2, t2, r2, e2, f2⟩ := C107_point hs hw hu' hb ((bodyPose G m q.get b).inv.apply p)
  obtain rfl : bodyPose G m q.get b = T1 := Except.ok.inj ((update_frame hs q hb).symm.trans t1)
  obtain rfl : bodyPose G m q'.get b = T2 := Except.ok.inj ((update_frame hs q' hb).symm.trans t2)
  rw [ep] at e1
  rw [← hp, ep] at e2
  obtain rfl := Except.ok.inj (e1.symm.trans hr)
  obtain rfl := Except.ok.inj (e2.symm.trans hr')
  obtain ⟨F, a1, -, a2⟩ := f1 (oneDof k)
  obtain ⟨F', b1, -, b2⟩ := f2 (oneDof k)
  obtain rfl : F' = F := by
    funext s
    have := pose_same hw hS (integrate_same (env := env) hw h (oneDof k) s) b hb hSb
    have x1 := (update_frame hs (integrate env m q (oneDof k) s) hb).symm.trans (a1 s)
    have x2 := (update_frame hs (integrate env m q' (oneDof k) s) hb).symm.trans (b1 s)
    rw [← Except.ok.inj x1, ← Except.ok.inj x2, this]
  rw [velocity_oneDof (by rw [point_length hs hw e1]; exact hk)] at a2
  rw [velocity_oneDof (by rw [point_length hs hw e2]; exact hk)] at b2
  exact funext fun a => (a2 a).unique (b2 a)

private theorem auto_same (hs : Simulates env G m) (hw : RobotWF G m) (hj : JacrevExact env) {j : JaxComp ℝ} (hm : j.model = m) (hd : Differentiated j)
    (heq : ∀ q q', PlacedSame m S q q' → evalValue env j (update env m q') = evalValue env j (update env m q))
    {x x' : Fin m.nq → ℝ} (hu : UnitQuats m (vecOf x)) (hu' : UnitQuats m (vecOf x')) (h : PlacedSame m S (vecOf x) (vecOf x')) {V J J'}
    (hV : evalValue env j (update env m (vecOf x)) = .ok V) (hJ : evalJacobian env j (update env m (vecOf x)) = .ok J)
    (hJ' : evalJacobian env j (update env m (vecOf x')) = .ok J') {r k : Nat} (hr : r < V.len) (hk : k < m.nv) : J.get r k = J'.get r k := by
  subst hm
  have hV' : evalValue env j (update env j.model (vecOf x')) = .ok V := (heq _ _ h).trans hV
  obtain ⟨J1, e1, f1⟩ := C78_robot hs hw hj hd hu hV
  obtain ⟨J2, e2, f2⟩ := C78_robot hs hw hj hd hu' hV'
  obtain rfl := Except.ok.inj (e1.symm.trans hJ)
  obtain rfl := Except.ok.inj (e2.symm.trans hJ')
  obtain ⟨W, w1, w2⟩ := f1 (oneDof k)
  obtain ⟨W', w1', w2'⟩ := f2 (oneDof k)
  obtain rfl : W' = W := by
    funext t
    have := heq _ _ (integrate_same (env := env) hw h (oneDof k) t)
    rw [w1 t, w1' t] at this
    exact Except.ok.inj this
  have key := (w2 r hr).unique (w2' r hr)
  have one : (oneDof k).get k = 1 := by simp [oneDof]
  rw [sum_eq_single k (fun l _ hl => by simp [oneDof, hl]) (fun h => absurd (mem_range.2 hk) h),
    sum_eq_single k (fun l _ hl => by simp [oneDof, hl]) (fun h => absurd (mem_range.2 hk) h), one, mul_one] at key
  refine mul_right_cancel₀ ?_ key
  split <;> norm_num

private theorem rows_same {α : Type} {f f' : α → Except Err (Nat → ℝ)} {k : Nat} (h : ∀ a g g', f a = .ok g → f' a = .ok g' → g k = g' k) {l : List α} {rows rows' : List (Nat → ℝ)}
    (e : l.mapM f = .ok rows) (e' : l.mapM f' = .ok rows') (r : Nat) : (rows.getD r fun _ => 0) k = (rows'.getD r fun _ => 0) k := by
  obtain ⟨l1, g1⟩ := mapM_get e
  obtain ⟨l2, g2⟩ := mapM_get e'
  by_cases hr : r < l.length
  · obtain ⟨y, y1, y2⟩ := g1 r _ (List.getElem?_eq_getElem hr)
    obtain ⟨z, z1, z2⟩ := g2 r _ (List.getElem?_eq_getElem hr)
    rw [List.getD_eq_getElem?_getD, List.getD_eq_getElem?_getD, y1, z1]
    exact h _ _ _ y2 z2
  · rw [List.getD_eq_default _ _ (by omega), List.getD_eq_default _ _ (by omega)]

/-- **C123 (Jacobians).** A component about `S` has the same Jacobian wherever the other mechanisms are. -/
theorem C123_own_jacobian (hs : Simulates env G m) (hw : RobotWF G m) (hj : JacrevExact env) (hS : Separate m S) {j : JaxComp ℝ} (ha : IsAbout env m S j)
    (hl : LooksAt env m S j) {x x' : Fin m.nq → ℝ} (hu : UnitQuats m (vecOf x)) (hu' : UnitQuats m (vecOf x')) (h : PlacedSame m S (vecOf x) (vecOf x')) {V J J'}
    (hV : evalValue env j (update env m (vecOf x)) = .ok V) (hJ : evalJacobian env j (update env m (vecOf x)) = .ok J)
    (hJ' : evalJacobian env j (update env m (vecOf x')) = .ok J') {r k : Nat} (hr : r < V.len) (hk : k < m.nv) : J.get r k = J'.get r k := by
  obtain ⟨hm, ha⟩ := ha
  unfold LooksAt at hl
  cases hkd : j.kind with
  | comTask => rw [hkd] at ha; exact ha.elim
  | jointTask w lm tgt qi =>
    unfold evalJacobian at hJ hJ'
    rw [hkd] at hJ hJ'
    rw [hJ] at hJ'; cases hJ'; rfl
  | jointBarrier g lo hi qi =>
    unfold evalJacobian at hJ hJ'
    rw [hkd] at hJ hJ'
    rw [hJ] at hJ'; cases hJ'; rfl
  | positionTask w lm i ty tgt =>
    rw [hkd] at ha
    refine auto_same hs hw hj hm (S := S) (by unfold Differentiated; rw [hkd]; trivial) (fun q q' hp => ?_) hu hu' h hV hJ hJ' hr hk
    unfold evalValue
    rw [hkd]
    dsimp only
    rw [(object_same hs hw hS hp ha).1]
  | positionBarrier g i ty lo hi li =>
    rw [hkd] at ha
    refine auto_same hs hw hj hm (S := S) (by unfold Differentiated; rw [hkd]; trivial) (fun q q' hp => ?_) hu hu' h hV hJ hJ' hr hk
    unfold evalValue
    rw [hkd]
    dsimp only
    rw [(object_same hs hw hS hp ha).1]
  | frameTask w lm i ty tgt =>
    rw [hkd] at ha
    obtain ⟨o1, o2⟩ := object_same hs hw hS h ha
    unfold evalJacobian at hJ hJ'
    rw [hkd] at hJ hJ'
    obtain ⟨t, e1, hJ⟩ := Except.bind_eq_ok hJ
    obtain ⟨T, e2, hJ⟩ := Except.bind_eq_ok hJ
    obtain ⟨F, e3, hJ⟩ := Except.bind_eq_ok hJ
    obtain ⟨fj, hfj, hJ⟩ := Except.bind_eq_ok hJ
    obtain ⟨J0, hJ0, hJ⟩ := Except.bind_eq_ok hJ
    obtain ⟨t', e1', hJ'⟩ := Except.bind_eq_ok hJ'
    obtain ⟨T', e2', hJ'⟩ := Except.bind_eq_ok hJ'
    obtain ⟨F', e3', hJ'⟩ := Except.bind_eq_ok hJ'
    obtain ⟨fj', hfj', hJ'⟩ := Except.bind_eq_ok hJ'
    obtain ⟨J0', hJ0', hJ'⟩ := Except.bind_eq_ok hJ'
    rw [e1] at e1'; cases e1'
    rw [e2] at e2'; cases e2'
    rw [frame_same o1 o2, e3] at e3'; cases e3'
    rw [hm] at hfj hfj'
    have hrow := local_same hs hw hS hu hu' h ha hfj hfj' hk
    cases hJ; cases hJ'
    unfold Mat.mul at hJ0 hJ0'
    split at hJ0 <;> cases hJ0
    split at hJ0' <;> cases hJ0'
    show ∑ l ∈ range _, _ * (vec6 (fj.getD k (0, 0))).get l = ∑ l ∈ range _, _ * (vec6 (fj'.getD k (0, 0))).get l
    rw [hrow]
  | selfCollision g dm pairs n =>
    rw [hkd] at ha hl
    unfold evalJacobian at hJ hJ'
    rw [hkd] at hJ hJ'
    dsimp only at hJ hJ'
    unfold selfCollisionJacobian at hJ hJ'
    rw [hm] at hJ hJ'
    rw [contacts_same hl ha h] at hJ'
    obtain ⟨cs, e1, hJ⟩ := Except.bind_eq_ok hJ
    obtain ⟨idx, e2, hJ⟩ := Except.bind_eq_ok hJ
    obtain ⟨bodies, hbod, hJ⟩ := Except.bind_eq_ok hJ
    obtain ⟨cs', e1', hJ'⟩ := Except.bind_eq_ok hJ'
    obtain ⟨idx', e2', hJ'⟩ := Except.bind_eq_ok hJ'
    obtain ⟨bodies', hbod', hJ'⟩ := Except.bind_eq_ok hJ'
    rw [e1] at e1'; cases e1'
    rw [e2] at e2'; cases e2'
    rw [hbod] at hbod'; cases hbod'
    split at hJ
    · cases hJ
    rw [if_neg ‹_›] at hJ'
    obtain ⟨rows, hrows, hJ⟩ := Except.bind_eq_ok hJ
    obtain ⟨rows', hrows', hJ'⟩ := Except.bind_eq_ok hJ'
    cases hJ; cases hJ'
    refine rows_same (fun l f f' hf hf' => ?_) hrows hrows' r
    unfold selfCollisionRow at hf hf'
    obtain ⟨c, c1, hf⟩ := Except.bind_eq_ok hf
    obtain ⟨bb, hbb, hf⟩ := Except.bind_eq_ok hf
    obtain ⟨c', c1', hf'⟩ := Except.bind_eq_ok hf'
    obtain ⟨bb', hbb', hf'⟩ := Except.bind_eq_ok hf'
    rw [c1] at c1'; cases c1'
    rw [hbb] at hbb'; cases hbb'
    have hmem := List.mem_of_getElem? (npGet_nat hbb)
    obtain ⟨gg, hg, hpb⟩ := (mapM_mem hbod).2.1 bb hmem
    obtain ⟨⟨h1, b1, hb1, -, hs1⟩, h2, b2, hb2, -, hs2⟩ := ha gg hg
    unfold pairBodies at hpb
    obtain ⟨d1, y1, hpb⟩ := Except.bind_eq_ok hpb
    obtain ⟨d2, y2, hpb⟩ := Except.bind_eq_ok hpb
    cases hpb
    rw [← Int.toNat_of_nonneg h1] at y1
    rw [← Int.toNat_of_nonneg h2] at y2
    obtain rfl : d1 = b1 := Option.some.inj ((npGet_nat y1).symm.trans hb1)
    obtain rfl : d2 = b2 := Option.some.inj ((npGet_nat y2).symm.trans hb2)
    unfold collisionRow at hf hf'
    obtain ⟨r1, z1, hf⟩ := Except.bind_eq_ok hf
    obtain ⟨r2, z2, hf⟩ := Except.bind_eq_ok hf
    obtain ⟨r1', z1', hf'⟩ := Except.bind_eq_ok hf'
    obtain ⟨r2', z2', hf'⟩ := Except.bind_eq_ok hf'
    cases hf; cases hf'
    show ∑ a : Fin 3, _ * ((r2.getD k (0, 0)).1 a - (r1.getD k (0, 0)).1 a) = ∑ a : Fin 3, _ * ((r2'.getD k (0, 0)).1 a - (r1'.getD k (0, 0)).1 a)
    rw [point_same hs hw hS hu hu' h (bodyOf_lt hw hb1) hs1 z1 z1' hk, point_same hs hw hS hu hu' h (bodyOf_lt hw hb2) hs2 z2 z2' hk]
  | modelEquality a b w =>
    rw [hkd] at hl
    unfold evalJacobian at hJ hJ'
    rw [hkd] at hJ hJ'
    dsimp only at hJ hJ'
    rw [(hl _ _ h).2] at hJ'
    rw [hJ] at hJ'; cases hJ'; rfl

/-! ### Programs -/

/-- Components with the same attributes, values and Jacobians. -/
private structure SameTerm (n : Nat) (t t' : Term ℝ) : Prop where
  attrs : t.attrs = t'.attrs
  rows : t.jac.rows = t'.jac.rows
  cols : t.jac.cols = n ∧ t'.jac.cols = n
  jac : ∀ r < t.jac.rows, ∀ k < n, t.jac.get r k = t'.jac.get r k
  value : ∀ r < t.jac.rows, t.value.get r = t'.value.get r

private theorem SameTerm.dot {n : Nat} {t t' : Term ℝ} (h : SameTerm n t t') (v : Nat → ℝ) {r : Nat} (hr : r < t.jac.rows) : rowDot t.jac r v = rowDot t'.jac r v := by
  unfold rowDot
  rw [h.cols.1, h.cols.2]
  exact sum_congr rfl fun k hk => by rw [h.jac r hr k (mem_range.1 hk)]

private theorem SameTerm.ask {n : Nat} {t t' : Term ℝ} (h : SameTerm n t t') {r : Nat} (hr : r < t.jac.rows) : t.rate r = t'.rate r := by
  unfold Term.rate
  rw [h.attrs, h.value r hr]

private theorem SameTerm.off {n : Nat} {t t' : Term ℝ} (h : SameTerm n t t') (w : Arr ℝ) (v : Nat → ℝ) : sqNorm t.jac.rows (t.misfit w v) = sqNorm t'.jac.rows (t'.misfit w v) := by
  have e : t.misfit w v = t'.misfit w v := by
    funext r
    unfold Term.misfit
    rw [← h.rows]
    exact sum_congr rfl fun k hk => by rw [h.dot v (mem_range.1 hk), h.ask (mem_range.1 hk)]
  rw [e, h.rows]

private theorem SameTerm.same {n : Nat} {t t' : Term ℝ} (h : SameTerm n t t') (v : Nat → ℝ) : t.price n v = t'.price n v ∧ (t.Allows v ↔ t'.Allows v) := by
  have hf : frobSq t.jac = frobSq t'.jac := by
    unfold frobSq
    rw [← h.rows, h.cols.1, h.cols.2]
    exact sum_congr rfl fun r hr => sum_congr rfl fun k hk => by rw [h.jac r (mem_range.1 hr) k (mem_range.1 hk)]
  unfold Term.price Term.Allows
  rw [← h.attrs, ← h.rows]
  have ho := h.off
  rw [← h.rows] at ho
  constructor
  · split <;> simp only [ho, hf]
  · split
    all_goals first
      | exact forall₂_congr fun r hr => by rw [h.dot v hr, h.ask hr]
      | exact imp_congr_right fun _ => forall₂_congr fun r hr => by rw [h.dot v hr, h.ask hr]
      | exact Iff.rfl

private theorem best_same {n : Nat} {vMin vMax : Arr ℝ} {ts ts' : List (Term ℝ)} (h : List.Forall₂ (SameTerm n) ts ts') (v : Nat → ℝ) :
    Best n vMin vMax ts v ↔ Best n vMin vMax ts' v := by
  have hp : ∀ v, totalPrice n ts v = totalPrice n ts' v := by
    intro v
    unfold totalPrice
    induction h with
    | nil => rfl
    | cons a _ ih => rw [List.map_cons, List.map_cons, List.sum_cons, List.sum_cons, (a.same v).1, ih]
  have ha : ∀ v, (∀ t ∈ ts, t.Allows v) ↔ ∀ t ∈ ts', t.Allows v := by
    intro v
    clear hp
    induction h with
    | nil => exact Iff.rfl
    | cons a _ ih => rw [List.forall_mem_cons, List.forall_mem_cons, (a.same v).2, ih]
  unfold Best Allowed
  simp only [hp, ha]

private theorem zipped {α β : Type} {R R' : α → β → Prop} {Q : β → β → Prop} (h : ∀ x y z, R x y → R' x z → Q y z) : ∀ {xs : List α} {ys zs : List β},
    List.Forall₂ R xs ys → List.Forall₂ R' xs zs → List.Forall₂ Q ys zs
  | _, _, _, .nil, .nil => .nil
  | _, _, _, .cons a as, .cons b bs => .cons (h _ _ _ a b) (zipped h as bs)

/-- **C123 (elsewhere).** The problem of one robot (all its components are about the mechanisms in `S`, damped or not) at two configurations that put the robot in the same
place: the same velocities are best, so where the other robots are does not matter.  With an exact QP solver, what is returned for one of them is best for the other. -/
theorem C123_elsewhere (hs : Simulates env G m) (hw : RobotWF G m) (hj : JacrevExact env) (hS : Separate m S) (ops : List (Op ℝ)) {p : Nat} {P : Prob ℝ}
    (hP : (run World.init ops).probs[p]? = some P) (hm : P.model = m) {J : JaxProblem ℝ} (hJ : (step (run World.init ops) (.compile p)).1 = .ok (.compiled J))
    (hA : ∀ nj ∈ J.comps, IsAbout env m S nj.2 ∧ LooksAt env m S nj.2) {I : Type} {osqp : QPSolver ℝ I} (ho : Exact osqp)
    {x x' : Fin m.nq → ℝ} (hu : UnitQuats m (vecOf x)) (hu' : UnitQuats m (vecOf x')) (hx : PlacedSame m S (vecOf x) (vecOf x'))
    (hsz : WellSized env J (update env m (vecOf x))) (hsz' : WellSized env J (update env m (vecOf x')))
    {s₀ s₁ s₀' s₁' : LocalIKData ℝ} {sol sol' : LocalIKSolution ℝ I}
    (h : localSolve env osqp m (vecOf x).toArr s₀ J = .ok (sol, s₁)) (h' : localSolve env osqp m (vecOf x').toArr s₀' J = .ok (sol', s₁')) :
    ∃ ts ts', TermsOf (run World.init ops) P J env (update env m (vecOf x)) ts ∧ TermsOf (run World.init ops) P J env (update env m (vecOf x')) ts' ∧
      (∀ v, Best m.nv P.vMin P.vMax ts v ↔ Best m.nv P.vMin P.vMax ts' v) ∧
      ((∃ u, Allowed m.nv P.vMin P.vMax ts u) → Best m.nv P.vMin P.vMax ts' sol.vOpt.get) := by
  have e1 : J.model = m := by
    obtain ⟨Q, hQ, e, -⟩ := compile_comps ⟨ops, rfl⟩ hJ
    rw [hP] at hQ; cases hQ; exact e.trans hm
  obtain ⟨qp, hqp, -⟩ := localSolve_ok h
  obtain ⟨qp', hqp', -⟩ := localSolve_ok h'
  have hqp : problemQP env m J (update env m (vecOf x)) = .ok qp := hqp
  have hqp' : problemQP env m J (update env m (vecOf x')) = .ok qp' := hqp'
  obtain ⟨P1, ts, g1, ht, hb⟩ := C91_real_solution ops hJ ho (q := (vecOf x).toArr) (by rw [e1]; exact hsz) (by rw [e1]; exact h)
  obtain ⟨P2, ts', g2, ht', -⟩ := C91_real_solution ops hJ ho (q := (vecOf x').toArr) (by rw [e1]; exact hsz') (by rw [e1]; exact h')
  rw [hP] at g1 g2; cases g1; cases g2
  rw [e1] at ht ht'
  have ht : TermsOf (run World.init ops) P J env (update env m (vecOf x)) ts := ht
  have ht' : TermsOf (run World.init ops) P J env (update env m (vecOf x')) ts' := ht'
  rw [hm] at hb
  obtain ⟨vMin, vMax, cs, q1, q2, q3, -⟩ := problemQP_ok hqp
  obtain ⟨vMin', vMax', cs', q1', q2', q3', -⟩ := problemQP_ok hqp'
  have hsh := hsz vMin vMax cs q1 q2 q3
  have hsh' := hsz' vMin' vMax' cs' q1' q2' q3'
  have hR := terms_results hP hJ ht
  have hR' := terms_results hP hJ ht'
  unfold TermsOf at ht ht'
  have shape : ∀ {y : Fin m.nq → ℝ} {cs : List (SolverComp ℝ)}, (J.comps.map Prod.snd).mapM (solverComp env (update env m (vecOf y))) = .ok cs →
      (∀ c ∈ cs, CompShaped J.model.nv c) → ∀ (nj : String × JaxComp ℝ) (t : Term ℝ), nj ∈ J.comps →
      evalJacobian env nj.2 (update env m (vecOf y)) = .ok t.jac → evalValue env nj.2 (update env m (vecOf y)) = .ok t.value → t.value.len = t.jac.rows ∧ t.jac.cols = m.nv := by
    intro y cs q3 hsh nj t hnj k1 k2
    obtain ⟨s, hs1, hs2⟩ := (mapM_mem q3).1 nj.2 (List.mem_map_of_mem hnj)
    obtain ⟨J0, V0, g0, f1, f2, f3, f4⟩ := solverComp_ok hs2
    rw [k1] at f1; cases f1
    rw [k2] at f2; cases f2
    obtain ⟨l1, l2⟩ := wrap_shaped f4 (hsh s hs1)
    exact ⟨l1, by rw [l2, e1]⟩
  have hn : (J.comps.map Prod.fst).Nodup := by
    obtain ⟨Q, hQ, -, -, -, hf⟩ := compile_comps ⟨ops, rfl⟩ hJ
    rw [hP] at hQ; cases hQ
    have hnm : P.comps.map Prod.fst = J.comps.map Prod.fst := by
      have gen : ∀ (l : List (String × Nat)) (l' : List (String × JaxComp ℝ)), List.Forall₂ (fun ni nj => ni.1 = nj.1 ∧ ∃ c, (run World.init ops).comps[ni.2]? = some c ∧
          CompilesTo c.attrs nj.2) l l' → l.map Prod.fst = l'.map Prod.fst := by
        intro l l' hl
        induction hl with
        | nil => rfl
        | cons a _ ih => rw [List.map_cons, List.map_cons, a.1, ih]
      exact gen _ _ hf
    rw [← hnm]
    exact C03_names_distinct ops hP
  have hsame : List.Forall₂ (SameTerm m.nv) ts ts' := by
    refine zipped (fun ni t t' a b => ?_) ht ht'
    obtain ⟨c, x1, x2, j, x3, x4, x5⟩ := a
    obtain ⟨c', y1, y2, j', y3, y4, y5⟩ := b
    rw [x1] at y1; cases y1
    have : j' = j := (Prod.mk.inj (List.inj_on_of_nodup_map hn y3 x3 rfl)).2
    subst this
    obtain ⟨ha, hl⟩ := hA _ x3
    obtain ⟨v1, v2⟩ := shape q3 hsh.comps (ni.1, j') t x3 x4 x5
    obtain ⟨v1', v2'⟩ := shape q3' hsh'.comps (ni.1, j') t' x3 y4 y5
    obtain ⟨w1, w2⟩ := C123_own_value hs hw hS ha hl hu hu' hx x5 y5
    refine ⟨x2.trans y2.symm, by rw [← v1, w1, v1'], ⟨v2, v2'⟩, fun r hr k hk => ?_, fun r hr => w2 r (by rw [v1]; exact hr)⟩
    exact C123_own_jacobian hs hw hj hS ha hl hu hu' hx x5 x4 y4 (by rw [v1]; exact hr) hk
  exact ⟨ts, ts', ht, ht', best_same hsame, fun hex => (best_same hsame _).1 (hb hex)⟩

end Mjinx.Props
