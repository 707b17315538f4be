import Verif.Lemmas.Motion
import Verif.Lemmas.Tree
import Verif.Props.Kinematics

/-!
# The motion axes of the degrees of freedom
-/

namespace Mjinx
open Real Props Spec Finset
open scoped Quaternion Matrix
variable {G : Geometry} {m : MjModel ℝ} {q v : Nat → ℝ}

/-- A motion whose linear part is taken at `com`, with the linear part at the origin. -/
def atOrigin (com : V3 ℝ) (c : V3 ℝ × V3 ℝ) : V3 ℝ × V3 ℝ := (c.1, c.2 - crossProduct c.1 com)

theorem pointVel_atOrigin (pos com : V3 ℝ) (c : V3 ℝ × V3 ℝ) : pointVel (pos - com) c = pointVel pos (atOrigin com c) := by
  simp only [pointVel, atOrigin, map_sub]; abel

/-- Sums over the degrees of freedom, joint by joint. -/
theorem consecutive_sum {M : Type} [AddCommMonoid M] {nq nv : Nat} (F : Nat → M) : ∀ {q v : Nat} {ts : List JntType} {as bs : List Nat},
    Consecutive nq nv q v ts as bs → v ≤ nv ∧
    ∑ k ∈ Ico v nv, F k = ∑ j ∈ range ts.length, ∑ i ∈ range (ts.getD j .hinge).nv, F (bs.getD j 0 + i)
  | q, v, [], [], [], h => by
    obtain ⟨_, rfl⟩ := h; simp
  | q, v, t :: ts, a :: as, b :: bs, h => by
    obtain ⟨h1, rfl, h3⟩ := h
    obtain ⟨i1, i2⟩ := consecutive_sum F h3
    refine ⟨by omega, ?_⟩
    rw [List.length_cons, sum_range_succ']
    simp only [List.getD_cons_succ, List.getD_cons_zero]
    rw [← i2, add_comm, ← sum_Ico_consecutive F (Nat.le_add_right b t.nv) i1, sum_Ico_eq_sum_range, Nat.add_sub_cancel_left]
  | _, _, [], [], _ :: _, h => by simp [Consecutive] at h
  | _, _, [], _ :: _, _, h => by simp [Consecutive] at h
  | _, _, _ :: _, [], _, h => by simp [Consecutive] at h
  | _, _, _ :: _, _ :: _, [], h => by simp [Consecutive] at h

/-- Lists with one block per joint. -/
theorem consecutive_block {α : Type} {nq nv : Nat} (x : α) : ∀ {q v : Nat} {ts : List JntType} {as bs : List Nat},
    Consecutive nq nv q v ts as bs → ∀ (B : Nat → List α), (∀ j < ts.length, (B j).length = (ts.getD j .hinge).nv) →
    v + ((List.range ts.length).flatMap B).length = nv ∧
    ∀ j < ts.length, v ≤ bs.getD j 0 ∧ bs.getD j 0 + (ts.getD j .hinge).nv ≤ nv ∧ ∀ i < (ts.getD j .hinge).nv,
      ((List.range ts.length).flatMap B).getD (bs.getD j 0 - v + i) x = (B j).getD i x
  | q, v, [], [], [], h, B, _ => by
    obtain ⟨_, rfl⟩ := h; simp
  | q, v, t :: ts, a :: as, b :: bs, h, B, hB => by
    obtain ⟨h1, rfl, h3⟩ := h
    obtain ⟨i1, i2⟩ := consecutive_block x h3 (fun j => B (j + 1)) (fun j hj => by
      have := hB (j + 1) (by simpa using hj)
      rwa [List.getD_cons_succ] at this)
    have h0 : (B 0).length = t.nv := hB 0 (by simp)
    have e : (List.range (t :: ts).length).flatMap B = B 0 ++ (List.range ts.length).flatMap (fun j => B (j + 1)) := by
      rw [List.length_cons, List.range_succ_eq_map, List.flatMap_cons, List.flatMap_map]
    rw [e]
    refine ⟨by rw [List.length_append, h0]; omega, ?_⟩
    intro j hj
    cases j with
    | zero =>
      refine ⟨le_rfl, by simp only [List.getD_cons_zero]; omega, ?_⟩
      intro i hi
      simp only [List.getD_cons_zero] at hi ⊢
      rw [Nat.sub_self, Nat.zero_add, List.getD_append _ _ _ _ (by omega)]
    | succ j =>
      obtain ⟨k1, k2, k3⟩ := i2 j (by simpa using hj)
      simp only [List.getD_cons_succ]
      refine ⟨by omega, k2, ?_⟩
      intro i hi
      rw [List.getD_append_right _ _ _ _ (by omega), ← k3 i hi]
      congr 1; omega
  | _, _, [], [], _ :: _, h, _, _ => by simp [Consecutive] at h
  | _, _, [], _ :: _, _, h, _, _ => by simp [Consecutive] at h
  | _, _, _ :: _, [], _, h, _, _ => by simp [Consecutive] at h
  | _, _, _ :: _, _ :: _, [], h, _, _ => by simp [Consecutive] at h

theorem jointCdof_length (com : V3 ℝ) (j : Nat) : (jointCdof G m q com j).length = (m.jntType.getD j .hinge).nv := by
  unfold jointCdof
  dsimp only
  cases m.jntType.getD j .hinge <;> rfl

/-- The rotation of a body with a ball joint is fixed by the joints up to it. -/
theorem ball_rot (hw : RobotWF G m) {j : Nat} (hj : j < m.jntType.length) (ht : m.jntType.getD j .hinge = .ball) (q : Nat → ℝ) :
    ∀ n, j < n → n ≤ m.jntType.length → (stage G m q (G.jntBodyid.getD j 0) n).rot = (poseBefore G m q j).rot * normalizeQuat (quatAt q (qposOf m j)) := by
  intro n hn
  induction n, hn using Nat.le_induction with
  | base =>
    intro _
    rw [stage_succ, if_pos rfl, poseBefore_stage q hj, jointMove, ht]
    rfl
  | succ n hn ih =>
    intro hl
    have ih := ih (by omega)
    rw [stage_succ]
    split
    · rename_i hb
      rw [jointMove, hw.ball j n (by omega) (by omega) hb ht]
      exact ih
    · exact ih

theorem free_rot (hw : RobotWF G m) {j : Nat} (hj : j < m.jntType.length) (ht : m.jntType.getD j .hinge = .free) (q : Nat → ℝ) :
    ∀ n, j < n → n ≤ m.jntType.length → (stage G m q (G.jntBodyid.getD j 0) n).rot = normalizeQuat (quatAt q (qposOf m j + 3)) := by
  intro n hn
  induction n, hn using Nat.le_induction with
  | base =>
    intro _
    rw [stage_succ, if_pos rfl, jointMove, ht]
    rfl
  | succ n hn ih =>
    intro hl
    have ih := ih (by omega)
    rw [stage_succ]
    split
    · rename_i hb
      have := (hw.free j hj ht).2 n (by omega) hb
      omega
    · exact ih

theorem cols_sum (R : ℍ[ℝ]) (w : Nat → ℝ) (d : Nat) :
    w d • (quatMat R)ᵀ 0 + w (d + 1) • (quatMat R)ᵀ 1 + w (d + 2) • (quatMat R)ᵀ 2 = rotate R (vec3At w d) := by
  rw [← quatMat_mulVec]
  funext a
  simp [Matrix.mulVec, dotProduct, Fin.sum_univ_three, vec3At]
  ring

theorem basis_sum (w : Nat → ℝ) (d : Nat) :
    w d • (Pi.single 0 1 : V3 ℝ) + w (d + 1) • (Pi.single 1 1 : V3 ℝ) + w (d + 2) • (Pi.single 2 1 : V3 ℝ) = vec3At w d := by
  funext a
  fin_cases a <;> simp [vec3At]

private theorem g0 {α : Type} (a z : α) (l : List α) : (a :: l).getD 0 z = a := rfl
private theorem g1 {α : Type} (a b z : α) (l : List α) : (a :: b :: l).getD 1 z = b := rfl
private theorem g2 {α : Type} (a b c z : α) (l : List α) : (a :: b :: c :: l).getD 2 z = c := rfl
private theorem g3 {α : Type} (a b c d z : α) (l : List α) : (a :: b :: c :: d :: l).getD 3 z = d := rfl
private theorem g4 {α : Type} (a b c d e z : α) (l : List α) : (a :: b :: c :: d :: e :: l).getD 4 z = e := rfl
private theorem g5 {α : Type} (a b c d e f z : α) (l : List α) : (a :: b :: c :: d :: e :: f :: l).getD 5 z = f := rfl

/-- The motion axes of a joint add up to its motion. -/
theorem jointCdof_sum (hw : RobotWF G m) (hu : ∀ k adr, quatAdr (m.jntType.getD k .hinge) (m.jntQposadr.getD k 0) = some adr →
      Quaternion.normSq (quatAt q adr) = 1) {j : Nat} (hj : j < m.jntType.length) (com : V3 ℝ) :
    ∑ i ∈ range (m.jntType.getD j .hinge).nv, v (dofOf m j + i) • atOrigin com ((jointCdof G m q com j).getD i (0, 0)) = jointTwist G m q v j := by
  obtain ⟨b0, b1⟩ := hw.joints j hj
  have hbp := bodyPose_stage (G := G) hw.tree q b0 b1
  unfold jointTwist moveTwist jointCdof jointAnchor jointAxis
  have turn : ∀ w c : V3 ℝ, atOrigin com (w, crossProduct w (com - c)) = (w, -crossProduct w c) := by
    intro w c
    simp only [atOrigin, map_sub, Prod.mk.injEq, true_and]; abel
  cases ht : m.jntType.getD j .hinge with
  | hinge =>
    show ∑ i ∈ range 1, _ = _
    rw [sum_range_one]
    simp only [g0, Nat.add_zero]
    rw [turn]
  | slide =>
    show ∑ i ∈ range 1, _ = _
    rw [sum_range_one]
    simp only [g0, Nat.add_zero]
    simp [atOrigin]
  | ball =>
    have hr := ball_rot hw hj ht q _ hj le_rfl
    rw [← hbp, normalizeQuat_unit (hu j (qposOf m j) (by rw [ht]; rfl))] at hr
    show ∑ i ∈ range 3, _ = _
    rw [sum_range_succ, sum_range_succ, sum_range_one]
    simp only [g0, g1, g2, List.map, Nat.add_zero]
    rw [turn, turn, turn, ← hr, ← cols_sum]
    simp only [Prod.smul_mk, Prod.mk_add_mk, map_add, LinearMap.add_apply, map_smul, LinearMap.smul_apply, smul_neg, neg_add]
  | free =>
    have hr := free_rot hw hj ht q _ hj le_rfl
    rw [← hbp, normalizeQuat_unit (hu j (qposOf m j + 3) (by rw [ht]; rfl))] at hr
    show ∑ i ∈ range 6, _ = _
    rw [sum_range_succ, sum_range_succ, sum_range_succ, sum_range_succ, sum_range_succ, sum_range_one]
    simp only [g0, g1, g2, g3, g4, g5, List.map, Nat.add_zero, List.cons_append, List.nil_append]
    rw [turn, turn, turn, ← hr, ← cols_sum, ← basis_sum v (dofOf m j)]
    simp only [atOrigin, Prod.smul_mk, Prod.mk_add_mk, map_add, LinearMap.add_apply, map_smul, LinearMap.smul_apply, smul_neg,
      map_zero, LinearMap.zero_apply, sub_zero, smul_zero, zero_add, add_zero, Nat.add_assoc, Nat.reduceAdd, Prod.mk.injEq, true_and]
    abel

theorem anc_root (hw : RobotWF G m) {a b : Nat} (h : Anc m.bodyParentid a b) : a ≠ 0 → b < m.nbody → m.bodyRootid.getD a 0 = m.bodyRootid.getD b 0 := by
  induction h with
  | self => intro _ _; rfl
  | @step b h0 h ih =>
    intro ha hb
    have hp := hw.tree.parent b (Nat.pos_of_ne_zero h0) hb
    have hp0 : m.bodyParentid.getD b 0 ≠ 0 := by
      intro e
      rw [e] at h
      exact ha (anc_world h)
    rw [ih ha (by omega), hw.root b (Nat.pos_of_ne_zero h0) hb hp0]

open Classical in
/-- The motion axes of all degrees of freedom, put together for the body `b`. -/
theorem dof_sum (hw : RobotWF G m) (hu : ∀ k adr, quatAdr (m.jntType.getD k .hinge) (m.jntQposadr.getD k 0) = some adr →
      Quaternion.normSq (quatAt q adr) = 1) (coms : List (V3 ℝ)) {b : Nat} (hb : b < m.nbody) :
    ((List.range m.jntType.length).flatMap fun j =>
      jointCdof G m q (coms.getD (m.bodyRootid.getD (G.jntBodyid.getD j 0) 0) 0) j).length = m.nv ∧
    ∑ k ∈ range m.nv, (if Anc m.bodyParentid (m.dofBodyid.getD k 0) b then v k • atOrigin (coms.getD (m.bodyRootid.getD b 0) 0)
      (((List.range m.jntType.length).flatMap fun j =>
        jointCdof G m q (coms.getD (m.bodyRootid.getD (G.jntBodyid.getD j 0) 0) 0) j).getD k (0, 0)) else 0) =
      ∑ j ∈ range m.jntType.length, if Anc m.bodyParentid (G.jntBodyid.getD j 0) b then jointTwist G m q v j else 0 := by
  obtain ⟨l1, l2⟩ := consecutive_block (0, 0) hw.addr.addr
    (fun j => jointCdof G m q (coms.getD (m.bodyRootid.getD (G.jntBodyid.getD j 0) 0) 0) j) (fun j _ => jointCdof_length _ j)
  obtain ⟨_, d2⟩ := consecutive_block 0 hw.addr.addr
    (fun j => List.replicate (m.jntType.getD j .hinge).nv (G.jntBodyid.getD j 0)) (fun j _ => List.length_replicate)
  refine ⟨by omega, ?_⟩
  rw [range_eq_Ico, (consecutive_sum _ hw.addr.addr).2]
  apply sum_congr rfl
  intro j hj
  rw [mem_range] at hj
  rw [← hw.dofs] at d2
  obtain ⟨_, _, e1⟩ := l2 j hj
  obtain ⟨_, _, e2⟩ := d2 j hj
  have key : ∀ i ∈ range (m.jntType.getD j .hinge).nv, m.dofBodyid.getD (m.jntDofadr.getD j 0 + i) 0 = G.jntBodyid.getD j 0 := by
    intro i hi
    rw [mem_range] at hi
    have := e2 i hi
    rw [Nat.sub_zero] at this
    rw [this, List.getD_eq_getElem _ _ (by simpa using hi), List.getElem_replicate]
  by_cases ha : Anc m.bodyParentid (G.jntBodyid.getD j 0) b
  · rw [if_pos ha]
    rw [← jointCdof_sum hw hu hj (coms.getD (m.bodyRootid.getD b 0) 0)]
    apply sum_congr rfl
    intro i hi
    rw [key i hi, if_pos ha]
    rw [mem_range] at hi
    have := e1 i hi
    rw [Nat.sub_zero] at this
    rw [this, anc_root hw ha (by have := hw.joints j hj; omega) hb]
    rfl
  · rw [if_neg ha]
    apply sum_eq_zero
    intro i hi
    rw [key i hi, if_neg ha]

end Mjinx
