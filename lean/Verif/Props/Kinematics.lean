import Verif.Lemmas.Tree
import Verif.Lemmas.Rot
import Verif.Lemmas.World
import Verif.Model.RealFns
import Verif.Model.Eval
import Verif.Spec.QP
import Verif.Spec.Pose
import Verif.Spec.ExEnv
import Verif.Lemmas.LocalIK
import Verif.Lemmas.JointEval
import Verif.Lemmas.Pipeline
import Mathlib.Tactic.FieldSimp
import Mathlib.Tactic.LinearCombination

/-!
# C47–C50, C61: frame Jacobians, transforms, configuration limits and the centre of mass
-/

namespace Mjinx.Props
open Spec Finset
open scoped Quaternion Matrix
set_option linter.unusedSectionVars false

section
variable {K : Type} [Field K] [LinearOrder K]

theorem objBody_bodyOf {m : MjModel K} {t : ObjType} {i b : Nat} (h : bodyOf m t i = some b) :
    objBody m t (i : Int) = .ok (b : Int) := by
  cases t with
  | geom => rw [objBody, npGet_some h]; rfl
  | site => rw [objBody, npGet_some h]; rfl
  | body => simp [objBody, bodyOf] at h ⊢; exact h.2
  | other => simp [objBody, bodyOf] at h ⊢; exact h.2

theorem zip_map_getD {α β γ : Type} (f : α × β → γ) (as : List α) (bs : List β) (k : Nat) (a0 : α) (b0 : β) (c0 : γ)
    (ha : k < as.length) (hb : k < bs.length) :
    ((as.zip bs).map f).getD k c0 = f (as.getD k a0, bs.getD k b0) := by
  rw [List.getD_eq_getElem _ _ (by simp; omega), List.getD_eq_getElem _ _ ha, List.getD_eq_getElem _ _ hb]
  simp

theorem worldRows {m : MjModel K} {d : MjData K} {i : Int} {t : ObjType} {rows : List (V3 K × V3 K)}
    (h : frameJacobianWorld m d i t = .ok rows) : ∃ b pos root com, objBody m t i = .ok b ∧ objPos d t i = .ok pos ∧
      jnpGet m.bodyRootid b = .ok root ∧ jnpGet d.subtreeCom root = .ok com ∧
      rows = (d.cdof.zip (dofMask m b)).map (fun x => maskRow x.2 (pointVel (pos - com) x.1, x.1.1)) := by
  obtain ⟨b, hb, h⟩ := Except.bind_eq_ok h
  obtain ⟨pos, hpos, h⟩ := Except.bind_eq_ok h
  obtain ⟨root, hroot, h⟩ := Except.bind_eq_ok h
  obtain ⟨com, hcom, h⟩ := Except.bind_eq_ok h
  injection h with h
  exact ⟨b, pos, root, com, hb, hpos, hroot, hcom, h.symm⟩

theorem localRows {m : MjModel K} {d : MjData K} {i : Int} {t : ObjType} {rows : List (V3 K × V3 K)}
    (h : frameJacobianLocal m d i t = .ok rows) : ∃ b pos rot root com, objBody m t i = .ok b ∧ objPos d t i = .ok pos ∧
      objMat d t i = .ok rot ∧ jnpGet m.bodyRootid b = .ok root ∧ jnpGet d.subtreeCom root = .ok com ∧
      rows = (d.cdof.zip (dofMask m b)).map
        (fun x => maskRow x.2 (rotᵀ.mulVec (pointVel (pos - com) x.1), Matrix.vecMul x.1.1 rotᵀᵀ)) := by
  obtain ⟨b, hb, h⟩ := Except.bind_eq_ok h
  obtain ⟨pos, hpos, h⟩ := Except.bind_eq_ok h
  obtain ⟨rot, hrot, h⟩ := Except.bind_eq_ok h
  obtain ⟨root, hroot, h⟩ := Except.bind_eq_ok h
  obtain ⟨com, hcom, h⟩ := Except.bind_eq_ok h
  injection h with h
  exact ⟨b, pos, rot, root, com, hb, hpos, hrot, hroot, hcom, h.symm⟩

theorem mask_false {m : MjModel K} (hw : TreeWF m) {b k : Nat} (hb : b < m.nbody)
    (hk : ¬ Anc m.bodyParentid (m.dofBodyid.getD k 0) b) (hk' : k < m.dofBodyid.length) :
    (dofMask m b).getD k false = false := by
  rw [← Bool.not_eq_true, dofMask_iff hw b hb k hk']
  exact hk

theorem zip_map_default {α β γ : Type} (f : α × β → γ) (as : List α) (bs : List β) (k : Nat) (c0 : γ)
    (h : ¬ (k < as.length ∧ k < bs.length)) : ((as.zip bs).map f).getD k c0 = c0 := by
  rw [List.getD_eq_default]
  simp; omega

/-- C47: a degree of freedom that moves neither the object's body nor one of its ancestors has zero rows in
the world-aligned and in the local Jacobian of the object. -/
theorem C47_frame_jacobian {m : MjModel K} (hw : TreeWF m) {d : MjData K} {t : ObjType} {i b : Nat}
    (hb : bodyOf m t i = some b) (hbn : b < m.nbody) {rows : List (V3 K × V3 K)}
    (h : frameJacobianWorld m d i t = .ok rows ∨ frameJacobianLocal m d i t = .ok rows) {k : Nat}
    (hk : k < m.nv) (hanc : ¬ Anc m.bodyParentid (m.dofBodyid.getD k 0) b) : rows.getD k (0, 0) = (0, 0) := by
  have hk' : k < m.dofBodyid.length := by rw [hw.dofs]; exact hk
  have hm := mask_false hw hbn hanc hk'
  rcases h with h | h
  · obtain ⟨b', pos, root, com, hb', _, _, _, rfl⟩ := worldRows h
    rw [objBody_bodyOf hb] at hb'
    injection hb' with hb'
    subst hb'
    by_cases hc : k < d.cdof.length
    · rw [zip_map_getD _ _ _ _ (0, 0) false _ hc (by rw [dofMask_length]; exact hk'), hm]; rfl
    · exact zip_map_default _ _ _ _ _ (fun h => hc h.1)
  · obtain ⟨b', pos, rot, root, com, hb', _, _, _, _, rfl⟩ := localRows h
    rw [objBody_bodyOf hb] at hb'
    injection hb' with hb'
    subst hb'
    by_cases hc : k < d.cdof.length
    · rw [zip_map_getD _ _ _ _ (0, 0) false _ hc (by rw [dofMask_length]; exact hk'), hm]; rfl
    · exact zip_map_default _ _ _ _ _ (fun h => hc h.1)

/-- C47, the other half: a degree of freedom of the body or of an ancestor contributes the velocity of the
object's point under that degree of freedom's motion. -/
theorem C47_ancestors_contribute {m : MjModel K} (hw : TreeWF m) {d : MjData K} {t : ObjType} {i b : Nat}
    (hb : bodyOf m t i = some b) (hbn : b < m.nbody) {rows : List (V3 K × V3 K)}
    (h : frameJacobianWorld m d i t = .ok rows) {k : Nat} (hd : d.cdof.length = m.nv)
    (hk : k < m.nv) (hanc : Anc m.bodyParentid (m.dofBodyid.getD k 0) b) :
    ∃ pos root com, objPos d t i = .ok pos ∧ jnpGet m.bodyRootid b = .ok root ∧ jnpGet d.subtreeCom root = .ok com ∧
      rows.getD k (0, 0) =
        ((d.cdof.getD k (0, 0)).2 + crossProduct (d.cdof.getD k (0, 0)).1 (pos - com), (d.cdof.getD k (0, 0)).1) := by
  have hk' : k < m.dofBodyid.length := by rw [hw.dofs]; exact hk
  have hm := (dofMask_iff hw b hbn k hk').2 hanc
  obtain ⟨b', pos, root, com, hb', hpos, hroot, hcom, rfl⟩ := worldRows h
  rw [objBody_bodyOf hb] at hb'
  injection hb' with hb'
  subst hb'
  refine ⟨pos, root, com, hpos, hroot, hcom, ?_⟩
  rw [zip_map_getD _ _ _ _ (0, 0) false _ (by omega) (by rw [dofMask_length]; exact hk'), hm]; rfl

/-- C47 for the point Jacobians of the collision barrier. -/
theorem C47_point_jacobian {m : MjModel K} (hw : TreeWF m) {d : MjData K} {p : V3 K} {b : Nat}
    (hbn : b < m.nbody) {rows : List (V3 K × V3 K)} (h : pointJacobian m d p b = .ok rows) {k : Nat}
    (hk : k < m.nv) (hanc : ¬ Anc m.bodyParentid (m.dofBodyid.getD k 0) b) : rows.getD k (0, 0) = (0, 0) := by
  have hk' : k < m.dofBodyid.length := by rw [hw.dofs]; exact hk
  have hm := mask_false hw hbn hanc hk'
  obtain ⟨root, hroot, h⟩ := Except.bind_eq_ok h
  obtain ⟨com, hcom, h⟩ := Except.bind_eq_ok h
  injection h with h
  subst h
  by_cases hc : k < d.cdof.length
  · rw [zip_map_getD _ _ _ _ (0, 0) false _ hc (by rw [dofMask_length]; exact hk'), hm]; rfl
  · exact zip_map_default _ _ _ _ _ (fun h => hc h.1)

/-- C48: the local Jacobian is the world-aligned one with linear and angular part rotated by the transpose of
the object's rotation. -/
theorem C48_local_is_rotated {m : MjModel K} {d : MjData K} {t : ObjType} {i : Int} {R : M3 K}
    (hR : objMat d t i = .ok R) {w l : List (V3 K × V3 K)} (hw : frameJacobianWorld m d i t = .ok w)
    (hl : frameJacobianLocal m d i t = .ok l) : l = w.map (fun r => (Rᵀ.mulVec r.1, Rᵀ.mulVec r.2)) := by
  obtain ⟨b, pos, root, com, h1, h2, h3, h4, rfl⟩ := worldRows hw
  obtain ⟨b', pos', rot, root', com', k1, k2, k3, k4, k5, rfl⟩ := localRows hl
  rw [hR] at k3; injection k3 with k3; subst k3
  rw [h1] at k1; injection k1 with k1; subst k1
  rw [h2] at k2; injection k2 with k2; subst k2
  rw [h3] at k4; injection k4 with k4; subst k4
  rw [h4] at k5; injection k5 with k5; subst k5
  rw [List.map_map]
  apply List.map_congr_left
  rintro ⟨c, b⟩ _
  cases b
  · simp [maskRow]
  · simp [maskRow, Matrix.mulVec_transpose]

/-- The velocity (linear, angular) of the object for joint velocity `v`. -/
def objVelocity (rows : List (V3 K × V3 K)) (v : Nat → K) : V3 K × V3 K :=
  ∑ k ∈ range rows.length, v k • rows.getD k (0, 0)

theorem objVelocity_map (A : M3 K) (w : List (V3 K × V3 K)) (v : Nat → K) :
    objVelocity (w.map (fun r => (A.mulVec r.1, A.mulVec r.2))) v =
      (A.mulVec (objVelocity w v).1, A.mulVec (objVelocity w v).2) := by
  have key : ∀ k, (w.map (fun r => (A.mulVec r.1, A.mulVec r.2))).getD k (0, 0) =
      (A.mulVec (w.getD k (0, 0)).1, A.mulVec (w.getD k (0, 0)).2) := by
    intro k
    by_cases hk : k < w.length
    · rw [List.getD_eq_getElem _ _ (by simpa using hk), List.getD_eq_getElem _ _ hk]; simp
    · rw [List.getD_eq_default _ _ (by simpa using hk), List.getD_eq_default _ _ (by omega)]; simp
  simp only [objVelocity, List.length_map, key]
  ext i
  all_goals simp [Prod.fst_sum, Prod.snd_sum, Matrix.mulVec_sum, Matrix.mulVec_smul]

/-- C48: with an orthonormal rotation both describe the same motion: the world-aligned velocity is recovered by
rotating the local one. -/
theorem C48_recover {m : MjModel K} {d : MjData K} {t : ObjType} {i : Int} {R : M3 K}
    (hR : objMat d t i = .ok R) (ho : R * Rᵀ = 1) {w l : List (V3 K × V3 K)} (hw : frameJacobianWorld m d i t = .ok w)
    (hl : frameJacobianLocal m d i t = .ok l) (v : Nat → K) :
    objVelocity w v = (R.mulVec (objVelocity l v).1, R.mulVec (objVelocity l v).2) := by
  rw [C48_local_is_rotated hR hw hl, objVelocity_map]
  simp only [Matrix.mulVec_mulVec, ho, Matrix.one_mulVec]

theorem sq3_dot (v : V3 K) : sq3 v = v ⬝ᵥ v := by
  simp [sq3, dotProduct, Fin.sum_univ_three]; ring

/-- C48: equal speeds. -/
theorem C48_norms {m : MjModel K} {d : MjData K} {t : ObjType} {i : Int} {R : M3 K}
    (hR : objMat d t i = .ok R) (ho : R * Rᵀ = 1) {w l : List (V3 K × V3 K)} (hw : frameJacobianWorld m d i t = .ok w)
    (hl : frameJacobianLocal m d i t = .ok l) (v : Nat → K) :
    sq3 (objVelocity l v).1 = sq3 (objVelocity w v).1 ∧ sq3 (objVelocity l v).2 = sq3 (objVelocity w v).2 := by
  have key : ∀ x : V3 K, sq3 (Rᵀ.mulVec x) = sq3 x := by
    intro x
    rw [sq3_dot, sq3_dot, Matrix.dotProduct_mulVec, ← Matrix.mulVec_transpose, Matrix.mulVec_mulVec,
      Matrix.transpose_transpose, ho, Matrix.one_mulVec]
  rw [C48_local_is_rotated hR hw hl, objVelocity_map]
  exact ⟨key _, key _⟩

end

/-! ## C49 relative transforms -/

section
variable {K : Type} [Field K]

variable [LinearOrder K]

/-- `get_transform_frame_to_world` returns the frame of the body in the simulator's data. -/
theorem C49_frame_to_world {d : MjData K} {k : Nat} {S : SE3 K} (hS : BodyFrame d k S) :
    transformFrameToWorld d k = .ok S := by
  rw [transformFrameToWorld, jnpGet_some hS.1, jnpGet_some hS.2]
  rfl

/-- What `get_transform` computes: the destination's pose after the source's. -/
theorem C49_actual {d : MjData K} {source dest : Nat} {S D : SE3 K} (hS : BodyFrame d source S) (hD : BodyFrame d dest D) :
    ∃ T, getTransform d source dest = .ok T ∧ ∀ p, T.apply p = D.apply (S.apply p) := by
  refine ⟨D.mul S, ?_, SE3.mul_apply D S⟩
  rw [getTransform, C49_frame_to_world hS, C49_frame_to_world hD]
  rfl

/-- C49 where it holds: a destination frame that coincides with the world. -/
theorem C49_world_partial {d : MjData K} {source dest : Nat} {S D : SE3 K} (hS : BodyFrame d source S) (hD : BodyFrame d dest D)
    (hw : ∀ x, D.apply x = x) : ∃ T, getTransform d source dest = .ok T ∧ ∀ p, D.apply (T.apply p) = S.apply p := by
  obtain ⟨T, h1, h2⟩ := C49_actual hS hD
  exact ⟨T, h1, fun p => by rw [h2, hw, hw]⟩

/-- C49 is false: the result maps source coordinates to destination coordinates only if the destination frame
is its own inverse. -/
theorem C49_only_involutions {d : MjData K} {source dest : Nat} {S D : SE3 K} (hS : BodyFrame d source S)
    (hD : BodyFrame d dest D) (hu : Quaternion.normSq S.rot = 1) :
    ∃ T, getTransform d source dest = .ok T ∧
      ((∀ p, D.apply (T.apply p) = S.apply p) ↔ ∀ x, D.apply (D.apply x) = x) := by
  obtain ⟨T, h1, h2⟩ := C49_actual hS hD
  refine ⟨T, h1, ?_⟩
  constructor
  · intro h x
    have := h (S.inv.apply x)
    rwa [h2, SE3.apply_inv hu] at this
  · intro h p
    rw [h2, h]

namespace KEx
/-- Two bodies one metre apart. -/
def d : MjData ℚ :=
  { Ex.data Ex.model ⟨13, fun _ => 0⟩ with xpos := [0, ![1, 0, 0]], xquat := [1, 1] }

/-- The origin of frame 0 seen from frame 1 is `(-1, 0, 0)`; the code returns `(1, 0, 0)`. -/
example : ∃ S D T, BodyFrame d 0 S ∧ BodyFrame d 1 D ∧
    Quaternion.normSq S.rot = 1 ∧ getTransform d 0 1 = .ok T ∧ ¬ D.apply (T.apply 0) = S.apply 0 ∧
    T.apply 0 = ![1, 0, 0] := by
  refine ⟨⟨1, 0⟩, ⟨1, ![1, 0, 0]⟩, (⟨1, ![1, 0, 0]⟩ : SE3 ℚ).mul ⟨1, 0⟩, ⟨rfl, rfl⟩, ⟨rfl, rfl⟩, by simp, rfl, ?_, ?_⟩
  · intro h
    have := congrFun h 0
    rw [SE3.mul_apply] at this
    simp [SE3.apply, rotate_one] at this
  · rw [SE3.mul_apply]; simp [SE3.apply, rotate_one]
end KEx

end

/-! ## C50 configuration limits -/

section
variable {K : Type} [Field K] [LinearOrder K] [IsStrictOrderedRing K]

theorem limit_rows {m : MjModel K} {l : K ⊕ Vec K} {l' : Vec K}
    (hl : l' = match l with
      | .inl x => ⟨m.nv, fun _ => 1 * x⟩
      | .inr v => v) :
    ∃ A b, getConfigurationLimit m l = .ok (A, b) ∧ A.rows = 2 * m.nv ∧ A.cols = m.nv ∧ b = l'.append l' ∧
      (∀ v i, i < m.nv → rowDot A i v = - v i) ∧ ∀ v i, i < m.nv → rowDot A (m.nv + i) v = v i := by
  refine ⟨⟨m.nv + m.nv, m.nv,
    fun i j => if i < m.nv then (-1) * (if i = j then 1 else 0) else if i - m.nv = j then 1 else 0⟩, _, ?_, ?_, ?_, rfl, ?_, ?_⟩
  · subst hl
    cases l <;> simp [getConfigurationLimit, Mat.vstack, Mat.smul, Mat.eye, bind, Except.bind, pure, Except.pure]
  · simp; omega
  · rfl
  · intro v i hi
    simp only [rowDot, if_pos hi]
    rw [sum_eq_single i] <;> simp +contextual [hi, eq_comm]
  · intro v i hi
    have : ¬ m.nv + i < m.nv := by omega
    simp only [rowDot, if_neg this, Nat.add_sub_cancel_left]
    rw [sum_eq_single i] <;> simp +contextual [hi, eq_comm]

theorem limit_iff {m : MjModel K} {l : K ⊕ Vec K} {l' : Vec K}
    (hl : l' = match l with
      | .inl x => ⟨m.nv, fun _ => 1 * x⟩
      | .inr v => v) (hlen : l'.len = m.nv) {A : Mat K} {b : Vec K} (h : getConfigurationLimit m l = .ok (A, b)) (v : Nat → K) :
    A.rows = b.len ∧ ((∀ i < A.rows, rowDot A i v ≤ b.get i) ↔ ∀ i < m.nv, |v i| ≤ l'.get i) := by
  obtain ⟨A', b', h', hr, hc, hb, h1, h2⟩ := limit_rows (m := m) hl
  rw [h] at h'
  injection h' with h'
  injection h' with hA hB
  subst hA hB
  have hb1 : ∀ i < m.nv, b.get i = l'.get i := fun i hi => by rw [hb]; simp [Vec.append, hlen, hi]
  have hb2 : ∀ i, b.get (m.nv + i) = l'.get i := fun i => by rw [hb]; simp [Vec.append, hlen]
  refine ⟨by rw [hr, hb]; simp [Vec.append, hlen]; omega, ?_⟩
  constructor
  · intro hle i hi
    have e1 := hle i (by omega)
    have e2 := hle (m.nv + i) (by omega)
    rw [h1 v i hi, hb1 i hi] at e1
    rw [h2 v i hi, hb2] at e2
    exact abs_le.2 ⟨by linarith, e2⟩
  · intro hle i hi
    by_cases hi' : i < m.nv
    · rw [h1 v i hi', hb1 i hi']
      have := (abs_le.1 (hle i hi')).1
      linarith
    · obtain ⟨k, rfl⟩ : ∃ k, i = m.nv + k := ⟨i - m.nv, by omega⟩
      have hk : k < m.nv := by omega
      rw [h2 v k hk, hb2]
      exact (abs_le.1 (hle k hk)).2

/-- C50 with an array of limits. -/
theorem C50_array_limit {m : MjModel K} {l : Vec K} (hl : l.len = m.nv) {A : Mat K} {b : Vec K}
    (h : getConfigurationLimit m (.inr l) = .ok (A, b)) (v : Nat → K) :
    A.rows = b.len ∧ ((∀ i < A.rows, rowDot A i v ≤ b.get i) ↔ ∀ i < m.nv, |v i| ≤ l.get i) :=
  limit_iff (l := .inr l) rfl hl h v

/-- C50 with one number for all. -/
theorem C50_float_limit {m : MjModel K} {x : K} {A : Mat K} {b : Vec K}
    (h : getConfigurationLimit m (.inl x) = .ok (A, b)) (v : Nat → K) :
    A.rows = b.len ∧ ((∀ i < A.rows, rowDot A i v ≤ b.get i) ↔ ∀ i < m.nv, |v i| ≤ x) := by
  have := limit_iff (l := .inl x) rfl rfl h v
  simpa using this

/-- C50: the rows always exist. -/
theorem C50_defined (m : MjModel K) (l : K ⊕ Vec K) : ∃ A b, getConfigurationLimit m l = .ok (A, b) := by
  obtain ⟨A, b, h, _⟩ := limit_rows (m := m) (l := l) rfl
  exact ⟨A, b, h⟩

end

/-! ## C61 centre of mass -/

section
variable {K : Type} [Field K] [LinearOrder K] [IsStrictOrderedRing K]

/-- Total mass of the model. -/
def totalMass (m : MjModel K) : K := ∑ b ∈ range m.nbody, m.bodyMass.getD b 0
/-- Mass-weighted mean of the bodies' centres. -/
def massMean (m : MjModel K) (xipos : List (V3 K)) (a : Fin 3) : K :=
  (∑ b ∈ range m.nbody, m.bodyMass.getD b 0 * xipos.getD b 0 a) / totalMass m

open Classical in
/-- Mass of a body together with everything it carries. -/
noncomputable def subtreeMass (m : MjModel K) (b : Nat) : K :=
  ∑ c ∈ range m.nbody, if Anc m.bodyParentid b c then m.bodyMass.getD c 0 else 0
open Classical in
/-- Mass-weighted mean of the centres of a body and everything it carries. -/
noncomputable def subtreeMean (m : MjModel K) (xipos : List (V3 K)) (b : Nat) (a : Fin 3) : K :=
  (∑ c ∈ range m.nbody, if Anc m.bodyParentid b c then m.bodyMass.getD c 0 * xipos.getD c 0 a else 0) / subtreeMass m b

/-- C61, every body: the centre of mass of a body and everything it carries is their mass-weighted mean; with a mass below 1e-15 it is the body's own
centre. -/
theorem C61_subtrees {m : MjModel K} (hw : TreeWF m) {xipos : List (V3 K)} (hx : xipos.length = m.nbody)
    (hm : m.bodyMass.length = m.nbody) {b : Nat} (hb : b < m.nbody) :
    (subtreeComs m xipos)[b]? = some (if subtreeMass m b < 1 / 10 ^ 15 then xipos.getD b 0 else subtreeMean m xipos b) := by
  classical
  show _ = some (if subtreeMass m b < mjMinval then xipos.getD b 0 else subtreeMean m xipos b)
  set x0 : List (V3 K × K) := List.zipWith (fun x w => ((fun a => x a * w : V3 K), w)) xipos m.bodyMass with hx0
  have hl : x0.length = m.nbody := by simp [hx0, hx, hm]
  obtain ⟨h1, h2⟩ := treeSum hw.pos hw.parent x0 hl
  have hget : ∀ b < m.nbody, x0.getD b 0 = ((fun a => xipos.getD b 0 a * m.bodyMass.getD b 0 : V3 K), m.bodyMass.getD b 0) := by
    intro b hb
    rw [List.getD_eq_getElem _ _ (by omega), List.getD_eq_getElem _ _ (by omega), List.getD_eq_getElem _ _ (by omega)]
    simp [hx0]
  have h0 := h2 b hb
  have hsum : (bodyTreeSum m.bodyParentid (m.nbody - 1) x0).getD b 0 =
      ((fun a => ∑ c ∈ range m.nbody, if Anc m.bodyParentid b c then m.bodyMass.getD c 0 * xipos.getD c 0 a else 0 : V3 K), subtreeMass m b) := by
    rw [h0]
    have : ∀ c ∈ range m.nbody, (if Anc m.bodyParentid b c then x0.getD c 0 else 0) =
        ((fun a => if Anc m.bodyParentid b c then m.bodyMass.getD c 0 * xipos.getD c 0 a else 0 : V3 K),
          if Anc m.bodyParentid b c then m.bodyMass.getD c 0 else 0) := by
      intro c hc
      rw [mem_range] at hc
      rw [hget c hc]
      split
      · simp only [mul_comm]
      · rfl
    rw [sum_congr rfl this]
    refine Prod.ext ?_ ?_
    · rw [Prod.fst_sum]; funext a; simp
    · rw [Prod.snd_sum]
      unfold subtreeMass
      exact sum_congr rfl fun c _ => by congr
  rw [List.getD_eq_getElem _ _ (by rw [h1]; exact hb)] at hsum
  rw [subtreeComs, List.getElem?_eq_getElem (by simp [← hx0, h1, hx]; exact hb)]
  rw [List.getElem_zipWith]
  simp only [← hx0]
  rw [hsum]
  congr 1
  by_cases hmass : subtreeMass m b < mjMinval
  · rw [if_pos hmass, if_pos hmass, List.getD_eq_getElem _ _ (by omega)]
  · rw [if_neg hmass, if_neg hmass, max_eq_left (not_lt.1 hmass)]
    funext a
    unfold subtreeMean
    congr 1

theorem subtreeComs_root {m : MjModel K} (hw : TreeWF m) {xipos : List (V3 K)} (hx : xipos.length = m.nbody)
    (hm : m.bodyMass.length = m.nbody) (hmass : 1 / 10 ^ 15 ≤ totalMass m) :
    (subtreeComs m xipos)[0]? = some (massMean m xipos) := by
  classical
  have hm0 : subtreeMass m 0 = totalMass m := sum_congr rfl fun b hb => by rw [if_pos (anc_zero hw.parent b (mem_range.1 hb))]
  rw [C61_subtrees hw hx hm hw.pos, hm0, if_neg (not_lt.2 hmass)]
  congr 1
  funext a
  unfold subtreeMean massMean
  rw [hm0]
  congr 1
  exact sum_congr rfl fun b hb => by rw [if_pos (anc_zero hw.parent b (mem_range.1 hb))]

/-- C61: on every state whose centres of mass are computed as in the CoM task's own update, the error of the CoM
task is the selected coordinates of the mass-weighted mean minus the target. -/
theorem C61_com_error {env : Env K} {j : JaxComp K} {w tgt : Arr K} {lm : K} (hk : j.kind = .comTask w lm tgt)
    (hw : TreeWF j.model) (hroot : j.model.bodyRootid.getD 0 1 = 0) (hmasses : j.model.bodyMass.length = j.model.nbody)
    (hmass : 1 / 10 ^ 15 ≤ totalMass j.model) {d : MjData K} (hx : d.xipos.length = j.model.nbody)
    (hcom : d.subtreeCom = subtreeComs j.model d.xipos) (hidx : ∀ i ∈ j.maskIdxs, i < 3)
    (ht : FitsVec tgt j.maskIdxs.length) :
    ∃ e, evalValue env j d = .ok e ∧ e.len = j.maskIdxs.length ∧
      ∀ i (hi : i < j.maskIdxs.length), ∃ h3 : j.maskIdxs[i] < 3,
        e.get i = massMean j.model d.xipos ⟨j.maskIdxs[i], h3⟩ - entry tgt i := by
  obtain ⟨t, ht1, ht2⟩ := operand_fits ht
  obtain ⟨r, hr1, hr2, hr3, _⟩ := ht2 ((vec3 (massMean j.model d.xipos)).gather j.maskIdxs) rfl
  have hroot' : npGet j.model.bodyRootid 0 = .ok 0 := by
    apply npGet_some (i := 0)
    cases hb : j.model.bodyRootid with
    | nil => rw [hb] at hroot; simp at hroot
    | cons x xs => rw [hb] at hroot; simp at hroot; simp [hroot]
  have hcom' : jnpGet d.subtreeCom 0 = .ok (massMean j.model d.xipos) :=
    jnpGet_some (i := 0) (by rw [hcom]; exact subtreeComs_root hw hx hmasses hmass)
  refine ⟨r, ?_, hr2, ?_⟩
  · rw [evalValue, hk]
    simp only [bind, Except.bind, ht1, hroot']
    erw [hcom']
    exact hr1
  · intro i hi
    have h3 := hidx _ (List.getElem_mem hi)
    refine ⟨h3, ?_⟩
    rw [hr3 i hi, gather_get hi h3]
    simp [vec3, h3]

/-- C61: the function the CoM task differentiates is the same mean, at the configuration's kinematics. -/
theorem C61_com_differentiated {env : Env K} {j : JaxComp K} {w tgt : Arr K} {lm : K} (hk : j.kind = .comTask w lm tgt)
    (hw : TreeWF j.model) (hroot : j.model.bodyRootid.getD 0 1 = 0) (hmasses : j.model.bodyMass.length = j.model.nbody)
    (hmass : 1 / 10 ^ 15 ≤ totalMass j.model) (hidx : ∀ i ∈ j.maskIdxs, i < 3) (ht : FitsVec tgt j.maskIdxs.length)
    (q : Vec K) (hx : (env.kinematics j.model q).xipos.length = j.model.nbody) :
    ∃ e, evalValue env j (comUpdate env j.model q) = .ok e ∧ e.len = j.maskIdxs.length ∧
      ∀ i (hi : i < j.maskIdxs.length), ∃ h3 : j.maskIdxs[i] < 3,
        e.get i = massMean j.model (env.kinematics j.model q).xipos ⟨j.maskIdxs[i], h3⟩ - entry tgt i :=
  C61_com_error hk hw hroot hmasses hmass (d := comUpdate env j.model q) hx rfl hidx ht

end

/-! ### A concrete tree: world - b1 - b2 - b3 - b4, one unit apart along x -/

namespace KEx

theorem tree : TreeWF Ex.model := by
  refine ⟨?_, ?_, rfl, by decide⟩
  · intro b h0 hb
    have hb' : b < 5 := hb
    obtain rfl | rfl | rfl | rfl : b = 1 ∨ b = 2 ∨ b = 3 ∨ b = 4 := by omega
    all_goals decide
  · intro b hb
    have : ∀ b ∈ Ex.model.dofBodyid, b < 5 := by decide
    exact this b hb

def d2 : MjData ℚ :=
  { Ex.data Ex.model ⟨13, fun _ => 0⟩ with
    xpos := [0, ![1, 0, 0], ![2, 0, 0], ![3, 0, 0], ![4, 0, 0]]
    xipos := [0, ![1, 0, 0], ![2, 0, 0], ![3, 0, 0], ![4, 0, 0]]
    cdof := List.replicate 11 (![0, 0, 1], ![1, 0, 0]) }

/-- The hinge (degree of freedom 6) is on body 2: it moves body 3 but not body 1. -/
example : bodyOf Ex.model .body 1 = some 1 ∧ (∃ rows, frameJacobianWorld Ex.model d2 1 .body = .ok rows) ∧
    (∃ rows, frameJacobianLocal Ex.model d2 1 .body = .ok rows) ∧
    ¬ Anc Ex.model.bodyParentid (Ex.model.dofBodyid.getD 6 0) 1 ∧ Anc Ex.model.bodyParentid (Ex.model.dofBodyid.getD 6 0) 3 := by
  refine ⟨rfl, ⟨_, rfl⟩, ⟨_, rfl⟩, ?_, .step (by decide) .self⟩
  intro h
  have h2 : Anc [0, 0, 1, 2, 3] 2 1 := h
  cases h2 with
  | step _ h3 => cases h3 with
    | step h4 _ => exact h4 rfl

example : (subtreeComs Ex.model d2.xipos)[1]? =
    some (if subtreeMass Ex.model 1 < 1 / 10 ^ 15 then d2.xipos.getD 1 0 else subtreeMean Ex.model d2.xipos 1) :=
  C61_subtrees tree rfl rfl (by decide)

example : ∃ R, objMat d2 .body 1 = .ok R ∧ R * Rᵀ = 1 := ⟨1, rfl, by simp⟩

example : ∃ j : JaxComp ℚ, ∃ w tgt lm, j.kind = .comTask w lm tgt ∧ j.model = Ex.model ∧ FitsVec tgt j.maskIdxs.length ∧
    (∀ i ∈ j.maskIdxs, i < 3) ∧ Ex.model.bodyRootid.getD 0 1 = 0 ∧ 1 / 10 ^ 15 ≤ totalMass Ex.model ∧
    massMean Ex.model d2.xipos 0 = 3 := by
  refine ⟨{ model := Ex.model, vectorGain := Ex.scalar 1, gainFn := id, dim := 2, maskIdxs := [0, 2], kind := .comTask (Ex.scalar 1) 0 (Ex.scalar 0) },
    _, _, _, rfl, rfl, .inl rfl, by decide, rfl, ?_, ?_⟩
  · simp [totalMass, Ex.model, sum_range_succ]; norm_num
  · simp [massMean, totalMass, Ex.model, sum_range_succ, d2]; norm_num

end KEx

end Mjinx.Props
