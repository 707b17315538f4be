import Verif.Lemmas.Motion
import Verif.Spec.Deriv
import Mathlib.Analysis.SpecialFunctions.Sqrt
import Mathlib.Analysis.SpecialFunctions.Trigonometric.Deriv

/-!
# Poses depend smoothly on the configuration
-/

set_option linter.unusedSectionVars false

namespace Mjinx
open Real Props Spec
open scoped Quaternion

variable {n : Nat} {k : WithTop ℕ∞}

/-- Every entry of the pose is a smooth function of the coordinates. -/
structure SmoothPose (k : WithTop ℕ∞) (T : (Fin n → ℝ) → SE3 ℝ) (x : Fin n → ℝ) : Prop where
  re : ContDiffAt ℝ k (fun y => (T y).rot.re) x
  imI : ContDiffAt ℝ k (fun y => (T y).rot.imI) x
  imJ : ContDiffAt ℝ k (fun y => (T y).rot.imJ) x
  imK : ContDiffAt ℝ k (fun y => (T y).rot.imK) x
  trans : ∀ a, ContDiffAt ℝ k (fun y => (T y).trans a) x

theorem coord_smooth (i : Nat) (x : Fin n → ℝ) : ContDiffAt ℝ k (fun y => (vecOf y).get i) x := by
  by_cases h : i < n
  · have : (fun y : Fin n → ℝ => (vecOf y).get i) = fun y => y ⟨i, h⟩ := funext fun y => dif_pos h
    rw [this]
    exact (contDiff_apply ℝ ℝ (⟨i, h⟩ : Fin n)).contDiffAt
  · have : (fun y : Fin n → ℝ => (vecOf y).get i) = fun _ => 0 := funext fun y => dif_neg h
    rw [this]
    exact contDiffAt_const

theorem smooth_const (A : SE3 ℝ) (x : Fin n → ℝ) : SmoothPose k (fun _ => A) x :=
  ⟨contDiffAt_const, contDiffAt_const, contDiffAt_const, contDiffAt_const, fun _ => contDiffAt_const⟩

theorem SmoothPose.rotate {T : (Fin n → ℝ) → SE3 ℝ} {x : Fin n → ℝ} (h : SmoothPose k T x) {p : (Fin n → ℝ) → V3 ℝ}
    (hp : ∀ a, ContDiffAt ℝ k (fun y => p y a) x) (a : Fin 3) : ContDiffAt ℝ k (fun y => Mjinx.rotate (T y).rot (p y) a) x := by
  obtain ⟨h0, h1, h2, h3, -⟩ := h
  have p0 := hp 0
  have p1 := hp 1
  have p2 := hp 2
  fin_cases a
  · show ContDiffAt ℝ k (fun y => Mjinx.rotate _ _ 0) _
    simp only [rotate_apply0]
    fun_prop
  · show ContDiffAt ℝ k (fun y => Mjinx.rotate _ _ 1) _
    simp only [rotate_apply1]
    fun_prop
  · show ContDiffAt ℝ k (fun y => Mjinx.rotate _ _ 2) _
    simp only [rotate_apply2]
    fun_prop

theorem SmoothPose.apply {T : (Fin n → ℝ) → SE3 ℝ} {x : Fin n → ℝ} (h : SmoothPose k T x) {p : (Fin n → ℝ) → V3 ℝ}
    (hp : ∀ a, ContDiffAt ℝ k (fun y => p y a) x) (a : Fin 3) : ContDiffAt ℝ k (fun y => (T y).apply (p y) a) x :=
  (h.rotate hp a).add (h.trans a)

/-- A smooth quaternion. -/
structure SmoothQuat (k : WithTop ℕ∞) (r : (Fin n → ℝ) → ℍ[ℝ]) (x : Fin n → ℝ) : Prop where
  re : ContDiffAt ℝ k (fun y => (r y).re) x
  imI : ContDiffAt ℝ k (fun y => (r y).imI) x
  imJ : ContDiffAt ℝ k (fun y => (r y).imJ) x
  imK : ContDiffAt ℝ k (fun y => (r y).imK) x

theorem SmoothPose.quat {T : (Fin n → ℝ) → SE3 ℝ} {x : Fin n → ℝ} (h : SmoothPose k T x) : SmoothQuat k (fun y => (T y).rot) x :=
  ⟨h.re, h.imI, h.imJ, h.imK⟩

theorem SmoothQuat.mul {r s : (Fin n → ℝ) → ℍ[ℝ]} {x : Fin n → ℝ} (h : SmoothQuat k r x) (h' : SmoothQuat k s x) : SmoothQuat k (fun y => r y * s y) x := by
  obtain ⟨h0, h1, h2, h3⟩ := h
  obtain ⟨g0, g1, g2, g3⟩ := h'
  constructor
  · simp only [Quaternion.re_mul]; fun_prop
  · simp only [Quaternion.imI_mul]; fun_prop
  · simp only [Quaternion.imJ_mul]; fun_prop
  · simp only [Quaternion.imK_mul]; fun_prop

theorem SmoothQuat.pose {r : (Fin n → ℝ) → ℍ[ℝ]} {x : Fin n → ℝ} (h : SmoothQuat k r x) {p : (Fin n → ℝ) → V3 ℝ}
    (hp : ∀ a, ContDiffAt ℝ k (fun y => p y a) x) : SmoothPose k (fun y => ⟨r y, p y⟩) x := ⟨h.re, h.imI, h.imJ, h.imK, hp⟩

theorem SmoothPose.mul {A B : (Fin n → ℝ) → SE3 ℝ} {x : Fin n → ℝ} (hA : SmoothPose k A x) (hB : SmoothPose k B x) :
    SmoothPose k (fun y => (A y).mul (B y)) x :=
  (hA.quat.mul hB.quat).pose fun a => (hA.rotate hB.trans a).add (hA.trans a)

theorem smooth_quatAt (i : Nat) (x : Fin n → ℝ) : SmoothQuat k (fun y => quatAt (vecOf y).get i) x :=
  ⟨coord_smooth i x, coord_smooth (i + 1) x, coord_smooth (i + 2) x, coord_smooth (i + 3) x⟩

theorem smooth_normalize {r : (Fin n → ℝ) → ℍ[ℝ]} {x : Fin n → ℝ} (h : SmoothQuat k r x) (h0 : Quaternion.normSq (r x) ≠ 0) :
    SmoothQuat k (fun y => normalizeQuat (r y)) x := by
  have hn : ContDiffAt ℝ k (fun y => Quaternion.normSq (r y)) x := by
    obtain ⟨h0, h1, h2, h3⟩ := h
    simp only [Quaternion.normSq_def']
    fun_prop
  have hi : ContDiffAt ℝ k (fun y => (√(Quaternion.normSq (r y)))⁻¹) x :=
    (hn.sqrt h0).inv (Real.sqrt_ne_zero'.2 (lt_of_le_of_ne Quaternion.normSq_nonneg (Ne.symm h0)))
  exact ⟨hi.mul h.re, hi.mul h.imI, hi.mul h.imJ, hi.mul h.imK⟩

theorem smooth_axisAngle (ax : V3 ℝ) {θ : (Fin n → ℝ) → ℝ} {x : Fin n → ℝ} (h : ContDiffAt ℝ k θ x) : SmoothQuat k (fun y => axisAngleQuat ax (θ y)) x := by
  have hh : ContDiffAt ℝ k (fun y => θ y / 2) x := h.div_const 2
  exact ⟨hh.cos, hh.sin.mul contDiffAt_const, hh.sin.mul contDiffAt_const, hh.sin.mul contDiffAt_const⟩

variable {G : Geometry} {m : MjModel ℝ}

/-- No quaternion of the configuration is zero. -/
def QuatsNonzero (m : MjModel ℝ) (q : Nat → ℝ) : Prop :=
  ∀ j adr, quatAdr (m.jntType.getD j .hinge) (m.jntQposadr.getD j 0) = some adr → Quaternion.normSq (quatAt q adr) ≠ 0

theorem jointMove_smooth {x : Fin n → ℝ} (hu : QuatsNonzero m (vecOf x).get) {T : (Fin n → ℝ) → SE3 ℝ} (hT : SmoothPose k T x) (j : Nat) :
    SmoothPose k (fun y => jointMove G m (vecOf y).get (T y) j) x := by
  have hc : ∀ p : V3 ℝ, ∀ a, ContDiffAt ℝ k (fun _ : Fin n → ℝ => p a) x := fun p a => contDiffAt_const
  have turn : ∀ {r : (Fin n → ℝ) → ℍ[ℝ]}, SmoothQuat k r x → ∀ jp : V3 ℝ,
      SmoothPose k (fun y => ⟨(T y).rot * r y, (T y).apply jp - Mjinx.rotate ((T y).rot * r y) jp⟩) x := by
    intro r hr jp
    have h1 := hT.quat.mul hr
    exact h1.pose fun a => (hT.apply (hc jp) a).sub ((h1.pose (p := fun _ => 0) (hc 0)).rotate (hc jp) a)
  unfold jointMove
  cases ht : m.jntType.getD j .hinge with
  | free =>
    refine (smooth_normalize (smooth_quatAt _ x) (hu j _ (by rw [ht]; rfl))).pose fun a => ?_
    fin_cases a
    · exact coord_smooth _ x
    · exact coord_smooth _ x
    · exact coord_smooth _ x
  | ball => exact turn (smooth_normalize (smooth_quatAt _ x) (hu j _ (by rw [ht]; rfl))) _
  | hinge => exact turn (smooth_axisAngle _ ((coord_smooth _ x).sub contDiffAt_const)) _
  | slide =>
    exact hT.quat.pose fun a => (hT.trans a).add (((coord_smooth _ x).sub contDiffAt_const).mul (hT.rotate (hc _) a))

theorem bodyPose_smooth {x : Fin n → ℝ} (hu : QuatsNonzero m (vecOf x).get) (b : Nat) :
    SmoothPose k (fun y => bodyPose G m (vecOf y).get b) x := by
  induction b using Nat.strong_induction_on with
  | _ b ih =>
    by_cases h0 : b = 0
    · subst h0
      simp only [bodyPose_zero]
      exact smooth_const _ _
    · have key : ∀ (l : List Nat) {T : (Fin n → ℝ) → SE3 ℝ}, SmoothPose k T x →
          SmoothPose k (fun y => l.foldl (jointMove G m (vecOf y).get) (T y)) x := by
        intro l
        induction l with
        | nil => intro T hT; exact hT
        | cons j l ihl => intro T hT; exact ihl (jointMove_smooth hu hT j)
      have e : (fun y : Fin n → ℝ => bodyPose G m (vecOf y).get b) = fun y => (jointsOfBody G m b).foldl (jointMove G m (vecOf y).get)
          ((if _h : m.bodyParentid.getD b 0 < b then bodyPose G m (vecOf y).get (m.bodyParentid.getD b 0) else SE3.one).mul
            ⟨G.bodyQuat.getD b 1, G.bodyPos.getD b 0⟩) := by
        funext y
        rw [bodyPose, if_neg h0]
      rw [e]
      refine key _ (SmoothPose.mul ?_ (smooth_const _ _))
      by_cases hp : m.bodyParentid.getD b 0 < b
      · simp only [dif_pos hp]; exact ih _ hp
      · simp only [dif_neg hp]; exact smooth_const _ _

end Mjinx
