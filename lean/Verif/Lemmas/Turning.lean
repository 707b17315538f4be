import Verif.Lemmas.Contact
import Verif.Lemmas.Motion
import Mathlib.Analysis.Calculus.MeanValue

/-!
# How fast points of a turning robot can accelerate
-/

set_option linter.unusedSectionVars false

namespace Mjinx
open Finset Props Spec
open scoped Quaternion Matrix

/-! ### Lengths -/

/-- The length of a vector. -/
noncomputable def len3 (u : V3 ℝ) : ℝ := √(sq3 u)

theorem len3_norm (u : V3 ℝ) : len3 u = ‖(WithLp.toLp 2 u : EuclideanSpace ℝ (Fin 3))‖ := by
  rw [EuclideanSpace.norm_eq, len3, sq3, Fin.sum_univ_three]
  simp

theorem len3_nonneg (u : V3 ℝ) : 0 ≤ len3 u := Real.sqrt_nonneg _

theorem len3_add (u w : V3 ℝ) : len3 (u + w) ≤ len3 u + len3 w := by
  simp only [len3_norm]; exact norm_add_le _ _

theorem len3_sub (u w : V3 ℝ) : len3 (u - w) ≤ len3 u + len3 w := by
  simp only [len3_norm]; exact norm_sub_le _ _

theorem len3_smul (c : ℝ) (u : V3 ℝ) : len3 (c • u) = |c| * len3 u := by
  simp only [len3_norm]; rw [WithLp.toLp_smul, norm_smul, Real.norm_eq_abs]

theorem len3_zero : len3 0 = 0 := by simp [len3, sq3]

theorem len3_coord (u : V3 ℝ) (a : Fin 3) : |u a| ≤ len3 u := by
  refine Real.le_sqrt_of_sq_le ?_
  rw [sq_abs, sq3]
  fin_cases a <;> simp only [Fin.zero_eta, Fin.mk_one, Fin.reduceFinMk] <;> nlinarith [sq_nonneg (u 0), sq_nonneg (u 1), sq_nonneg (u 2)]

theorem len3_cross {ax : V3 ℝ} (h : sq3 ax = 1) (w : V3 ℝ) : len3 (crossProduct ax w) ≤ len3 w := by
  refine Real.sqrt_le_sqrt ?_
  have e : sq3 (crossProduct ax w) = sq3 ax * sq3 w - (ax ⬝ᵥ w) ^ 2 := by
    simp only [sq3, cross_apply, dot3, Matrix.cons_val_zero, Matrix.cons_val_one, Matrix.cons_val]
    ring
  rw [e, h, one_mul]
  nlinarith [sq_nonneg (ax ⬝ᵥ w)]

theorem len3_rotate {r : ℍ[ℝ]} (h : Quaternion.normSq r = 1) (w : V3 ℝ) : len3 (rotate r w) = len3 w := by
  unfold len3
  congr 1
  have e : sq3 (rotate r w) = Quaternion.normSq r ^ 2 * sq3 w := by
    rw [Quaternion.normSq_def']
    simp only [sq3, rotate_apply0, rotate_apply1, rotate_apply2]
    ring
  rw [e, h, one_pow, one_mul]

/-! ### Turning vectors -/

/-- A moving vector of length at most `r` that turns at most at the rate `Ω`, with the corresponding bound on its acceleration. -/
def Turning (Ω r : ℝ) (f : ℝ → V3 ℝ) : Prop :=
  ∃ f1 f2 : ℝ → V3 ℝ, (∀ s a, HasDerivAt (fun t => f t a) (f1 s a) s) ∧ (∀ s a, HasDerivAt (fun t => f1 t a) (f2 s a) s) ∧
    ∀ s, len3 (f s) ≤ r ∧ len3 (f1 s) ≤ Ω * r ∧ len3 (f2 s) ≤ Ω ^ 2 * r

theorem turning_const (c : V3 ℝ) : Turning 0 (len3 c) (fun _ => c) :=
  ⟨fun _ => 0, fun _ => 0, fun s a => hasDerivAt_const s _, fun s a => hasDerivAt_const s _, fun s => ⟨le_rfl, by rw [len3_zero]; simp, by rw [len3_zero]; simp⟩⟩

theorem Turning.nonneg {Ω r : ℝ} {f : ℝ → V3 ℝ} (h : Turning Ω r f) : 0 ≤ r := by
  obtain ⟨f1, f2, -, -, h⟩ := h
  exact (len3_nonneg _).trans (h 0).1

theorem Turning.mono {Ω Ω' r r' : ℝ} {f : ℝ → V3 ℝ} (h : Turning Ω r f) (h0 : 0 ≤ Ω) (hΩ : Ω ≤ Ω') (hr : r ≤ r') : Turning Ω' r' f := by
  have hr0 := h.nonneg
  obtain ⟨f1, f2, h1, h2, h⟩ := h
  refine ⟨f1, f2, h1, h2, fun s => ⟨(h s).1.trans hr, (h s).2.1.trans ?_, (h s).2.2.trans ?_⟩⟩
  · exact mul_le_mul hΩ hr hr0 (h0.trans hΩ)
  · exact mul_le_mul (pow_le_pow_left₀ h0 hΩ 2) hr hr0 (sq_nonneg _)

theorem Turning.add {Ω r r' : ℝ} {f g : ℝ → V3 ℝ} (hf : Turning Ω r f) (hg : Turning Ω r' g) : Turning Ω (r + r') (fun s => f s + g s) := by
  obtain ⟨f1, f2, a1, a2, a⟩ := hf
  obtain ⟨g1, g2, b1, b2, b⟩ := hg
  refine ⟨fun s => f1 s + g1 s, fun s => f2 s + g2 s, fun s c => (a1 s c).add (b1 s c), fun s c => (a2 s c).add (b2 s c), fun s => ⟨?_, ?_, ?_⟩⟩
  · exact (len3_add _ _).trans (add_le_add (a s).1 (b s).1)
  · rw [mul_add]; exact (len3_add _ _).trans (add_le_add (a s).2.1 (b s).2.1)
  · rw [mul_add]; exact (len3_add _ _).trans (add_le_add (a s).2.2 (b s).2.2)

theorem Turning.sub {Ω r r' : ℝ} {f g : ℝ → V3 ℝ} (hf : Turning Ω r f) (hg : Turning Ω r' g) : Turning Ω (r + r') (fun s => f s - g s) := by
  obtain ⟨f1, f2, a1, a2, a⟩ := hf
  obtain ⟨g1, g2, b1, b2, b⟩ := hg
  refine ⟨fun s => f1 s - g1 s, fun s => f2 s - g2 s, fun s c => (a1 s c).sub (b1 s c), fun s c => (a2 s c).sub (b2 s c), fun s => ⟨?_, ?_, ?_⟩⟩
  · exact (len3_sub _ _).trans (add_le_add (a s).1 (b s).1)
  · rw [mul_add]; exact (len3_sub _ _).trans (add_le_add (a s).2.1 (b s).2.1)
  · rw [mul_add]; exact (len3_sub _ _).trans (add_le_add (a s).2.2 (b s).2.2)

private theorem rotate_sum (r : ℍ[ℝ]) (w : V3 ℝ) (a : Fin 3) : rotate r w a = quatMat r a 0 * w 0 + quatMat r a 1 * w 1 + quatMat r a 2 * w 2 := by
  rw [← quatMat_mulVec, Matrix.mulVec, dot3]

/-- The derivative of a moving vector seen from a frame that turns about a fixed axis. -/
theorem turned_deriv {ax : V3 ℝ} (hax : sq3 ax = 1) (θ v : ℝ) {w w1 : ℝ → V3 ℝ} (h : ∀ s a, HasDerivAt (fun t => w t a) (w1 s a) s) (s : ℝ) (a : Fin 3) :
    HasDerivAt (fun t => rotate (axisAngleQuat ax (θ + t * v)) (w t) a)
      (rotate (axisAngleQuat ax (θ + s * v)) (v • crossProduct ax (w s) + w1 s) a) s := by
  have hA : ∀ i j, HasDerivAt (fun t => quatMat (axisAngleQuat ax (θ + t * v)) i j)
      ((quatMat (axisAngleQuat ax (θ + s * v)) * skewSymmetric ax) i j * v) s := by
    intro i j
    simp only [axisAngleQuat_eq hax]
    have h1 := ((hasDerivAt_id s).mul_const v).const_add θ
    have := (quatMat_deriv ax (θ + s * v) i j).comp s h1
    rw [one_mul] at this
    exact this
  simp only [rotate_sum]
  have := (((hA a 0).mul (h s 0)).add ((hA a 1).mul (h s 1))).add ((hA a 2).mul (h s 2))
  refine this.congr_deriv ?_
  simp only [Matrix.mul_apply, Fin.sum_univ_three, Pi.add_apply, Pi.smul_apply, smul_eq_mul, cross_apply, skewSymmetric, Matrix.of_apply,
    Matrix.cons_val_zero, Matrix.cons_val_one, Matrix.cons_val]
  ring

theorem axisAngle_unit {ax : V3 ℝ} (hax : sq3 ax = 1) (θ : ℝ) : Quaternion.normSq (axisAngleQuat ax θ) = 1 := by
  rw [axisAngleQuat_eq hax, axisQuat_normSq]

/-- A vector in a frame that turns at rate `v`. -/
theorem Turning.turn {ax : V3 ℝ} (hax : sq3 ax = 1) (θ v : ℝ) {Ω r : ℝ} {f : ℝ → V3 ℝ} (hf : Turning Ω r f) :
    Turning (|v| + Ω) r (fun s => rotate (axisAngleQuat ax (θ + s * v)) (f s)) := by
  have hr := hf.nonneg
  obtain ⟨f1, f2, a1, a2, a⟩ := hf
  have c1 : ∀ s b, HasDerivAt (fun t => (v • crossProduct ax (f t) + f1 t) b) ((v • crossProduct ax (f1 s) + f2 s) b) s := by
    intro s b
    refine HasDerivAt.add (HasDerivAt.const_mul v ?_) (a2 s b)
    fin_cases b
    · show HasDerivAt (fun t => crossProduct ax (f t) 0) (crossProduct ax (f1 s) 0) s
      simp only [cross_apply, Matrix.cons_val_zero]
      exact ((a1 s 2).const_mul _).sub ((a1 s 1).const_mul _)
    · show HasDerivAt (fun t => crossProduct ax (f t) 1) (crossProduct ax (f1 s) 1) s
      simp only [cross_apply, Matrix.cons_val_one, Matrix.cons_val_zero]
      exact ((a1 s 0).const_mul _).sub ((a1 s 2).const_mul _)
    · show HasDerivAt (fun t => crossProduct ax (f t) 2) (crossProduct ax (f1 s) 2) s
      simp only [cross_apply, Matrix.cons_val]
      exact ((a1 s 1).const_mul _).sub ((a1 s 0).const_mul _)
  refine ⟨_, _, turned_deriv hax θ v a1, turned_deriv hax θ v c1, fun s => ?_⟩
  simp only [len3_rotate (axisAngle_unit hax _)]
  obtain ⟨b0, b1, b2⟩ := a s
  have hv : ∀ w c, len3 w ≤ c → len3 (v • crossProduct ax w) ≤ |v| * c := by
    intro w c h
    rw [len3_smul]
    exact mul_le_mul_of_nonneg_left ((len3_cross hax _).trans h) (abs_nonneg v)
  have d1 : len3 (v • crossProduct ax (f s) + f1 s) ≤ (|v| + Ω) * r := by
    refine (len3_add _ _).trans ?_
    rw [add_mul]
    exact add_le_add (hv _ _ b0) b1
  refine ⟨b0, d1, ?_⟩
  have e1 := len3_add (v • crossProduct ax (v • crossProduct ax (f s) + f1 s)) (v • crossProduct ax (f1 s) + f2 s)
  have e2 := len3_add (v • crossProduct ax (f1 s)) (f2 s)
  have e3 := hv _ _ d1
  have e4 := hv _ _ b1
  have : (|v| + Ω) ^ 2 * r = |v| * ((|v| + Ω) * r) + (|v| * (Ω * r) + Ω ^ 2 * r) := by ring
  linarith

theorem rotate_fixed_coord (A : ℍ[ℝ]) {f f1 : ℝ → V3 ℝ} (h : ∀ s a, HasDerivAt (fun t => f t a) (f1 s a) s) (s : ℝ) (a : Fin 3) :
    HasDerivAt (fun t => rotate A (f t) a) (rotate A (f1 s) a) s := by
  simp only [rotate_sum]
  exact (((h s 0).const_mul _).add ((h s 1).const_mul _)).add ((h s 2).const_mul _)

theorem Turning.fixed {A : ℍ[ℝ]} (hA : Quaternion.normSq A = 1) {Ω r : ℝ} {f : ℝ → V3 ℝ} (hf : Turning Ω r f) : Turning Ω r (fun s => rotate A (f s)) := by
  obtain ⟨f1, f2, a1, a2, a⟩ := hf
  refine ⟨_, _, rotate_fixed_coord A a1, rotate_fixed_coord A a2, fun s => ?_⟩
  simp only [len3_rotate hA]
  exact a s

/-- The speed of a turning vector changes at most at the rate `Ω ^ 2 * r`. -/
theorem Turning.speed {Ω r : ℝ} {f : ℝ → V3 ℝ} (hf : Turning Ω r f) (a : Fin 3) :
    ∃ speed : ℝ → ℝ, ∀ t ≥ 0, HasDerivAt (fun s => f s a) (speed t) t ∧ |speed t - speed 0| ≤ Ω ^ 2 * r * t := by
  obtain ⟨f1, f2, a1, a2, b⟩ := hf
  refine ⟨fun t => f1 t a, fun t ht => ⟨a1 t a, ?_⟩⟩
  have := (convex_univ (𝕜 := ℝ) (E := ℝ)).norm_image_sub_le_of_norm_hasDerivWithin_le (f := fun t => f1 t a) (f' := fun t => f2 t a) (C := Ω ^ 2 * r)
    (fun s _ => (a2 s a).hasDerivWithinAt) (fun s _ => (len3_coord _ a).trans (b s).2.2) (Set.mem_univ 0) (Set.mem_univ t)
  simpa [Real.norm_eq_abs, abs_of_nonneg ht] using this

theorem Turning.smul {Ω r : ℝ} {f : ℝ → V3 ℝ} (hf : Turning Ω r f) {c : ℝ} (hc : 0 ≤ c) : Turning Ω (c * r) (fun s => c • f s) := by
  obtain ⟨f1, f2, a1, a2, a⟩ := hf
  refine ⟨fun s => c • f1 s, fun s => c • f2 s, fun s b => (a1 s b).const_mul c, fun s b => (a2 s b).const_mul c, fun s => ?_⟩
  simp only [len3_smul, abs_of_nonneg hc]
  obtain ⟨b0, b1, b2⟩ := a s
  refine ⟨mul_le_mul_of_nonneg_left b0 hc, ?_, ?_⟩
  · rw [show Ω * (c * r) = c * (Ω * r) by ring]; exact mul_le_mul_of_nonneg_left b1 hc
  · rw [show Ω ^ 2 * (c * r) = c * (Ω ^ 2 * r) by ring]; exact mul_le_mul_of_nonneg_left b2 hc

/-! ### Swinging poses -/

/-- A turning vector that moreover drifts at constant speed. -/
def Drifting (Ω r : ℝ) (f : ℝ → V3 ℝ) : Prop := ∃ g, Turning Ω r g ∧ ∃ c0 c1 : V3 ℝ, ∀ s, f s = g s + (c0 + s • c1)

theorem Drifting.mono {Ω Ω' r r' : ℝ} {f : ℝ → V3 ℝ} (h : Drifting Ω r f) (h0 : 0 ≤ Ω) (hΩ : Ω ≤ Ω') (hr : r ≤ r') : Drifting Ω' r' f := by
  obtain ⟨g, h1, h2⟩ := h
  exact ⟨g, h1.mono h0 hΩ hr, h2⟩

theorem Drifting.add {Ω r r' : ℝ} {f k : ℝ → V3 ℝ} (h : Drifting Ω r f) (hk : Turning Ω r' k) : Drifting Ω (r + r') (fun s => f s + k s) := by
  obtain ⟨g, h1, c0, c1, h2⟩ := h
  refine ⟨_, h1.add hk, c0, c1, fun s => ?_⟩
  simp only [h2]
  module

theorem Drifting.sub {Ω r r' : ℝ} {f k : ℝ → V3 ℝ} (h : Drifting Ω r f) (hk : Turning Ω r' k) : Drifting Ω (r + r') (fun s => f s - k s) := by
  obtain ⟨g, h1, c0, c1, h2⟩ := h
  refine ⟨_, h1.sub hk, c0, c1, fun s => ?_⟩
  simp only [h2]
  module

theorem Drifting.addDrift {Ω r r' : ℝ} {f k : ℝ → V3 ℝ} (h : Drifting Ω r f) (hk : Drifting Ω r' k) : Drifting Ω (r + r') (fun s => f s + k s) := by
  obtain ⟨g, h1, c0, c1, h2⟩ := h
  obtain ⟨g', h1', c0', c1', h2'⟩ := hk
  refine ⟨_, h1.add h1', c0 + c0', c1 + c1', fun s => ?_⟩
  simp only [h2, h2']
  module

theorem Drifting.smul {Ω r : ℝ} {f : ℝ → V3 ℝ} (h : Drifting Ω r f) {c : ℝ} (hc : 0 ≤ c) : Drifting Ω (c * r) (fun s => c • f s) := by
  obtain ⟨g, h1, c0, c1, h2⟩ := h
  refine ⟨_, h1.smul hc, c • c0, c • c1, fun s => ?_⟩
  simp only [h2]
  module

theorem drifting_zero {Ω : ℝ} (h0 : 0 ≤ Ω) : Drifting Ω 0 (fun _ => 0) := by
  have := (turning_const 0).mono le_rfl h0 le_rfl
  rw [len3_zero] at this
  exact ⟨_, this, 0, 0, fun s => by simp⟩

theorem drifting_sum {Ω : ℝ} (h0 : 0 ≤ Ω) {F : Nat → ℝ → V3 ℝ} {r : Nat → ℝ} : ∀ n, (∀ i < n, Drifting Ω (r i) (F i)) →
    Drifting Ω (∑ i ∈ range n, r i) (fun s => ∑ i ∈ range n, F i s) := by
  intro n
  induction n with
  | zero => intro _; simp only [range_zero, sum_empty]; exact drifting_zero h0
  | succ n ih =>
    intro h
    simp only [sum_range_succ]
    exact (ih fun i hi => h i (by omega)).addDrift (h n (by omega))

/-- The speed of a coordinate changes at most at the rate `Ω ^ 2 * r`. -/
theorem Drifting.speed {Ω r : ℝ} {f : ℝ → V3 ℝ} (h : Drifting Ω r f) (a : Fin 3) :
    ∃ speed : ℝ → ℝ, ∀ t ≥ 0, HasDerivAt (fun s => f s a) (speed t) t ∧ |speed t - speed 0| ≤ Ω ^ 2 * r * t := by
  obtain ⟨g, h1, c0, c1, h2⟩ := h
  obtain ⟨sp, h3⟩ := h1.speed a
  refine ⟨fun t => sp t + c1 a, fun t ht => ⟨?_, ?_⟩⟩
  · have e : (fun s => f s a) = fun s => g s a + (c0 a + s * c1 a) := funext fun s => by rw [h2]; rfl
    rw [e]
    have := ((hasDerivAt_id t).mul_const (c1 a)).const_add (c0 a)
    rw [one_mul] at this
    exact (h3 t ht).1.add this
  · rw [add_sub_add_right_eq_sub]; exact (h3 t ht).2

/-- A pose that turns at most at the rate `Ω`, at a distance of at most `ρ` from a uniformly moving point. -/
structure Swings (Ω ρ : ℝ) (T : ℝ → SE3 ℝ) : Prop where
  turns : ∀ {Ω' r : ℝ} {f : ℝ → V3 ℝ}, 0 ≤ Ω' → Turning Ω' r f → Turning (Ω + Ω') r (fun s => rotate (T s).rot (f s))
  moves : Drifting Ω ρ (fun s => (T s).trans)

theorem swings_one : Swings 0 0 (fun _ => SE3.one) where
  turns {Ω' r f} _ h := by
    have e : (fun s => rotate (SE3.one : SE3 ℝ).rot (f s)) = f := funext fun s => rotate_one (f s)
    rw [e, zero_add]; exact h
  moves := by
    have := turning_const 0
    rw [len3_zero] at this
    exact ⟨_, this, 0, 0, fun s => by simp [SE3.one]⟩

theorem Swings.point {Ω ρ : ℝ} {T : ℝ → SE3 ℝ} (h : Swings Ω ρ T) (p : V3 ℝ) : Drifting Ω (ρ + len3 p) (fun s => (T s).apply p) := by
  have h1 := h.turns le_rfl (turning_const p)
  rw [add_zero] at h1
  have e : (fun s => (T s).apply p) = fun s => (T s).trans + rotate (T s).rot p := funext fun s => add_comm _ _
  rw [e]
  exact h.moves.add h1

theorem Swings.mul {Ω ρ : ℝ} {T : ℝ → SE3 ℝ} (h : Swings Ω ρ T) {A : SE3 ℝ} (hA : Quaternion.normSq A.rot = 1) :
    Swings Ω (ρ + len3 A.trans) (fun s => (T s).mul A) where
  turns {Ω' r f} h0 hf := by
    have := h.turns h0 (hf.fixed hA)
    have e : (fun s => rotate ((T s).mul A).rot (f s)) = fun s => rotate (T s).rot (rotate A.rot (f s)) := funext fun s => rotate_mul _ _ _
    rw [e]; exact this
  moves := h.point A.trans

theorem Swings.hinge {Ω ρ : ℝ} {T : ℝ → SE3 ℝ} (h : Swings Ω ρ T) (h0 : 0 ≤ Ω) {ax : V3 ℝ} (hax : sq3 ax = 1) (θ v : ℝ) (jp : V3 ℝ) :
    Swings (Ω + |v|) (ρ + 2 * len3 jp) (fun s => ⟨(T s).rot * axisAngleQuat ax (θ + s * v),
      (T s).apply jp - rotate ((T s).rot * axisAngleQuat ax (θ + s * v)) jp⟩) := by
  have key : ∀ {Ω' r : ℝ} {f : ℝ → V3 ℝ}, 0 ≤ Ω' → Turning Ω' r f →
      Turning (Ω + |v| + Ω') r (fun s => rotate ((T s).rot * axisAngleQuat ax (θ + s * v)) (f s)) := by
    intro Ω' r f h' hf
    have := h.turns (add_nonneg (abs_nonneg v) h') (hf.turn hax θ v)
    rw [← add_assoc] at this
    simp only [rotate_mul]
    exact this
  refine ⟨key, ?_⟩
  have h1 := (h.point jp).mono h0 (le_add_of_nonneg_right (abs_nonneg v)) le_rfl
  have h2 := key le_rfl (turning_const jp)
  rw [add_zero] at h2
  have := h1.sub h2
  rw [show ρ + len3 jp + len3 jp = ρ + 2 * len3 jp by ring] at this
  exact this

theorem Swings.slide {Ω ρ : ℝ} {T : ℝ → SE3 ℝ} (h : Swings Ω ρ T) {A : ℍ[ℝ]} (hA : ∀ s, (T s).rot = A) (ax : V3 ℝ) (θ v : ℝ) :
    Swings Ω ρ (fun s => ⟨(T s).rot, (T s).trans + (θ + s * v) • rotate (T s).rot ax⟩) where
  turns h0 hf := h.turns h0 hf
  moves := by
    obtain ⟨g, h1, c0, c1, h2⟩ := h.moves
    refine ⟨g, h1, c0 + θ • rotate A ax, c1 + v • rotate A ax, fun s => ?_⟩
    show (T s).trans + (θ + s * v) • rotate (T s).rot ax = _
    have h3 : (T s).trans = _ := h2 s
    rw [hA, h3]
    module

theorem Swings.mono {Ω Ω' ρ ρ' : ℝ} {T : ℝ → SE3 ℝ} (h : Swings Ω ρ T) (h0 : 0 ≤ Ω) (hΩ : Ω ≤ Ω') (hρ : ρ ≤ ρ') : Swings Ω' ρ' T where
  turns h1 hf := (h.turns h1 hf).mono (add_nonneg h0 h1) (add_le_add_left hΩ _) le_rfl
  moves := h.moves.mono h0 hΩ hρ

/-! ### Bodies of robots with hinges and slides -/

section
variable {G : Geometry} {m : MjModel ℝ}

/-- The sum over the joints of the bodies up to `b`. -/
noncomputable def upTo (G : Geometry) (m : MjModel ℝ) (F : Nat → ℝ) (b : Nat) : ℝ :=
  ∑ j ∈ range m.jntType.length with G.jntBodyid.getD j 0 ≤ b, F j

/-- The sum over the joints of body `b` before joint `n`. -/
noncomputable def ofBody (G : Geometry) (F : Nat → ℝ) (b n : Nat) : ℝ := ∑ j ∈ range n with G.jntBodyid.getD j 0 = b, F j

theorem ofBody_succ (F : Nat → ℝ) (b n : Nat) : ofBody G F b (n + 1) = ofBody G F b n + if G.jntBodyid.getD n 0 = b then F n else 0 := by
  unfold ofBody
  rw [range_add_one, filter_insert]
  split
  · rw [sum_insert (by simp), add_comm]
  · rw [add_zero]

theorem upTo_nonneg {F : Nat → ℝ} (hF : ∀ j, 0 ≤ F j) (b : Nat) : 0 ≤ upTo G m F b := sum_nonneg fun j _ => hF j

theorem ofBody_nonneg {F : Nat → ℝ} (hF : ∀ j, 0 ≤ F j) (b n : Nat) : 0 ≤ ofBody G F b n := sum_nonneg fun j _ => hF j

theorem upTo_step {F : Nat → ℝ} (hF : ∀ j, 0 ≤ F j) {p b : Nat} (h : p < b) :
    upTo G m F p + ofBody G F b m.jntType.length ≤ upTo G m F b := by
  unfold upTo ofBody
  rw [← sum_union (by
    rw [disjoint_left]
    intro j h1 h2
    have := (mem_filter.1 h1).2
    have := (mem_filter.1 h2).2
    omega)]
  refine sum_le_sum_of_subset_of_nonneg ?_ fun j _ _ => hF j
  intro j hj
  rcases mem_union.1 hj with h1 | h1
  · obtain ⟨a, b⟩ := mem_filter.1 h1
    exact mem_filter.2 ⟨a, by omega⟩
  · obtain ⟨a, b⟩ := mem_filter.1 h1
    exact mem_filter.2 ⟨a, by omega⟩

theorem upTo_le {F : Nat → ℝ} (hF : ∀ j, 0 ≤ F j) (b : Nat) : upTo G m F b ≤ ∑ j ∈ range m.jntType.length, F j :=
  sum_le_sum_of_subset_of_nonneg (filter_subset _ _) fun j _ _ => hF j

/-- Bodies without a hinge above do not turn. -/
theorem rot_const (hw : RobotWF G m) (hsc : ∀ j < m.jntType.length, m.jntType.getD j .hinge = .hinge ∨ m.jntType.getD j .hinge = .slide)
    (Q Q' : Nat → ℝ) : ∀ b < m.nbody, (∀ i < m.jntType.length, m.jntType.getD i .hinge = .hinge → ¬ Anc m.bodyParentid (G.jntBodyid.getD i 0) b) →
      (bodyPose G m Q b).rot = (bodyPose G m Q' b).rot := by
  intro b
  induction b using Nat.strong_induction_on with
  | _ b ih =>
    intro hb hno
    by_cases h0 : b = 0
    · subst h0
      rw [bodyPose_zero, bodyPose_zero]
    · have hpar := hw.tree.parent b (by omega) hb
      rw [bodyPose_stage hw.tree _ (Nat.pos_of_ne_zero h0) hb, bodyPose_stage hw.tree _ (Nat.pos_of_ne_zero h0) hb]
      have key : ∀ n ≤ m.jntType.length, (stage G m Q b n).rot = (stage G m Q' b n).rot := by
        intro n
        induction n with
        | zero =>
          intro _
          rw [stage_zero, stage_zero]
          show _ * _ = _ * _
          rw [ih _ hpar (by omega) fun i hi ht ha => hno i hi ht ((anc_step h0).2 (.inr ha))]
        | succ n ihn =>
          intro hn
          rw [stage_succ, stage_succ]
          split
          · rename_i hbn
            have ht : m.jntType.getD n .hinge = .slide := (hsc n (by omega)).resolve_left fun ht =>
              hno n (by omega) ht ((anc_step h0).2 (.inl hbn))
            unfold jointMove
            rw [ht]
            exact ihn (by omega)
          · exact ihn (by omega)
      exact key _ le_rfl

/-- The same before joint `n` of the body. -/
theorem stage_const (hw : RobotWF G m) (hsc : ∀ j < m.jntType.length, m.jntType.getD j .hinge = .hinge ∨ m.jntType.getD j .hinge = .slide)
    (Q Q' : Nat → ℝ) {b : Nat} (h0 : 0 < b) (hb : b < m.nbody)
    (h1 : ∀ i < m.jntType.length, m.jntType.getD i .hinge = .hinge → ¬ Anc m.bodyParentid (G.jntBodyid.getD i 0) (m.bodyParentid.getD b 0)) :
    ∀ n ≤ m.jntType.length, (∀ i < n, m.jntType.getD i .hinge = .hinge → G.jntBodyid.getD i 0 ≠ b) →
      (stage G m Q b n).rot = (stage G m Q' b n).rot := by
  have hpar := hw.tree.parent b h0 hb
  intro n
  induction n with
  | zero =>
    intro _ _
    rw [stage_zero, stage_zero]
    show _ * _ = _ * _
    rw [rot_const hw hsc Q Q' _ (by omega) h1]
  | succ n ihn =>
    intro hn h2
    have ih := ihn (by omega) fun i hi => h2 i (by omega)
    rw [stage_succ, stage_succ]
    split
    · rename_i hbn
      have ht : m.jntType.getD n .hinge = .slide := (hsc n (by omega)).resolve_left fun ht => h2 n (by omega) ht hbn
      unfold jointMove
      rw [ht]
      exact ih
    · exact ih

/-- How fast joint `j` turns its body. -/
noncomputable def turnRate (m : MjModel ℝ) (v : Nat → ℝ) (j : Nat) : ℝ := if m.jntType.getD j .hinge = .hinge then |v (dofOf m j)| else 0

theorem turnRate_nonneg (m : MjModel ℝ) (v : Nat → ℝ) (j : Nat) : 0 ≤ turnRate m v j := by
  unfold turnRate; split
  · exact abs_nonneg _
  · exact le_rfl

/-- The poses of the bodies while the robot moves with constant joint velocity. -/
theorem body_swings (hw : RobotWF G m) (hsc : ∀ j < m.jntType.length, m.jntType.getD j .hinge = .hinge ∨ m.jntType.getD j .hinge = .slide)
    (hfix : ∀ j < m.jntType.length, m.jntType.getD j .hinge = .slide → ∀ i < m.jntType.length, m.jntType.getD i .hinge = .hinge →
      ¬ Anc m.bodyParentid (G.jntBodyid.getD i 0) (m.bodyParentid.getD (G.jntBodyid.getD j 0) 0) ∧ ¬ (G.jntBodyid.getD i 0 = G.jntBodyid.getD j 0 ∧ i < j))
    {q v : Nat → ℝ} {Q : ℝ → Nat → ℝ}
    (hm : Moves m q v Q) : ∀ b < m.nbody, Swings (upTo G m (turnRate m v) b)
      (∑ i ∈ range (b + 1), len3 (G.bodyPos.getD i 0) + upTo G m (fun j => 2 * len3 (G.jntPos.getD j 0)) b) (fun s => bodyPose G m (Q s) b) := by
  have hv : ∀ j, 0 ≤ turnRate m v j := turnRate_nonneg m v
  have hp : ∀ j, 0 ≤ 2 * len3 (G.jntPos.getD j 0) := fun j => mul_nonneg zero_le_two (len3_nonneg _)
  intro b
  induction b using Nat.strong_induction_on with
  | _ b ih =>
    intro hb
    by_cases h0 : b = 0
    · subst h0
      simp only [bodyPose_zero]
      exact swings_one.mono le_rfl (upTo_nonneg hv _) (add_nonneg (sum_nonneg fun i _ => len3_nonneg _) (upTo_nonneg hp _))
    · have hpar := hw.tree.parent b (by omega) hb
      have hP := ih _ hpar (by omega)
      have key : ∀ n ≤ m.jntType.length, Swings (upTo G m (turnRate m v) (m.bodyParentid.getD b 0) + ofBody G (turnRate m v) b n)
          (∑ i ∈ range (m.bodyParentid.getD b 0 + 1), len3 (G.bodyPos.getD i 0) + upTo G m (fun j => 2 * len3 (G.jntPos.getD j 0)) (m.bodyParentid.getD b 0) +
            len3 (G.bodyPos.getD b 0) + ofBody G (fun j => 2 * len3 (G.jntPos.getD j 0)) b n) (fun s => stage G m (Q s) b n) := by
        intro n
        induction n with
        | zero =>
          intro _
          simp only [stage_zero, ofBody, range_zero, filter_empty, sum_empty, add_zero]
          exact hP.mul (A := ⟨_, _⟩) (hw.quat b)
        | succ n ihn =>
          intro hn
          have h := ihn (by omega)
          simp only [stage_succ, ofBody_succ]
          split
          · rename_i hbn
            rcases hsc n (by omega) with ht | ht
            · have hax := hw.axis n (by omega) ht
              have e : (fun s => jointMove G m (Q s) (stage G m (Q s) b n) n) = fun s =>
                  ⟨(stage G m (Q s) b n).rot * axisAngleQuat (G.jntAxis.getD n 0) ((q (qposOf m n) - G.qpos0 (qposOf m n)) + s * v (dofOf m n)),
                    (stage G m (Q s) b n).apply (G.jntPos.getD n 0) -
                      rotate ((stage G m (Q s) b n).rot * axisAngleQuat (G.jntAxis.getD n 0) ((q (qposOf m n) - G.qpos0 (qposOf m n)) + s * v (dofOf m n)))
                        (G.jntPos.getD n 0)⟩ := by
                funext s
                have ea : Q s (m.jntQposadr.getD n 0) - G.qpos0 (m.jntQposadr.getD n 0) =
                    (q (qposOf m n) - G.qpos0 (qposOf m n)) + s * v (dofOf m n) := by
                  have := hm.hinge n (by omega) ht s
                  unfold qposOf at *
                  rw [this]; ring
                unfold jointMove
                rw [ht]
                simp only [ea]
              rw [e, ← add_assoc, ← add_assoc, turnRate, if_pos ht]
              exact h.hinge (add_nonneg (upTo_nonneg hv _) (ofBody_nonneg hv _ _)) hax _ _ _
            · have e : (fun s => jointMove G m (Q s) (stage G m (Q s) b n) n) = fun s =>
                  ⟨(stage G m (Q s) b n).rot, (stage G m (Q s) b n).trans +
                    ((q (qposOf m n) - G.qpos0 (qposOf m n)) + s * v (dofOf m n)) • rotate (stage G m (Q s) b n).rot (G.jntAxis.getD n 0)⟩ := by
                funext s
                have ea : Q s (m.jntQposadr.getD n 0) - G.qpos0 (m.jntQposadr.getD n 0) =
                    (q (qposOf m n) - G.qpos0 (qposOf m n)) + s * v (dofOf m n) := by
                  have := hm.slide n (by omega) ht s
                  unfold qposOf at *
                  rw [this]; ring
                unfold jointMove
                rw [ht]
                simp only [ea]
              rw [e, ← add_assoc, ← add_assoc]
              have hc : ∀ s, (stage G m (Q s) b n).rot = (stage G m (Q 0) b n).rot := fun s =>
                stage_const hw hsc _ _ (Nat.pos_of_ne_zero h0) hb (fun i hi hti => by rw [← hbn]; exact (hfix n (by omega) ht i hi hti).1) n (by omega)
                  fun i hi hti hbi => (hfix n (by omega) ht i (by omega) hti).2 ⟨hbi.trans hbn.symm, hi⟩
              exact (h.slide hc _ _ _).mono (add_nonneg (upTo_nonneg hv _) (ofBody_nonneg hv _ _)) (le_add_of_nonneg_right (hv n)) (le_add_of_nonneg_right (hp n))
          · rw [add_zero, add_zero]; exact h
      have hfin := key _ le_rfl
      simp only [← bodyPose_stage hw.tree _ (Nat.pos_of_ne_zero h0) hb] at hfin
      refine hfin.mono (add_nonneg (upTo_nonneg hv _) (ofBody_nonneg hv _ _)) (upTo_step hv hpar) ?_
      have h1 := upTo_step (G := G) (m := m) hp hpar
      have h2 : ∑ i ∈ range (m.bodyParentid.getD b 0 + 1), len3 (G.bodyPos.getD i 0) + len3 (G.bodyPos.getD b 0) ≤ ∑ i ∈ range (b + 1), len3 (G.bodyPos.getD i 0) := by
        rw [sum_range_succ _ b]
        refine add_le_add (sum_le_sum_of_subset_of_nonneg ?_ fun i _ _ => len3_nonneg _) le_rfl
        exact range_subset_range.2 hpar
      linarith

end
end Mjinx
