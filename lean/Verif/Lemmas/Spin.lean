import Verif.Lemmas.QuatRate
import Verif.Lemmas.Turning

/-!
# Unit quaternions that turn at bounded rates
-/

namespace Mjinx
open Real Props Spec Finset
open scoped Quaternion Matrix

/-- The quaternion `f` has norm at most 1, its derivative norm at most `Ω` and its second derivative at most `Ω ^ 2`. -/
def Spins (Ω : ℝ) (f : ℝ → ℍ[ℝ]) : Prop :=
  ∃ f1 f2 : ℝ → ℍ[ℝ], (∀ s, HasDerivAt f (f1 s) s) ∧ (∀ s, HasDerivAt f1 (f2 s) s) ∧ ∀ s, ‖f s‖ ≤ 1 ∧ ‖f1 s‖ ≤ Ω ∧ ‖f2 s‖ ≤ Ω ^ 2

theorem norm_of_unit {q : ℍ[ℝ]} (h : Quaternion.normSq q = 1) : ‖q‖ = 1 := by
  rw [Quaternion.normSq_eq_norm_mul_self] at h
  nlinarith [norm_nonneg q]

theorem norm_quat_sq (q : ℍ[ℝ]) : ‖q‖ ^ 2 = q.re ^ 2 + q.imI ^ 2 + q.imJ ^ 2 + q.imK ^ 2 := by
  rw [sq, ← Quaternion.normSq_eq_norm_mul_self, Quaternion.normSq_def']

theorem spins_const {c : ℍ[ℝ]} (h : Quaternion.normSq c = 1) : Spins 0 (fun _ => c) :=
  ⟨fun _ => 0, fun _ => 0, fun _ => hasDerivAt_const _ _, fun _ => hasDerivAt_const _ _, fun _ => by simp [norm_of_unit h]⟩

theorem Spins.nonneg {Ω : ℝ} {f : ℝ → ℍ[ℝ]} (h : Spins Ω f) : 0 ≤ Ω := by
  obtain ⟨f1, f2, -, -, h3⟩ := h
  exact (norm_nonneg _).trans (h3 0).2.1

theorem Spins.mono {Ω Ω' : ℝ} {f : ℝ → ℍ[ℝ]} (h : Spins Ω f) (hΩ : Ω ≤ Ω') : Spins Ω' f := by
  have h0 := h.nonneg
  obtain ⟨f1, f2, h1, h2, h3⟩ := h
  exact ⟨f1, f2, h1, h2, fun s => ⟨(h3 s).1, (h3 s).2.1.trans hΩ, (h3 s).2.2.trans (pow_le_pow_left₀ h0 hΩ 2)⟩⟩

theorem Spins.mul {Ω Ω' : ℝ} {f g : ℝ → ℍ[ℝ]} (hf : Spins Ω f) (hg : Spins Ω' g) : Spins (Ω + Ω') (fun s => f s * g s) := by
  have o1 := hf.nonneg
  have o2 := hg.nonneg
  obtain ⟨f1, f2, a1, a2, a3⟩ := hf
  obtain ⟨g1, g2, b1, b2, b3⟩ := hg
  refine ⟨fun s => f1 s * g s + f s * g1 s, fun s => (f2 s * g s + f1 s * g1 s) + (f1 s * g1 s + f s * g2 s), fun s => (a1 s).mul (b1 s),
    fun s => ((a2 s).mul (b1 s)).add ((a1 s).mul (b2 s)), fun s => ?_⟩
  obtain ⟨p0, p1, p2⟩ := a3 s
  obtain ⟨q0, q1, q2⟩ := b3 s
  have m : ∀ {x y : ℍ[ℝ]} {c d : ℝ}, ‖x‖ ≤ c → ‖y‖ ≤ d → ‖x * y‖ ≤ c * d := fun {x y c d} hx hy => by
    rw [norm_mul]
    exact mul_le_mul hx hy (norm_nonneg _) ((norm_nonneg _).trans hx)
  refine ⟨by simpa using m p0 q0, ?_, ?_⟩
  · refine (norm_add_le _ _).trans ((add_le_add (m p1 q0) (m p0 q1)).trans ?_)
    linarith
  · refine (norm_add_le _ _).trans ((add_le_add ((norm_add_le _ _).trans (add_le_add (m p2 q0) (m p1 q1))) ((norm_add_le _ _).trans (add_le_add (m p1 q1) (m p0 q2)))).trans ?_)
    nlinarith

theorem Spins.star {Ω : ℝ} {f : ℝ → ℍ[ℝ]} (h : Spins Ω f) : Spins Ω (fun s => star (f s)) := by
  obtain ⟨f1, f2, h1, h2, h3⟩ := h
  exact ⟨fun s => Star.star (f1 s), fun s => Star.star (f2 s), fun s => hasDerivAt_star (h1 s), fun s => hasDerivAt_star (h2 s), fun s => by
    simp only [Quaternion.norm_star]; exact h3 s⟩

/-- A hinge that turns with constant speed. -/
theorem spins_axis {ax : V3 ℝ} (h : sq3 ax = 1) (θ v : ℝ) : Spins (|v| / 2) (fun s => axisAngleQuat ax (θ + s * v)) := by
  have hs : ax 0 ^ 2 + ax 1 ^ 2 + ax 2 ^ 2 = 1 := by rw [← h, sq3]; try ring
  have hl : ∀ s : ℝ, HasDerivAt (fun s : ℝ => (θ + s * v) / 2) (v / 2) s := fun s => by
    simpa using (((hasDerivAt_id s).mul_const v).const_add θ).div_const 2
  have hsin : ∀ s : ℝ, HasDerivAt (fun s : ℝ => sin ((θ + s * v) / 2)) (v / 2 * cos ((θ + s * v) / 2)) s := fun s => by
    have := (hl s).sin; rwa [mul_comm] at this
  have hcos : ∀ s : ℝ, HasDerivAt (fun s : ℝ => cos ((θ + s * v) / 2)) (- (v / 2 * sin ((θ + s * v) / 2))) s := fun s => by
    have := (hl s).cos
    refine this.congr_deriv ?_
    ring
  let Q : ℝ → ℝ → ℍ[ℝ] := fun c d => ⟨c, d * ax 0, d * ax 1, d * ax 2⟩
  have hn : ∀ c d : ℝ, ‖Q c d‖ ^ 2 = c ^ 2 + d ^ 2 := by
    intro c d
    rw [norm_quat_sq]
    show c ^ 2 + (d * ax 0) ^ 2 + (d * ax 1) ^ 2 + (d * ax 2) ^ 2 = _
    linear_combination d ^ 2 * hs
  have hQ : ∀ {c d : ℝ → ℝ} {c' d' s : ℝ}, HasDerivAt c c' s → HasDerivAt d d' s → HasDerivAt (fun s => Q (c s) (d s)) (Q c' d') s := by
    intro c d c' d' s hc hd
    exact hasDerivAt_quat.2 ⟨hc, hd.mul_const _, hd.mul_const _, hd.mul_const _⟩
  refine ⟨fun s => Q (- (v / 2 * sin ((θ + s * v) / 2))) (v / 2 * cos ((θ + s * v) / 2)),
    fun s => Q (- (v / 2 * (v / 2 * cos ((θ + s * v) / 2)))) (v / 2 * (- (v / 2 * sin ((θ + s * v) / 2)))),
    fun s => hQ (hcos s) (hsin s), fun s => hQ ((hsin s).const_mul _).neg ((hcos s).const_mul _), fun s => ?_⟩
  have hcs := sin_sq_add_cos_sq ((θ + s * v) / 2)
  have key : ∀ {x : ℍ[ℝ]} {b : ℝ}, 0 ≤ b → ‖x‖ ^ 2 = b ^ 2 → ‖x‖ ≤ b := fun {x b} hb hx => (pow_le_pow_iff_left₀ (norm_nonneg _) hb two_ne_zero).1 hx.le
  have habs : (|v| / 2) ^ 2 = (v / 2) ^ 2 := by rw [div_pow, sq_abs, div_pow]
  refine ⟨key zero_le_one ?_, key (by positivity) ?_, key (by positivity) ?_⟩
  · refine (hn (cos ((θ + s * v) / 2)) (sin ((θ + s * v) / 2))).trans ?_
    linarith
  · rw [hn, habs]
    linear_combination (v / 2) ^ 2 * hcs
  · rw [hn, habs]
    linear_combination (v / 2) ^ 4 * hcs

theorem imVec_le (q : ℍ[ℝ]) (a : Fin 3) : |imVec q a| ≤ ‖q‖ := by
  refine abs_le_of_sq_le_sq ?_ (norm_nonneg _)
  rw [norm_quat_sq]
  fin_cases a
  · show q.imI ^ 2 ≤ _; nlinarith [sq_nonneg q.re, sq_nonneg q.imI, sq_nonneg q.imJ, sq_nonneg q.imK]
  · show q.imJ ^ 2 ≤ _; nlinarith [sq_nonneg q.re, sq_nonneg q.imI, sq_nonneg q.imJ, sq_nonneg q.imK]
  · show q.imK ^ 2 ≤ _; nlinarith [sq_nonneg q.re, sq_nonneg q.imI, sq_nonneg q.imJ, sq_nonneg q.imK]

section
variable {G : Geometry} {m : MjModel ℝ}

/-- The rotations of the bodies while the robot moves with constant joint velocity. -/
theorem body_spins (hw : RobotWF G m) (hsc : ∀ j < m.jntType.length, m.jntType.getD j .hinge = .hinge ∨ m.jntType.getD j .hinge = .slide)
    {q v : Nat → ℝ} {Q : ℝ → Nat → ℝ} (hm : Moves m q v Q) : ∀ b < m.nbody, Spins (upTo G m (fun j => turnRate m v j / 2) b) (fun s => (bodyPose G m (Q s) b).rot) := by
  have hv : ∀ j, 0 ≤ turnRate m v j / 2 := fun j => div_nonneg (turnRate_nonneg m v j) zero_le_two
  intro b
  induction b using Nat.strong_induction_on with
  | _ b ih =>
    intro hb
    by_cases h0 : b = 0
    · subst h0
      simp only [bodyPose_zero]
      exact (spins_const (c := 1) (by simp)).mono (upTo_nonneg hv _)
    · have hpar := hw.tree.parent b (by omega) hb
      have hP := ih _ hpar (by omega)
      have key : ∀ n ≤ m.jntType.length, Spins (upTo G m (fun j => turnRate m v j / 2) (m.bodyParentid.getD b 0) + ofBody G (fun j => turnRate m v j / 2) b n)
          (fun s => (stage G m (Q s) b n).rot) := by
        intro n
        induction n with
        | zero =>
          intro _
          simp only [stage_zero, ofBody, range_zero, filter_empty, sum_empty]
          exact hP.mul (spins_const (hw.quat b))
        | succ n ihn =>
          intro hn
          have h := ihn (by omega)
          simp only [stage_succ, ofBody_succ]
          split
          · rcases hsc n (by omega) with ht | ht
            · have e : (fun s => (jointMove G m (Q s) (stage G m (Q s) b n) n).rot) = fun s =>
                  (stage G m (Q s) b n).rot * axisAngleQuat (G.jntAxis.getD n 0) ((q (qposOf m n) - G.qpos0 (qposOf m n)) + s * v (dofOf m n)) := by
                funext s
                have ea : Q s (m.jntQposadr.getD n 0) - G.qpos0 (m.jntQposadr.getD n 0) =
                    (q (qposOf m n) - G.qpos0 (qposOf m n)) + s * v (dofOf m n) := by
                  have := hm.hinge n (by omega) ht s
                  unfold qposOf at *
                  rw [this]; ring
                unfold jointMove
                rw [ht]
                simp only [ea]
              rw [e, ← add_assoc]
              have := h.mul (spins_axis (hw.axis n (by omega) ht) (q (qposOf m n) - G.qpos0 (qposOf m n)) (v (dofOf m n)))
              unfold turnRate
              rw [if_pos ht]
              exact this
            · have e : (fun s => (jointMove G m (Q s) (stage G m (Q s) b n) n).rot) = fun s => (stage G m (Q s) b n).rot := by
                funext s
                unfold jointMove
                rw [ht]
              rw [e, ← add_assoc]
              exact h.mono (le_add_of_nonneg_right (hv n))
          · rw [add_zero]; exact h
      have hfin := key _ le_rfl
      simp only [← bodyPose_stage hw.tree _ (Nat.pos_of_ne_zero h0) hb] at hfin
      exact hfin.mono (upTo_step hv hpar)

end
end Mjinx
