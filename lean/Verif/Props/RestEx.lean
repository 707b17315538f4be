import Verif.Props.Rest
import Verif.Spec.Tempo
import Verif.Props.EnergyEx

/-!
# C124 on the rail of C108
-/

namespace Mjinx.Props
open Spec Finset

namespace Parked
open Railcar

/-- What the posture task and the task for the slider see: `2 x₀ v₀ + x₁ v₁` is the slope. -/
theorem terms {x : Fin 2 → ℝ} {P : Prob ℝ} (hP : (run World.init (setup 0)).probs[0]? = some P) {ts : List (Term ℝ)}
    (hts : TermsOf (run World.init (setup 0)) P (prob 0) Beads.env (update Beads.env Beads.model (vecOf x)) ts) :
    P.vMin = Arr.onesMul 2 (Arr.scalar (-2)) ∧ P.vMax = Arr.onesMul 2 (Arr.scalar 2) ∧ (∀ t ∈ ts, t.Braking) ∧ (∀ t ∈ ts, ∀ v, t.Allows v) ∧
      (Watched 2 ts ∧ (∀ t ∈ ts, t.Undamped) ∧ (x = 0 → ∀ t ∈ ts, t.Settled)) ∧ ∀ v : Nat → ℝ, totalSlope ts v = 2 * (v 0 * x 0) + v 1 * x 1 := by
  rw [run_setup le_rfl] at hP hts
  cases hP
  cases hts with
  | @cons _ t1 _ ts h1 hts =>
  cases hts with
  | @cons _ t2 _ ts h2 hts =>
  cases hts
  obtain ⟨c1, a1, a2, j1, a3, a4, a5⟩ := h1
  obtain ⟨c2, b1, b2, j2, b3, b4, b5⟩ := h2
  cases a1; cases b1
  have ne : ("posture" : String) ≠ "home" := by decide
  have ej1 : j1 = first' 0 := by
    rcases List.mem_cons.1 a3 with e | e
    · exact (Prod.mk.inj e).2
    · exact absurd (Prod.mk.inj (List.mem_singleton.1 e)).1 ne
  have ej2 : j2 = second' 0 := by
    rcases List.mem_cons.1 b3 with e | e
    · exact absurd (Prod.mk.inj e).1 ne.symm
    · exact (Prod.mk.inj (List.mem_singleton.1 e)).2
  subst ej1 ej2
  obtain ⟨V1, e1, e2, e3⟩ := first_value 0 x
  obtain ⟨J1, f1, f2, f3, f4⟩ := first_jacobian 0 (update Beads.env Beads.model (vecOf x))
  obtain ⟨V2, g1, g2, g3⟩ := second_value 0 (vecOf x)
  obtain ⟨J2, k1, k2, k3, k4⟩ := second_jacobian 0 x
  obtain ⟨A1, J1', V1'⟩ := t1
  obtain ⟨A2, J2', V2'⟩ := t2
  dsimp only at a2 b2
  subst a2 b2
  obtain rfl : V1' = V1 := Except.ok.inj (a5.symm.trans e1)
  obtain rfl : J1' = J1 := Except.ok.inj (a4.symm.trans f1)
  obtain rfl : V2' = V2 := Except.ok.inj (b5.symm.trans g1)
  obtain rfl : J2' = J2 := Except.ok.inj (b4.symm.trans k1)
  have x0 : (vecOf x).get 0 = x 0 := rfl
  have x1 : (vecOf x).get 1 = x 1 := rfl
  have zero : ∀ (A : Mat ℝ) (i : Nat), rowDot A i (fun _ => (0 : ℝ)) = 0 := by intro A i; simp [rowDot]
  -- both tasks have the cost 1 and the gain 1
  have hw : ∀ r k, weightAt (Arr.scalar (1 : ℝ)) r k = if r = k then 1 else 0 := fun _ _ => rfl
  have w1 : ∀ v : Nat → ℝ, ∀ r < 2, Term.weighted ⟨(run (start 0) rest).comps[0].attrs, J1', V1'⟩ (Arr.scalar 1) v r = v r := by
    intro v r hr
    unfold Term.weighted
    dsimp only
    rw [f2, sum_range_succ, sum_range_one, hw, hw, f4 v 0 (by norm_num), f4 v 1 (by norm_num)]
    interval_cases r <;> simp
  have m1 : ∀ r < 2, Term.misfit ⟨(run (start 0) rest).comps[0].attrs, J1', V1'⟩ (Arr.scalar 1) (fun _ => 0) r = (vecOf x).get r := by
    intro r hr
    unfold Term.misfit Term.rate
    dsimp only
    rw [f2, sum_range_succ, sum_range_one, hw, hw, zero, zero, e3 0 (by norm_num), e3 1 (by norm_num)]
    show _ * (0 + 1 * (vecOf x).get 0) + _ * (0 + 1 * (vecOf x).get 1) = _
    interval_cases r <;> simp
  have w2 : ∀ v : Nat → ℝ, Term.weighted ⟨(run (start 0) rest).comps[1].attrs, J2', V2'⟩ (Arr.scalar 1) v 0 = v 0 := by
    intro v
    unfold Term.weighted
    dsimp only
    rw [k2, sum_range_one, hw, k4 ⟨2, v⟩]
    simp
  have m2 : Term.misfit ⟨(run (start 0) rest).comps[1].attrs, J2', V2'⟩ (Arr.scalar 1) (fun _ => 0) 0 = (vecOf x).get 0 := by
    unfold Term.misfit Term.rate
    dsimp only
    rw [k2, sum_range_one, hw, zero, g3]
    show _ * (0 + 1 * (vecOf x).get 0) = _
    simp
  refine ⟨rfl, rfl, ?_, ?_, ⟨fun u hu => ?_, fun t ht => ?_, fun hx t ht => ?_⟩, fun v => ?_⟩
  · intro t ht
    fin_cases ht <;> exact le_refl (0 : ℝ)
  · intro t ht v
    fin_cases ht <;> trivial
  · intro i hi
    rw [← w1 u i hi]
    exact hu _ (List.mem_cons_self ..) i (by show i < J1'.rows; omega)
  · fin_cases ht <;> exact rfl
  · have z : ∀ r < 2, (vecOf x).get r = 0 := by
      intro r hr
      subst hx
      interval_cases r <;> rfl
    fin_cases ht
    · intro r hr
      have hr2 : r < 2 := f2 ▸ hr
      show 1 * V1'.get r = 0
      rw [e3 r hr2, z r hr2, mul_zero]
    · intro r hr
      obtain rfl : r = 0 := by have : r < 1 := k2 ▸ hr; omega
      show 1 * V2'.get 0 = 0
      rw [g3, z 0 (by norm_num), mul_zero]
  · unfold totalSlope
    simp only [List.map_cons, List.map_nil, List.sum_cons, List.sum_nil, add_zero]
    have s1 : Term.slope v ⟨(run (start 0) rest).comps[0].attrs, J1', V1'⟩ = v 0 * x 0 + v 1 * x 1 := by
      show ∑ r ∈ range J1'.rows, Term.weighted _ (Arr.scalar 1) v r * Term.misfit _ (Arr.scalar 1) (fun _ => 0) r = _
      rw [f2, sum_range_succ, sum_range_one, w1 v 0 (by norm_num), w1 v 1 (by norm_num), m1 0 (by norm_num), m1 1 (by norm_num), x0, x1]
    have s2 : Term.slope v ⟨(run (start 0) rest).comps[1].attrs, J2', V2'⟩ = v 0 * x 0 := by
      show ∑ r ∈ range J2'.rows, Term.weighted _ (Arr.scalar 1) v r * Term.misfit _ (Arr.scalar 1) (fun _ => 0) r = _
      rw [k2, sum_range_one, w2, m2, x0]
    refine (congrArg₂ (· + ·) s1 s2).trans ?_
    ring

theorem allowed {P : Prob ℝ} (h1 : P.vMin = Arr.onesMul 2 (Arr.scalar (-2))) (h2 : P.vMax = Arr.onesMul 2 (Arr.scalar 2)) {ts : List (Term ℝ)}
    (h3 : ∀ t ∈ ts, ∀ v, t.Allows v) {v : Nat → ℝ} (hv : ∀ i < 2, |v i| ≤ 2) : Allowed 2 P.vMin P.vMax ts v := by
  refine ⟨fun i hi => ?_, fun t ht => h3 t ht v⟩
  rw [h1, h2]
  show - (1 * 2 : ℝ) ≤ v i ∧ v i ≤ - (1 * -2)
  have := abs_le.1 (hv i hi)
  constructor <;> linarith

theorem atRest (s0 : LocalIKData ℝ) : AtRest Beads.env Beads.model 0 ⟨run World.init (setup 0), vecOf fun _ : Fin 2 => (0 : ℝ), s0⟩ := by
  intro J hJ
  rw [compiled le_rfl] at hJ
  obtain rfl : prob 0 = J := by cases hJ; rfl
  refine ⟨rfl, sized 0 _, fun P ts hP hts => ?_⟩
  obtain ⟨h1, h2, h3, h4, h5, h6⟩ := terms hP hts
  exact ⟨allowed h1 h2 h4 (fun i _ => by norm_num), h3, .inr (.inr h5.1), fun u _ => by rw [h6]; simp⟩

end Parked

/-- The rail with both joints at their targets and the slider at the origin: it stays there. -/
example {I : Type} {osqp : QPSolver ℝ I} (ho : Exact osqp) (s0 : LocalIKData ℝ) (dt : ℝ) (k : Nat) :
    (Spec.control Beads.env osqp Beads.model 0 dt ⟨run World.init (Railcar.setup 0), vecOf fun _ : Fin 2 => (0 : ℝ), s0⟩ (List.replicate k .tick)).q =
      vecOf fun _ : Fin 2 => (0 : ℝ) :=
  C124_stays (m := Beads.model) ho rfl Beads.robot.addr dt _ _ (Beads.unit _) s0 (Parked.atRest s0) k

/-- There, standing still is best because both tasks have what they ask for. -/
example {P : Prob ℝ} (hP : (run World.init (Railcar.setup 0)).probs[0]? = some P) {ts : List (Term ℝ)}
    (hts : TermsOf (run World.init (Railcar.setup 0)) P (Railcar.prob 0) Beads.env (update Beads.env Beads.model (vecOf fun _ : Fin 2 => (0 : ℝ))) ts) :
    Best 2 P.vMin P.vMax ts (fun _ => 0) := by
  obtain ⟨h1, h2, h3, h4, h5, -⟩ := Parked.terms hP hts
  exact (C124_targets (Parked.allowed h1 h2 h4 (fun i _ => by norm_num)) h3 (h5.2.2 rfl)).2

/-- The rail anywhere else, within 2 of the targets: standing still is not best, and what is best brings the errors down. -/
example {x : Fin 2 → ℝ} (hx : ∀ i, |x i| ≤ 2) (hne : x ≠ 0) {P : Prob ℝ} (hP : (run World.init (Railcar.setup 0)).probs[0]? = some P) {ts : List (Term ℝ)}
    (hts : TermsOf (run World.init (Railcar.setup 0)) P (Railcar.prob 0) Beads.env (update Beads.env Beads.model (vecOf x)) ts) :
    ¬ Best 2 P.vMin P.vMax ts (fun _ => 0) ∧ ∀ v, Best 2 P.vMin P.vMax ts v → totalSlope ts v < 0 := by
  obtain ⟨h1, h2, h3, h4, h5, h6⟩ := Parked.terms hP hts
  have h0 : Allowed 2 P.vMin P.vMax ts fun _ => 0 := Parked.allowed h1 h2 h4 (fun i _ => by norm_num)
  have hu : ∃ u, Allowed 2 P.vMin P.vMax ts u ∧ totalSlope ts u < 0 := by
    refine ⟨fun i => if i = 0 then - x 0 else - x 1, Parked.allowed h1 h2 h4 (fun i _ => ?_), ?_⟩
    · split <;> rw [abs_neg] <;> exact hx _
    · rw [h6]
      simp only [if_true, one_ne_zero, if_false]
      by_contra hc
      push Not at hc
      have e0 : x 0 = 0 := by nlinarith [sq_nonneg (x 0), sq_nonneg (x 1)]
      have e1 : x 1 = 0 := by nlinarith [sq_nonneg (x 0), sq_nonneg (x 1)]
      exact hne (by funext i; fin_cases i; exacts [e0, e1])
  refine ⟨fun hb => ?_, fun v hv => (C124_progress h0 h3 hv).2 hu⟩
  obtain ⟨u, ha, hneg⟩ := hu
  exact absurd ((C124_rest h0 h3).1 hb u ha) (not_le.2 hneg)

end Mjinx.Props
