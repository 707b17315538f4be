import Verif.Spec.Energy
import Verif.Props.Optimum
import Verif.Props.Control

/-!
# C119: optimal velocities descend, damping bounds them
-/

set_option linter.unusedSectionVars false

namespace Mjinx.Props
open Spec Finset
variable {K : Type} [Field K] [LinearOrder K] [IsStrictOrderedRing K]

theorem residual_split (W : Mat K) (e : Evaluated K) (v : Nat → K) (r : Nat) :
    residual W e v r = weightedRate W e v r + residual W e (fun _ => 0) r := by
  unfold Spec.residual weightedRate
  rw [← sum_add_distrib]
  refine sum_congr rfl fun k _ => ?_
  have : rowDot e.jac k (fun _ => (0 : K)) = 0 := by simp [rowDot]
  rw [this]; ring

theorem weightedRate_smul (W : Mat K) (e : Evaluated K) (v : Nat → K) (t : K) (r : Nat) :
    weightedRate W e (fun i => t * v i) r = t * weightedRate W e v r := by
  unfold weightedRate rowDot
  simp only [mul_sum]
  exact sum_congr rfl fun k _ => sum_congr rfl fun l _ => by ring

theorem sqNorm_smul (n : Nat) (t : K) (v : Nat → K) : sqNorm n (fun i => t * v i) = t ^ 2 * sqNorm n v := by
  unfold sqNorm
  rw [mul_sum]
  exact sum_congr rfl fun i _ => by ring

theorem sqNorm_add (n : Nat) (u w : Nat → K) :
    sqNorm n (fun r => u r + w r) = sqNorm n u + 2 * ∑ r ∈ range n, u r * w r + sqNorm n w := by
  unfold sqNorm
  rw [mul_sum, ← sum_add_distrib, ← sum_add_distrib]
  exact sum_congr rfl fun i _ => by ring

theorem sqNorm_nn (n : Nat) (v : Nat → K) : 0 ≤ sqNorm n v := sum_nonneg fun _ _ => sq_nonneg _

private theorem residual_norm (W : Mat K) (e : Evaluated K) (v : Nat → K) :
    sqNorm e.jac.rows (residual W e v) = sqNorm e.jac.rows (weightedRate W e v) +
      2 * ∑ r ∈ range e.jac.rows, weightedRate W e v r * residual W e (fun _ => 0) r + sqNorm e.jac.rows (residual W e fun _ => 0) := by
  rw [← sqNorm_add]
  unfold sqNorm
  exact sum_congr rfl fun r _ => by rw [residual_split]

theorem cost_split {n : Nat} {c : SolverComp K} (hd : NoDisplacement c) (v : Nat → K) :
    cost n v c = pace v c / 2 + pull v c + urge c / 2 + drag c * sqNorm n v / 2 := by
  cases c with
  | task e W lm =>
    unfold cost pace pull urge drag
    dsimp only
    rw [residual_norm]; ring
  | barrier e s d =>
    unfold cost pace pull urge drag
    dsimp only
    have : (fun i => v i - d.get i) = v := by funext i; rw [hd i]; ring
    rw [this]; ring
  | constraint e a hard W =>
    unfold cost pace pull urge drag
    dsimp only
    by_cases h : hard = true
    · simp [h]
    · simp only [h, if_false, Bool.false_eq_true]
      rw [residual_norm]; ring

theorem total_add {f g : SolverComp K → K} (cs : List (SolverComp K)) : total (fun c => f c + g c) cs = total f cs + total g cs := by
  unfold total; induction cs with
  | nil => simp
  | cons c cs ih => simp only [List.map_cons, List.sum_cons, ih]; ring

theorem total_mul {f : SolverComp K → K} (k : K) (cs : List (SolverComp K)) : total (fun c => k * f c) cs = k * total f cs := by
  unfold total; induction cs with
  | nil => simp
  | cons c cs ih => simp only [List.map_cons, List.sum_cons, ih]; ring

theorem total_le {f g : SolverComp K → K} {cs : List (SolverComp K)} (h : ∀ c ∈ cs, f c ≤ g c) : total f cs ≤ total g cs := by
  unfold total; induction cs with
  | nil => simp
  | cons c cs ih =>
    simp only [List.map_cons, List.sum_cons]
    exact add_le_add (h c (by simp)) (ih fun c hc => h c (by simp [hc]))

theorem total_congr {f g : SolverComp K → K} {cs : List (SolverComp K)} (h : ∀ c ∈ cs, f c = g c) : total f cs = total g cs := by
  unfold total; exact congrArg List.sum (List.map_congr_left h)

theorem total_cost {n : Nat} {cs : List (SolverComp K)} (hd : ∀ c ∈ cs, NoDisplacement c) (v : Nat → K) :
    (cs.map (cost n v)).sum = total (pace v) cs / 2 + total (pull v) cs + total urge cs / 2 + total drag cs * sqNorm n v / 2 := by
  have h : (cs.map (cost n v)).sum = total (fun c => (1 / 2 * pace v c + pull v c) + (1 / 2 * urge c + sqNorm n v / 2 * drag c)) cs :=
    total_congr fun c hc => by rw [cost_split (hd c hc)]; ring
  rw [h, total_add, total_add, total_add, total_mul, total_mul, total_mul]; ring

theorem pace_smul (v : Nat → K) (t : K) (c : SolverComp K) : pace (fun i => t * v i) c = t ^ 2 * pace v c := by
  have key : ∀ (W : Mat K) (e : Evaluated K), sqNorm e.jac.rows (weightedRate W e fun i => t * v i) = t ^ 2 * sqNorm e.jac.rows (weightedRate W e v) := by
    intro W e
    rw [← sqNorm_smul]; unfold sqNorm
    exact sum_congr rfl fun r _ => by rw [weightedRate_smul]
  cases c with
  | task e W lm => exact key W e
  | barrier => unfold pace; ring
  | constraint e a hard W =>
    unfold pace; dsimp only
    by_cases h : hard = true
    · simp [h]
    · simp only [h, if_false, Bool.false_eq_true]; exact key W e

theorem pull_smul (v : Nat → K) (t : K) (c : SolverComp K) : pull (fun i => t * v i) c = t * pull v c := by
  have key : ∀ (W : Mat K) (e : Evaluated K), ∑ r ∈ range e.jac.rows, weightedRate W e (fun i => t * v i) r * residual W e (fun _ => 0) r =
      t * ∑ r ∈ range e.jac.rows, weightedRate W e v r * residual W e (fun _ => 0) r := by
    intro W e
    rw [mul_sum]
    exact sum_congr rfl fun r _ => by rw [weightedRate_smul]; ring
  cases c with
  | task e W lm => exact key W e
  | barrier => unfold pull; ring
  | constraint e a hard W =>
    unfold pull; dsimp only
    by_cases h : hard = true
    · simp [h]
    · simp only [h, if_false, Bool.false_eq_true]; exact key W e

private theorem slope {a b : K} (h : ∀ t : K, 0 ≤ t → t ≤ 1 → a / 2 + b ≤ t ^ 2 * (a / 2) + t * b) : a + b ≤ 0 := by
  by_contra hn
  push Not at hn
  -- `(1 + t) a / 2 + b ≤ 0` for all `t < 1`
  have h1 : ∀ t : K, 0 ≤ t → t < 1 → (1 + t) * (a / 2) + b ≤ 0 := by
    intro t h0 ht
    have := h t h0 ht.le
    have h2 : (1 - t) * ((1 + t) * (a / 2) + b) ≤ 0 := by nlinarith
    by_contra hc
    push Not at hc
    have := mul_pos (sub_pos.2 ht) hc
    linarith
  by_cases ha : 0 < a
  · -- choose `1 - t = min 1 ((a + b) / a)`
    by_cases hb : 0 ≤ b
    · have := h1 0 le_rfl one_pos
      linarith
    · push Not at hb
      have ht : (a + b) / a ≤ 1 := by rw [div_le_one ha]; linarith
      have ht0 : 0 < (a + b) / a := div_pos hn ha
      have := h1 (1 - (a + b) / a) (by linarith) (by linarith)
      have e : (1 + (1 - (a + b) / a)) * (a / 2) + b = (a + b) / 2 := by field_simp; ring
      rw [e] at this
      linarith
  · push Not at ha
    have := h1 0 le_rfl one_pos
    linarith

section
variable {n : Nat} {vMin vMax : Vec K} {comps : List (SolverComp K)} {qp : QP K}

private theorem feasible_smul {v : Nat → K} (hv : Feasible qp v) (h0 : Feasible qp fun _ => 0) {t : K} (ht0 : 0 ≤ t) (ht1 : t ≤ 1) : Feasible qp fun i => t * v i := by
  have key : ∀ (A : Mat K) (i : Nat), rowDot A i (fun i => t * v i) = t * rowDot A i v := by
    intro A i; unfold rowDot; rw [mul_sum]; exact sum_congr rfl fun k _ => by ring
  have zero : ∀ (A : Mat K) (i : Nat), rowDot A i (fun _ => (0 : K)) = 0 := by intro A i; simp [rowDot]
  constructor
  · intro i hi
    have h1 := hv.ineq i hi
    have h2 := h0.ineq i hi
    rw [zero] at h2
    rw [key]
    have := mul_le_mul_of_nonneg_left h1 ht0
    nlinarith
  · intro A b hA hb i hi
    have h1 := hv.eq A b hA hb i hi
    have h2 := h0.eq A b hA hb i hi
    rw [zero] at h2
    rw [key, h1, ← h2, mul_zero]

private theorem descent_core {cs : List (SolverComp K)} (hd : ∀ c ∈ cs, NoDisplacement c) {v : Nat → K}
    (h : ∀ t : K, 0 ≤ t → t ≤ 1 → (cs.map (cost n v)).sum ≤ (cs.map (cost n fun i => t * v i)).sum) :
    total (pull v) cs ≤ - (total (pace v) cs + total drag cs * sqNorm n v) := by
  have key := slope (a := total (pace v) cs + total drag cs * sqNorm n v) (b := total (pull v) cs) (fun t ht0 ht1 => by
    have h := h t ht0 ht1
    rw [total_cost hd, total_cost hd (fun i => t * v i), sqNorm_smul] at h
    have e1 : total (pace fun i => t * v i) cs = t ^ 2 * total (pace v) cs := by
      rw [← total_mul]; exact total_congr fun c _ => pace_smul v t c
    have e2 : total (pull fun i => t * v i) cs = t * total (pull v) cs := by
      rw [← total_mul]; exact total_congr fun c _ => pull_smul v t c
    rw [e1, e2] at h
    linarith)
  linarith

/-- **C119 (descent).** An optimal velocity, wherever standing still is allowed, moves all weighted values together towards where they are asked to go, and the more so the
faster it is: the pulls of all tasks and soft constraints add up to at most minus the sum of squared weighted rates and of what the damping takes. -/
theorem C119_descent (hs : ProblemShaped n vMin vMax comps) (hd : ∀ c ∈ comps, NoDisplacement c)
    (hq : computeQP n n vMin vMax comps = .ok qp) (h0 : Feasible qp fun _ => 0) {v : Nat → K} (hv : Optimal qp v) :
    total (pull v) comps ≤ - (total (pace v) comps + total drag comps * sqNorm n v) := by
  refine descent_core hd fun t ht0 ht1 => ?_
  have h := hv.2 _ (feasible_smul hv.1 h0 ht0 ht1)
  rw [C25_objective hs hq, C25_objective hs hq] at h
  linarith

private theorem young (m : Nat) (u w : Nat → K) : 0 ≤ sqNorm m u + ∑ r ∈ range m, u r * w r + sqNorm m w / 4 := by
  unfold sqNorm
  rw [sum_div, ← sum_add_distrib, ← sum_add_distrib]
  refine sum_nonneg fun r _ => ?_
  nlinarith [sq_nonneg (u r + w r / 2)]

private theorem speed_core {comps : List (SolverComp K)} {v : Nat → K} (h1 : total (pull v) comps ≤ - (total (pace v) comps + total drag comps * sqNorm n v)) :
    4 * (total drag comps * sqNorm n v) ≤ total urge comps := by
  have h2 : 0 ≤ total (fun c => (pace v c + pull v c) + 1 / 4 * urge c) comps := by
    unfold total
    refine List.sum_nonneg fun x hx => ?_
    obtain ⟨c, -, rfl⟩ := List.mem_map.1 hx
    cases c with
    | task e W lm =>
      have := young e.jac.rows (weightedRate W e v) (residual W e fun _ => 0)
      unfold pace pull urge; dsimp only; linarith
    | barrier => simp [pace, pull, urge]
    | constraint e a hard W =>
      unfold pace pull urge; dsimp only
      by_cases h : hard = true
      · simp [h]
      · simp only [h, if_false, Bool.false_eq_true]
        have := young e.jac.rows (weightedRate W e v) (residual W e fun _ => 0)
        linarith
  rw [total_add, total_add, total_mul] at h2
  linarith

/-- **C119 (speed).** Whatever the Jacobians, in particular near singular configurations, the squared speed of an optimal velocity is bounded by the damping. -/
theorem C119_speed (hs : ProblemShaped n vMin vMax comps) (hd : ∀ c ∈ comps, NoDisplacement c)
    (hq : computeQP n n vMin vMax comps = .ok qp) (h0 : Feasible qp fun _ => 0) {v : Nat → K} (hv : Optimal qp v) :
    4 * (total drag comps * sqNorm n v) ≤ total urge comps :=
  speed_core (C119_descent hs hd hq h0 hv)

/-- **C119 (misfit).** An optimal velocity brings all weighted misfits together down, by at least the squared weighted rates and twice what the damping takes. -/
theorem C119_misfit (hs : ProblemShaped n vMin vMax comps) (hd : ∀ c ∈ comps, NoDisplacement c)
    (hq : computeQP n n vMin vMax comps = .ok qp) (h0 : Feasible qp fun _ => 0) {v : Nat → K} (hv : Optimal qp v) :
    total (fun c => pace v c + 2 * pull v c + urge c) comps + total (pace v) comps + 2 * (total drag comps * sqNorm n v) ≤ total urge comps := by
  have h1 := C119_descent hs hd hq h0 hv
  rw [total_add, total_add, total_mul]
  linarith

private theorem urge_nn (c : SolverComp K) : 0 ≤ urge c := by
  cases c with
  | task e W lm => exact sqNorm_nn _ _
  | barrier => exact le_rfl
  | constraint e a hard W =>
    unfold urge; dsimp only
    by_cases h : hard = true
    · simp [h]
    · simp only [h, if_false, Bool.false_eq_true]; exact sqNorm_nn _ _

private theorem damped_core {comps : List (SolverComp K)} {v : Nat → K} (h1 : 4 * (total drag comps * sqNorm n v) ≤ total urge comps)
    {lam : K} (hlam : ∀ c ∈ comps, DampedBy lam c) (hun : ∃ e W lm, SolverComp.task e W lm ∈ comps ∧ ∃ r < e.jac.rows, residual W e (fun _ => 0) r ≠ 0) :
    4 * (lam * sqNorm n v) ≤ 1 := by
  have h2 : lam * total urge comps ≤ total drag comps := by
    rw [← total_mul]
    refine total_le fun c hc => ?_
    have := hlam c hc
    cases c with
    | task e W lm => exact mul_le_mul_of_nonneg_right this (sqNorm_nn _ _)
    | barrier e s d =>
      unfold urge drag; dsimp only; rw [mul_zero]
      exact div_nonneg this (sum_nonneg fun i _ => sum_nonneg fun j _ => sq_nonneg _)
    | constraint e a hard W => rw [show hard = true from this]; simp [urge, drag]
  have h3 : 0 < total urge comps := by
    obtain ⟨e, W, lm, hc, r, hr, hne⟩ := hun
    have hle : urge (.task e W lm) ≤ total urge comps :=
      List.single_le_sum (fun x hx => by obtain ⟨c, -, rfl⟩ := List.mem_map.1 hx; exact urge_nn c) _ (List.mem_map.2 ⟨_, hc, rfl⟩)
    refine lt_of_lt_of_le ?_ hle
    have : residual W e (fun _ => 0) r ^ 2 ≤ sqNorm e.jac.rows (residual W e fun _ => 0) :=
      single_le_sum (f := fun r => residual W e (fun _ => 0) r ^ 2) (fun i _ => sq_nonneg _) (mem_range.2 hr)
    exact lt_of_lt_of_le (by positivity) this
  have h4 := mul_le_mul_of_nonneg_right h2 (sqNorm_nn n v)
  have h5 : total urge comps * (4 * (lam * sqNorm n v)) ≤ total urge comps * 1 := by nlinarith
  exact le_of_mul_le_mul_left h5 h3

/-- **C119 (damped).** If every task has damping at least `lam > 0`, constraints are hard and some task is away from its target, the speed is at most `1 / (2 √lam)`. -/
theorem C119_damped (hs : ProblemShaped n vMin vMax comps) (hd : ∀ c ∈ comps, NoDisplacement c)
    (hq : computeQP n n vMin vMax comps = .ok qp) (h0 : Feasible qp fun _ => 0) {v : Nat → K} (hv : Optimal qp v)
    {lam : K} (hlam : ∀ c ∈ comps, DampedBy lam c) (hun : ∃ e W lm, SolverComp.task e W lm ∈ comps ∧ ∃ r < e.jac.rows, residual W e (fun _ => 0) r ≠ 0) :
    4 * (lam * sqNorm n v) ≤ 1 :=
  damped_core (C119_speed hs hd hq h0 hv) hlam hun

end

/-! ### Programs -/

section
variable {n : Nat} {vMin vMax : Arr K} {ts : List (Term K)}

/-- A component of a problem with its attributes read as matrices and vectors. -/
def Term.seen (n : Nat) (t : Term K) : SolverComp K :=
  let e : Evaluated K := ⟨t.jac, t.value, ⟨t.jac.rows, gainAt t.attrs.gain⟩, t.attrs.gainFn⟩
  match t.attrs.kind with
  | .comTask a _ => .task e ⟨t.jac.rows, t.jac.rows, weightAt a.cost⟩ a.lmDamping
  | .jointTask a _ _ _ => .task e ⟨t.jac.rows, t.jac.rows, weightAt a.cost⟩ a.lmDamping
  | .positionTask a _ _ => .task e ⟨t.jac.rows, t.jac.rows, weightAt a.cost⟩ a.lmDamping
  | .frameTask a _ _ => .task e ⟨t.jac.rows, t.jac.rows, weightAt a.cost⟩ a.lmDamping
  | .jointBarrier s .. => .barrier e s (Vec.zero n)
  | .positionBarrier s .. => .barrier e s (Vec.zero n)
  | .selfCollision s .. => .barrier e s (Vec.zero n)
  | .modelEquality _ hard c => .constraint e true hard ⟨t.jac.rows, t.jac.rows, weightAt (c.getD (Arr.scalar 100))⟩

theorem seen_cost (v : Nat → K) (t : Term K) : cost n v (Term.seen n t) = t.price n v := by
  obtain ⟨a, J, f⟩ := t
  obtain ⟨nm, mo, ga, gf, di, ma, mi, k⟩ := a
  cases k <;> unfold Term.seen Term.price cost <;> try rfl
  all_goals (dsimp only; simp only [Vec.zero, sub_zero])

theorem seen_nod (t : Term K) : NoDisplacement (Term.seen n t) := by
  obtain ⟨a, J, f⟩ := t
  obtain ⟨nm, mo, ga, gf, di, ma, mi, k⟩ := a
  cases k <;> first | exact trivial | exact fun _ => rfl

theorem allowed_smul {v : Nat → K} (hv : Allowed n vMin vMax ts v) (h0 : Allowed n vMin vMax ts fun _ => 0) {s : K} (hs0 : 0 ≤ s) (hs1 : s ≤ 1) :
    Allowed n vMin vMax ts fun i => s * v i := by
  have key : ∀ (A : Mat K) (i : Nat), rowDot A i (fun i => s * v i) = s * rowDot A i v := by
    intro A i; unfold rowDot; rw [mul_sum]; exact sum_congr rfl fun k _ => by ring
  have zero : ∀ (A : Mat K) (i : Nat), rowDot A i (fun _ => (0 : K)) = 0 := by intro A i; simp [rowDot]
  have low : ∀ a b : K, a ≤ b → a ≤ 0 → a ≤ s * b := by
    intro a b h1 h2
    have := mul_le_mul_of_nonneg_left h1 hs0
    nlinarith
  constructor
  · intro i hi
    obtain ⟨h1, h2⟩ := hv.1 i hi
    obtain ⟨h3, h4⟩ := h0.1 i hi
    refine ⟨low _ _ h1 h3, ?_⟩
    have := low (vMin.get [i]) (- v i) (by linarith) (by linarith)
    linarith
  · intro t ht
    have h1 := hv.2 t ht
    have h2 := h0.2 t ht
    obtain ⟨a, J, f⟩ := t
    obtain ⟨nm, mo, ga, gf, di, ma, mi, k⟩ := a
    cases k <;> unfold Term.Allows at h1 h2 ⊢ <;> dsimp only at h1 h2 ⊢
    case jointBarrier => exact fun r hr => by rw [key]; exact low _ _ (h1 r hr) (by rw [← zero J r]; exact h2 r hr)
    case positionBarrier => exact fun r hr => by rw [key]; exact low _ _ (h1 r hr) (by rw [← zero J r]; exact h2 r hr)
    case selfCollision => exact fun r hr => by rw [key]; exact low _ _ (h1 r hr) (by rw [← zero J r]; exact h2 r hr)
    case modelEquality =>
      intro hh r hr
      have e2 := h2 hh r hr
      rw [zero] at e2
      rw [key, h1 hh r hr, ← e2, mul_zero]

theorem seen_descent {v : Nat → K} (hb : Best n vMin vMax ts v) (h0 : Allowed n vMin vMax ts fun _ => 0) :
    total (pull v) (ts.map (Term.seen n)) ≤ - (total (pace v) (ts.map (Term.seen n)) + total drag (ts.map (Term.seen n)) * sqNorm n v) := by
  refine descent_core (fun c hc => ?_) fun s h1 h2 => ?_
  · obtain ⟨t, -, rfl⟩ := List.mem_map.1 hc
    exact seen_nod t
  · have := hb.2 _ (allowed_smul hb.1 h0 h1 h2)
    unfold totalPrice at this
    rw [List.map_map, List.map_map]
    have e : ∀ u : Nat → K, (cost n u ∘ Term.seen n) = Term.price n u := fun u => funext fun t => seen_cost u t
    rw [e, e]
    exact this

/-- **C119 (damping).** If every task has damping at least `lam`, safe displacement gains are not negative, constraints are hard, standing still is allowed and some
task is away from its target, the best velocity has speed at most `1 / (2 √lam)`, whatever the Jacobians. -/
theorem C119_best_damped {v : Nat → K} (hb : Best n vMin vMax ts v) (h0 : Allowed n vMin vMax ts fun _ => 0) {lam : K}
    (hlam : ∀ t ∈ ts, t.DampedBy lam) (hun : ∃ t ∈ ts, t.Unmet) : 4 * (lam * sqNorm n v) ≤ 1 := by
  refine damped_core (speed_core (seen_descent hb h0)) (fun c hc => ?_) ?_
  · obtain ⟨t, ht, rfl⟩ := List.mem_map.1 hc
    have := hlam t ht
    obtain ⟨a, J, f⟩ := t
    obtain ⟨nm, mo, ga, gf, di, ma, mi, k⟩ := a
    cases k <;> exact this
  · obtain ⟨t, ht, hu⟩ := hun
    have hm : Term.seen n t ∈ ts.map (Term.seen n) := List.mem_map.2 ⟨t, ht, rfl⟩
    obtain ⟨a, J, f⟩ := t
    obtain ⟨nm, mo, ga, gf, di, ma, mi, k⟩ := a
    cases k <;> first | exact ⟨_, _, _, hm, hu⟩ | exact hu.elim

/-- **C119 (calmer).** Where standing still is allowed, the best velocity brings the rates of all values together at least as close to what is asked for as standing still. -/
theorem C119_best_calmer {v : Nat → K} (hb : Best n vMin vMax ts v) (h0 : Allowed n vMin vMax ts fun _ => 0)
    (hbr : ∀ t ∈ ts, t.Braking) : (ts.map (Term.unrest v)).sum ≤ (ts.map (Term.unrest fun _ => 0)).sum := by
  have h := hb.2 _ h0
  have key : ∀ u : Nat → K, totalPrice n ts u = (ts.map (Term.unrest u)).sum / 2 + total drag (ts.map (Term.seen n)) * sqNorm n u / 2 := by
    intro u
    unfold totalPrice total
    clear h hbr hb h0
    induction ts with
    | nil => simp
    | cons t ts ih =>
      simp only [List.map_cons, List.sum_cons, ih]
      have : t.price n u = t.unrest u / 2 + drag (Term.seen n t) * sqNorm n u / 2 := by
        obtain ⟨a, J, f⟩ := t
        obtain ⟨nm, mo, ga, gf, di, ma, mi, k⟩ := a
        cases k <;> unfold Term.price Term.unrest drag Term.seen <;> dsimp only
        case modelEquality => split <;> ring
        case comTask => rfl
        case jointTask => rfl
        case positionTask => rfl
        case frameTask => rfl
        all_goals ring
      rw [this]; ring
  rw [key, key] at h
  have z : sqNorm n (fun _ => (0 : K)) = 0 := by simp [sqNorm]
  have hd : 0 ≤ total drag (ts.map (Term.seen n)) := by
    unfold total
    refine List.sum_nonneg fun x hx => ?_
    obtain ⟨c, hc, rfl⟩ := List.mem_map.1 hx
    obtain ⟨t, ht, rfl⟩ := List.mem_map.1 hc
    have := hbr t ht
    obtain ⟨a, J, f⟩ := t
    obtain ⟨nm, mo, ga, gf, di, ma, mi, k⟩ := a
    have fr : 0 ≤ frobSq J := sum_nonneg fun i _ => sum_nonneg fun j _ => sq_nonneg _
    cases k <;> first | exact mul_nonneg this (sqNorm_nn _ _) | exact div_nonneg this fr | exact le_rfl
  have := mul_nonneg hd (sqNorm_nn n v)
  rw [z] at h
  linarith

end

/-- **C119 (solution).** What the solver returns after any program: where standing still is allowed, the velocity is bounded by the damping and brings the rates of
all values together at least as close to what is asked for as standing still. -/
theorem C119_solution (ops : List (Op ℝ)) {p : Nat} {J : JaxProblem ℝ}
    (hJ : (step (run World.init ops) (.compile p)).1 = .ok (.compiled J)) {env : Env ℝ} {I : Type} {osqp : QPSolver ℝ I} (ho : Exact osqp)
    {q : Arr ℝ} {s s' : LocalIKData ℝ} {sol : LocalIKSolution ℝ I}
    (hsz : WellSized env J (update env J.model ⟨J.model.nq, fun i => q.get [i]⟩))
    (h : localSolve env osqp J.model q s J = .ok (sol, s')) :
    ∃ P ts, (run World.init ops).probs[p]? = some P ∧
      TermsOf (run World.init ops) P J env (update env J.model ⟨J.model.nq, fun i => q.get [i]⟩) ts ∧
      (Allowed P.model.nv P.vMin P.vMax ts (fun _ => 0) →
        (∀ lam, (∀ t ∈ ts, t.DampedBy lam) → (∃ t ∈ ts, t.Unmet) → 4 * (lam * sqNorm P.model.nv sol.vOpt.get) ≤ 1) ∧
        ((∀ t ∈ ts, t.Braking) → (ts.map (Term.unrest sol.vOpt.get)).sum ≤ (ts.map (Term.unrest fun _ => 0)).sum)) := by
  obtain ⟨P, ts, hP, ht, hb⟩ := C91_real_solution ops hJ ho hsz h
  exact ⟨P, ts, hP, ht, fun h0 => ⟨fun lam hl hu => C119_best_damped (hb ⟨_, h0⟩) h0 hl hu, fun hbr => C119_best_calmer (hb ⟨_, h0⟩) h0 hbr⟩⟩

end Mjinx.Props
