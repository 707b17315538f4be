import Verif.Props.Priority
import Verif.Lemmas.Shift
import Verif.Spec.Deriv
import Mathlib.Analysis.Calculus.FDeriv.Add

/-!
# C121: commands do not jump
-/

set_option linter.unusedSectionVars false

namespace Mjinx.Props
open Spec Finset
variable {K : Type} [Field K] [LinearOrder K] [IsStrictOrderedRing K]

/-- A velocity on the way from `v` to `u`. -/
private def between (τ : K) (v u : Nat → K) (i : Nat) : K := v i + τ * (u i - v i)

private theorem rowDot_between (A : Mat K) (k : Nat) (τ : K) (v u : Nat → K) :
    rowDot A k (between τ v u) = rowDot A k v + τ * (rowDot A k u - rowDot A k v) := by
  unfold rowDot between
  rw [← sum_sub_distrib, mul_sum, ← sum_add_distrib]
  exact sum_congr rfl fun i _ => by ring

private theorem sqNorm_between (n : Nat) (τ : K) (x y : Nat → K) :
    sqNorm n (between τ x y) = (1 - τ) * sqNorm n x + τ * sqNorm n y - τ * (1 - τ) * sqNorm n fun r => y r - x r := by
  unfold sqNorm between
  rw [mul_sum, mul_sum, mul_sum, ← sum_add_distrib, ← sum_sub_distrib]
  exact sum_congr rfl fun i _ => by ring

/-- What brakes all velocities alike. -/
private def brake (t : Term K) : K :=
  match t.attrs.kind with
  | .comTask a _ | .jointTask a _ _ _ | .positionTask a _ _ | .frameTask a _ _ => a.lmDamping * sqNorm t.jac.rows (t.misfit a.cost fun _ => 0)
  | .jointBarrier s .. | .positionBarrier s .. | .selfCollision s .. => s / frobSq t.jac
  | .modelEquality .. => 0

private theorem misfit_between (t : Term K) (w : Arr K) (τ : K) (v u : Nat → K) : t.misfit w (between τ v u) = between τ (t.misfit w v) (t.misfit w u) := by
  funext r
  unfold Term.misfit
  conv_rhs => unfold between
  rw [← sum_sub_distrib, mul_sum, ← sum_add_distrib]
  exact sum_congr rfl fun k _ => by rw [rowDot_between]; ring

private theorem misfit_diff (t : Term K) (w : Arr K) (v u : Nat → K) (r : Nat) :
    t.misfit w u r - t.misfit w v r = ∑ k ∈ range t.jac.rows, weightAt w r k * (rowDot t.jac k u - rowDot t.jac k v) := by
  unfold Term.misfit
  rw [← sum_sub_distrib]
  exact sum_congr rfl fun k _ => by ring

private theorem price_between (n : Nat) (t : Term K) (τ : K) (v u : Nat → K) :
    t.price n (between τ v u) = (1 - τ) * t.price n v + τ * t.price n u - τ * (1 - τ) * (t.swing v u + brake t * sqNorm n fun i => u i - v i) / 2 := by
  have key : ∀ w : Arr K, sqNorm t.jac.rows (t.misfit w (between τ v u)) = (1 - τ) * sqNorm t.jac.rows (t.misfit w v) + τ * sqNorm t.jac.rows (t.misfit w u) -
      τ * (1 - τ) * sqNorm t.jac.rows fun r => ∑ k ∈ range t.jac.rows, weightAt w r k * (rowDot t.jac k u - rowDot t.jac k v) := by
    intro w
    rw [misfit_between, sqNorm_between]
    congr 3
    funext r
    exact misfit_diff t w v u r
  unfold Term.price Term.swing brake
  cases t.attrs.kind <;> dsimp only
  case modelEquality a hard c =>
    by_cases h : hard = true
    · simp [h]
    · simp only [h, if_false, Bool.false_eq_true]; rw [key]; ring
  all_goals first | (rw [key, sqNorm_between]; ring) | (rw [sqNorm_between]; ring)

section
variable {n : Nat} {vMin vMax : Arr K} {ts : List (Term K)}

private theorem allowed_between {v u : Nat → K} (hv : Allowed n vMin vMax ts v) (hu : Allowed n vMin vMax ts u) {τ : K} (h0 : 0 ≤ τ) (h1 : τ ≤ 1) :
    Allowed n vMin vMax ts (between τ v u) := by
  refine ⟨fun i hi => ?_, fun t ht => ?_⟩
  · obtain ⟨a, b⟩ := hv.1 i hi
    obtain ⟨c, d⟩ := hu.1 i hi
    unfold between
    constructor <;> nlinarith
  · have a := hv.2 t ht
    have b := hu.2 t ht
    unfold Term.Allows at a b ⊢
    cases hk : t.attrs.kind <;> rw [hk] at a b <;> dsimp only at a b ⊢
    case jointBarrier => intro r hr; have := a r hr; have := b r hr; rw [rowDot_between]; nlinarith
    case positionBarrier => intro r hr; have := a r hr; have := b r hr; rw [rowDot_between]; nlinarith
    case selfCollision => intro r hr; have := a r hr; have := b r hr; rw [rowDot_between]; nlinarith
    case modelEquality => intro h r hr; rw [rowDot_between, a h r hr, b h r hr]; ring

private theorem total_between (v u : Nat → K) (τ : K) : totalPrice n ts (between τ v u) = (1 - τ) * totalPrice n ts v + τ * totalPrice n ts u -
    τ * (1 - τ) * ((ts.map (Term.swing v u)).sum + (ts.map brake).sum * sqNorm n fun i => u i - v i) / 2 := by
  unfold totalPrice
  induction ts with
  | nil => simp
  | cons t ts ih =>
    simp only [List.map_cons, List.sum_cons, ih, price_between]
    ring

/-- The best velocity is better than any other allowed one by half the square of what they differ in. -/
private theorem best_margin {v u : Nat → K} (hv : Best n vMin vMax ts v) (hu : Allowed n vMin vMax ts u) :
    totalPrice n ts v + ((ts.map (Term.swing v u)).sum + (ts.map brake).sum * sqNorm n fun i => u i - v i) / 2 ≤ totalPrice n ts u := by
  set Q := (ts.map (Term.swing v u)).sum + (ts.map brake).sum * sqNorm n fun i => u i - v i with hQ
  have h : ∀ τ : K, 0 < τ → τ ≤ 1 → (1 - τ) * (Q / 2) ≤ totalPrice n ts u - totalPrice n ts v := by
    intro τ h0 h1
    have := hv.2 _ (allowed_between hv.1 hu h0.le h1)
    rw [total_between, ← hQ] at this
    have h2 : τ * ((1 - τ) * (Q / 2)) ≤ τ * (totalPrice n ts u - totalPrice n ts v) := by linarith
    exact le_of_mul_le_mul_left h2 h0
  set D := totalPrice n ts u - totalPrice n ts v with hD
  have : Q / 2 ≤ D := by
    by_contra hn
    push Not at hn
    have hD0 : 0 ≤ D := by have := h 1 one_pos le_rfl; linarith
    have hQ0 : 0 < Q / 2 := by linarith
    have ht0 : 0 < (Q / 2 - D) / (Q / 2) := div_pos (by linarith) hQ0
    have ht1 : (Q / 2 - D) / (Q / 2) ≤ 1 := by rw [div_le_one hQ0]; linarith
    have h1 := h ((Q / 2 - D) / (Q / 2) / 2) (by positivity) (by linarith)
    have e : (1 - (Q / 2 - D) / (Q / 2) / 2) * (Q / 2) = Q / 2 - (Q / 2 - D) / 2 := by
      have : (Q / 2 - D) / (Q / 2) * (Q / 2) = Q / 2 - D := div_mul_cancel₀ _ hQ0.ne'
      linear_combination -this / 2
    rw [e] at h1
    linarith
  linarith

private theorem frob_nn (A : Mat K) : 0 ≤ frobSq A := by
  unfold frobSq
  exact sum_nonneg fun _ _ => sum_nonneg fun _ _ => sq_nonneg _

private theorem brake_nn {t : Term K} (hb : t.Braking) : 0 ≤ brake t := by
  unfold Term.Braking at hb
  unfold brake
  cases hk : t.attrs.kind <;> rw [hk] at hb <;> dsimp only at hb ⊢
  case jointBarrier => exact div_nonneg hb (frob_nn _)
  case positionBarrier => exact div_nonneg hb (frob_nn _)
  case selfCollision => exact div_nonneg hb (frob_nn _)
  all_goals exact mul_nonneg hb (sqNorm_nn _ _)

private theorem swing_nn (v u : Nat → K) (t : Term K) : 0 ≤ t.swing v u := by
  unfold Term.swing
  cases t.attrs.kind <;> dsimp only
  case modelEquality => split <;> first | exact le_rfl | exact sqNorm_nn _ _
  all_goals first | exact sqNorm_nn _ _ | exact le_rfl

private theorem sum_nn {f : Term K → K} {l : List (Term K)} (h : ∀ t ∈ l, 0 ≤ f t) : 0 ≤ (l.map f).sum := by
  refine List.sum_nonneg fun x hx => ?_
  obtain ⟨y, hy, rfl⟩ := List.mem_map.1 hx
  exact h y hy

/-- The price is convex. -/
theorem total_convex (hb : ∀ t ∈ ts, t.Braking) (v u : Nat → K) {τ : K} (h0 : 0 ≤ τ) (h1 : τ ≤ 1) :
    totalPrice n ts (fun i => v i + τ * (u i - v i)) ≤ (1 - τ) * totalPrice n ts v + τ * totalPrice n ts u := by
  have e : totalPrice n ts (fun i => v i + τ * (u i - v i)) = _ := total_between v u τ
  rw [e]
  have a : 0 ≤ (ts.map (Term.swing v u)).sum := sum_nn fun t _ => swing_nn v u t
  have b : 0 ≤ (ts.map brake).sum * sqNorm n fun i => u i - v i := mul_nonneg (sum_nn fun t ht => brake_nn (hb t ht)) (sqNorm_nn _ _)
  have : 0 ≤ τ * (1 - τ) * ((ts.map (Term.swing v u)).sum + (ts.map brake).sum * sqNorm n fun i => u i - v i) :=
    mul_nonneg (mul_nonneg h0 (by linarith)) (by linarith)
  linarith

theorem rowDot_way (A : Mat K) (k : Nat) (τ : K) (v u : Nat → K) :
    rowDot A k (fun i => v i + τ * (u i - v i)) = rowDot A k v + τ * (rowDot A k u - rowDot A k v) := rowDot_between A k τ v u

/-- **C121 (same rates).** Whatever velocity a solver chooses among the best ones, it moves the values of all tasks and soft constraints at the same weighted rates. -/
theorem C121_same_rates (hb : ∀ t ∈ ts, t.Braking) {v v' : Nat → K} (hv : Best n vMin vMax ts v) (hv' : Best n vMin vMax ts v') :
    ∀ t ∈ ts, t.swing v v' = 0 := by
  have h1 := best_margin hv hv'.1
  have h2 := hv'.2 v hv.1
  have h3 : 0 ≤ (ts.map brake).sum * sqNorm n fun i => v' i - v i := mul_nonneg (sum_nn fun t ht => brake_nn (hb t ht)) (sqNorm_nn _ _)
  have h4 : (ts.map (Term.swing v v')).sum ≤ 0 := by linarith
  intro t ht
  refine le_antisymm ?_ (swing_nn v v' t)
  refine le_trans ?_ h4
  exact List.single_le_sum (fun x hx => by obtain ⟨y, -, rfl⟩ := List.mem_map.1 hx; exact swing_nn v v' y) _ (List.mem_map.2 ⟨t, ht, rfl⟩)

/-- Another target: the same task without damping, whose values are elsewhere. -/
def Retargeted (w : Arr K) (t t' : Term K) : Prop :=
  (∃ A A', t.attrs.kind.taskA? = some A ∧ t'.attrs.kind.taskA? = some A' ∧ A.cost = w ∧ A'.cost = w ∧ A.lmDamping = 0 ∧ A'.lmDamping = 0) ∧ t'.jac = t.jac

private theorem task_price {t : Term K} {A : TaskA K} (h : t.attrs.kind.taskA? = some A) (h0 : A.lmDamping = 0) (v : Nat → K) :
    t.price n v = sqNorm t.jac.rows (t.misfit A.cost v) / 2 ∧ t.Allows v ∧ brake t = 0 ∧
      ∀ u, t.swing v u = sqNorm t.jac.rows fun r => ∑ k ∈ range t.jac.rows, weightAt A.cost r k * (rowDot t.jac k u - rowDot t.jac k v) := by
  unfold Term.price Term.Allows brake Term.swing
  cases hk : t.attrs.kind <;> rw [hk] at h <;> simp only [Kind.taskA?, Option.some.injEq, reduceCtorEq] at h <;> subst h <;>
    exact ⟨by dsimp only; rw [h0]; ring, trivial, by dsimp only; rw [h0]; ring, fun _ => rfl⟩

private theorem retargeted_allowed {w : Arr K} {a b : List (Term K)} {t t' : Term K} (h : Retargeted w t t') (u : Nat → K) :
    Allowed n vMin vMax (a ++ t' :: b) u ↔ Allowed n vMin vMax (a ++ t :: b) u := by
  obtain ⟨⟨A, A', hA, hA', -, -, h0, h0'⟩, -⟩ := h
  unfold Allowed
  refine and_congr_right fun _ => ?_
  simp only [List.forall_mem_append, List.forall_mem_cons, (task_price (n := n) hA h0 u).2.1, (task_price (n := n) hA' h0' u).2.1]

/-- **C121 (best velocities).** One undamped task is asked for other rates; everything else stays.  The weighted rates of all tasks and soft constraints together then
change by at most as much as what is asked for. -/
theorem C121_best {w : Arr K} {a b : List (Term K)} {t t' : Term K} (h : Retargeted w t t') (hb : ∀ x ∈ a ++ b, x.Braking) {v v' : Nat → K}
    (hv : Best n vMin vMax (a ++ t :: b) v) (hv' : Best n vMin vMax (a ++ t' :: b) v') :
    ((a ++ t :: b).map (Term.swing v v')).sum ≤ sqNorm t.jac.rows fun r => ∑ k ∈ range t.jac.rows, weightAt w r k * (t'.rate k - t.rate k) := by
  have hr := h
  obtain ⟨⟨A, A', hA, hA', rfl, hw, h0, h0'⟩, hj⟩ := h
  have pt := fun v => task_price (n := n) hA h0 v
  have pt' := fun v => task_price (n := n) hA' h0' v
  have hall := fun u => retargeted_allowed (n := n) (vMin := vMin) (vMax := vMax) (a := a) (b := b) hr u
  have m1 := best_margin hv ((hall v').1 hv'.1)
  have m2 := best_margin hv' ((hall v).2 hv.1)
  have split : ∀ (x : Term K) (f : Term K → K), ((a ++ x :: b).map f).sum = f x + ((a ++ b).map f).sum := by
    intro x f
    simp only [List.map_append, List.map_cons, List.sum_append, List.sum_cons]
    ring
  have swing_symm : ∀ x : Term K, x.swing v' v = x.swing v v' := by
    intro x
    have key : ∀ w : Arr K, (sqNorm x.jac.rows fun r => ∑ k ∈ range x.jac.rows, weightAt w r k * (rowDot x.jac k v - rowDot x.jac k v')) =
        sqNorm x.jac.rows fun r => ∑ k ∈ range x.jac.rows, weightAt w r k * (rowDot x.jac k v' - rowDot x.jac k v) := by
      intro w
      unfold sqNorm
      refine sum_congr rfl fun r _ => ?_
      have : (∑ k ∈ range x.jac.rows, weightAt w r k * (rowDot x.jac k v - rowDot x.jac k v')) =
          - ∑ k ∈ range x.jac.rows, weightAt w r k * (rowDot x.jac k v' - rowDot x.jac k v) := by
        rw [← sum_neg_distrib]; exact sum_congr rfl fun k _ => by ring
      dsimp only
      rw [this]; ring
    unfold Term.swing
    cases x.attrs.kind <;> dsimp only
    case modelEquality => split <;> first | exact key _ | rfl
    all_goals exact key _
  have e1 : ((a ++ b).map (Term.swing v' v)).sum = ((a ++ b).map (Term.swing v v')).sum := by
    congr 1
    exact List.map_congr_left fun x _ => swing_symm x
  have est : t'.swing v' v = t.swing v v' := by
    rw [← swing_symm t, (pt' v').2.2.2 v, (pt v').2.2.2 v, hj, hw]
  have en : (sqNorm n fun i => v i - v' i) = sqNorm n fun i => v' i - v i := by
    unfold sqNorm; exact sum_congr rfl fun i _ => by ring
  unfold totalPrice at m1 m2
  simp only [split] at m1 m2 ⊢
  rw [e1, est, en, (pt' v').2.2.1, (pt v).1, (pt v').1, (pt v).2.2.1] at *
  rw [(pt' v').1, (pt' v).1, hj, hw] at m2
  set S := ((a ++ b).map (Term.swing v v')).sum
  set D := ((a ++ b).map brake).sum * sqNorm n fun i => v' i - v i
  have hD : 0 ≤ D := mul_nonneg (sum_nn fun t ht => brake_nn (hb t ht)) (sqNorm_nn _ _)
  have hS : 0 ≤ S := sum_nn fun t _ => swing_nn _ _ t
  -- the misfits of the two tasks differ by the change of what is asked for
  set η : Nat → K := fun r => ∑ k ∈ range t.jac.rows, weightAt A.cost r k * (t'.rate k - t.rate k) with hη
  set δ : Nat → K := fun r => ∑ k ∈ range t.jac.rows, weightAt A.cost r k * (rowDot t.jac k v' - rowDot t.jac k v) with hδ
  have hm : ∀ u, t'.misfit A.cost u = fun r => t.misfit A.cost u r + η r := by
    intro u
    funext r
    unfold Term.misfit
    rw [hj, hη, ← sum_add_distrib]
    exact sum_congr rfl fun k _ => by ring
  have hd : ∀ r, t.misfit A.cost v' r = t.misfit A.cost v r + δ r := by
    intro r
    have := misfit_diff t A.cost v v' r
    rw [hδ]; linarith
  rw [hm v', hm v, sqNorm_add, sqNorm_add] at m2
  have hcross : ∑ r ∈ range t.jac.rows, t.misfit A.cost v' r * η r = ∑ r ∈ range t.jac.rows, t.misfit A.cost v r * η r + ∑ r ∈ range t.jac.rows, δ r * η r := by
    rw [← sum_add_distrib]
    exact sum_congr rfl fun r _ => by rw [hd]; ring
  rw [hcross] at m2
  have hsw : t.swing v v' = sqNorm t.jac.rows δ := (pt v).2.2.2 v'
  have young : - (2 * ∑ r ∈ range t.jac.rows, δ r * η r) ≤ sqNorm t.jac.rows δ + sqNorm t.jac.rows η := by
    have := sqNorm_nn t.jac.rows (fun r => δ r + η r)
    rw [sqNorm_add] at this
    linarith
  rw [hsw] at m1 m2 ⊢
  have hx : 2 * (S + D + sqNorm t.jac.rows δ) ≤ - (2 * ∑ r ∈ range t.jac.rows, δ r * η r) := by linarith
  linarith

end

/-- `jax.jacrev` as partial derivatives does not see constants. -/
theorem jacrevR_forgets {env : Env ℝ} (h : env.jacrev = jacrevR) : ForgetsConstants env := by
  intro f g q c hfg
  rw [h]
  unfold jacrevR
  have hq := hfg q rfl
  rw [hq.2.1]
  congr 1
  funext i k
  split_ifs with hk
  · have e : (fun x : Fin q.len → ℝ => (g (vecOf x)).get i) = fun x => (f (vecOf x)).get i + c i := by
      funext x
      exact (hfg (vecOf x) rfl).2.2 i
    rw [e, fderiv_add_const]
  · rfl

private theorem map_ok {α β : Type} {x : Except Err α} {f : α → β} {y : β} (h : x.map f = .ok y) : ∃ a, x = .ok a ∧ y = f a := by
  cases x with
  | error => cases h
  | ok a => cases h; exact ⟨a, rfl, rfl⟩

private theorem forall₂_left {α β : Type} {r : α → β → Prop} {xs : List α} {ys : List β} (h : List.Forall₂ r xs ys) {x : α} (hx : x ∈ xs) : ∃ y ∈ ys, r x y := by
  induction h with
  | nil => cases hx
  | cons h _ ih =>
    rcases List.mem_cons.1 hx with rfl | hx
    · exact ⟨_, List.mem_cons_self, h⟩
    · obtain ⟨y, hy, hr⟩ := ih hx
      exact ⟨y, List.mem_cons_of_mem _ hy, hr⟩

/-- The sizes of a task of a problem that is solved. -/
private theorem rows_of {env : Env K} {J : JaxProblem K} {d : MjData K} (hsz : WellSized env J d) {m : MjModel K} {qp : QP K} (hqp : problemQP env m J d = .ok qp)
    {nj : String × JaxComp K} (hj : nj ∈ J.comps) {a : Attrs K} (hc : CompilesTo a nj.2) {A : TaskA K} (hA : a.kind.taskA? = some A) {t : Mat K} {V : Vec K}
    (ht : evalJacobian env nj.2 d = .ok t) (hV : evalValue env nj.2 d = .ok V) : V.len = t.rows ∧ a.dim = t.rows := by
  obtain ⟨vMin, vMax, cs, h1, h2, h3, -⟩ := problemQP_ok hqp
  obtain ⟨s, hs, hs'⟩ := (mapM_mem h3).1 nj.2 (List.mem_map.2 ⟨nj, hj, rfl⟩)
  have hsh := (hsz vMin vMax cs h1 h2 h3).comps s hs
  obtain ⟨t', V', g, e1, e2, e3, e4⟩ := solverComp_ok hs'
  obtain rfl := Except.ok.inj (ht.symm.trans e1)
  obtain rfl := Except.ok.inj (hV.symm.trans e2)
  obtain ⟨n, n1, n2, -⟩ := hc.gain
  rw [toVec_of_shape n2] at e3
  cases e3
  have hk := hc.kind
  have : CompShaped J.model.nv s → V.len = t.rows ∧ n = t.rows := by
    intro hsh
    unfold wrapComp at e4
    cases hkd : a.kind <;> rw [hkd] at hA hk <;> simp only [Kind.taskA?, Option.some.injEq, reduceCtorEq] at hA <;>
      cases hj : nj.2.kind <;> rw [hj] at hk e4 <;> simp only [KindOf] at hk <;> dsimp only at e4 <;>
      (obtain ⟨W, -, rfl⟩ := map_ok e4; exact ⟨hsh.1.value.symm ▸ rfl, hsh.1.gain⟩)
  obtain ⟨r1, r2⟩ := this hsh
  exact ⟨r1, by rw [n1, r2]⟩

/-- **C121.** After any program, move the target of one task (of a joint, position or centre-of-mass task without damping, with linear gain) with `update_target`,
compile, and solve at the same configuration as without that call.  The weighted rates of the values of all tasks and soft constraints together then change by at most
as much as gain times the weighted change of the target. -/
theorem C121_nudge (ops : List (Op ℝ)) {p k : Nat} {nm : String} {P : Prob ℝ} (hP : (run World.init ops).probs[p]? = some P) (hk : (nm, k) ∈ P.comps)
    {c : Comp ℝ} (hc : (run World.init ops).comps[k]? = some c) {m : Nat} {x x' w : Arr ℝ} (hx : targetOf c = some x) (hm : x.shape = [m]) (hm' : x'.shape = [m])
    (hw : costAttr c = some w) (hlm : lmAttr c = some 0) (hgf : c.attrs.gainFn = id)
    (hacc : ∃ r, (step (run World.init ops) (.comp k (.updateTarget x'))).1 = .ok r) {J J' : JaxProblem ℝ}
    (hJ : (step (run World.init ops) (.compile p)).1 = .ok (.compiled J))
    (hJ' : (step (run World.init (ops ++ [.comp k (.updateTarget x')])) (.compile p)).1 = .ok (.compiled J'))
    {env : Env ℝ} (hfc : ForgetsConstants env) (hfs : ∀ nj ∈ J.comps, FixedSizes env nj.2.model) {I : Type} {osqp : QPSolver ℝ I} (ho : Exact osqp) {q : Arr ℝ}
    (hsz : WellSized env J (update env P.model ⟨P.model.nq, fun i => q.get [i]⟩)) (hsz' : WellSized env J' (update env P.model ⟨P.model.nq, fun i => q.get [i]⟩))
    {s₀ s₁ s₀' s₁' : LocalIKData ℝ} {sol sol' : LocalIKSolution ℝ I}
    (h : localSolve env osqp P.model q s₀ J = .ok (sol, s₁)) (h' : localSolve env osqp P.model q s₀' J' = .ok (sol', s₁')) :
    ∃ ts, TermsOf (run World.init ops) P J env (update env P.model ⟨P.model.nq, fun i => q.get [i]⟩) ts ∧
      ((∃ u, Allowed P.model.nv P.vMin P.vMax ts u) → (∀ t ∈ ts, t.Braking) →
        (ts.map (Term.swing sol.vOpt.get sol'.vOpt.get)).sum ≤ nudge c.attrs.gain w x x' m) := by
  set op : CompOp ℝ := .updateTarget x' with hop
  have hrun : run World.init (ops ++ [.comp k op]) = ⟨setComp (run World.init ops).comps k (op.run c).2, (run World.init ops).probs⟩ := by
    rw [run_snoc]; simp only [step, hc]
  have hP' : (run World.init (ops ++ [.comp k op])).probs[p]? = some P := by rw [hrun]; exact hP
  have model_eq : ∀ {w : World ℝ} {J : JaxProblem ℝ}, ReachableW w → (step w (.compile p)).1 = .ok (.compiled J) → w.probs[p]? = some P → J.model = P.model := by
    intro w J hw hJ hP
    obtain ⟨Q, hQ, e, -⟩ := compile_comps hw hJ
    rw [hP] at hQ; cases hQ; exact e
  have e1 := model_eq ⟨_, rfl⟩ hJ hP
  have e2 := model_eq ⟨_, rfl⟩ hJ' hP'
  rw [← e1] at h hsz
  rw [← e2] at h' hsz'
  obtain ⟨P1, ts, g1, ht, hb⟩ := C91_real_solution ops hJ ho hsz h
  obtain ⟨P2, ts', g2, ht', hb'⟩ := C91_real_solution _ hJ' ho hsz' h'
  rw [hP] at g1; cases g1
  rw [hP'] at g2; cases g2
  obtain ⟨qp, hqp, -⟩ := localSolve_ok h
  rw [e1] at ht hsz hqp
  rw [e2] at ht'
  obtain ⟨a, t, t', b, rfl, rfl, hpos, ha, ha', j, j', c1, c2, v1, v2, v3, v4⟩ := edit_terms hP hk hc op hJ hJ' ht ht'
  refine ⟨a ++ t :: b, ht, fun hu hbr => ?_⟩
  -- the compiled task is part of the problem
  obtain ⟨nj, hnj, rfl⟩ : ∃ nj ∈ J.comps, nj.2 = j := by
    obtain ⟨Q, hQ, hF⟩ := compile_results ⟨_, rfl⟩ hJ
    rw [hP] at hQ; cases hQ
    obtain ⟨nj, hnj, -, c', hc', hr⟩ := forall₂_left hF hk
    rw [hc] at hc'; cases hc'
    exact ⟨nj, hnj, Except.ok.inj (hr.symm.trans c1)⟩
  -- what the call changed
  obtain ⟨A, hA, hAw, hAl, hchange, hmv⟩ : ∃ A, c.attrs.kind.taskA? = some A ∧ A.cost = w ∧ A.lmDamping = 0 ∧
      ((op.run c).2.attrs.kind.taskA? = some A ∧ (op.run c).2.attrs.gain = c.attrs.gain ∧ (op.run c).2.attrs.gainFn = c.attrs.gainFn ∧ (c.attrs.dim ≠ -1 → c.attrs.dim = m)) ∧
      Moved x x' nj.2 j' := by
    have h1 := compileResult_spec c1
    have h2 := compileResult_spec c2
    obtain ⟨r, hr⟩ := hacc
    simp only [step, hc] at hr
    have hr : (updateTarget x' c).1.map (fun _ => (Res.none : Res ℝ)) = .ok r := hr
    have h2 : CompilesTo (updateTarget x' c).2.attrs j' := h2
    show ∃ A, c.attrs.kind.taskA? = some A ∧ A.cost = w ∧ A.lmDamping = 0 ∧
      ((updateTarget x' c).2.attrs.kind.taskA? = some A ∧ (updateTarget x' c).2.attrs.gain = c.attrs.gain ∧ (updateTarget x' c).2.attrs.gainFn = c.attrs.gainFn ∧
        (c.attrs.dim ≠ -1 → c.attrs.dim = m)) ∧ Moved x x' nj.2 j'
    have hl : x'.lastDim = .ok m := by unfold Arr.lastDim; rw [hm']; rfl
    have md : ∀ {a' : Attrs ℝ}, a'.model = c.attrs.model → a'.dim = c.attrs.dim → a'.mask = c.attrs.mask → a'.maskIdxs = c.attrs.maskIdxs → CompilesTo a' j' →
        j'.model = nj.2.model ∧ j'.dim = nj.2.dim ∧ j'.maskIdxs = nj.2.maskIdxs := by
      intro a' f1 f2 f3 f4 f
      refine ⟨Option.some.inj (f.model.symm.trans (f1.trans h1.model)), f.dim.trans (f2.trans h1.dim.symm), ?_⟩
      rw [f.maskIdxs, h1.maskIdxs, f2, f3, f4]
    unfold targetOf at hx
    unfold costAttr at hw
    unfold lmAttr at hlm
    have k1 := h1.kind
    unfold updateTarget at hr h2 ⊢
    cases hkd : c.attrs.kind <;> simp only [hkd, Option.some.injEq, reduceCtorEq] at hx hw hlm hr h2 k1 ⊢ <;> simp only [hl] at hr h2 ⊢
    case comTask A y =>
      subst hx
      split_ifs at hr h2 ⊢ with hd
      · cases hr
      · have k2 := h2.kind
        dsimp only [Comp.set] at k2
        obtain ⟨f1, f2, f3⟩ := md (a' := _) (by exact rfl) (by exact rfl) (by exact rfl) (by exact rfl) h2
        refine ⟨A, rfl, hw, hlm, ⟨rfl, rfl, rfl, fun _ => (not_not.1 hd).symm⟩, f1, f2, f3, ?_⟩
        cases e1 : nj.2.kind <;> rw [e1] at k1 <;> simp only [KindOf] at k1 <;> cases e2 : j'.kind <;> rw [e2] at k2 <;> simp only [KindOf] at k2
        exact ⟨k1.2.2, k2.2.2⟩
    case positionTask A o y =>
      subst hx
      split_ifs at hr h2 ⊢ with hd
      · cases hr
      · have k2 := h2.kind
        dsimp only [Comp.set] at k2
        obtain ⟨f1, f2, f3⟩ := md (a' := _) (by exact rfl) (by exact rfl) (by exact rfl) (by exact rfl) h2
        refine ⟨A, rfl, hw, hlm, ⟨rfl, rfl, rfl, fun _ => (not_not.1 hd).symm⟩, f1, f2, f3, ?_⟩
        cases e1 : nj.2.kind <;> rw [e1] at k1 <;> simp only [KindOf] at k1 <;> cases e2 : j'.kind <;> rw [e2] at k2 <;> simp only [KindOf] at k2
        exact ⟨k1.2.2.2.2, k2.2.2.2.2, k2.2.2.1.trans k1.2.2.1.symm, k2.2.2.2.1.trans k1.2.2.2.1.symm⟩
    case jointTask A fm y qi =>
      subst hx
      have fin : ∀ {a' : Attrs ℝ}, a' = { c.attrs with kind := .jointTask A fm (some x') qi } → CompilesTo a' j' → Moved x x' nj.2 j' := by
        intro a' ea f
        subst ea
        have k2 := f.kind
        dsimp only at k2
        obtain ⟨f1, f2, f3⟩ := md (a' := _) (by exact rfl) (by exact rfl) (by exact rfl) (by exact rfl) f
        refine ⟨f1, f2, f3, ?_⟩
        cases e1 : nj.2.kind <;> rw [e1] at k1 <;> simp only [KindOf] at k1 <;> cases e2 : j'.kind <;> rw [e2] at k2 <;> simp only [KindOf] at k2
        exact ⟨Option.some.inj k1.2.2.1, Option.some.inj k2.2.2.1, Option.some.inj (k2.2.2.2.trans k1.2.2.2.symm)⟩
      split_ifs at hr h2 ⊢ with hd hd'
      · exact ⟨A, rfl, hw, hlm, ⟨rfl, rfl, rfl, fun h => absurd hd h⟩, fin rfl h2⟩
      · cases hr
      · exact ⟨A, rfl, hw, hlm, ⟨rfl, rfl, rfl, fun _ => (not_not.1 hd').symm⟩, fin rfl h2⟩
  obtain ⟨s1, s2⟩ := rows_of hsz hqp hnj (compileResult_spec c1) hA v1 v2
  obtain ⟨hA', hg, hgf', hdim⟩ := hchange
  have hrows : t.jac.rows = m := by
    have := hdim (by rw [s2]; omega)
    rw [s2] at this
    exact_mod_cast this
  have hjac : t'.jac = t.jac := moved_jacobian hmv hm hm' (hfs nj hnj) hfc v1 v3
  have hval := moved_entries hmv hm hm' v2 v4 (s1.trans hrows)
  have hre : Retargeted w t t' := by
    refine ⟨⟨A, A, by rw [ha]; exact hA, by rw [ha']; exact hA', hAw, hAw, hAl, hAl⟩, hjac⟩
  have hall : ∀ u, Allowed P.model.nv P.vMin P.vMax (a ++ t' :: b) u ↔ Allowed P.model.nv P.vMin P.vMax (a ++ t :: b) u := retargeted_allowed hre
  obtain ⟨u, hu⟩ := hu
  have key := C121_best hre (fun z hz => hbr z (by simp only [List.mem_append, List.mem_cons] at hz ⊢; tauto)) (hb ⟨u, hu⟩) (hb' ⟨u, (hall u).2 hu⟩)
  refine key.trans (le_of_eq ?_)
  unfold nudge sqNorm
  rw [hrows]
  refine sum_congr rfl fun r _ => ?_
  dsimp only
  rw [← neg_sq, ← sum_neg_distrib]
  congr 1
  refine sum_congr rfl fun i _ => ?_
  unfold Term.rate
  rw [ha, ha', hg, hgf', hgf, hval]
  simp only [id]
  ring

end Mjinx.Props
