import Verif.Spec.Priority
import Verif.Lemmas.Edit
import Verif.Props.Energy

/-!
# C120: costs set priorities
-/

set_option linter.unusedSectionVars false

namespace Mjinx.Props
open Spec Finset
variable {K : Type} [Field K] [LinearOrder K] [IsStrictOrderedRing K]

theorem weightAt_scaled (s : K) (w : Arr K) (r k : Nat) : weightAt (scaled s w) r k = s * weightAt w r k := by
  unfold weightAt scaled
  dsimp only
  split
  · split <;> simp
  · split <;> simp
  · rfl

/-- The term with its cost multiplied by `s`. -/
def Reweighed (s : K) (t t' : Term K) : Prop :=
  ∃ a, t.attrs.kind.taskA? = some a ∧ t' = ⟨{ t.attrs with kind := t.attrs.kind.setTaskA { a with cost := scaled s a.cost } }, t.jac, t.value⟩

private theorem misfit_scaled (s : K) (t : Term K) (a' : Attrs K) (hg : a'.gain = t.attrs.gain) (hf : a'.gainFn = t.attrs.gainFn) (w : Arr K) (v : Nat → K) (r : Nat) :
    Term.misfit ⟨a', t.jac, t.value⟩ (scaled s w) v r = s * t.misfit w v r := by
  unfold Term.misfit Term.rate
  rw [mul_sum]
  refine sum_congr rfl fun k _ => ?_
  dsimp only
  rw [weightAt_scaled, hg, hf]; ring

private theorem reweighed_price {s : K} {t t' : Term K} (h : Reweighed s t t') (n : Nat) (v : Nat → K) :
    t'.price n v = s ^ 2 * t.price n v ∧ (t'.Allows v ↔ t.Allows v) := by
  obtain ⟨a, ha, rfl⟩ := h
  obtain ⟨⟨nm, mo, ga, gf, di, ma, mi, k⟩, J, f⟩ := t
  have key : ∀ (b : Attrs K), b.gain = ga → b.gainFn = gf → ∀ u : Nat → K,
      sqNorm J.rows (Term.misfit ⟨b, J, f⟩ (scaled s a.cost) u) = s ^ 2 * sqNorm J.rows (Term.misfit ⟨⟨nm, mo, ga, gf, di, ma, mi, k⟩, J, f⟩ a.cost u) := by
    intro b hb1 hb2 u
    rw [← sqNorm_smul]
    unfold sqNorm
    refine sum_congr rfl fun r _ => ?_
    rw [misfit_scaled s ⟨⟨nm, mo, ga, gf, di, ma, mi, k⟩, J, f⟩ b hb1 hb2]
  cases k <;> simp only [Kind.taskA?, Option.some.injEq, reduceCtorEq] at ha <;> subst ha <;> unfold Term.price Term.Allows <;> simp only [Kind.setTaskA] <;>
    exact ⟨by rw [key _ rfl rfl v, key _ rfl rfl fun _ => 0]; ring, trivial⟩

section
variable {n : Nat} {vMin vMax : Arr K} {a b : List (Term K)} {t t' : Term K} {s : K}

private theorem total_split (a b : List (Term K)) (t : Term K) (v : Nat → K) : totalPrice n (a ++ t :: b) v = t.price n v + totalPrice n (a ++ b) v := by
  unfold totalPrice
  simp only [List.map_append, List.map_cons, List.sum_append, List.sum_cons]
  ring

private theorem allowed_iff (h : Reweighed s t t') (v : Nat → K) : Allowed n vMin vMax (a ++ t' :: b) v ↔ Allowed n vMin vMax (a ++ t :: b) v := by
  unfold Allowed
  refine and_congr_right fun _ => ?_
  simp only [List.forall_mem_append, List.forall_mem_cons, (reweighed_price h n v).2]

/-- **C120 (priority).** Raising the cost of one task: the task is met at least as well as before, and all others together at most as well. -/
theorem C120_best_priority (h : Reweighed s t t') (hs : 1 < s) {v v' : Nat → K} (hv : Best n vMin vMax (a ++ t :: b) v)
    (hv' : Best n vMin vMax (a ++ t' :: b) v') : t.price n v' ≤ t.price n v ∧ totalPrice n (a ++ b) v ≤ totalPrice n (a ++ b) v' := by
  have h1 := hv.2 v' ((allowed_iff h v').1 hv'.1)
  have h2 := hv'.2 v ((allowed_iff h v).2 hv.1)
  rw [total_split, total_split, (reweighed_price h n _).1, (reweighed_price h n _).1] at h2
  rw [total_split, total_split] at h1
  have h3 : 0 < s ^ 2 - 1 := by nlinarith
  have h4 : (s ^ 2 - 1) * (t.price n v' - t.price n v) ≤ 0 := by linarith
  have h5 : t.price n v' ≤ t.price n v := by
    by_contra hn
    push Not at hn
    have := mul_pos h3 (sub_pos.2 hn)
    linarith
  exact ⟨h5, by linarith⟩

private theorem price_nonneg {t : Term K} (hb : t.Braking) (v : Nat → K) : 0 ≤ t.price n v := by
  unfold Term.price
  unfold Term.Braking at hb
  have fro : ∀ A : Mat K, 0 ≤ frobSq A := fun A => by
    unfold frobSq
    exact sum_nonneg fun _ _ => sum_nonneg fun _ _ => sq_nonneg _
  cases hk : t.attrs.kind <;> rw [hk] at hb <;> dsimp only at hb ⊢
  case modelEquality =>
    split
    · exact le_rfl
    · have := sqNorm_nn t.jac.rows (t.misfit (Option.getD ‹_› (Arr.scalar 100)) v)
      linarith
  case jointBarrier => exact div_nonneg (mul_nonneg (div_nonneg hb (fro _)) (sqNorm_nn _ _)) (by norm_num)
  case positionBarrier => exact div_nonneg (mul_nonneg (div_nonneg hb (fro _)) (sqNorm_nn _ _)) (by norm_num)
  case selfCollision => exact div_nonneg (mul_nonneg (div_nonneg hb (fro _)) (sqNorm_nn _ _)) (by norm_num)
  all_goals
    exact add_nonneg (div_nonneg (sqNorm_nn _ _) (by norm_num)) (div_nonneg (mul_nonneg (mul_nonneg hb (sqNorm_nn _ _)) (sqNorm_nn _ _)) (by norm_num))

/-- **C120 (limit).** With its cost multiplied by `s` a task is met as well as by any allowed velocity, up to the price the others put on that velocity over `s²`. -/
theorem C120_best_limit (h : Reweighed s t t') (hs : 0 < s) (hb : ∀ x ∈ a ++ b, x.Braking) {v' : Nat → K}
    (hv' : Best n vMin vMax (a ++ t' :: b) v') {u : Nat → K} (hu : Allowed n vMin vMax (a ++ t :: b) u) :
    t.price n v' ≤ t.price n u + totalPrice n (a ++ b) u / s ^ 2 := by
  have h2 := hv'.2 u ((allowed_iff h u).2 hu)
  rw [total_split, total_split, (reweighed_price h n _).1, (reweighed_price h n _).1] at h2
  have h3 : 0 ≤ totalPrice n (a ++ b) v' := by
    unfold totalPrice
    refine List.sum_nonneg fun x hx => ?_
    obtain ⟨y, hy, rfl⟩ := List.mem_map.1 hx
    exact price_nonneg (hb y hy) v'
  have h4 : 0 < s ^ 2 := by positivity
  have h5 : s ^ 2 * t.price n v' ≤ s ^ 2 * (t.price n u + totalPrice n (a ++ b) u / s ^ 2) := by
    have : s ^ 2 * (t.price n u + totalPrice n (a ++ b) u / s ^ 2) = s ^ 2 * t.price n u + totalPrice n (a ++ b) u := by field_simp
    rw [this]; linarith
  exact le_of_mul_le_mul_left h5 h4

end

/-! ### Programs -/

/-- Nothing a compiled task computes depends on its cost. -/
private theorem eval_cost {c : Comp K} {a : TaskA K} (ha : c.attrs.kind.taskA? = some a) {w : Arr K} {j j' : JaxComp K} (hj : CompilesTo c.attrs j)
    (hj' : CompilesTo { c.attrs with kind := c.attrs.kind.setTaskA { a with cost := w } } j') (env : Env K) (d : MjData K) :
    evalJacobian env j' d = evalJacobian env j d ∧ evalValue env j' d = evalValue env j d := by
  have m1 := hj.model; have m2 := hj'.model
  have d1 := hj.dim; have d2 := hj'.dim
  have i1 := hj.maskIdxs; have i2 := hj'.maskIdxs
  have k1 := hj.kind; have k2 := hj'.kind
  dsimp only at m2 d2 i2 k2
  rw [m1] at m2
  have m := Option.some.inj m2
  have i := i2.trans i1.symm
  have d' := d2.trans d1.symm
  obtain ⟨jm, jd, jg, jf, ji, jk⟩ := j
  obtain ⟨jm', jd', jg', jf', ji', jk'⟩ := j'
  dsimp only at m i d' k1 k2
  subst m i d'
  have hv : ∀ d, evalValue env ⟨jm', jd, jg', jf', ji', jk'⟩ d = evalValue env ⟨jm', jd, jg, jf, ji', jk⟩ d := by
    intro d
    cases hk : c.attrs.kind <;> rw [hk] at ha k1 k2 <;> simp only [Kind.taskA?, Option.some.injEq, reduceCtorEq] at ha <;> simp only [Kind.setTaskA] at k2 <;>
      cases jk <;> simp only [KindOf] at k1 <;> cases jk' <;> simp only [KindOf] at k2
    case comTask => obtain ⟨-, -, rfl⟩ := k1; obtain ⟨-, -, rfl⟩ := k2; rfl
    case jointTask =>
      obtain ⟨-, -, e1, e2⟩ := k1; obtain ⟨-, -, e3, e4⟩ := k2
      cases e1.trans e3.symm; cases e2.trans e4.symm; rfl
    case positionTask => obtain ⟨-, -, rfl, rfl, rfl⟩ := k1; obtain ⟨-, -, rfl, rfl, rfl⟩ := k2; rfl
    case frameTask => obtain ⟨-, -, rfl, rfl, rfl⟩ := k1; obtain ⟨-, -, rfl, rfl, rfl⟩ := k2; rfl
  refine ⟨?_, hv d⟩
  have hv' : evalValue env ⟨jm', jd, jg', jf', ji', jk'⟩ = evalValue env ⟨jm', jd, jg, jf, ji', jk⟩ := funext hv
  have hauto : ∀ com, autoJacobian env ⟨jm', jd, jg', jf', ji', jk'⟩ d com = autoJacobian env ⟨jm', jd, jg, jf, ji', jk⟩ d com := by
    intro com
    unfold autoJacobian
    simp only [hv']
  cases hk : c.attrs.kind <;> rw [hk] at ha k1 k2 <;> simp only [Kind.taskA?, Option.some.injEq, reduceCtorEq] at ha <;> simp only [Kind.setTaskA] at k2 <;>
    cases jk <;> simp only [KindOf] at k1 <;> cases jk' <;> simp only [KindOf] at k2
  case comTask => exact hauto true
  case jointTask => rfl
  case positionTask => exact hauto false
  case frameTask => obtain ⟨-, -, rfl, rfl, rfl⟩ := k1; obtain ⟨-, -, rfl, rfl, rfl⟩ := k2; rfl

/-- **C120.** After any program, multiply the cost of one task of the problem by `s > 1` with `update_cost`, compile, and solve at the same configuration as without
that call.  The velocity then meets the task at least as well, all other components together at most as well; and the task is met as well as by any allowed
velocity, up to what the others ask for that velocity over `s²`. -/
theorem C120_priority (ops : List (Op ℝ)) {p k : Nat} {nm : String} {P : Prob ℝ} (hP : (run World.init ops).probs[p]? = some P) (hk : (nm, k) ∈ P.comps)
    {c : Comp ℝ} (hc : (run World.init ops).comps[k]? = some c) {w : Arr ℝ} (hw : costAttr c = some w) {s : ℝ} (hs : 1 < s)
    (hacc : ∃ r, (step (run World.init ops) (.comp k (.updateCost (scaled s w)))).1 = .ok r) {J J' : JaxProblem ℝ}
    (hJ : (step (run World.init ops) (.compile p)).1 = .ok (.compiled J))
    (hJ' : (step (run World.init (ops ++ [.comp k (.updateCost (scaled s w))])) (.compile p)).1 = .ok (.compiled J'))
    {env : Env ℝ} {I : Type} {osqp : QPSolver ℝ I} (ho : Exact osqp) {q : Arr ℝ}
    (hsz : WellSized env J (update env P.model ⟨P.model.nq, fun i => q.get [i]⟩)) (hsz' : WellSized env J' (update env P.model ⟨P.model.nq, fun i => q.get [i]⟩))
    {s₀ s₁ s₀' s₁' : LocalIKData ℝ} {sol sol' : LocalIKSolution ℝ I}
    (h : localSolve env osqp P.model q s₀ J = .ok (sol, s₁)) (h' : localSolve env osqp P.model q s₀' J' = .ok (sol', s₁')) :
    ∃ a t b, TermsOf (run World.init ops) P J env (update env P.model ⟨P.model.nq, fun i => q.get [i]⟩) (a ++ t :: b) ∧ P.comps[a.length]? = some (nm, k) ∧
      ∀ u, Allowed P.model.nv P.vMin P.vMax (a ++ t :: b) u →
        t.price P.model.nv sol'.vOpt.get ≤ t.price P.model.nv sol.vOpt.get ∧
        totalPrice P.model.nv (a ++ b) sol.vOpt.get ≤ totalPrice P.model.nv (a ++ b) sol'.vOpt.get ∧
        ((∀ x ∈ a ++ b, x.Braking) → t.price P.model.nv sol'.vOpt.get ≤ t.price P.model.nv u + totalPrice P.model.nv (a ++ b) u / s ^ 2) := by
  set op : CompOp ℝ := .updateCost (scaled s w) with hop
  have hrun : run World.init (ops ++ [.comp k op]) = ⟨setComp (run World.init ops).comps k (op.run c).2, (run World.init ops).probs⟩ := by
    rw [run_snoc]; simp only [step, hc]
  have hP' : (run World.init (ops ++ [.comp k op])).probs[p]? = some P := by rw [hrun]; exact hP
  have model_eq : ∀ {w : World ℝ} {J : JaxProblem ℝ}, ReachableW w → (step w (.compile p)).1 = .ok (.compiled J) → w.probs[p]? = some P → J.model = P.model := by
    intro w J hw hJ hP
    obtain ⟨Q, hQ, e, -⟩ := compile_comps hw hJ
    rw [hP] at hQ; cases hQ; exact e
  have e1 := model_eq ⟨_, rfl⟩ hJ hP
  have e2 := model_eq ⟨_, rfl⟩ hJ' hP'
  rw [← e1] at h hsz
  rw [← e2] at h' hsz'
  obtain ⟨P1, ts, g1, ht, hb⟩ := C91_real_solution ops hJ ho hsz h
  obtain ⟨P2, ts', g2, ht', hb'⟩ := C91_real_solution _ hJ' ho hsz' h'
  rw [hP] at g1; cases g1
  rw [hP'] at g2; cases g2
  rw [e1] at ht
  rw [e2] at ht'
  obtain ⟨a, t, t', b, rfl, rfl, hpos, ha, ha', j, j', c1, c2, v1, v2, v3, v4⟩ := edit_terms hP hk hc op hJ hJ' ht ht'
  refine ⟨a, t, b, ht, hpos, fun u hu => ?_⟩
  have htask : ∃ A, c.attrs.kind.taskA? = some A ∧ A.cost = w := by
    unfold costAttr at hw
    cases hkd : c.attrs.kind <;> rw [hkd] at hw <;> simp only [Option.some.injEq, reduceCtorEq] at hw <;> exact ⟨_, rfl, hw⟩
  obtain ⟨A, hA, rfl⟩ := htask
  have hrun' : (op.run c).2.attrs = { c.attrs with kind := c.attrs.kind.setTaskA { A with cost := scaled s A.cost } } := by
    obtain ⟨r, hr⟩ := hacc
    simp only [step, hc] at hr
    show (updateCost (scaled s A.cost) c).2.attrs = _
    have : (updateCost (scaled s A.cost) c).1.map (fun _ => (Res.none : Res ℝ)) = .ok r := hr
    unfold updateCost at this ⊢
    rw [hA] at this ⊢
    dsimp only at this ⊢
    by_cases hd : (scaled s A.cost).ndim > 2
    · rw [if_pos hd] at this; cases this
    · rw [if_neg hd]; rfl
  have hre : Reweighed s t t' := by
    refine ⟨A, by rw [ha]; exact hA, ?_⟩
    rw [hrun'] at c2 ha'
    obtain ⟨f1, f2⟩ := eval_cost hA (compileResult_spec c1) (compileResult_spec c2) env (update env P.model ⟨P.model.nq, fun i => q.get [i]⟩)
    rw [f1, v1] at v3
    rw [f2, v2] at v4
    obtain ⟨ta, tj, tv⟩ := t'
    have := Except.ok.inj v3
    have := Except.ok.inj v4
    dsimp only at *
    rw [ha]
    simp_all
  have b1 := hb ⟨u, hu⟩
  have b2 := hb' ⟨u, (allowed_iff hre u).2 hu⟩
  obtain ⟨r1, r2⟩ := C120_best_priority hre hs b1 b2
  exact ⟨r1, r2, fun hbr => C120_best_limit hre (by linarith) hbr b2 hu⟩

end Mjinx.Props
