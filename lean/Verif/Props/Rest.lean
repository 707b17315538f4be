import Verif.Spec.Rest
import Verif.Props.Energy
import Verif.Props.Loop
import Verif.Props.Sampled

/-!
# Where robots come to rest

Property C124.
-/

namespace Mjinx.Props
open Spec Finset
set_option linter.unusedSectionVars false
variable {K : Type} [Field K] [LinearOrder K] [IsStrictOrderedRing K] {n : Nat} {vMin vMax : Arr K} {ts : List (Term K)}

private theorem slope_pull (u : Nat → K) : totalSlope ts u = total (pull u) (ts.map (Term.seen n)) := by
  unfold totalSlope total
  rw [List.map_map]
  refine congrArg List.sum (List.map_congr_left fun t _ => ?_)
  obtain ⟨a, J, f⟩ := t
  obtain ⟨nm, mo, ga, gf, di, ma, mi, k⟩ := a
  cases k <;> rfl

private theorem price_split (u : Nat → K) : totalPrice n ts u = total (pace u) (ts.map (Term.seen n)) / 2 + totalSlope ts u +
    total urge (ts.map (Term.seen n)) / 2 + total drag (ts.map (Term.seen n)) * sqNorm n u / 2 := by
  rw [slope_pull (n := n), ← total_cost (n := n)]
  · unfold totalPrice
    rw [List.map_map]
    exact congrArg List.sum (List.map_congr_left fun t _ => (seen_cost u t).symm)
  · intro c hc
    obtain ⟨t, -, rfl⟩ := List.mem_map.1 hc
    exact seen_nod t

private theorem pace_nonneg (u : Nat → K) (c : SolverComp K) : 0 ≤ pace u c := by
  cases c with
  | task => exact sqNorm_nn _ _
  | barrier => exact le_rfl
  | constraint e a hard W => unfold pace; dsimp only; split; exacts [le_rfl, sqNorm_nn _ _]

private theorem drag_nonneg {t : Term K} (h : t.Braking) : 0 ≤ drag (Term.seen n t) := by
  obtain ⟨a, J, f⟩ := t
  obtain ⟨nm, mo, ga, gf, di, ma, mi, k⟩ := a
  have fr : 0 ≤ frobSq J := sum_nonneg fun i _ => sum_nonneg fun j _ => sq_nonneg _
  cases k <;> first | exact mul_nonneg h (sqNorm_nn _ _) | exact div_nonneg h fr | exact le_rfl

private theorem total_nonneg {f : SolverComp K → K} {cs : List (SolverComp K)} (h : ∀ c ∈ cs, 0 ≤ f c) : 0 ≤ total f cs :=
  List.sum_nonneg fun x hx => by
    obtain ⟨c, hc, rfl⟩ := List.mem_map.1 hx
    exact h c hc

private theorem total_drag (hbr : ∀ t ∈ ts, t.Braking) : 0 ≤ total drag (ts.map (Term.seen n)) :=
  total_nonneg fun c hc => by
    obtain ⟨t, ht, rfl⟩ := List.mem_map.1 hc
    exact drag_nonneg (hbr t ht)

private theorem slope_smul (s : K) (u : Nat → K) : totalSlope ts (fun i => s * u i) = s * totalSlope ts u := by
  rw [slope_pull (n := 0), slope_pull (n := 0), ← total_mul]
  exact total_congr fun c _ => pull_smul u s c

private theorem pace_zero : total (pace fun _ => (0 : K)) (ts.map (Term.seen n)) = 0 := by
  have : total (pace fun i => (0 : K) * (fun _ : Nat => (0 : K)) i) (ts.map (Term.seen n)) = 0 := by
    rw [show (pace fun i => (0 : K) * (fun _ : Nat => (0 : K)) i) = fun c => 0 ^ 2 * pace (fun _ => (0 : K)) c from funext fun c => pace_smul _ _ c, total_mul]
    simp
  simpa using this

private theorem slope_zero : totalSlope ts (fun _ => (0 : K)) = 0 := by
  have := slope_smul (ts := ts) (0 : K) (fun _ => 0)
  simpa using this

private theorem price_zero : totalPrice n ts (fun _ => (0 : K)) = total urge (ts.map (Term.seen n)) / 2 := by
  rw [price_split, pace_zero, slope_zero]
  have z : sqNorm n (fun _ => (0 : K)) = 0 := by simp [sqNorm]
  rw [z]; ring

/-- **C124 (rest).** Where standing still is allowed, it is a best velocity exactly if no allowed velocity makes the total weighted error shrink: robots stop nowhere else. -/
theorem C124_rest (h0 : Allowed n vMin vMax ts fun _ => 0) (hbr : ∀ t ∈ ts, t.Braking) :
    (Best n vMin vMax ts fun _ => 0) ↔ NothingToGain n vMin vMax ts := by
  constructor
  · intro hb u hu
    by_contra hneg
    push Not at hneg
    let A := total (pace u) (ts.map (Term.seen n)) + total drag (ts.map (Term.seen n)) * sqNorm n u
    have hA : 0 ≤ A := add_nonneg (total_nonneg fun c _ => pace_nonneg u c) (mul_nonneg (total_drag hbr) (sqNorm_nn n u))
    have key : ∀ s : K, 0 ≤ s → s ≤ 1 → 0 ≤ s ^ 2 * (A / 2) + s * totalSlope ts u := by
      intro s hs0 hs1
      have h := hb.2 _ (allowed_smul hu h0 hs0 hs1)
      rw [price_zero, price_split, slope_smul, sqNorm_smul,
        show (pace fun i => s * u i) = fun c => s ^ 2 * pace u c from funext fun c => pace_smul _ _ c, total_mul] at h
      have : s ^ 2 * (A / 2) = s ^ 2 * total (pace u) (ts.map (Term.seen n)) / 2 +
        total drag (ts.map (Term.seen n)) * (s ^ 2 * sqNorm n u) / 2 := by show s ^ 2 * ((_ + _) / 2) = _; ring
      rw [this]; linarith
    -- a short enough step gains
    have hB : 0 < A - totalSlope ts u := by linarith
    have hs0 : 0 < - totalSlope ts u / (A - totalSlope ts u) := div_pos (by linarith) hB
    have hs1 : - totalSlope ts u / (A - totalSlope ts u) ≤ 1 := by rw [div_le_one hB]; linarith
    have h := key _ hs0.le hs1
    have h2 : 0 ≤ - totalSlope ts u / (A - totalSlope ts u) * (A / 2) + totalSlope ts u := by
      by_contra hc
      push Not at hc
      have := mul_neg_of_pos_of_neg hs0 hc
      linarith [show (- totalSlope ts u / (A - totalSlope ts u)) ^ 2 * (A / 2) + - totalSlope ts u / (A - totalSlope ts u) * totalSlope ts u =
        - totalSlope ts u / (A - totalSlope ts u) * (- totalSlope ts u / (A - totalSlope ts u) * (A / 2) + totalSlope ts u) by ring]
    have h3 : - totalSlope ts u / (A - totalSlope ts u) * (A / 2) ≤ - totalSlope ts u / 2 := by
      rw [div_mul_eq_mul_div, div_le_iff₀ hB]
      nlinarith
    linarith
  · intro h
    refine ⟨h0, fun u hu => ?_⟩
    rw [price_zero, price_split]
    have h1 := h u hu
    have h2 : 0 ≤ total (pace u) (ts.map (Term.seen n)) := total_nonneg fun c _ => pace_nonneg u c
    have h3 := mul_nonneg (total_drag (n := n) hbr) (sqNorm_nn n u)
    linarith

private theorem slope_settled {t : Term K} (h : t.Settled) (u : Nat → K) : t.slope u = 0 := by
  obtain ⟨a, J, f⟩ := t
  obtain ⟨nm, mo, ga, gf, di, ma, mi, k⟩ := a
  have key : ∀ w : Arr K, (∀ r < J.rows, (⟨⟨nm, mo, ga, gf, di, ma, mi, k⟩, J, f⟩ : Term K).rate r = 0) →
      ∀ r, (⟨⟨nm, mo, ga, gf, di, ma, mi, k⟩, J, f⟩ : Term K).misfit w (fun _ => 0) r = 0 := by
    intro w hr r
    refine sum_eq_zero fun j hj => ?_
    rw [hr j (mem_range.1 hj)]
    simp [rowDot]
  cases k <;> unfold Term.slope <;> dsimp only <;>
    first
    | rfl
    | exact sum_eq_zero fun r _ => by rw [key _ h, mul_zero]
    | (split
       · rfl
       · rename_i hh
         exact sum_eq_zero fun r _ => by rw [key _ (h.resolve_left hh), mul_zero])

/-- **C124 (targets).** Where every task and soft constraint has what it asks for, there is nothing to gain, and standing still is a best velocity wherever it is allowed. -/
theorem C124_targets (h0 : Allowed n vMin vMax ts fun _ => 0) (hbr : ∀ t ∈ ts, t.Braking) (hs : ∀ t ∈ ts, t.Settled) :
    NothingToGain n vMin vMax ts ∧ Best n vMin vMax ts fun _ => 0 := by
  have hg : NothingToGain n vMin vMax ts := fun u _ => by
    refine le_of_eq (Eq.symm (List.sum_eq_zero fun x hx => ?_))
    obtain ⟨t, ht, rfl⟩ := List.mem_map.1 hx
    exact slope_settled (hs t ht) u
  exact ⟨hg, (C124_rest h0 hbr).2 hg⟩


/-- **C124 (progress).** Where standing still is allowed, a best velocity never makes the total weighted error grow; and it makes it shrink wherever any allowed velocity does. -/
theorem C124_progress (h0 : Allowed n vMin vMax ts fun _ => 0) (hbr : ∀ t ∈ ts, t.Braking) {v : Nat → K} (hv : Best n vMin vMax ts v) :
    totalSlope ts v ≤ 0 ∧ ((∃ u, Allowed n vMin vMax ts u ∧ totalSlope ts u < 0) → totalSlope ts v < 0) := by
  have hd := seen_descent hv h0
  rw [← slope_pull] at hd
  have h2 : 0 ≤ total (pace v) (ts.map (Term.seen n)) := total_nonneg fun c _ => pace_nonneg v c
  have h3 := mul_nonneg (total_drag (n := n) hbr) (sqNorm_nn n v)
  refine ⟨by linarith, ?_⟩
  rintro ⟨u, hu, hneg⟩
  by_contra hc
  push Not at hc
  have hb : Best n vMin vMax ts fun _ => 0 := by
    refine ⟨h0, fun w hw => le_trans ?_ (hv.2 w hw)⟩
    rw [price_zero, price_split]
    linarith
  have := (C124_rest h0 hbr).1 hb u hu
  linarith

private theorem sq_zero {m : Nat} {x : Nat → K} (h : sqNorm m x = 0) : ∀ i < m, x i = 0 := by
  intro i hi
  have := (sum_eq_zero_iff_of_nonneg fun j _ => sq_nonneg (x j)).1 h i (mem_range.2 hi)
  exact pow_eq_zero_iff (two_ne_zero) |>.1 this

private theorem total_zero {f : SolverComp K → K} {cs : List (SolverComp K)} (h : ∀ c ∈ cs, 0 ≤ f c) (hz : total f cs ≤ 0) : ∀ c ∈ cs, f c = 0 := by
  intro c hc
  have hle : f c ≤ total f cs :=
    List.single_le_sum (fun x hx => by obtain ⟨c, hc, rfl⟩ := List.mem_map.1 hx; exact h c hc) _ (List.mem_map.2 ⟨_, hc, rfl⟩)
  exact le_antisymm (by linarith) (h c hc)

/-- **C124 (standstill).** Where every velocity but zero costs something and no allowed velocity makes the total weighted error shrink, zero is the only best velocity. -/
theorem C124_standstill (h0 : Allowed n vMin vMax ts fun _ => 0) (hbr : ∀ t ∈ ts, t.Braking) (hpin : Pinned n ts) (hg : NothingToGain n vMin vMax ts)
    {v : Nat → K} (hv : Best n vMin vMax ts v) : ∀ i < n, v i = 0 := by
  have h1 := hg v hv.1
  have hd := seen_descent hv h0
  rw [← slope_pull] at hd
  have h2 : 0 ≤ total (pace v) (ts.map (Term.seen n)) := total_nonneg fun c _ => pace_nonneg v c
  have hdr := total_drag (n := n) hbr
  have h3 := mul_nonneg hdr (sqNorm_nn n v)
  have hpz := total_zero (fun c _ => pace_nonneg v c) (by linarith : total (pace v) (ts.map (Term.seen n)) ≤ 0)
  have hdz : total drag (ts.map (Term.seen n)) * sqNorm n v = 0 := by linarith
  have hpos : ∀ t ∈ ts, 0 < drag (Term.seen n t) → ∀ i < n, v i = 0 := by
    intro t ht hp
    have : 0 < total drag (ts.map (Term.seen n)) := by
      refine lt_of_le_of_ne hdr fun h => ?_
      have := total_zero (fun c hc => by obtain ⟨t, ht, rfl⟩ := List.mem_map.1 hc; exact drag_nonneg (hbr t ht)) h.symm.le _ (List.mem_map.2 ⟨t, ht, rfl⟩)
      linarith
    exact sq_zero ((mul_eq_zero.1 hdz).resolve_left this.ne')
  rcases hpin with ⟨t, ht, hs, hJ⟩ | ⟨t, ht, hu, hl⟩ | hker
  · refine hpos t ht ?_
    obtain ⟨a, J, f⟩ := t
    obtain ⟨nm, mo, ga, gf, di, ma, mi, k⟩ := a
    cases k <;> first | exact hs.elim | exact div_pos hs hJ
  · refine hpos t ht ?_
    obtain ⟨a, J, f⟩ := t
    obtain ⟨nm, mo, ga, gf, di, ma, mi, k⟩ := a
    cases k <;> first
      | exact hu.elim
      | (obtain ⟨r, hr, hne⟩ := hu
         refine mul_pos hl (lt_of_le_of_ne (sqNorm_nn _ _) fun h => hne ?_)
         exact sq_zero h.symm r hr)
  · refine hker v fun t ht r hr => ?_
    have hz := hpz _ (List.mem_map.2 ⟨t, ht, rfl⟩)
    obtain ⟨a, J, f⟩ := t
    obtain ⟨nm, mo, ga, gf, di, ma, mi, k⟩ := a
    cases k
    case modelEquality act hard c =>
      cases hard
      · exact .inr (sq_zero (show sqNorm J.rows _ = 0 from hz) r hr)
      · exact .inl rfl
    all_goals first | trivial | exact sq_zero (show sqNorm J.rows _ = 0 from hz) r hr

/-! ### Control loops -/

private theorem consec_le {nq nv : Nat} : ∀ {a b : Nat} {ts : List JntType} {as bs : List Nat}, Consecutive nq nv a b ts as bs → b ≤ nv
  | a, b, t :: ts, _ :: as, _ :: bs, h => by
    obtain ⟨rfl, rfl, h⟩ := h
    have := consec_le h
    omega
  | _, _, [], [], [], h => h.2.le
  | _, _, [], [], _ :: _, h => by simp [Consecutive] at h
  | _, _, [], _ :: _, _, h => by simp [Consecutive] at h
  | _, _, _ :: _, [], _, h => by simp [Consecutive] at h
  | _, _, _ :: _, _ :: _, [], h => by simp [Consecutive] at h

/-- Integration reads no velocities beyond the degrees of freedom. -/
theorem integrate_reads {nq nv : Nat} (quatInt : Quaternion K → V3 K → K → Quaternion K) (q : Nat → K) (dt : K) {v v' : Nat → K} (hv : ∀ i < nv, v i = v' i) :
    ∀ {a b : Nat} {ts : List JntType} {as bs : List Nat}, Consecutive nq nv a b ts as bs →
      integrateLoop quatInt q v dt ts a b = integrateLoop quatInt q v' dt ts a b
  | a', b', t :: ts, a :: as, b :: bs, h => by
    obtain ⟨rfl, rfl, h⟩ := h
    have ih := integrate_reads quatInt q dt hv h
    have hle := consec_le h
    cases t with
    | free =>
      have hle : b + 6 ≤ nv := hle
      have e1 : vec3At v b = vec3At v' b := by simp only [vec3At, hv b (by omega), hv (b + 1) (by omega), hv (b + 2) (by omega)]
      have e2 : vec3At v (b + 3) = vec3At v' (b + 3) := by
        simp only [vec3At, hv (b + 3) (by omega), hv (b + 3 + 1) (by omega), hv (b + 3 + 2) (by omega)]
      simp only [integrateLoop, e1, e2]
      exact congrArg _ ih
    | ball =>
      have hle : b + 3 ≤ nv := hle
      have e1 : vec3At v b = vec3At v' b := by simp only [vec3At, hv b (by omega), hv (b + 1) (by omega), hv (b + 2) (by omega)]
      simp only [integrateLoop, e1]
      exact congrArg _ ih
    | hinge =>
      have hle : b + 1 ≤ nv := hle
      simp only [integrateLoop, hv b (by omega)]
      exact congrArg _ ih
    | slide =>
      have hle : b + 1 ≤ nv := hle
      simp only [integrateLoop, hv b (by omega)]
      exact congrArg _ ih
  | _, _, [], [], [], _ => rfl
  | _, _, [], [], _ :: _, h => by simp [Consecutive] at h
  | _, _, [], _ :: _, _, h => by simp [Consecutive] at h
  | _, _, _ :: _, [], _, h => by simp [Consecutive] at h
  | _, _, _ :: _, _ :: _, [], h => by simp [Consecutive] at h

private theorem integrate_rest {env : Env ℝ} {m : MjModel ℝ} (he : env.quatIntegrate = quatIntegrateR) (hw : JointsWF m) (x : Fin m.nq → ℝ)
    (hu : UnitQuats m (vecOf x)) {v : Vec ℝ} (hv : ∀ i < m.nv, v.get i = 0) (dt : ℝ) : integrate env m (vecOf x) v dt = vecOf x := by
  have e : integrate env m (vecOf x) v dt = integrate env m (vecOf x) ⟨m.nv, fun _ => 0⟩ dt := by
    unfold integrate
    rw [integrate_reads env.quatIntegrate (vecOf x).get dt (v := v.get) (v' := fun _ => 0) hv hw.addr]
  rw [e, integrate_vecOf hw rfl]
  congr 1
  funext k
  exact (C71_rest he hw hu ⟨m.nv, fun _ => 0⟩ dt (.inr fun _ => rfl) k k.2).trans (dif_pos k.2)

/-- **C124 (loops).** A robot whose tasks have nothing to gain from any allowed velocity stays where it is, exactly and for any number of control steps. -/
theorem C124_stays {I : Type} {env : Env ℝ} {osqp : QPSolver ℝ I} (ho : Exact osqp) {m : MjModel ℝ} (he : env.quatIntegrate = quatIntegrateR) (hw : JointsWF m)
    {p : Nat} (dt : ℝ) (ops : List (Op ℝ)) (x : Fin m.nq → ℝ) (hu : UnitQuats m (vecOf x)) (s0 : LocalIKData ℝ)
    (hrest : AtRest env m p ⟨run World.init ops, vecOf x, s0⟩) (k : Nat) :
    (Spec.control env osqp m p dt ⟨run World.init ops, vecOf x, s0⟩ (List.replicate k .tick)).q = vecOf x := by
  -- the velocity found at the configuration is zero, whatever the solver data
  have hzero : ∀ J, (step (run World.init ops) (.compile p)).1 = .ok (.compiled J) → ∀ s sol s',
      localSolve env osqp m (vecOf x).toArr s J = .ok (sol, s') → ∀ i < m.nv, sol.vOpt.get i = 0 := by
    intro J hJ s sol s' hsol
    obtain ⟨rfl, hsz, hts⟩ := hrest J hJ
    obtain ⟨P, ts, hP, ht, hb⟩ := C91_real_solution ops hJ ho (q := (vecOf x).toArr) hsz hsol
    have hPm : P.model = J.model := by
      obtain ⟨P', hP', e, -⟩ := compile_comps ⟨ops, rfl⟩ hJ
      rw [hP] at hP'; cases hP'
      exact e.symm
    obtain ⟨h0, hbr, hpin, hg⟩ := hts P ts hP ht
    rw [hPm] at hb
    exact C124_standstill h0 hbr hpin hg (hb ⟨_, h0⟩)
  have key : ∀ k w s, ReachableW w → (step w (.compile p)).1 = (step (run World.init ops) (.compile p)).1 →
      (Spec.control env osqp m p dt ⟨w, vecOf x, s⟩ (List.replicate k .tick)).q = vecOf x := by
    intro k
    induction k with
    | zero => intro w s _ _; rfl
    | succ k ih =>
      intro w s hr hc
      obtain ⟨h2, -, -⟩ := C02_compile_twice hr p
      have hr' : ReachableW (step w (.compile p)).2 := by
        obtain ⟨o, rfl⟩ := hr
        exact ⟨o ++ [.compile p], by rw [run_append]; rfl⟩
      have hstep : (controlStep env osqp m p dt ⟨w, vecOf x, s⟩ .tick).q = vecOf x ∧
          (controlStep env osqp m p dt ⟨w, vecOf x, s⟩ .tick).world = (step w (.compile p)).2 := by
        refine ⟨?_, tick_world env osqp m p dt _⟩
        simp only [controlStep]
        split
        · rename_i J w' h
          rw [h] at hc
          split
          · rename_i sol s' hs
            exact integrate_rest he hw x hu (hzero J hc.symm s sol s' hs) dt
          · rfl
        · rfl
      show (Spec.control env osqp m p dt (controlStep env osqp m p dt ⟨w, vecOf x, s⟩ .tick) (List.replicate k .tick)).q = vecOf x
      have e : controlStep env osqp m p dt ⟨w, vecOf x, s⟩ .tick = ⟨(step w (.compile p)).2, vecOf x, (controlStep env osqp m p dt ⟨w, vecOf x, s⟩ .tick).data⟩ := by
        have hR : ∀ R : Robot ℝ, R.q = vecOf x → R.world = (step w (.compile p)).2 → R = ⟨(step w (.compile p)).2, vecOf x, R.data⟩ := by
          rintro ⟨a, b, c⟩ h1 h2
          dsimp only at h1 h2
          rw [h1, h2]
        exact hR _ hstep.1 hstep.2
      rw [e]
      exact ih _ _ hr' (h2.trans hc)
  exact key k _ s0 ⟨ops, rfl⟩ rfl

end Mjinx.Props
