import Verif.Spec.Slack
import Verif.Lemmas.Edit
import Verif.Props.Tempo

/-!
# C126: limits that do not bind have no influence
-/

set_option linter.unusedSectionVars false

namespace Mjinx.Props
open Spec Finset
variable {K : Type} [Field K] [LinearOrder K] [IsStrictOrderedRing K]

/-! ### Statements about all small steps -/

private def Soon (φ : K → Prop) : Prop := ∃ τ₀ > 0, ∀ τ, 0 < τ → τ ≤ τ₀ → φ τ

private theorem soon_and {φ ψ : K → Prop} (h : Soon φ) (h' : Soon ψ) : Soon fun τ => φ τ ∧ ψ τ := by
  obtain ⟨a, ha, h⟩ := h
  obtain ⟨b, hb, h'⟩ := h'
  exact ⟨min a b, lt_min ha hb, fun τ h0 h1 => ⟨h τ h0 (h1.trans (min_le_left _ _)), h' τ h0 (h1.trans (min_le_right _ _))⟩⟩

private theorem soon_range {φ : Nat → K → Prop} : ∀ n, (∀ i < n, Soon (φ i)) → Soon fun τ => ∀ i < n, φ i τ
  | 0, _ => ⟨1, one_pos, fun _ _ _ i hi => absurd hi (Nat.not_lt_zero i)⟩
  | n + 1, h => by
    obtain ⟨a, ha, h'⟩ := soon_and (soon_range n fun i hi => h i (by omega)) (h n (by omega))
    refine ⟨a, ha, fun τ h0 h1 i hi => ?_⟩
    obtain ⟨x, y⟩ := h' τ h0 h1
    rcases Nat.lt_succ_iff_lt_or_eq.1 hi with h2 | rfl
    · exact x i h2
    · exact y

private theorem soon_list {α : Type} {φ : α → K → Prop} : ∀ l : List α, (∀ t ∈ l, Soon (φ t)) → Soon fun τ => ∀ t ∈ l, φ t τ
  | [], _ => ⟨1, one_pos, fun _ _ _ t ht => by cases ht⟩
  | t :: l, h => by
    obtain ⟨a, ha, h'⟩ := soon_and (h t (List.mem_cons_self ..)) (soon_list l fun x hx => h x (List.mem_cons_of_mem _ hx))
    refine ⟨a, ha, fun τ h0 h1 x hx => ?_⟩
    obtain ⟨y, z⟩ := h' τ h0 h1
    rcases List.mem_cons.1 hx with rfl | hx
    · exact y
    · exact z x hx

private theorem soon_room {a x : K} (h : a < x) (d : K) : Soon fun τ => a ≤ x + τ * d := by
  refine ⟨(x - a) / (|d| + 1), div_pos (by linarith) (by positivity), fun τ h0 h1 => ?_⟩
  have h2 : τ * (|d| + 1) ≤ x - a := (le_div_iff₀ (by positivity)).1 h1
  have h3 : - |d| ≤ d := neg_abs_le d
  nlinarith

private theorem soon_both {a x y : K} (hx : a ≤ x) (hy : a ≤ y) : Soon fun τ => a ≤ x + τ * (y - x) :=
  ⟨1, one_pos, fun τ h0 h1 => by nlinarith⟩

/-! ### Best velocities -/

section
variable {n : Nat} {vMin vMax vMin' vMax' : Arr K} {ts extra extra' : List (Term K)}

private theorem price_limiting {t : Term K} (h : t.Limiting) (v : Nat → K) : t.price n v = 0 := by
  unfold Term.Limiting at h
  unfold Term.price
  cases hk : t.attrs.kind <;> rw [hk] at h <;> dsimp only at h ⊢
  all_goals first
    | exact h.elim
    | (rw [h]; simp)

private theorem total_limiting (h : ∀ t ∈ extra, t.Limiting) (v : Nat → K) : totalPrice n (ts ++ extra) v = totalPrice n ts v := by
  unfold totalPrice
  rw [List.map_append, List.sum_append]
  have : (extra.map (Term.price n v)).sum = 0 := List.sum_eq_zero fun x hx => by
    obtain ⟨t, ht, rfl⟩ := List.mem_map.1 hx
    exact price_limiting (h t ht) v
  rw [this, add_zero]

private theorem soon_allows {v u : Nat → K} {t : Term K} (hv : t.Allows v) (hu : t.Allows u) : Soon fun τ => t.Allows fun i => v i + τ * (u i - v i) := by
  unfold Term.Allows at hv hu ⊢
  cases hk : t.attrs.kind <;> rw [hk] at hv hu <;> dsimp only at hv hu ⊢
  case jointBarrier => exact soon_range _ fun r hr => by simp only [rowDot_way]; exact soon_both (hv r hr) (hu r hr)
  case positionBarrier => exact soon_range _ fun r hr => by simp only [rowDot_way]; exact soon_both (hv r hr) (hu r hr)
  case selfCollision => exact soon_range _ fun r hr => by simp only [rowDot_way]; exact soon_both (hv r hr) (hu r hr)
  case modelEquality => exact ⟨1, one_pos, fun τ _ _ h r hr => by rw [rowDot_way, hv h r hr, hu h r hr]; ring⟩
  all_goals exact ⟨1, one_pos, fun _ _ _ => trivial⟩

private theorem soon_spare {v : Nat → K} (u : Nat → K) {t : Term K} (hv : t.Spare v) : Soon fun τ => t.Allows fun i => v i + τ * (u i - v i) := by
  unfold Term.Spare at hv
  unfold Term.Allows
  cases hk : t.attrs.kind <;> rw [hk] at hv <;> dsimp only at hv ⊢
  case jointBarrier => exact soon_range _ fun r hr => by simp only [rowDot_way]; exact soon_room (hv r hr) _
  case positionBarrier => exact soon_range _ fun r hr => by simp only [rowDot_way]; exact soon_room (hv r hr) _
  case selfCollision => exact soon_range _ fun r hr => by simp only [rowDot_way]; exact soon_room (hv r hr) _

/-- **C126.** A best velocity stays best when velocity limits and barriers that it does not touch are dropped or moved, and when others are added that it keeps. -/
theorem C126_best (hb : ∀ t ∈ ts, t.Braking) (he : ∀ t ∈ extra, t.Limiting) (he' : ∀ t ∈ extra', t.Limiting) {v : Nat → K}
    (hc : Clear n vMin vMax vMin' vMax' v) (hs : ∀ t ∈ extra, t.Spare v) (ha : ∀ t ∈ extra', t.Allows v)
    (hv : Best n vMin vMax (ts ++ extra) v) : Best n vMin' vMax' (ts ++ extra') v := by
  have hv' : Allowed n vMin' vMax' (ts ++ extra') v := by
    refine ⟨fun i hi => ?_, fun t ht => ?_⟩
    · obtain ⟨h1, h2⟩ := hc i hi
      obtain ⟨g1, g2⟩ := hv.1.1 i hi
      constructor
      · rcases h1 with h | h
        · rw [h]; exact g1
        · exact h.2
      · rcases h2 with h | h
        · rw [h]; exact g2
        · exact h.2
    · rcases List.mem_append.1 ht with h | h
      · exact hv.1.2 t (List.mem_append_left _ h)
      · exact ha t h
  refine ⟨hv', fun u hu => ?_⟩
  have hsoon : Soon fun τ => Allowed n vMin vMax (ts ++ extra) fun i => v i + τ * (u i - v i) := by
    refine soon_and (soon_range n fun i hi => soon_and ?_ ?_) (soon_list _ fun t ht => ?_)
    · rcases (hc i hi).1 with h | h
      · exact soon_both (hv.1.1 i hi).1 (by rw [← h]; exact (hu.1 i hi).1)
      · exact soon_room h.1 _
    · have neg : ∀ {a x d : K}, (Soon fun τ => - a ≤ - x + τ * - d) → Soon fun τ => x + τ * d ≤ a := by
        rintro a x d ⟨t, ht, h⟩
        exact ⟨t, ht, fun τ h0 h1 => by have := h τ h0 h1; linarith⟩
      refine neg ?_
      rcases (hc i hi).2 with h | h
      · have := soon_both (a := - - vMin.get [i]) (x := - v i) (y := - u i) (neg_le_neg (hv.1.1 i hi).2) (neg_le_neg (by rw [← h]; exact (hu.1 i hi).2))
        have e : - u i - - v i = - (u i - v i) := by ring
        rwa [e] at this
      · exact soon_room (neg_lt_neg h.1) _
    · rcases List.mem_append.1 ht with h | h
      · exact soon_allows (hv.1.2 t ht) (hu.2 t (List.mem_append_left _ h))
      · exact soon_spare u (hs t h)
  obtain ⟨τ₀, h0, h⟩ := hsoon
  have hp : 0 < min τ₀ 1 := lt_min h0 one_pos
  have h1 := hv.2 _ (h _ hp (min_le_left _ _))
  rw [total_limiting he, total_limiting he] at h1
  have h2 := total_convex (n := n) hb v u hp.le (min_le_right τ₀ 1)
  rw [total_limiting he', total_limiting he']
  have h3 : min τ₀ 1 * totalPrice n ts v ≤ min τ₀ 1 * totalPrice n ts u := by linarith
  exact le_of_mul_le_mul_left h3 hp

end

/-! ### Programs -/

private theorem alike {α β : Type} {R R' : α → β → Prop} (h : ∀ x y z, R x y → R' x z → z = y) : ∀ {xs : List α} {ys zs : List β}, List.Forall₂ R xs ys →
    List.Forall₂ R' xs zs → zs = ys
  | _, _, _, .nil, .nil => rfl
  | _, _, _, .cons a as, .cons b bs => by rw [h _ _ _ a b, alike h as bs]

private theorem limiting_braking {t : Term K} (h : t.Limiting) : t.Braking := by
  unfold Term.Limiting at h
  unfold Term.Braking
  cases hk : t.attrs.kind <;> rw [hk] at h <;> dsimp only at h ⊢
  all_goals first
    | exact h.elim
    | trivial
    | exact h.ge

/-- **C126 (programs).** Two problems of a program: `p'` has the components of `p` and others that only limit, and perhaps other velocity limits.  What an exact solver
returns for `p` is best for `p'` if the added limits are kept by it; what it returns for `p'` is best for `p` if it does not touch the added limits.  If the tasks
together see every velocity, both velocities are then the same. -/
theorem C126_program (ops : List (Op ℝ)) {p p' : Nat} {P P' : Prob ℝ} (hP : (run World.init ops).probs[p]? = some P) (hP' : (run World.init ops).probs[p']? = some P')
    {rest : List (String × Nat)} (hc : P'.comps = P.comps ++ rest) (hm : P'.model = P.model) {J J' : JaxProblem ℝ}
    (hJ : (step (run World.init ops) (.compile p)).1 = .ok (.compiled J)) (hJ' : (step (run World.init ops) (.compile p')).1 = .ok (.compiled J'))
    {env : Env ℝ} {I : Type} {osqp : QPSolver ℝ I} (ho : Exact osqp) {q : Arr ℝ}
    (hsz : WellSized env J (update env P.model ⟨P.model.nq, fun i => q.get [i]⟩)) (hsz' : WellSized env J' (update env P.model ⟨P.model.nq, fun i => q.get [i]⟩))
    {s₀ s₁ s₀' s₁' : LocalIKData ℝ} {sol sol' : LocalIKSolution ℝ I}
    (h : localSolve env osqp P.model q s₀ J = .ok (sol, s₁)) (h' : localSolve env osqp P.model q s₀' J' = .ok (sol', s₁')) :
    ∃ ts extra, TermsOf (run World.init ops) P J env (update env P.model ⟨P.model.nq, fun i => q.get [i]⟩) ts ∧
      TermsOf (run World.init ops) P' J' env (update env P.model ⟨P.model.nq, fun i => q.get [i]⟩) (ts ++ extra) ∧
      ((∀ t ∈ ts, t.Braking) → (∀ t ∈ extra, t.Limiting) →
        ((∃ u, Allowed P.model.nv P.vMin P.vMax ts u) → Clear P.model.nv P.vMin P.vMax P'.vMin P'.vMax sol.vOpt.get → (∀ t ∈ extra, t.Allows sol.vOpt.get) →
          Best P.model.nv P'.vMin P'.vMax (ts ++ extra) sol.vOpt.get ∧ (Watched P.model.nv ts → ∀ i < P.model.nv, sol'.vOpt.get i = sol.vOpt.get i)) ∧
        ((∃ u, Allowed P.model.nv P'.vMin P'.vMax (ts ++ extra) u) → Clear P.model.nv P'.vMin P'.vMax P.vMin P.vMax sol'.vOpt.get →
          (∀ t ∈ extra, t.Spare sol'.vOpt.get) →
          Best P.model.nv P.vMin P.vMax ts sol'.vOpt.get ∧ (Watched P.model.nv ts → ∀ i < P.model.nv, sol'.vOpt.get i = sol.vOpt.get i))) := by
  have model_eq : ∀ {p : Nat} {P : Prob ℝ} {J : JaxProblem ℝ}, (step (run World.init ops) (.compile p)).1 = .ok (.compiled J) → (run World.init ops).probs[p]? = some P → J.model = P.model := by
    intro p P J hJ hP
    obtain ⟨Q, hQ, e, -⟩ := compile_comps ⟨ops, rfl⟩ hJ
    rw [hP] at hQ; cases hQ; exact e
  have e1 : J.model = P.model := model_eq hJ hP
  have e2 : J'.model = P.model := (model_eq hJ' hP').trans hm
  obtain ⟨P1, ts, g1, ht, hb⟩ := C91_real_solution ops hJ ho (by rw [e1]; exact hsz) (by rw [e1]; exact h)
  obtain ⟨P2, ts', g2, ht', hb'⟩ := C91_real_solution ops hJ' ho (by rw [e2]; exact hsz') (by rw [e2]; exact h')
  rw [hP] at g1; cases g1
  rw [hP'] at g2; cases g2
  rw [e1] at ht
  rw [e2] at ht'
  rw [hm] at hb'
  have hR := terms_results hP hJ ht
  have hR' := terms_results hP' hJ' ht'
  rw [hc] at hR'
  obtain ⟨tA, extra, hA, hB, rfl⟩ := forall₂_split hR'
  obtain rfl : tA = ts := by
    refine alike (fun ni t t' a b => ?_) hR hA
    obtain ⟨c, x1, x2, j, x3, x4, x5⟩ := a
    obtain ⟨c', y1, y2, j', y3, y4, y5⟩ := b
    rw [x1] at y1; cases y1
    rw [x3] at y3; cases y3
    rw [x4] at y4; rw [x5] at y5
    obtain ⟨a1, a2, a3⟩ := t
    obtain ⟨b1, b2, b3⟩ := t'
    cases y4; cases y5
    dsimp only at x2 y2
    rw [x2, y2]
  refine ⟨tA, extra, ht, ht', fun hbr hl => ⟨fun hu hcl hal => ?_, fun hu hcl hsp => ?_⟩⟩
  · have b1 := hb hu
    have b2 : Best P.model.nv P'.vMin P'.vMax (tA ++ extra) sol.vOpt.get :=
      C126_best (extra := []) hbr (by simp) hl hcl (by simp) hal (by simpa using b1)
    refine ⟨b2, fun hw => best_unique (fun t ht => ?_) ?_ b2 (hb' ⟨_, b2.1⟩)⟩
    · rcases List.mem_append.1 ht with h | h
      · exact hbr t h
      · exact limiting_braking (hl t h)
    · exact fun u hu => hw u fun t ht => hu t (List.mem_append_left _ ht)
  · have b1 := hb' hu
    have b2 : Best P.model.nv P.vMin P.vMax tA sol'.vOpt.get := by
      simpa using C126_best (extra' := []) hbr hl (by simp) hcl hsp (by simp) b1
    exact ⟨b2, fun hw => best_unique hbr hw (hb ⟨_, b2.1⟩) b2⟩

/-- **C126 (loops).** Two problems of a program as before.  As long as what is best for `p` keeps the limits that `p'` adds, control loops with `p` and with `p'` move the robot
through the same configurations, whatever solver data they start from. -/
theorem C126_loop {I : Type} {env : Env ℝ} {osqp : QPSolver ℝ I} (ho : Exact osqp) {m : MjModel ℝ} (hw : JointsWF m)
    (ops : List (Op ℝ)) {p p' : Nat} {P P' : Prob ℝ} (hP : (run World.init ops).probs[p]? = some P) (hP' : (run World.init ops).probs[p']? = some P')
    {rest : List (String × Nat)} (hc : P'.comps = P.comps ++ rest) (hm : P'.model = P.model) {J J' : JaxProblem ℝ}
    (hJ : (step (run World.init ops) (.compile p)).1 = .ok (.compiled J)) (hJ' : (step (run World.init ops) (.compile p')).1 = .ok (.compiled J'))
    (dt : ℝ) (q : Vec ℝ) (s0 s0' : LocalIKData ℝ) (k : Nat)
    (hG : AtEveryTick env osqp m p dt (fun S => Roomy env osqp m p p' (run World.init ops) S.q) ⟨run World.init ops, q, s0⟩ (List.replicate k .tick)) :
    (Spec.control env osqp m p' dt ⟨run World.init ops, q, s0'⟩ (List.replicate k .tick)).q =
      (Spec.control env osqp m p dt ⟨run World.init ops, q, s0⟩ (List.replicate k .tick)).q := by
  have key : ∀ k w w' q s0 s0', ReachableW w → ReachableW w' → (step w (.compile p)).1 = .ok (.compiled J) → (step w' (.compile p')).1 = .ok (.compiled J') →
      AtEveryTick env osqp m p dt (fun S => Roomy env osqp m p p' (run World.init ops) S.q) ⟨w, q, s0⟩ (List.replicate k .tick) →
      (Spec.control env osqp m p' dt ⟨w', q, s0'⟩ (List.replicate k .tick)).q = (Spec.control env osqp m p dt ⟨w, q, s0⟩ (List.replicate k .tick)).q := by
    intro k
    induction k with
    | zero => intros; rfl
    | succ k ih =>
      intro w w' q s0 s0' hr hr' hc1 hc2 hG
      obtain ⟨hg, hG⟩ := hG
      obtain ⟨rfl, ⟨z1, z2⟩, f1, hts⟩ := hg rfl J J' hJ hJ'
      obtain ⟨Q, hQ, em, -⟩ := compile_comps ⟨_, rfl⟩ hJ
      rw [hP] at hQ; cases hQ
      obtain ⟨⟨sol, d⟩, h1⟩ := (f1 s0).1
      obtain ⟨⟨sol', d'⟩, h2⟩ := (f1 s0').2
      dsimp only at h1 h2 z1 z2 hts
      have hlen : q.toArr.shape = [J.model.nq] := by
        by_contra hne
        unfold localSolve solve at h1
        rw [if_pos hne] at h1
        cases h1
      have hqe : (⟨P.model.nq, fun i => q.toArr.get [i]⟩ : Vec ℝ) = q := by
        obtain ⟨n, g⟩ := q
        have : n = J.model.nq := (List.cons.inj hlen).1
        rw [← em, ← this]
        rfl
      have y1 : WellSized env J (update env P.model ⟨P.model.nq, fun i => q.toArr.get [i]⟩) := by rw [hqe, ← em]; exact z1
      have y2 : WellSized env J' (update env P.model ⟨P.model.nq, fun i => q.toArr.get [i]⟩) := by rw [hqe, ← em]; exact z2
      have h1' : localSolve env osqp P.model q.toArr s0 J = .ok (sol, d) := by rw [← em]; exact h1
      have h2' : localSolve env osqp P.model q.toArr s0' J' = .ok (sol', d') := by rw [← em]; exact h2
      obtain ⟨ts, extra, ht, ht', hb⟩ := C126_program ops hP hP' hc hm hJ hJ' ho y1 y2 h1' h2'
      obtain ⟨P1, ts1, g1, ht1, hb1⟩ := C91_real_solution ops hJ ho (by rw [em]; exact y1) (by rw [em]; exact h1')
      rw [hP] at g1; cases g1
      rw [hqe] at ht ht'
      rw [em, hqe] at ht1
      obtain rfl : ts1 = ts := by
        refine alike (fun ni t t' a b => ?_) (terms_results hP hJ ht) (terms_results hP hJ ht1)
        obtain ⟨c, x1, x2, j, x3, x4, x5⟩ := a
        obtain ⟨c', y1, y2, j', y3, y4, y5⟩ := b
        rw [x1] at y1; cases y1
        rw [x3] at y3; cases y3
        rw [x4] at y4; rw [x5] at y5
        obtain ⟨a1, a2, a3⟩ := t
        obtain ⟨b1, b2, b3⟩ := t'
        cases y4; cases y5
        dsimp only at x2 y2
        rw [x2, y2]
      obtain ⟨u1, u2, u3, u4, u5⟩ := hts P P' ts1 extra hP hP' (by rw [em]; exact ht) (by rw [em]; exact ht')
      rw [em] at u1 u3 u5
      obtain ⟨v1, v2⟩ := u5 _ (hb1 u1)
      have hv := (((hb u2 u4).1 u1 v1 v2).2 u3)
      have t1 : controlStep env osqp J.model p dt ⟨w, q, s0⟩ .tick = ⟨(step w (.compile p)).2, integrate env J.model q sol.vOpt dt, d⟩ := by
        simp only [controlStep]
        cases hst : step w (.compile p) with
        | mk r w1 =>
          rw [hst] at hc1
          dsimp only at hc1
          subst hc1
          simp only [h1]
      have t2 : controlStep env osqp J.model p' dt ⟨w', q, s0'⟩ .tick = ⟨(step w' (.compile p')).2, integrate env J.model q sol'.vOpt dt, d'⟩ := by
        simp only [controlStep]
        cases hst : step w' (.compile p') with
        | mk r w1 =>
          rw [hst] at hc2
          dsimp only at hc2
          subst hc2
          simp only [h2]
      rw [t1] at hG
      have ei : integrate env J.model q sol'.vOpt dt = integrate env J.model q sol.vOpt dt := by
        unfold integrate
        rw [integrate_reads env.quatIntegrate q.get dt (v := sol'.vOpt.get) (v' := sol.vOpt.get) (by rw [em]; exact hv) hw.addr]
      show (Spec.control env osqp J.model p' dt (controlStep env osqp J.model p' dt ⟨w', q, s0'⟩ .tick) (List.replicate k .tick)).q =
        (Spec.control env osqp J.model p dt (controlStep env osqp J.model p dt ⟨w, q, s0⟩ .tick) (List.replicate k .tick)).q
      rw [t1, t2, ei]
      have reach : ∀ {w : World ℝ} (p : Nat), ReachableW w → ReachableW (step w (.compile p)).2 := by
        rintro w p ⟨o, rfl⟩
        exact ⟨o ++ [.compile p], by rw [run_append]; rfl⟩
      exact ih _ _ _ _ _ (reach p hr) (reach p' hr') ((C02_compile_twice hr p).1.trans hc1) ((C02_compile_twice hr' p').1.trans hc2) hG
  exact key k _ _ q s0 s0' ⟨_, rfl⟩ ⟨_, rfl⟩ hJ hJ' hG

end Mjinx.Props
