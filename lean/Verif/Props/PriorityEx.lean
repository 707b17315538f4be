import Verif.Props.Nudge
import Verif.Props.EnergyEx
import Verif.Props.StructureEx

/-!
# C120 and C121 on the rail of C108
-/

namespace Mjinx.Props
open Spec Finset

namespace Shunter
open Railcar

/-- The posture task with its cost times `s` and another target. -/
noncomputable def task (s : ℝ) (x : Arr ℝ) : JaxComp ℝ :=
  { first' 0 with kind := .jointTask (Arr.eyeMul 2 (scaled s (Arr.scalar 1))) 0 x [0, 1] }

noncomputable def prob' (s : ℝ) (x : Arr ℝ) : JaxProblem ℝ := { prob 0 with comps := [("posture", task s x), ("home", second' 0)] }

theorem sized' (s : ℝ) (x : Arr ℝ) (hx : x.shape = [2]) (q : Fin 2 → ℝ) : WellSized Beads.env (prob' s x) (update Beads.env Beads.model (vecOf q)) := by
  intro vMin vMax cs h1 h2 h3
  obtain ⟨V2, c1, c2, c3⟩ := second_value 0 (vecOf q)
  obtain ⟨J2, d1, d2, d3, d4⟩ := second_jacobian 0 q
  have k2 : solverComp Beads.env (update Beads.env Beads.model (vecOf q)) (second' 0) =
      .ok (.task ⟨J2, V2, ⟨1, fun _ => 1 * 1⟩, id⟩ ⟨1, 1, fun i k => (if i = k then 1 else 0) * 1⟩ 0) := by
    unfold solverComp evaluate
    simp only [bind, Except.bind, c1, d1]
    rfl
  cases h1; cases h2
  refine ⟨rfl, rfl, fun c hc => ?_⟩
  obtain ⟨j, hj, hs⟩ := (mapM_mem h3).2.1 c hc
  rcases List.mem_cons.1 hj with rfl | hj
  · obtain ⟨J, v, g, e1, e2, e3, e4⟩ := solverComp_ok hs
    have hv : v.len = 2 := by
      have : evalValue Beads.env (task s x) (update Beads.env Beads.model (vecOf q)) = subVec ⟨2, fun i => ((update Beads.env Beads.model (vecOf q)).qpos.gather [0, 1]).get i⟩ ⟨2, fun i => x.get [i]⟩ := by
        unfold evalValue task
        dsimp only
        rw [operand_of_shape hx]
        rfl
      rw [this] at e2
      cases e2; rfl
    cases e1; cases e3; cases e4
    exact ⟨⟨rfl, hv, rfl⟩, rfl, rfl⟩
  · obtain rfl := List.mem_singleton.1 hj
    obtain rfl := Except.ok.inj (k2.symm.trans hs)
    exact ⟨⟨d3, c2.trans d2.symm, d2.symm⟩, d2.symm, d2.symm⟩

theorem cost_compiled (s : ℝ) : (step (run World.init (setup 0 ++ [.comp 0 (.updateCost (scaled s (Arr.scalar 1)))])) (.compile 0)).1 =
    .ok (.compiled (prob' s ⟨[2], fun _ => 0⟩)) := by
  rw [run_append, run_setup le_rfl]
  rfl

theorem target_compiled (x : Arr ℝ) (hx : x.shape = [2]) : (step (run World.init (setup 0 ++ [.comp 0 (.updateTarget x)])) (.compile 0)).1 =
    .ok (.compiled { prob 0 with comps := [("posture", { first' 0 with kind := .jointTask (Arr.eyeMul 2 (Arr.scalar 1)) 0 x [0, 1] }), ("home", second' 0)] }) := by
  rw [run_append, run_setup le_rfl]
  obtain ⟨sh, g⟩ := x
  cases hx
  rfl

theorem fixed : FixedSizes Beads.env Beads.model :=
  C118_robot Beads.simulates (fun _ _ => ⟨rfl, rfl, rfl⟩) (fun _ _ _ _ => ⟨rfl, rfl⟩) (fun _ _ => ⟨rfl, rfl⟩)

/-- What the two components of the problem see. -/
theorem terms {x : Fin 2 → ℝ} {P : Prob ℝ} (hP : (run World.init (setup 0)).probs[0]? = some P) {ts : List (Term ℝ)}
    (hts : TermsOf (run World.init (setup 0)) P (prob 0) Beads.env (update Beads.env Beads.model (vecOf x)) ts) :
    P.vMin = Arr.onesMul 2 (Arr.scalar (-2)) ∧ P.vMax = Arr.onesMul 2 (Arr.scalar 2) ∧
    ∃ t1 t2, ts = [t1, t2] ∧ (∃ fm tq qi, t1.attrs.kind = .jointTask ⟨Arr.scalar 1, 0⟩ fm tq qi) ∧ (∃ o tp, t2.attrs.kind = .positionTask ⟨Arr.scalar 1, 0⟩ o tp) ∧
      t1.jac.rows = 2 ∧ (∀ v : Nat → ℝ, ∀ i < 2, rowDot t1.jac i v = v i) ∧ t1.attrs.gain = Arr.scalar 1 ∧ t1.attrs.gainFn = id ∧
      ∀ i < 2, t1.value.get i = (vecOf x).get i := by
  rw [run_setup le_rfl] at hP hts
  cases hP
  cases hts with
  | @cons _ t1 _ ts h1 hts =>
  cases hts with
  | @cons _ t2 _ ts h2 hts =>
  cases hts
  obtain ⟨c1, a1, a2, j1, a3, a4, a5⟩ := h1
  obtain ⟨c2, b1, b2, j2, b3, b4, b5⟩ := h2
  cases a1; cases b1
  have ej1 : j1 = first' 0 := by
    rcases List.mem_cons.1 a3 with e | e
    · exact (Prod.mk.inj e).2
    · have := (Prod.mk.inj (List.mem_singleton.1 e)).1
      exact absurd (show ("posture" : String) = "home" from this) (by decide)
  subst ej1
  obtain ⟨V1, e1, e2, e3⟩ := first_value 0 x
  obtain ⟨J1, f1, f2, f3, f4⟩ := first_jacobian 0 (update Beads.env Beads.model (vecOf x))
  have eV : t1.value = V1 := Except.ok.inj (a5.symm.trans e1)
  have eJ : t1.jac = J1 := Except.ok.inj (a4.symm.trans f1)
  exact ⟨rfl, rfl, t1, t2, rfl, ⟨_, _, _, by rw [a2]; rfl⟩, ⟨_, _, by rw [b2]; rfl⟩, by rw [eJ, f2], by rw [eJ]; exact f4, by rw [a2]; rfl, by rw [a2]; rfl,
    by rw [eV]; exact e3⟩

theorem allowed {P : Prob ℝ} (h1 : P.vMin = Arr.onesMul 2 (Arr.scalar (-2))) (h2 : P.vMax = Arr.onesMul 2 (Arr.scalar 2)) {t1 t2 : Term ℝ} (k1 : ∃ fm tq qi, t1.attrs.kind = .jointTask ⟨Arr.scalar 1, 0⟩ fm tq qi)
    (k2 : ∃ o tp, t2.attrs.kind = .positionTask ⟨Arr.scalar 1, 0⟩ o tp) (n : Nat) : Allowed n P.vMin P.vMax [t1, t2] (fun _ => 0) ∧ ∀ t ∈ [t1, t2], t.Braking := by
  obtain ⟨fm, tq, qi, k1⟩ := k1
  obtain ⟨o, tp, k2⟩ := k2
  refine ⟨⟨fun i _ => ?_, fun t ht => ?_⟩, fun t ht => ?_⟩
  · rw [h1, h2]
    show - (1 * 2 : ℝ) ≤ 0 ∧ (0 : ℝ) ≤ - (1 * -2)
    norm_num
  · fin_cases ht
    · show t1.Allows _; unfold Term.Allows; rw [k1]; trivial
    · show t2.Allows _; unfold Term.Allows; rw [k2]; trivial
  · fin_cases ht
    · show t1.Braking; unfold Term.Braking; rw [k1]
    · show t2.Braking; unfold Term.Braking; rw [k2]

end Shunter

open Railcar Shunter in
/-- All hypotheses of `C120_priority` hold: the larger the cost of the posture task, the closer the velocity is to minus the joint positions. -/
example {s : ℝ} (hs : 1 < s) {osqp : QPSolver ℝ Unit} (ho : Exact osqp) (x : Fin 2 → ℝ) {s₀ s₁ s₀' s₁' : LocalIKData ℝ} {sol sol' : LocalIKSolution ℝ Unit}
    (h : localSolve Beads.env osqp Beads.model ⟨[2], fun i => (vecOf x).get (i.headD 0)⟩ s₀ (prob 0) = .ok (sol, s₁))
    (h' : localSolve Beads.env osqp Beads.model ⟨[2], fun i => (vecOf x).get (i.headD 0)⟩ s₀' (prob' s ⟨[2], fun _ => 0⟩) = .ok (sol', s₁')) :
    (sol'.vOpt.get 0 + (vecOf x).get 0) ^ 2 + (sol'.vOpt.get 1 + (vecOf x).get 1) ^ 2 ≤ (sol.vOpt.get 0 + (vecOf x).get 0) ^ 2 + (sol.vOpt.get 1 + (vecOf x).get 1) ^ 2 := by
  have hrun := run_setup (L := 0) le_rfl
  obtain ⟨P, hP⟩ : ∃ P, (run World.init (setup 0)).probs[0]? = some P := by rw [hrun]; exact ⟨_, rfl⟩
  obtain ⟨c, hc⟩ : ∃ c, (run World.init (setup 0)).comps[0]? = some c := by rw [hrun]; exact ⟨_, rfl⟩
  have hPm : P.model = Beads.model ∧ (("posture", 0) : String × Nat) ∈ P.comps := by
    rw [hrun] at hP; cases hP; exact ⟨rfl, List.mem_cons_self⟩
  have hcost : costAttr c = some (Arr.scalar 1) := by rw [hrun] at hc; cases hc; rfl
  obtain ⟨hPm, hmem⟩ := hPm
  rw [← hPm] at h h'
  obtain ⟨a, t, b, hts, hpos, hu⟩ := C120_priority (setup 0) hP hmem hc hcost hs (by rw [hrun]; exact ⟨_, rfl⟩) (compiled le_rfl) (cost_compiled s) ho
    (q := ⟨[2], fun i => (vecOf x).get (i.headD 0)⟩) (by rw [hPm]; exact sized 0 x) (by rw [hPm]; exact sized' s _ rfl x) h h'
  rw [hPm] at hts
  obtain ⟨v1, v2, t1, t2, e, k1, k2, r, rd, g1, g2, val⟩ := terms hP hts
  have ha : a = [] := by
    have hn : P.comps = [("posture", 0), ("home", 1)] := by rw [hrun] at hP; cases hP; rfl
    rw [hn] at hpos
    rcases a with _ | ⟨z, _ | ⟨y, a⟩⟩
    · rfl
    · exact absurd (congrArg Prod.fst (Option.some.inj hpos)) (show ("home" : String) ≠ "posture" by decide)
    · simp at hpos
  subst ha
  obtain ⟨rfl, rfl⟩ := List.cons.inj e
  have := (hu (fun _ => 0) (allowed v1 v2 k1 k2 _).1).1
  obtain ⟨fm, tq, qi, k1⟩ := k1
  unfold Term.price at this
  rw [k1] at this
  dsimp only at this
  simp only [zero_mul, zero_div, add_zero] at this
  unfold sqNorm Term.misfit Term.rate at this
  rw [r, g1, g2] at this
  simp only [sum_range_succ, sum_range_zero, rd _ 0 (by norm_num), rd _ 1 (by norm_num), val 0 (by norm_num), val 1 (by norm_num)] at this
  have w : ∀ i k, weightAt (Arr.scalar (1 : ℝ)) i k = if i = k then 1 else 0 := fun _ _ => rfl
  have g : ∀ i, gainAt (Arr.scalar (1 : ℝ)) i = 1 := fun _ => rfl
  simp only [w, g] at this
  norm_num at this
  linarith

open Railcar Shunter in
/-- All hypotheses of `C121_nudge` hold: moving the target of the posture task by `x'` changes the commanded velocity by at most the length of `x'`. -/
example {x' : Arr ℝ} (hx' : x'.shape = [2]) {osqp : QPSolver ℝ Unit} (ho : Exact osqp) (x : Fin 2 → ℝ) {J' : JaxProblem ℝ}
    (hJ' : (step (run World.init (setup 0 ++ [.comp 0 (.updateTarget x')])) (.compile 0)).1 = .ok (.compiled J'))
    {s₀ s₁ s₀' s₁' : LocalIKData ℝ} {sol sol' : LocalIKSolution ℝ Unit}
    (h : localSolve Beads.env osqp Beads.model ⟨[2], fun i => (vecOf x).get (i.headD 0)⟩ s₀ (prob 0) = .ok (sol, s₁))
    (h' : localSolve Beads.env osqp Beads.model ⟨[2], fun i => (vecOf x).get (i.headD 0)⟩ s₀' J' = .ok (sol', s₁')) :
    (sol'.vOpt.get 0 - sol.vOpt.get 0) ^ 2 + (sol'.vOpt.get 1 - sol.vOpt.get 1) ^ 2 ≤ x'.get [0] ^ 2 + x'.get [1] ^ 2 := by
  have hrun := run_setup (L := 0) le_rfl
  obtain ⟨P, hP⟩ : ∃ P, (run World.init (setup 0)).probs[0]? = some P := by rw [hrun]; exact ⟨_, rfl⟩
  obtain ⟨c, hc⟩ : ∃ c, (run World.init (setup 0)).comps[0]? = some c := by rw [hrun]; exact ⟨_, rfl⟩
  have hPm : P.model = Beads.model ∧ (("posture", 0) : String × Nat) ∈ P.comps := by
    rw [hrun] at hP; cases hP; exact ⟨rfl, List.mem_cons_self⟩
  have hcs : costAttr c = some (Arr.scalar 1) ∧ targetOf c = some ⟨[2], fun _ => 0⟩ ∧ lmAttr c = some 0 ∧ c.attrs.gainFn = id ∧ c.attrs.gain = Arr.scalar 1 := by
    rw [hrun] at hc; cases hc; exact ⟨rfl, rfl, rfl, rfl, rfl⟩
  obtain ⟨hPm, hmem⟩ := hPm
  obtain ⟨c1, c2, c3, c4, c5⟩ := hcs
  have hJ : J' = { prob 0 with comps := [("posture", { first' 0 with kind := .jointTask (Arr.eyeMul 2 (Arr.scalar 1)) 0 x' [0, 1] }), ("home", second' 0)] } := by
    rw [target_compiled x' hx'] at hJ'
    cases hJ'; rfl
  have hone : scaled 1 (Arr.scalar (1 : ℝ)) = Arr.scalar 1 := by unfold scaled Arr.scalar; simp
  have hJ : J' = prob' 1 x' := by rw [hJ]; unfold prob' task; rw [hone]
  rw [← hPm] at h h'
  obtain ⟨ts, hts, hu⟩ := C121_nudge (setup 0) hP hmem hc c2 rfl hx' c1 c3 c4 (by
      rw [hrun]
      obtain ⟨sh, g⟩ := x'
      cases hx'
      exact ⟨_, rfl⟩) (compiled le_rfl) hJ' (jacrevR_forgets rfl) (by
      intro nj h
      fin_cases h <;> exact fixed) ho (q := ⟨[2], fun i => (vecOf x).get (i.headD 0)⟩) (by rw [hPm]; exact sized 0 x) (by rw [hPm, hJ]; exact sized' 1 _ hx' x) h h'
  rw [hPm] at hts
  obtain ⟨v1, v2, t1, t2, rfl, k1, k2, r, rd, -⟩ := terms hP hts
  obtain ⟨al, br⟩ := allowed v1 v2 k1 k2 P.model.nv
  have := hu ⟨_, al⟩ br
  obtain ⟨fm, tq, qi, k1⟩ := k1
  obtain ⟨o, tp, k2⟩ := k2
  have s2 : 0 ≤ t2.swing sol.vOpt.get sol'.vOpt.get := by
    unfold Term.swing; rw [k2]; exact sqNorm_nn _ _
  have w : ∀ i k, weightAt (Arr.scalar (1 : ℝ)) i k = if i = k then 1 else 0 := fun _ _ => rfl
  have g : ∀ i, gainAt (Arr.scalar (1 : ℝ)) i = 1 := fun _ => rfl
  have s1 : t1.swing sol.vOpt.get sol'.vOpt.get = (sol'.vOpt.get 0 - sol.vOpt.get 0) ^ 2 + (sol'.vOpt.get 1 - sol.vOpt.get 1) ^ 2 := by
    unfold Term.swing; rw [k1]
    dsimp only
    unfold sqNorm
    rw [r]
    simp only [sum_range_succ, sum_range_zero, rd _ 0 (by norm_num), rd _ 1 (by norm_num), w]
    norm_num
  have n : nudge c.attrs.gain (Arr.scalar 1) ⟨[2], fun _ => 0⟩ x' 2 = x'.get [0] ^ 2 + x'.get [1] ^ 2 := by
    unfold nudge sqNorm
    rw [c5]
    simp only [sum_range_succ, sum_range_zero, w, g]
    norm_num
  rw [n] at this
  simp only [List.map_cons, List.map_nil, List.sum_cons, List.sum_nil, s1] at this
  linarith

end Mjinx.Props
