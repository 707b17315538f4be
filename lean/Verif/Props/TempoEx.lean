import Verif.Props.Tempo
import Verif.Props.RestEx
import Verif.Props.TeamsEx

/-!
# C125 on the rail of C108 and the carts of C123
-/

namespace Mjinx.Props
open Spec Finset

namespace Brisk
open Railcar

theorem solves {I : Type} (osqp : QPSolver ℝ I) (x : Fin 2 → ℝ) (s : LocalIKData ℝ) : ∃ r, localSolve Beads.env osqp Beads.model (vecOf x).toArr s (prob 0) = .ok r := by
  obtain ⟨e1, e2, W1, W2, k1, -⟩ := seen 0 x
  have hs := sized 0 x ⟨2, fun _ => 1 * -2⟩ ⟨2, fun _ => 1 * 2⟩ _ rfl rfl k1
  obtain ⟨qp, hqp⟩ := (C31_finite_partial hs).1.2 (by
    intro e s d hc
    simp at hc)
  have hq : localSolveFromData Beads.env osqp Beads.model (prob 0) s (update Beads.env Beads.model (vecOf x)) = .ok (⟨(osqp qp).1, (osqp qp).2⟩, ⟨(osqp qp).1⟩) := by
    unfold localSolveFromData solveFromData
    simp only [bind, Except.bind, k1]
    show (computeQP (prob 0).model.nv (prob 0).model.nv ⟨2, fun _ => 1 * -2⟩ ⟨2, fun _ => 1 * 2⟩ [.task e1 W1 0, .task e2 W2 0] >>= _) = _
    rw [hqp]
    rfl
  refine ⟨(⟨(osqp qp).1, (osqp qp).2⟩, ⟨(osqp qp).1⟩), ?_⟩
  unfold localSolve solve
  rw [if_neg (by intro h; exact h rfl)]
  exact hq

theorem paced {I : Type} (osqp : QPSolver ℝ I) (x : Fin 2 → ℝ) : Paced Beads.env osqp Beads.model 0 (run World.init (setup 0)) (vecOf x) := by
  intro J hJ
  rw [compiled le_rfl] at hJ
  obtain rfl : prob 0 = J := by cases hJ; rfl
  refine ⟨rfl, sized 0 x, solves osqp x, fun P ts hP hts => ?_⟩
  obtain ⟨h1, h2, h3, h4, h5, -⟩ := Parked.terms hP hts
  exact ⟨⟨fun _ => 0, Parked.allowed h1 h2 h4 (fun i _ => by norm_num)⟩, h5.2.1, h3, h5.1⟩

theorem everyTick {I : Type} (osqp : QPSolver ℝ I) (dt : ℝ) (k : Nat) : ∀ S : Robot ℝ, (∃ x : Fin 2 → ℝ, S.q = vecOf x) →
    AtEveryTick Beads.env osqp Beads.model 0 dt (fun S => Paced Beads.env osqp Beads.model 0 (run World.init (setup 0)) S.q) S (List.replicate k .tick) := by
  induction k with
  | zero => intro S _; trivial
  | succ k ih =>
    intro S hS
    refine ⟨fun _ => ?_, ih _ ?_⟩
    · obtain ⟨x, hx⟩ := hS
      rw [hx]
      exact paced osqp x
    · obtain ⟨x, hx⟩ := hS
      obtain ⟨w, q, d⟩ := S
      dsimp only at hx
      subst hx
      simp only [controlStep]
      split
      · split
        · rename_i sol _ _
          exact ⟨fun k : Fin 2 => (integrate Beads.env Beads.model (vecOf x) sol.vOpt dt).get k, integrate_vecOf (m := Beads.model) (q := vecOf x) Beads.robot.addr rfl _ _⟩
        · exact ⟨x, rfl⟩
      · exact ⟨x, rfl⟩

end Brisk

/-- The rail, twice as fast in steps of half the length: the same configurations after every number of steps. -/
example {I : Type} {osqp : QPSolver ℝ I} (ho : Exact osqp) (x : Fin 2 → ℝ) (s0 s0' : LocalIKData ℝ) (dt : ℝ) (k : Nat) :
    (Spec.control Beads.env osqp Beads.model 0 (dt / 2) ⟨run World.init (Railcar.setup 0 ++ speedUp 2 0 (run World.init (Railcar.setup 0))), vecOf x, s0'⟩
      (List.replicate k .tick)).q =
      (Spec.control Beads.env osqp Beads.model 0 dt ⟨run World.init (Railcar.setup 0), vecOf x, s0⟩ (List.replicate k .tick)).q := by
  have hP : ∃ P, (run World.init (Railcar.setup 0)).probs[0]? = some P := by rw [Railcar.run_setup le_rfl]; exact ⟨_, rfl⟩
  obtain ⟨P, hP⟩ := hP
  exact C125_loop_partial ho rfl Beads.robot.addr dt two_pos (C125_calls _ hP 2) (Railcar.compiled le_rfl) _ s0 s0' k (Brisk.everyTick osqp dt k _ ⟨x, rfl⟩)

/-- One step of it: the quicker problem compiles and is solved, and its velocity is twice that of the other one. -/
example {I : Type} {osqp : QPSolver ℝ I} (ho : Exact osqp) (x : Fin 2 → ℝ) (s0 s0' : LocalIKData ℝ) :
    ∃ J' sol sol' s1 s1', (step (run World.init (Railcar.setup 0 ++ speedUp 2 0 (run World.init (Railcar.setup 0)))) (.compile 0)).1 = .ok (.compiled J') ∧
      localSolve Beads.env osqp Beads.model (vecOf x).toArr s0 (Railcar.prob 0) = .ok (sol, s1) ∧
      localSolve Beads.env osqp Beads.model (vecOf x).toArr s0' J' = .ok (sol', s1') ∧ ∀ i < 2, sol'.vOpt.get i = 2 * sol.vOpt.get i := by
  have hP : ∃ P, (run World.init (Railcar.setup 0)).probs[0]? = some P ∧ P.model = Beads.model := by rw [Railcar.run_setup le_rfl]; exact ⟨_, rfl, rfl⟩
  obtain ⟨P, hP, em⟩ := hP
  obtain ⟨⟨sol, s1⟩, h⟩ := Brisk.solves osqp x s0
  have hz : WellSized Beads.env (Railcar.prob 0) (update Beads.env Beads.model ⟨Beads.model.nq, fun i => (vecOf x).toArr.get [i]⟩) := Railcar.sized 0 x
  obtain ⟨J', hJ', -, -, hl⟩ := C125_solves (C125_calls _ hP 2) (Railcar.compiled le_rfl) hz h
  obtain ⟨⟨sol', s1'⟩, h'⟩ := hl s0'
  refine ⟨J', sol, sol', s1, s1', hJ', h, h', ?_⟩
  obtain ⟨ts, ht, hb⟩ := C125_program_partial two_pos (C125_calls _ hP 2) hP (Railcar.compiled le_rfl) hJ' ho (q := (vecOf x).toArr) (by rw [em]; exact hz)
    (by rw [em]; exact h) (by rw [em]; exact h')
  rw [em] at ht hb
  obtain ⟨h1, h2, h3, h4, h5, -⟩ := Parked.terms hP ht
  exact (hb ⟨fun _ => 0, Parked.allowed h1 h2 h4 (fun i _ => by norm_num)⟩ h5.2.1).2.2 h3 h5.1

namespace Carts

/-- The tasks after `update_gain(2)`. -/
noncomputable def task2 (L : ℝ) (i : Nat) : JaxComp ℝ := { task L i with vectorGain := Arr.onesMul 1 (scaled 2 (Arr.scalar 1)) }

noncomputable def brisk (L : ℝ) : List (Op ℝ) := setup L ++ speedUp 2 0 (run World.init (setup L))

theorem run_brisk {L : ℝ} (h : 0 ≤ L) : run World.init (brisk L) = run (run ⟨[first 0 "right" [0, 1], first L "left" [1, 0]], []⟩ rest)
    (speedUp 2 0 (run ⟨[first 0 "right" [0, 1], first L "left" [1, 0]], []⟩ rest)) := by
  unfold brisk
  rw [run_append, run_setup h]

theorem brisk_price {L : ℝ} {n : String} {f : List Int} {x : ℝ} {i : Nat} {J : Mat ℝ} {V : Vec ℝ} (h1 : J.rows = 1) (h2 : ∀ v : Nat → ℝ, rowDot J 0 v = v i)
    (h3 : V.get 0 = x) (v : Nat → ℝ) : ((term L n f i J V).quicker 2).price 2 v = (v i + 2 * x) ^ 2 / 2 + L * (2 * x) ^ 2 * (v 0 ^ 2 + v 1 ^ 2) / 2 := by
  have w : ∀ i k, weightAt (Arr.scalar (1 : ℝ)) i k = if i = k then 1 else 0 := fun _ _ => rfl
  have g : ∀ i, gainAt (scaled 2 (Arr.scalar (1 : ℝ))) i = 2 * 1 := fun _ => rfl
  show sqNorm J.rows _ / 2 + L * sqNorm J.rows _ * sqNorm 2 v / 2 = _
  unfold sqNorm Term.misfit Term.rate
  show (∑ r ∈ range J.rows, (∑ k ∈ range J.rows, weightAt (Arr.scalar 1) r k * (rowDot J k v + gainAt (scaled 2 (Arr.scalar 1)) k * V.get k)) ^ 2) / 2 +
    L * (∑ r ∈ range J.rows, (∑ k ∈ range J.rows, weightAt (Arr.scalar 1) r k * (rowDot J k (fun _ => 0) + gainAt (scaled 2 (Arr.scalar 1)) k * V.get k)) ^ 2) *
      (∑ k ∈ range 2, v k ^ 2) / 2 = _
  rw [h1]
  simp only [sum_range_succ, sum_range_zero, h2, w, g, h3]
  norm_num

end Carts

open Carts in
/-- **C125 fails for damped tasks.** The damping grows with the square of the gain: with gains and velocity limits doubled, the best velocity of the carts is not
twice the one before but less than it. -/
theorem C125_damped_wrong : ∃ P P' J J' ts ts', (run World.init (setup 1)).probs[0]? = some P ∧ (run World.init (brisk 1)).probs[0]? = some P' ∧
    (step (run World.init (setup 1)) (.compile 0)).1 = .ok (.compiled J) ∧ (step (run World.init (brisk 1)) (.compile 0)).1 = .ok (.compiled J') ∧
    TermsOf (run World.init (setup 1)) P J env (update env model (vecOf fun _ : Fin 2 => 1)) ts ∧
    TermsOf (run World.init (brisk 1)) P' J' env (update env model (vecOf fun _ : Fin 2 => 1)) ts' ∧
    Quicker 2 0 (run World.init (setup 1)) (run World.init (brisk 1)) ∧
    Best 2 P.vMin P.vMax ts (fun _ => - 1 / 2) ∧ Best 2 P'.vMin P'.vMax ts' (fun _ => - 2 / 5) ∧ ¬ Best 2 P'.vMin P'.vMax ts' (fun _ => 2 * (- 1 / 2)) := by
  obtain ⟨P, PA, hP, -, hcs, -, -, -, -, e6, e7, J1, V1, J2, V2, r1, r2, d1, d2, v1, v2, t1, -⟩ := terms zero_le_one (fun _ => 1)
  have hq := C125_calls (setup (1 : ℝ)) hP 2
  have hP' : (run World.init (brisk 1)).probs[0]? = some { P with vMin := scaled 2 P.vMin, vMax := scaled 2 P.vMax } := by
    obtain ⟨Q, h1, h2, -⟩ := hq
    rw [hP] at h1; cases h1
    exact h2
  have hJ' : (step (run World.init (brisk 1)) (.compile 0)).1 =
      .ok (.compiled ⟨model, scaled 2 (Arr.onesMul 2 (Arr.scalar (-2))), scaled 2 (Arr.onesMul 2 (Arr.scalar 2)), [("right", task2 0 1), ("left", task2 1 0)]⟩) := by
    rw [run_brisk zero_le_one]; rfl
  have t' : TermsOf (run World.init (brisk 1)) { P with vMin := scaled 2 P.vMin, vMax := scaled 2 P.vMax }
      ⟨model, scaled 2 (Arr.onesMul 2 (Arr.scalar (-2))), scaled 2 (Arr.onesMul 2 (Arr.scalar 2)), [("right", task2 0 1), ("left", task2 1 0)]⟩ env
      (update env model (vecOf fun _ : Fin 2 => 1)) [(term 0 "right" [0, 1] 1 J1 V1).quicker 2, (term 1 "left" [1, 0] 0 J2 V2).quicker 2] := by
    unfold TermsOf at t1 ⊢
    dsimp only
    rw [hcs] at t1 ⊢
    cases t1 with
    | cons a b =>
    cases b with
    | cons b _ =>
    obtain ⟨c1, x1, x2, j1, x3, x4, x5⟩ := a
    obtain ⟨c2, y1, y2, j2, y3, y4, y5⟩ := b
    have ne : ("right" : String) ≠ "left" := by decide
    have ej1 : j1 = task 0 1 := by
      rcases List.mem_cons.1 x3 with e | e
      · exact (Prod.mk.inj e).2
      · exact absurd (Prod.mk.inj (List.mem_singleton.1 e)).1 ne
    have ej2 : j2 = task 1 0 := by
      rcases List.mem_cons.1 y3 with e | e
      · exact absurd (Prod.mk.inj e).1 ne.symm
      · exact (Prod.mk.inj (List.mem_singleton.1 e)).2
    subst ej1 ej2
    rw [run_brisk zero_le_one]
    exact .cons ⟨_, rfl, rfl, task2 0 1, List.mem_cons_self, x4, x5⟩ (.cons ⟨_, rfl, rfl, task2 1 0, List.mem_cons_of_mem _ List.mem_cons_self, y4, y5⟩ .nil)
  have pB : ∀ v, totalPrice 2 [term 0 "right" [0, 1] 1 J1 V1, term 1 "left" [1, 0] 0 J2 V2] v = (v 1 + 1 / 2) ^ 2 + (v 0 + 1 / 2) ^ 2 + 1 / 2 := by
    intro v
    show (term 0 "right" [0, 1] 1 J1 V1).price 2 v + ((term 1 "left" [1, 0] 0 J2 V2).price 2 v + 0) = _
    rw [term_price r1 d1 v1, term_price r2 d2 v2]; ring
  have pQ : ∀ v, totalPrice 2 [(term 0 "right" [0, 1] 1 J1 V1).quicker 2, (term 1 "left" [1, 0] 0 J2 V2).quicker 2] v =
      5 / 2 * (v 1 + 2 / 5) ^ 2 + 5 / 2 * (v 0 + 2 / 5) ^ 2 + 16 / 5 := by
    intro v
    show ((term 0 "right" [0, 1] 1 J1 V1).quicker 2).price 2 v + (((term 1 "left" [1, 0] 0 J2 V2).quicker 2).price 2 v + 0) = _
    rw [brisk_price r1 d1 v1, brisk_price r2 d2 v2]; ring
  have bQ : Best 2 (scaled 2 P.vMin) (scaled 2 P.vMax) [(term 0 "right" [0, 1] 1 J1 V1).quicker 2, (term 1 "left" [1, 0] 0 J2 V2).quicker 2] (fun _ => -2 / 5) := by
    refine ⟨⟨fun i _ => ?_, fun t ht => ?_⟩, fun u _ => ?_⟩
    · rw [e6, e7]
      show - (2 * (1 * 2) : ℝ) ≤ _ ∧ _ ≤ - (2 * (1 * -2) : ℝ)
      norm_num
    · fin_cases ht <;> trivial
    · rw [pQ, pQ]
      nlinarith [sq_nonneg (u 1 + 2 / 5), sq_nonneg (u 0 + 2 / 5)]
  refine ⟨P, _, _, _, _, _, hP, hP', compiled zero_le_one, hJ', t1, t', hq, ⟨⟨fun i _ => ?_, fun t ht => ?_⟩, fun u _ => ?_⟩, bQ, fun hb => ?_⟩
  · rw [e6, e7]
    show - (1 * 2 : ℝ) ≤ _ ∧ _ ≤ - (1 * -2 : ℝ)
    norm_num
  · fin_cases ht <;> trivial
  · rw [pB, pB]
    nlinarith [sq_nonneg (u 1 + 1 / 2), sq_nonneg (u 0 + 1 / 2)]
  · have := hb.2 _ bQ.1
    rw [pQ, pQ] at this
    norm_num at this

end Mjinx.Props
