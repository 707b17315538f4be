import Verif.Props.TeamsOwn
import Verif.Props.TeamsEx

/-!
# C123: where the left cart is does not matter to the right one
-/

namespace Mjinx.Props
open Spec Finset

open Carts in
/-- All hypotheses of `C123_elsewhere`: the task of the right cart, with the left cart in two different places. -/
example {osqp : QPSolver ℝ Unit} (ho : Exact osqp) (a b c : ℝ) {s₀ s₁ s₀' s₁' : LocalIKData ℝ} {sol sol' : LocalIKSolution ℝ Unit}
    (h : localSolve env osqp model (vecOf ![a, c]).toArr s₀ (prob [("right", task 0 1)]) = .ok (sol, s₁))
    (h' : localSolve env osqp model (vecOf ![b, c]).toArr s₀' (prob [("right", task 0 1)]) = .ok (sol', s₁')) :
    (sol.vOpt.get 1 + c) ^ 2 ≤ (sol'.vOpt.get 1 + c) ^ 2 := by
  obtain ⟨P, PA, hP, hPA, e1, e2, e3, e4, e5, e6, e7, J1, V1, J2, V2, r1, r2, d1, d2, v1, v2, t1, t2⟩ := terms le_rfl ![b, c]
  have hsz : ∀ x : Fin 2 → ℝ, WellSized env (prob [("right", task 0 1)]) (update env model (vecOf x)) := fun x => sized x (by
    intro nj hnj
    obtain rfl := List.mem_singleton.1 hnj
    exact ⟨0, 1, by norm_num, rfl⟩)
  have hA : ∀ nj ∈ (prob [("right", task 0 1)]).comps, IsAbout env model (· = 2) nj.2 ∧ LooksAt env model (· = 2) nj.2 := by
    intro nj hnj
    obtain rfl := List.mem_singleton.1 hnj
    refine ⟨about_right 0, ?_⟩
    intro a ha
    obtain rfl := List.mem_singleton.1 ha
    exact ⟨by decide, 1, by decide, rfl, rfl⟩
  have hsame : ∀ a b, PlacedSame model (· = 2) (vecOf ![a, c]) (vecOf ![b, c]) := by
    intro a b j hj hd i hi
    have : j < 2 := hj
    interval_cases j
    · exact absurd (show (1 : Nat) = 2 from hd) (by decide)
    · have : i < 1 := hi
      interval_cases i
      rfl
  obtain ⟨ts, ts', k1, k2, k3, k4⟩ := C123_elsewhere simulates robot (jacrevR_exact rfl) separate (setup 0) hPA e4 (compiled_right le_rfl) hA ho (unit _) (unit _) (hsame a b)
    (hsz _) (hsz _) h h'
  obtain ⟨us', us, l1, l2, l3, l4⟩ := C123_elsewhere simulates robot (jacrevR_exact rfl) separate (setup 0) hPA e4 (compiled_right le_rfl) hA ho (unit _) (unit _) (hsame b a)
    (hsz _) (hsz _) h' h
  obtain rfl := terms_unique (by decide) k2 t2
  obtain rfl := terms_unique (by decide) l1 t2
  obtain rfl := terms_unique (by decide) k1 l2
  have hall : ∀ (a : ℝ) {us : List (Term ℝ)}, TermsOf (run World.init (setup 0)) PA (prob [("right", task 0 1)]) env (update env model (vecOf ![a, c])) us → Allowed 2 PA.vMin PA.vMax us (fun _ => 0) := by
    intro a us hus
    obtain ⟨Q, QA, g, gA, -, -, -, -, -, f6, f7, I1, U1, -, -, -, -, -, -, -, -, -, u2⟩ := terms le_rfl ![a, c]
    rw [hPA] at gA; cases gA
    rw [hP] at g; cases g
    obtain rfl := terms_unique (by decide) hus u2
    rw [e5.1, e5.2]
    refine ⟨fun i _ => ?_, fun t ht => ?_⟩
    · rw [e6, e7]
      show - (1 * 2 : ℝ) ≤ 0 ∧ (0 : ℝ) ≤ - (1 * -2 : ℝ)
      norm_num
    · obtain rfl := List.mem_singleton.1 ht
      trivial
  have hb := k4 ⟨_, hall a k1⟩
  have hb' := (l3 _).2 (l4 ⟨_, hall b l1⟩)
  have p : ∀ v, totalPrice 2 [term 0 "right" [0, 1] 1 J1 V1] v = (v 1 + c) ^ 2 / 2 := by
    intro v
    show (term 0 "right" [0, 1] 1 J1 V1).price 2 v + 0 = _
    rw [term_price r1 d1 v1]
    show (v 1 + c) ^ 2 / 2 + 0 * _ * _ / 2 + 0 = _
    ring
  have := hb.2 _ hb'.1
  have this : totalPrice 2 _ _ ≤ totalPrice 2 _ _ := this
  rw [p, p] at this
  linarith

end Mjinx.Props
