import Verif.Props.Structure
import Verif.Props.RunningRobotEx

/-!
# C118 on the clamped robot of C116
-/

namespace Mjinx.Props
open Spec

namespace ClampRun

theorem clamp_six (d : MjData ℝ) (hx : d.xpos.length = 3) (hm : d.xmat.length = 3) (hq : d.xquat.length = 3) (hc : d.subtreeCom.length = 3) :
    (Clamp.rowsOf Clamp.model d).length = 6 := by
  have h3 : ∀ {α : Type} (l : List α) (i : Nat), l.length = 3 → ∃ x, jnpGet l (i : Int) = .ok x := by
    intro α l i h
    have h0 : ¬ ((i : Int) < 0) := by omega
    refine ⟨l[min i (l.length - 1)]'(by omega), ?_⟩
    simp only [jnpGet, h0, if_false, Int.toNat_natCast]
    rw [List.getElem?_eq_getElem (by omega)]
  have hJ : ∀ (p : V3 ℝ) (b : Nat), ∃ J, pointJacobian Clamp.model d p (b : Int) = .ok J := by
    intro p b
    obtain ⟨r, hr⟩ := h3 Clamp.model.bodyRootid b rfl
    obtain ⟨c, hc⟩ := h3 d.subtreeCom r hc
    exact ⟨_, by simp only [pointJacobian, bind, Except.bind, hr, hc]; rfl⟩
  obtain ⟨R1, h1⟩ := h3 d.xmat 1 hm
  obtain ⟨R2, h2⟩ := h3 d.xmat 2 hm
  obtain ⟨x1, h4⟩ := h3 d.xpos 1 hx
  obtain ⟨x2, h5⟩ := h3 d.xpos 2 hx
  obtain ⟨q1, h6⟩ := h3 d.xquat 1 hq
  obtain ⟨q2, h7⟩ := h3 d.xquat 2 hq
  obtain ⟨J1, h8⟩ := hJ (R1.mulVec Clamp.clamp.anchor2 + x1) 1
  obtain ⟨J2, h9⟩ := hJ (R2.mulVec Clamp.clamp.anchor1 + x2) 2
  have e1 : ((Clamp.clamp.body1 : Nat) : Int) = ((1 : Nat) : Int) := rfl
  have e2 : ((Clamp.clamp.body2 : Nat) : Int) = ((2 : Nat) : Int) := rfl
  unfold Clamp.rowsOf weldRows
  simp only [bind, Except.bind, e1, e2, h1, h2, h4, h5, h6, h7, h8, h9]
  rfl

theorem clamp_update (q : Vec ℝ) : (update Clamp.env Clamp.model q).efcEq = [true, true, true, true, true, true] ∧
    (update Clamp.env Clamp.model q).efcPos.length = 6 ∧ (update Clamp.env Clamp.model q).efcJ.length = 6 := by
  have h := clamp_six (simComPos Clamp.geometry Clamp.model (simKinematics Clamp.geometry Clamp.model q)) rfl rfl rfl
    (by simp [simComPos, simKinematics, subtreeComs, Structure.treeSum_length]; rfl)
  refine ⟨?_, ?_, ?_⟩
  · show (Clamp.rowsOf Clamp.model (simComPos Clamp.geometry Clamp.model (simKinematics Clamp.geometry Clamp.model q))).map (fun _ => true) = _
    rw [List.map_const', h]; rfl
  · show ((Clamp.rowsOf Clamp.model (simComPos Clamp.geometry Clamp.model (simKinematics Clamp.geometry Clamp.model q))).map EfcRow.pos).length = _
    rw [List.length_map, h]
  · show ((Clamp.rowsOf Clamp.model (simComPos Clamp.geometry Clamp.model (simKinematics Clamp.geometry Clamp.model q))).map EfcRow.jac).length = _
    rw [List.length_map, h]

theorem fixed : FixedSizes Clamp.env Clamp.model := by
  refine C118_robot Clamp.simulates (fun q q' => ?_) (fun _ _ _ _ => ⟨rfl, rfl⟩) (fun _ _ => ⟨rfl, rfl⟩)
  obtain ⟨h1, h2, h3⟩ := clamp_update q
  obtain ⟨h4, h5, h6⟩ := clamp_update q'
  exact ⟨by rw [h1, h4], by rw [h2, h5], by rw [h3, h6]⟩

/-- New targets, gains, dampings and costs. -/
noncomputable def tuned (xs : List (Fin 3 → ℝ)) (g lm : ℝ) : List (Op ℝ) :=
  [.comp 0 (.updateGain (Arr.scalar g)), .comp 0 (.setLmDamping lm), .comp 2 (.setActive false), .updateVMax 0 (Arr.scalar g), .compile 0] ++
    xs.map fun x => .comp 0 (.updateTarget ⟨[3], fun i => x (Fin.ofNat 3 (i.headD 0))⟩)

theorem keeps (xs : List (Fin 3 → ℝ)) (g lm : ℝ) : ∀ op ∈ tuned xs g lm, KeepsStructure 0 (run World.init setup) op := by
  rw [run_setup]
  intro op h
  rcases List.mem_append.1 h with h | h
  · fin_cases h
    · intro _ c hc; cases hc; trivial
    · intro _ c hc; cases hc; trivial
    · intro _ c hc; cases hc; trivial
    · trivial
    · trivial
  · obtain ⟨x, -, rfl⟩ := List.mem_map.1 h
    intro _ c hc
    cases hc
    exact rfl

end ClampRun

/-- Whatever targets, gains and dampings a user sets on a loop that worked once, if it compiles it works (or the result is not a number). -/
example {I : Type} (osqp : QPSolver ℝ I) (xs : List (Fin 3 → ℝ)) (g lm : ℝ) {J J' : JaxProblem ℝ}
    (hJ : (step (run World.init ClampRun.setup) (.compile 0)).1 = .ok (.compiled J))
    (hJ' : (step (run (run World.init ClampRun.setup) (ClampRun.tuned xs g lm)) (.compile 0)).1 = .ok (.compiled J'))
    {q q' : Arr ℝ} {s s' : LocalIKData ℝ} {r : LocalIKSolution ℝ I × LocalIKData ℝ} (hr : localSolve Clamp.env osqp Clamp.model q s J = .ok r)
    (hq : q'.shape = [3]) :
    (∃ r', localSolve Clamp.env osqp Clamp.model q' s' J' = .ok r') ∨ localSolve Clamp.env osqp Clamp.model q' s' J' = .error .nonFinite := by
  refine C118_again (m := Clamp.model) ClampRun.fixed ⟨_, rfl⟩ (ClampRun.keeps xs g lm) hJ (fun nj hnj => ?_) hJ' osqp hr hq
  rw [ClampRun.run_setup] at hJ
  cases hJ
  fin_cases hnj <;> exact ClampRun.fixed

/-- The first solve works. -/
example {I : Type} (osqp : QPSolver ℝ I) (s : LocalIKData ℝ) : ∃ J r, (step (run World.init ClampRun.setup) (.compile 0)).1 = .ok (.compiled J) ∧
    localSolve Clamp.env osqp Clamp.model (Vec.toArr ⟨3, fun _ => 0⟩) s J = .ok r :=
  (C117_robot Clamp.simulates Clamp.robot Clamp.model_fits (fun _ _ => ⟨rfl, rfl⟩) (fun _ _ _ _ => le_refl _) osqp 0 (acts := [.tick])
    (clean_concat _ _ _ ClampRun.clean_setup ⟨trivial, trivial⟩) ClampRun.ready (by simp [Gentle]) (q0 := ⟨3, fun _ => 0⟩) rfl s).2 ClampRun.only |>.1 rfl

/-- A target of another shape is accepted and compiles, but the next solve raises. -/
example {I : Type} (osqp : QPSolver ℝ I) (s : LocalIKData ℝ) :
    ∃ J', (step (run (run World.init ClampRun.setup) [.comp 0 (.updateTarget ⟨[1, 3], fun _ => 0⟩)]) (.compile 0)).1 = .ok (.compiled J') ∧
    localSolve Clamp.env osqp Clamp.model (Vec.toArr ⟨3, fun _ => 0⟩) s J' = .error .shapeMismatch := by
  rw [ClampRun.run_setup]
  exact ⟨_, rfl, rfl⟩

end Mjinx.Props
