import Verif.Props.Teams
import Verif.Props.EnergyEx
import Verif.Props.Carry

/-!
# C123: two carts, and what damping does
-/

namespace Mjinx.Props
open Spec Finset

namespace Carts

/-- Two carts, each on its own rail. -/
noncomputable def model : MjModel ℝ :=
  { (MjModel.empty : MjModel ℝ) with
    nq := 2, nv := 2, nbody := 3, jntType := [.slide, .slide], jntQposadr := [0, 1], jntDofadr := [0, 1], jntRange := [(0, 0), (0, 0)], bodyParentid := [0, 0, 0],
    bodyRootid := [0, 1, 2], bodyWeldid := [0, 1, 2], dofBodyid := [1, 2], bodyMass := [0, 1, 1], bodyNames := ["world", "left", "right"] }

noncomputable def geometry : Geometry where
  bodyPos := [0, 0, ![0, 1, 0]]
  bodyQuat := [1, 1, 1]
  bodyIpos := [0, 0, 0]
  jntBodyid := [1, 2]
  jntPos := [0, 0]
  jntAxis := [![1, 0, 0], ![1, 0, 0]]
  qpos0 := fun _ => 0
  geomPos := []
  geomQuat := []
  sitePos := []
  siteQuat := []

noncomputable def env : Env ℝ :=
  { Rod.env 0 with kinematics := simKinematics geometry, comPos := simComPos geometry, makeConstraint := fun _ d => d }

theorem simulates : Simulates env geometry model := ⟨fun _ => rfl, fun _ => rfl, fun d => ⟨d.efcEq, d.efcPos, d.efcJ, rfl⟩, rfl⟩

theorem robot : RobotWF geometry model where
  tree := by
    refine ⟨?_, by decide, rfl, by decide⟩
    intro b h0 hb
    have : b < 3 := hb
    interval_cases b <;> decide
  addr := ⟨by repeat' constructor, rfl⟩
  joints := by
    intro j hj
    have : j < 2 := hj
    interval_cases j <;> exact ⟨by decide, by decide⟩
  dofs := rfl
  axis := by
    intro j hj ht
    have : j < 2 := hj
    interval_cases j <;> cases ht
  quat := Buoy.unitOne _ (by simp [geometry])
  free := by
    intro j hj ht
    have : j < 2 := hj
    interval_cases j <;> cases ht
  ball := by
    intro j i hji hi _ ht
    have hi' : i < 2 := hi
    have hj : j < 2 := by omega
    interval_cases j <;> cases ht
  roots := ⟨rfl, by decide⟩
  root := by
    intro b h0 hb hp
    have : b < 3 := hb
    interval_cases b <;> exact absurd rfl hp
  mass := rfl
  objects := ⟨by decide, by decide⟩
  turns := ⟨Buoy.unitOne _ (by simp [geometry]), Buoy.unitOne _ (by simp [geometry])⟩

theorem unit (q : Vec ℝ) : UnitQuats model q := by
  intro k adr h
  rcases k with _ | _ | k
  · cases h
  · cases h
  · rw [List.getD_eq_default (l := model.jntType) _ (show 2 ≤ k + 2 by omega)] at h
    cases h

/-- The right cart is a mechanism of its own. -/
theorem separate : Separate model (· = 2) := by
  intro b h0 hb hp
  have : b < 3 := hb
  interval_cases b <;> exact absurd rfl hp

/-- Bring the right cart to zero, and the left one, damped with `L`. -/
noncomputable def right : NewComp ℝ := .jointTask ⟨"right", Arr.scalar 1, Arr.scalar 1, none, 0, none⟩ (some [0, 1])
noncomputable def left (L : ℝ) : NewComp ℝ := .jointTask ⟨"left", Arr.scalar 1, Arr.scalar 1, none, L, none⟩ (some [1, 0])

/-- The first problem has both tasks, the second one only that of the right cart. -/
noncomputable def rest : List (Op ℝ) :=
  [.newProblem model (Arr.scalar (-2)) (Arr.scalar 2), .newProblem model (Arr.scalar (-2)) (Arr.scalar 2), .add 0 0, .add 0 1, .add 1 0]

noncomputable def setup (L : ℝ) : List (Op ℝ) := .newComp right :: .newComp (left L) :: rest

noncomputable def first (L : ℝ) (n : String) (f : List Int) : Comp ℝ :=
  Comp.fresh ⟨n, none, Arr.scalar 1, id, -1, none, [], .jointTask ⟨Arr.scalar 1, L⟩ (some f) none none⟩

theorem args_ok {L : ℝ} (h : 0 ≤ L) : initTaskA (Arr.scalar 1 : Arr ℝ) L = .ok ⟨Arr.scalar 1, L⟩ := by
  rw [initTaskA, if_neg (not_lt.2 h)]; rfl

theorem right_ok : right.run = .ok (first 0 "right" [0, 1]) := by
  show newJointTask _ _ = _
  simp only [newJointTask, bind, Except.bind, args_ok le_rfl]
  rfl

theorem left_ok {L : ℝ} (h : 0 ≤ L) : (left L).run = .ok (first L "left" [1, 0]) := by
  show newJointTask _ _ = _
  simp only [newJointTask, bind, Except.bind, args_ok h]
  rfl

theorem run_setup {L : ℝ} (h : 0 ≤ L) : run World.init (setup L) = run ⟨[first 0 "right" [0, 1], first L "left" [1, 0]], []⟩ rest := by
  have h1 : (step World.init (.newComp right)).2 = ⟨[first 0 "right" [0, 1]], []⟩ := by simp only [step, right_ok]; rfl
  have h2 : (step (⟨[first 0 "right" [0, 1]], []⟩ : World ℝ) (.newComp (left L))).2 = ⟨[first 0 "right" [0, 1], first L "left" [1, 0]], []⟩ := by
    simp only [step, left_ok h]; rfl
  show run (step (step World.init (.newComp right)).2 (.newComp (left L))).2 rest = _
  rw [h1, h2]

/-- The compiled task about joint `i`. -/
noncomputable def task (L : ℝ) (i : Nat) : JaxComp ℝ where
  model := model
  dim := 1
  vectorGain := Arr.onesMul 1 (Arr.scalar 1)
  gainFn := id
  maskIdxs := [i]
  kind := .jointTask (Arr.eyeMul 1 (Arr.scalar 1)) L (Arr.zeros 1) [i]

noncomputable def prob (cs : List (String × JaxComp ℝ)) : JaxProblem ℝ := ⟨model, Arr.onesMul 2 (Arr.scalar (-2)), Arr.onesMul 2 (Arr.scalar 2), cs⟩

theorem compiled {L : ℝ} (h : 0 ≤ L) : (step (run World.init (setup L)) (.compile 0)).1 = .ok (.compiled (prob [("right", task 0 1), ("left", task L 0)])) := by
  rw [run_setup h]; rfl

theorem compiled_right {L : ℝ} (h : 0 ≤ L) : (step (run World.init (setup L)) (.compile 1)).1 = .ok (.compiled (prob [("right", task 0 1)])) := by
  rw [run_setup h]; rfl

theorem value (L : ℝ) (x : Fin 2 → ℝ) {i : Nat} (hi : i < 2) : ∃ V, evalValue env (task L i) (update env model (vecOf x)) = .ok V ∧ V.len = 1 ∧ V.get 0 = (vecOf x).get i := by
  have hq := sim_qpos simulates robot.addr (x := x) (unit _)
  refine ⟨⟨1, fun k => ((vecOf x).gather [i]).get k - 0⟩, ?_, rfl, ?_⟩
  · unfold evalValue
    exact (congrArg (fun z : Vec ℝ => subVec (z.gather [i]) ⟨1, fun _ => 0⟩) hq).trans rfl
  · show _ - (0 : ℝ) = _
    rw [sub_zero]
    interval_cases i <;> rfl

theorem jacobian (L : ℝ) (d : MjData ℝ) {i : Nat} (hi : i < 2) : ∃ J, evalJacobian env (task L i) d = .ok J ∧ J.rows = 1 ∧ J.cols = 2 ∧ ∀ v : Nat → ℝ, rowDot J 0 v = v i := by
  interval_cases i
  all_goals
    refine ⟨_, rfl, rfl, rfl, fun v => ?_⟩
    show ∑ k ∈ range 2, _ = _
    rw [sum_range_succ, sum_range_one]
  · show (1 : ℝ) * v 0 + 0 * v 1 = v 0; ring
  · show (0 : ℝ) * v 0 + 1 * v 1 = v 1; ring

theorem seen (L : ℝ) (x : Fin 2 → ℝ) {i : Nat} (hi : i < 2) {c : SolverComp ℝ} (h : solverComp env (update env model (vecOf x)) (task L i) = .ok c) : CompShaped 2 c := by
  obtain ⟨V, a1, a2, a3⟩ := value L x hi
  obtain ⟨J, b1, b2, b3, b4⟩ := jacobian L (update env model (vecOf x)) hi
  have k : solverComp env (update env model (vecOf x)) (task L i) = .ok (.task ⟨J, V, ⟨1, fun _ => 1 * 1⟩, id⟩ ⟨1, 1, fun i k => (if i = k then 1 else 0) * 1⟩ L) := by
    unfold solverComp evaluate
    simp only [bind, Except.bind, a1, b1]
    rfl
  obtain rfl := Except.ok.inj (k.symm.trans h)
  exact ⟨⟨b3, a2.trans b2.symm, b2.symm⟩, b2.symm, b2.symm⟩

theorem sized (x : Fin 2 → ℝ) {cs : List (String × JaxComp ℝ)} (hcs : ∀ nj ∈ cs, ∃ L i, i < 2 ∧ nj.2 = task L i) : WellSized env (prob cs) (update env model (vecOf x)) := by
  intro vMin vMax ss h1 h2 h3
  cases h1; cases h2
  refine ⟨rfl, rfl, fun c hc => ?_⟩
  obtain ⟨j, hj, hs⟩ := (mapM_mem h3).2.1 c hc
  obtain ⟨nj, hn, rfl⟩ := List.mem_map.1 hj
  obtain ⟨L, i, hi, e⟩ := hcs nj hn
  rw [e] at hs
  exact seen L x hi hs

/-- What the tasks ask of a velocity. -/
noncomputable def term (L : ℝ) (n : String) (f : List Int) (i : Nat) (J : Mat ℝ) (V : Vec ℝ) : Term ℝ where
  attrs := ⟨n, some model, Arr.scalar 1, id, 1, some f, [i], .jointTask ⟨Arr.scalar 1, L⟩ (some f) (some (Arr.zeros 1)) (some [i])⟩
  jac := J
  value := V

theorem term_price {L : ℝ} {n : String} {f : List Int} {x : ℝ} {i : Nat} {J : Mat ℝ} {V : Vec ℝ} (h1 : J.rows = 1) (h2 : ∀ v : Nat → ℝ, rowDot J 0 v = v i)
    (h3 : V.get 0 = x) (v : Nat → ℝ) : (term L n f i J V).price 2 v = (v i + x) ^ 2 / 2 + L * x ^ 2 * (v 0 ^ 2 + v 1 ^ 2) / 2 := by
  have w : ∀ i k, weightAt (Arr.scalar (1 : ℝ)) i k = if i = k then 1 else 0 := fun _ _ => rfl
  have g : ∀ i, gainAt (Arr.scalar (1 : ℝ)) i = 1 := fun _ => rfl
  show sqNorm J.rows _ / 2 + L * sqNorm J.rows _ * sqNorm 2 v / 2 = _
  unfold sqNorm Term.misfit Term.rate
  show (∑ r ∈ range J.rows, (∑ k ∈ range J.rows, weightAt (Arr.scalar 1) r k * (rowDot J k v + gainAt (Arr.scalar 1) k * V.get k)) ^ 2) / 2 +
    L * (∑ r ∈ range J.rows, (∑ k ∈ range J.rows, weightAt (Arr.scalar 1) r k * (rowDot J k (fun _ => 0) + gainAt (Arr.scalar 1) k * V.get k)) ^ 2) * (∑ k ∈ range 2, v k ^ 2) / 2 = _
  rw [h1]
  simp only [sum_range_succ, sum_range_zero, h2, w, g, h3]
  norm_num

theorem about_right (L : ℝ) : IsAbout env model (· = 2) (task L 1) := by
  refine ⟨rfl, ?_⟩
  intro k hk
  obtain rfl := List.mem_singleton.1 hk
  rfl

theorem about_left (L : ℝ) : IsAbout env model (fun b => ¬ b = 2) (task L 0) := by
  refine ⟨rfl, ?_⟩
  intro k hk
  obtain rfl := List.mem_singleton.1 hk
  show ¬ (1 = 2)
  decide

/-- Both tasks at the configuration `x`. -/
theorem terms {L : ℝ} (hL : 0 ≤ L) (x : Fin 2 → ℝ) : ∃ P PA, (run World.init (setup L)).probs[0]? = some P ∧ (run World.init (setup L)).probs[1]? = some PA ∧
    P.comps = [("right", 0), ("left", 1)] ∧ PA.comps = [("right", 0)] ∧ P.model = model ∧ PA.model = model ∧ (PA.vMin = P.vMin ∧ PA.vMax = P.vMax) ∧
    P.vMin = Arr.onesMul 2 (Arr.scalar (-2)) ∧ P.vMax = Arr.onesMul 2 (Arr.scalar 2) ∧
    ∃ J1 V1 J2 V2, J1.rows = 1 ∧ J2.rows = 1 ∧ (∀ v : Nat → ℝ, rowDot J1 0 v = v 1) ∧ (∀ v : Nat → ℝ, rowDot J2 0 v = v 0) ∧
      V1.get 0 = x 1 ∧ V2.get 0 = x 0 ∧
      TermsOf (run World.init (setup L)) P (prob [("right", task 0 1), ("left", task L 0)]) env (update env model (vecOf x)) [term 0 "right" [0, 1] 1 J1 V1, term L "left" [1, 0] 0 J2 V2] ∧
      TermsOf (run World.init (setup L)) PA (prob [("right", task 0 1)]) env (update env model (vecOf x)) [term 0 "right" [0, 1] 1 J1 V1] := by
  obtain ⟨V1, a1, -, a2⟩ := value 0 x (i := 1) (by norm_num)
  obtain ⟨V2, b1, -, b2⟩ := value L x (i := 0) (by norm_num)
  obtain ⟨J1, c1, c2, -, c3⟩ := jacobian 0 (update env model (vecOf x)) (i := 1) (by norm_num)
  obtain ⟨J2, d1, d2, -, d3⟩ := jacobian L (update env model (vecOf x)) (i := 0) (by norm_num)
  rw [run_setup hL]
  refine ⟨_, _, rfl, rfl, rfl, rfl, rfl, rfl, ⟨rfl, rfl⟩, rfl, rfl, J1, V1, J2, V2, c2, d2, c3, d3, a2, b2, ?_, ?_⟩
  · exact .cons ⟨_, rfl, rfl, _, List.mem_cons_self, c1, a1⟩ (.cons ⟨_, rfl, rfl, _, List.mem_cons_of_mem _ List.mem_cons_self, d1, b1⟩ .nil)
  · exact .cons ⟨_, rfl, rfl, _, List.mem_cons_self, c1, a1⟩ .nil

/-- What the components see is determined. -/
theorem terms_unique {w : World ℝ} {P : Prob ℝ} {J : JaxProblem ℝ} {e : Env ℝ} {d : MjData ℝ} (hn : (J.comps.map Prod.fst).Nodup) {ts ts' : List (Term ℝ)}
    (h : TermsOf w P J e d ts) (h' : TermsOf w P J e d ts') : ts = ts' := by
  unfold TermsOf at h h'
  have key : ∀ {l : List (String × Nat)} {us us' : List (Term ℝ)},
      List.Forall₂ (fun (ni : String × Nat) (t : Term ℝ) => ∃ c, w.comps[ni.2]? = some c ∧ t.attrs = c.attrs ∧
        ∃ j, (ni.1, j) ∈ J.comps ∧ evalJacobian e j d = .ok t.jac ∧ evalValue e j d = .ok t.value) l us →
      List.Forall₂ (fun (ni : String × Nat) (t : Term ℝ) => ∃ c, w.comps[ni.2]? = some c ∧ t.attrs = c.attrs ∧
        ∃ j, (ni.1, j) ∈ J.comps ∧ evalJacobian e j d = .ok t.jac ∧ evalValue e j d = .ok t.value) l us' → us = us' := by
    intro l us us' h
    induction h generalizing us' with
    | nil => intro h'; cases h'; rfl
    | @cons _ t _ _ a as ih =>
      intro h'
      cases h' with
      | @cons _ t' _ _ b bs =>
        rw [ih bs]
        congr 1
        obtain ⟨c, x1, x2, j, x3, x4, x5⟩ := a
        obtain ⟨c', y1, y2, j', y3, y4, y5⟩ := b
        rw [x1] at y1; cases y1
        have : j = j' := by
          have := List.inj_on_of_nodup_map hn x3 y3 rfl
          exact (Prod.mk.inj this).2
        subst this
        rw [x4] at y4; rw [x5] at y5
        obtain ⟨a1, a2, a3⟩ := t
        obtain ⟨b1, b2, b3⟩ := t'
        cases y4; cases y5
        dsimp only at x2 y2
        rw [x2, y2]
  exact key h h'

end Carts

open Carts in
/-- All hypotheses of `C123_program_partial` hold with undamped tasks: the right cart goes to zero at the rate asked for, whatever the left one is to do. -/
example {osqp : QPSolver ℝ Unit} (ho : Exact osqp) (x : Fin 2 → ℝ) {s₀ s₁ s₀' s₁' : LocalIKData ℝ} {sol solA : LocalIKSolution ℝ Unit}
    (h : localSolve env osqp model (vecOf x).toArr s₀ (prob [("right", task 0 1), ("left", task 0 0)]) = .ok (sol, s₁))
    (h' : localSolve env osqp model (vecOf x).toArr s₀' (prob [("right", task 0 1)]) = .ok (solA, s₁')) :
    (sol.vOpt.get 1 + x 1) ^ 2 ≤ (solA.vOpt.get 1 + x 1) ^ 2 := by
  obtain ⟨P, PA, hP, hPA, e1, e2, e3, e4, e5, e6, e7, J1, V1, J2, V2, r1, r2, d1, d2, v1, v2, t1, t2⟩ := terms le_rfl x
  obtain ⟨ts, tsA, k1, k2, k⟩ := C123_program_partial simulates robot (jacrevR_exact rfl) separate (setup 0) hP hPA (rest := [("left", 1)])
    (by rw [e1, e2]; rfl) e3 e4 e5 (compiled le_rfl) (compiled_right le_rfl)
    (by
      intro nj hnj hn
      rw [e2] at hn
      rcases List.mem_cons.1 hnj with rfl | hnj
      · exact about_right 0
      · obtain rfl := List.mem_singleton.1 hnj
        exact absurd (List.mem_singleton.1 hn) (by decide))
    (by
      intro nj hnj hn
      rcases List.mem_cons.1 hnj with rfl | hnj
      · exact absurd (List.mem_singleton.1 hn) (by decide)
      · obtain rfl := List.mem_singleton.1 hnj
        exact about_left 0)
    ho (unit _)
    (sized x (by
      intro nj hnj
      rcases List.mem_cons.1 hnj with rfl | hnj
      · exact ⟨0, 1, by norm_num, rfl⟩
      · obtain rfl := List.mem_singleton.1 hnj
        exact ⟨0, 0, by norm_num, rfl⟩))
    (sized x (by
      intro nj hnj
      obtain rfl := List.mem_singleton.1 hnj
      exact ⟨0, 1, by norm_num, rfl⟩)) h h'
  obtain rfl := terms_unique (by decide) k1 t1
  obtain rfl := terms_unique (by decide) k2 t2
  have hz : ∀ i < 2, - P.vMax.get [i] ≤ (0 : ℝ) ∧ (0 : ℝ) ≤ - P.vMin.get [i] := by
    intro i _
    rw [e6, e7]
    show - (1 * 2 : ℝ) ≤ 0 ∧ (0 : ℝ) ≤ - (1 * -2 : ℝ)
    norm_num
  obtain ⟨b1, b2⟩ := k ⟨fun _ => 0, hz, by
      intro t ht
      rcases List.mem_cons.1 ht with rfl | ht
      · trivial
      · obtain rfl := List.mem_singleton.1 ht
        trivial⟩ (by
      intro t ht
      rcases List.mem_cons.1 ht with rfl | ht
      · rfl
      · obtain rfl := List.mem_singleton.1 ht
        rfl)
  have hu : Allowed 2 P.vMin P.vMax [term 0 "right" [0, 1] 1 J1 V1] (joined (Drives model (· = 2)) solA.vOpt.get sol.vOpt.get) :=
    ⟨b2.1.1, by intro t ht; obtain rfl := List.mem_singleton.1 ht; trivial⟩
  have := b1.2 _ hu
  have p : ∀ v, totalPrice 2 [term 0 "right" [0, 1] 1 J1 V1] v = (v 1 + x 1) ^ 2 / 2 := by
    intro v
    show (term 0 "right" [0, 1] 1 J1 V1).price 2 v + 0 = _
    rw [term_price r1 d1 v1]; ring
  have e : joined (Drives model (· = 2)) solA.vOpt.get sol.vOpt.get 1 = solA.vOpt.get 1 := if_pos (show Drives model (· = 2) 1 from rfl)
  have this : totalPrice 2 _ _ ≤ totalPrice 2 _ _ := this
  rw [p, p, e] at this
  linarith

open Carts in
/-- **C123 fails for damped tasks.** The damping of the task of the left cart slows down the right one: the best velocity for both tasks is not the best
velocity for the task of the right cart, although the left task does not see the right cart. -/
theorem C123_damped_wrong : ∃ P PA ts tsA, (run World.init (setup 1)).probs[0]? = some P ∧ (run World.init (setup 1)).probs[1]? = some PA ∧
    (P.comps = [("right", 0), ("left", 1)] ∧ PA.comps = [("right", 0)]) ∧
    (IsAbout env model (· = 2) (task 0 1) ∧ IsAbout env model (fun b => ¬ b = 2) (task 1 0)) ∧
    TermsOf (run World.init (setup 1)) P (prob [("right", task 0 1), ("left", task 1 0)]) env (update env model (vecOf fun _ : Fin 2 => 1)) ts ∧
    TermsOf (run World.init (setup 1)) PA (prob [("right", task 0 1)]) env (update env model (vecOf fun _ : Fin 2 => 1)) tsA ∧
    Best 2 P.vMin P.vMax ts (fun _ => - 1 / 2) ∧ (∀ v, Best 2 P.vMin P.vMax ts v → v 1 = - 1 / 2) ∧ (∀ v, Best 2 P.vMin P.vMax tsA v → v 1 = - 1) ∧
    Best 2 P.vMin P.vMax tsA (fun _ => - 1) := by
  obtain ⟨P, PA, hP, hPA, e1, e2, e3, e4, e5, e6, e7, J1, V1, J2, V2, r1, r2, d1, d2, v1, v2, t1, t2⟩ := terms zero_le_one (fun _ => 1)
  have hall : ∀ {ts : List (Term ℝ)}, (∀ t ∈ ts, ∃ L n f i J V, t = term L n f i J V) → ∀ v : Nat → ℝ, Allowed 2 P.vMin P.vMax ts v ↔ ∀ i < 2, -2 ≤ v i ∧ v i ≤ 2 := by
    intro ts hts v
    have hb : ∀ i, - P.vMax.get [i] = -2 ∧ - P.vMin.get [i] = 2 := by
      intro i
      rw [e6, e7]
      show - (1 * 2 : ℝ) = -2 ∧ - (1 * -2 : ℝ) = 2
      norm_num
    unfold Allowed
    simp only [(hb _).1, (hb _).2]
    refine ⟨fun h => h.1, fun h => ⟨h, fun t ht => ?_⟩⟩
    obtain ⟨L, n, f, i, J, V, rfl⟩ := hts t ht
    trivial
  have hA : ∀ t ∈ [term 0 "right" [0, 1] 1 J1 V1], ∃ L n f i J V, t = term L n f i J V := by
    intro t ht
    obtain rfl := List.mem_singleton.1 ht
    exact ⟨_, _, _, _, _, _, rfl⟩
  have hB : ∀ t ∈ [term 0 "right" [0, 1] 1 J1 V1, term 1 "left" [1, 0] 0 J2 V2], ∃ L n f i J V, t = term L n f i J V := by
    intro t ht
    rcases List.mem_cons.1 ht with rfl | ht
    · exact ⟨_, _, _, _, _, _, rfl⟩
    · obtain rfl := List.mem_singleton.1 ht
      exact ⟨_, _, _, _, _, _, rfl⟩
  have pA : ∀ v, totalPrice 2 [term 0 "right" [0, 1] 1 J1 V1] v = (v 1 + 1) ^ 2 / 2 := by
    intro v
    show (term 0 "right" [0, 1] 1 J1 V1).price 2 v + 0 = _
    rw [term_price r1 d1 v1]; ring
  have pB : ∀ v, totalPrice 2 [term 0 "right" [0, 1] 1 J1 V1, term 1 "left" [1, 0] 0 J2 V2] v = (v 1 + 1 / 2) ^ 2 + (v 0 + 1 / 2) ^ 2 + 1 / 2 := by
    intro v
    show (term 0 "right" [0, 1] 1 J1 V1).price 2 v + ((term 1 "left" [1, 0] 0 J2 V2).price 2 v + 0) = _
    rw [term_price r1 d1 v1, term_price r2 d2 v2]; ring
  have bA : Best 2 P.vMin P.vMax [term 0 "right" [0, 1] 1 J1 V1] (fun _ => -1) := by
    refine ⟨(hall hA _).2 (by intro i _; norm_num), fun u _ => ?_⟩
    rw [pA, pA]
    nlinarith [sq_nonneg (u 1 + 1)]
  have bB : Best 2 P.vMin P.vMax [term 0 "right" [0, 1] 1 J1 V1, term 1 "left" [1, 0] 0 J2 V2] (fun _ => -1 / 2) := by
    refine ⟨(hall hB _).2 (by intro i _; norm_num), fun u _ => ?_⟩
    rw [pB, pB]
    nlinarith [sq_nonneg (u 1 + 1 / 2), sq_nonneg (u 0 + 1 / 2)]
  refine ⟨P, PA, _, _, hP, hPA, ⟨e1, e2⟩, ⟨about_right 0, about_left 1⟩, t1, t2, bB, fun v hv => ?_, fun v hv => ?_, bA⟩
  · have := hv.2 _ bB.1
    rw [pB, pB] at this
    have h0 : (v 1 + 1 / 2) ^ 2 = 0 := le_antisymm (by nlinarith [sq_nonneg (v 0 + 1 / 2)]) (sq_nonneg _)
    have := pow_eq_zero_iff (two_ne_zero) |>.1 h0
    linarith
  · have := hv.2 _ bA.1
    rw [pA, pA] at this
    have h0 : (v 1 + 1) ^ 2 = 0 := le_antisymm (by nlinarith) (sq_nonneg _)
    have := pow_eq_zero_iff (two_ne_zero) |>.1 h0
    linarith

end Mjinx.Props
