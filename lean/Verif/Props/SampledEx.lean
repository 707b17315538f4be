import Verif.Props.Sampled
import Verif.Props.Flow
import Verif.Props.Solvable

/-!
# A crane under control

A program that meets the hypotheses of C98 and C99: the tip of the crane of `Crane` is to be moved to 2 along the first axis, and must not come
closer than 1.
-/

set_option linter.unusedSectionVars false

namespace Mjinx.Props
open Mjinx Mjinx.Spec Finset

namespace SampledEx

noncomputable def model : MjModel ℝ := { Crane.model with bodyGeomadr := [-1, -1], bodyGeomnum := [0, 0] }

noncomputable def data (q : Vec ℝ) : MjData ℝ where
  qpos := q
  xpos := [0, Crane.tip q]
  xquat := [1, 1]
  xmat := [1, 1]
  geomXpos := []
  geomXmat := []
  siteXpos := []
  siteXmat := []
  xipos := [0, Crane.tip q]
  subtreeCom := [Crane.tip q, Crane.tip q]
  cdof := [(0, 0), (0, 0)]
  efcEq := []
  efcPos := []
  efcJ := []

noncomputable def env : Env ℝ := { Rod.env 0 with kinematics := fun _ q => data q }

theorem model_wf : JointsWF model := ⟨by repeat' constructor, rfl⟩
theorem model_scalar : ∀ t ∈ model.jntType, t.scalar = true := by
  intro t ht
  have : t ∈ ([.slide, .hinge] : List JntType) := ht
  fin_cases this <;> rfl
theorem model_fits : ModelFits model where
  bodies := Nat.succ_pos _
  rootLen := rfl
  root := by
    intro r (h : r ∈ [0, 1])
    fin_cases h <;> exact by decide
  mass := rfl
  bodyNames := rfl
  geomNames := rfl
  siteNames := rfl
  geomBody := fun _ h => by cases h
  siteBody := fun _ h => by cases h
  geomLen := rfl
  contypeLen := rfl
  joints := model_wf
  geoms := ⟨rfl, rfl, rfl⟩
  collision := by
    refine ⟨rfl, ?_, rfl, ?_, rfl, rfl, ?_, rfl⟩
    · intro r (h : r ∈ [0, 1])
      fin_cases h <;> exact by decide
    · intro r (h : r ∈ [0, 0])
      fin_cases h <;> exact by decide
    · intro b (hb : b < 2)
      obtain rfl | rfl : b = 0 ∨ b = 1 := by omega
      · exact .inl rfl
      · exact .inl rfl
theorem env_fits : EnvFits env model := ⟨fun _ _ => ⟨⟨rfl, rfl, rfl⟩, rfl⟩, fun _ _ _ _ => le_refl _⟩
theorem sized (q : Vec ℝ) (hq : q.len = 2) : Sized env model (update env model q) := ⟨fun _ _ => ⟨rfl, rfl⟩, hq, rfl, rfl⟩
theorem data_fits (q : Vec ℝ) : DataFits model (update env model q) := ⟨⟨rfl, rfl, rfl⟩, rfl, rfl, rfl, rfl⟩
theorem exact : ExactSim env model := ⟨rfl, jacrevR_exact rfl, ⟨fun _ => rfl, fun _ => rfl, fun _ => rfl, fun _ => rfl⟩, fun _ => rfl⟩

theorem tip_at {q : Vec ℝ} : (![q.get 0 + 2 * Real.cos (q.get 1), 2 * Real.sin (q.get 1), 0] : V3 ℝ) = Crane.tip q := rfl

theorem located : Locates env model (.object .body "arm") Crane.tip := by
  intro k hk q
  match k with
  | 0 => exact absurd (Option.some.inj hk) (by decide)
  | 1 => rfl
  | k + 2 => cases hk

theorem smooth : SmoothPoint model Crane.tip := by
  intro q hq a
  obtain ⟨n, g⟩ := q
  obtain rfl : n = 2 := hq
  have h0 : DifferentiableAt ℝ (fun x : Fin 2 → ℝ => x 0) (coordsOf ⟨2, g⟩) := differentiableAt_apply _ _
  have h1 : DifferentiableAt ℝ (fun x : Fin 2 → ℝ => x 1) (coordsOf ⟨2, g⟩) := differentiableAt_apply _ _
  fin_cases a
  · exact h0.add (h1.cos.const_mul 2)
  · exact h1.sin.const_mul 2
  · exact differentiableAt_const 0

/-- The tip accelerates by at most twice the square of the speed of the arm. -/
theorem acceleration (B dt : ℝ) : AccelerationAtMost env model (fun _ => B) (2 * B ^ 2) dt Crane.tip := by
  intro q v hq hv a
  have e0 : ∀ s, (integrate env model q v s).get 0 = q.get 0 + s * v.get 0 := fun _ => rfl
  have e1 : ∀ s, (integrate env model q v s).get 1 = q.get 1 + s * v.get 1 := fun _ => rfl
  have hb : |v.get 1| ≤ B := hv 1 (by show 1 < 2; norm_num)
  have ha : ∀ t : ℝ, HasDerivAt (fun s : ℝ => q.get 1 + s * v.get 1) (v.get 1) t := fun t => by
    simpa using ((hasDerivAt_id t).mul_const (v.get 1)).const_add (q.get 1)
  have hsq : ∀ t : ℝ, 0 ≤ t → |v.get 1| * |t * v.get 1| ≤ B ^ 2 * t := fun t ht => by
    rw [abs_mul, abs_of_nonneg ht]
    have h1 : |v.get 1| ^ 2 ≤ B ^ 2 := pow_le_pow_left₀ (abs_nonneg _) hb 2
    have h2 := mul_le_mul_of_nonneg_right h1 ht
    nlinarith
  fin_cases a
  · refine ⟨fun t => v.get 0 + 2 * (- Real.sin (q.get 1 + t * v.get 1) * v.get 1), fun t ht => ⟨?_, ?_⟩⟩
    · have h0 : HasDerivAt (fun s : ℝ => q.get 0 + s * v.get 0) (v.get 0) t := by
        simpa using ((hasDerivAt_id t).mul_const (v.get 0)).const_add (q.get 0)
      exact h0.add (((ha t).cos).const_mul 2)
    · have h1 := Real.abs_sin_sub_sin_le (q.get 1 + 0 * v.get 1) (q.get 1 + t * v.get 1)
      rw [show q.get 1 + 0 * v.get 1 - (q.get 1 + t * v.get 1) = - (t * v.get 1) by ring, abs_neg] at h1
      have h2 := mul_le_mul_of_nonneg_left h1 (abs_nonneg (v.get 1))
      rw [show v.get 0 + 2 * (- Real.sin (q.get 1 + t * v.get 1) * v.get 1) - (v.get 0 + 2 * (- Real.sin (q.get 1 + 0 * v.get 1) * v.get 1)) =
        2 * (v.get 1 * (Real.sin (q.get 1 + 0 * v.get 1) - Real.sin (q.get 1 + t * v.get 1))) by ring, abs_mul, abs_mul, abs_two]
      linarith [hsq t ht.1]
  · refine ⟨fun t => 2 * (Real.cos (q.get 1 + t * v.get 1) * v.get 1), fun t ht => ⟨((ha t).sin).const_mul 2, ?_⟩⟩
    have h1 := Real.abs_cos_sub_cos_le (q.get 1 + t * v.get 1) (q.get 1 + 0 * v.get 1)
    rw [show q.get 1 + t * v.get 1 - (q.get 1 + 0 * v.get 1) = t * v.get 1 by ring] at h1
    have h2 := mul_le_mul_of_nonneg_left h1 (abs_nonneg (v.get 1))
    rw [show 2 * (Real.cos (q.get 1 + t * v.get 1) * v.get 1) - 2 * (Real.cos (q.get 1 + 0 * v.get 1) * v.get 1) =
      2 * (v.get 1 * (Real.cos (q.get 1 + t * v.get 1) - Real.cos (q.get 1 + 0 * v.get 1))) by ring, abs_mul, abs_mul, abs_two]
    linarith [hsq t ht.1]
  · exact ⟨fun _ => 0, fun t ht => ⟨hasDerivAt_const _ _, by simp; exact mul_nonneg (by positivity) ht.1⟩⟩

/-! ### The program -/

noncomputable def taskArgs : TaskArgs ℝ :=
  { name := "t", cost := Arr.scalar 1, gain := Arr.scalar 1, lm := 0, mask := some (Arr.ofList [1, 0, 0]) }
noncomputable def barrierArgs : BarrierArgs ℝ := { name := "b", gain := Arr.scalar 1, sdg := 0 }
noncomputable def target : Arr ℝ := ⟨[1], fun _ => 2⟩
noncomputable def lower : Arr ℝ := ⟨[1], fun _ => 1⟩
def mask : Option (Arr Int) := some (Arr.ofList [1, 0, 0])

noncomputable def rest : List (Op ℝ) :=
  [.newComp (.positionBarrier barrierArgs "arm" .body (some lower) none "min" mask),
   .newProblem model (Arr.scalar (-1)) (Arr.scalar 1), .add 0 0, .add 0 1, .comp 0 (.updateTarget target)]

/-- The task and the barrier are made, added to a problem with speed limit 1, and the target is set. -/
noncomputable def ops : List (Op ℝ) := .newComp (.positionTask taskArgs "arm" .body) :: rest

theorem step_first : (step World.init (.newComp (.positionTask taskArgs "arm" .body))).2 = ⟨[Crane.posTask0], []⟩ := by
  have : (NewComp.positionTask taskArgs "arm" .body).run = .ok Crane.posTask0 := Crane.posTask_made.1
  unfold step
  simp only [this]
  rfl

theorem run_ops (more : List (Op ℝ)) : run World.init (ops ++ more) = run ⟨[Crane.posTask0], []⟩ (rest ++ more) := by
  show run (step World.init _).2 (rest ++ more) = _
  rw [step_first]

noncomputable def acts : List (Act ℝ) := ops.map .call ++ [.tick, .tick]

theorem clean : CleanProgram World.init (callsOf 0 acts) := by
  refine ⟨trivial, ?_⟩
  show CleanProgram (step World.init _).2 _
  rw [step_first]
  refine ⟨trivial, trivial, ?_, ?_, trivial, trivial, trivial, trivial⟩ <;> · intro e h; cases h

/-- The cost of the task is one. -/
theorem atLeast : CostAtLeast (Arr.scalar (1 : ℝ)) 1 1 := by
  intro x
  have h : ∑ k ∈ Finset.range 1, weightAt (Arr.scalar (1 : ℝ)) 0 k * x k = x 0 := by
    rw [Finset.sum_range_one, show weightAt (Arr.scalar (1 : ℝ)) 0 0 = 1 from rfl, one_mul]
  unfold sqNorm
  rw [Finset.sum_range_one, Finset.sum_range_one]
  dsimp only
  rw [h]
  linarith

theorem aimed {more : List (Op ℝ)} (h : more = [] ∨ more = [.compile 0]) :
    Aimed model 0 (.object .body "arm") mask target (fun _ => 1) 1 (run World.init (ops ++ more)) := by
  have hc : CleanRun Crane.posTask0 (updateTarget target (updateModel model Crane.posTask0).2).2 :=
    .step (.updateTarget target) (.step (.updateModel model) .refl (fun m h => by cases h; rfl)) (fun m h => by cases h)
  rw [run_ops]
  rcases h with rfl | rfl
  · exact ⟨_, "t", 0, _, taskArgs, _, rfl, rfl, .head _, rfl, rfl, ⟨_, Crane.posTask_made.1, hc⟩, rfl, rfl, rfl, fun _ _ => rfl, rfl, atLeast⟩
  · exact ⟨_, "t", 0, _, taskArgs, _, rfl, rfl, .head _, rfl, rfl,
      ⟨_, Crane.posTask_made.1, .step .compile hc (fun m h => by cases h)⟩, rfl, rfl, rfl, fun _ _ => rfl, rfl, atLeast⟩

theorem fenced {more : List (Op ℝ)} (h : more = [] ∨ more = [.compile 0]) {dt : ℝ} (hdt : dt ≤ 1) :
    Fenced model 0 dt .body "arm" "min" mask lower (Arr.zeros 1) 1 (run World.init (ops ++ more)) := by
  have hg : (1 : ℝ) ≤ 1 ∧ (1 : ℝ) * dt ≤ 1 := ⟨le_refl _, by linarith⟩
  rw [run_ops]
  rcases h with rfl | rfl
  · exact ⟨_, "b", 1, _, barrierArgs, some lower, none, rfl, rfl, .tail _ (.head _), rfl, rfl,
      ⟨_, rfl, .step (.updateModel model) .refl (fun m h => by cases h; rfl)⟩, rfl, rfl, rfl, fun _ _ => hg⟩
  · exact ⟨_, "b", 1, _, barrierArgs, some lower, none, rfl, rfl, .tail _ (.head _), rfl, rfl,
      ⟨_, rfl, .step .compile (.step (.updateModel model) .refl (fun m h => by cases h; rfl)) (fun m h => by cases h)⟩, rfl, rfl, rfl, fun _ _ => hg⟩

theorem speeds {more : List (Op ℝ)} (h : more = [] ∨ more = [.compile 0]) (ε : ℝ) :
    SpeedAtMost model 0 ε (fun _ => 1 + ε) (run World.init (ops ++ more)) := by
  rw [run_ops]
  rcases h with rfl | rfl
  all_goals
    refine ⟨_, rfl, fun k _ => ⟨?_, ?_⟩⟩
    · show (1 : ℝ) * 1 + ε ≤ 1 + ε
      linarith
    · show - ((1 : ℝ) * (-1)) + ε ≤ 1 + ε
      linarith

/-- The distance of the tip from `c` along the first axis. -/
noncomputable def ahead (c : ℝ) (q : Vec ℝ) : Vec ℝ := ⟨1, fun _ => Crane.tip q 0 - c⟩

/-- A trolley that moves alone takes the tip along. -/
theorem trolley {j : JaxComp ℝ} (hm : j.model = model) (hd : Differentiated j) {c : ℝ}
    (hf : ∀ q, evalValue env j (update env model q) = .ok (ahead c q)) {q : Vec ℝ} (hq : q.len = 2) {J : Mat ℝ}
    (hJ : evalJacobian env j (update env model q) = .ok J) (u : ℝ) : rowDot J 0 (fun k => if k = 0 then u else 0) = u := by
  have hs : Smooth (ahead c) q := by
    intro i _
    exact (smooth q hq 0).sub_const c
  have h1 := C78_rate_partial (env := env) (j := j) (d := update env model q) (n := 1) rfl (jacrevR_exact rfl) (by rw [hm]; exact model_wf)
    (by rw [hm]; exact exact.kept) hd (by rw [hm]; exact hq) (scalar_unit (by rw [hm]; exact model_scalar) _) hJ (by rw [hm]; exact hf) (fun _ => rfl) hs
    ⟨2, fun k => if k = 0 then u else 0⟩
    (fun k hk h => by
      have := dofKinds_scalar (ts := j.model.jntType) (by rw [hm]; exact model_scalar) k
      unfold angularDof at h
      rw [this] at h; cases h)
    (i := 0) (by norm_num)
  rw [hm] at h1
  have h2 : HasDerivAt (fun s : ℝ => q.get 0 + s * u + 2 * Real.cos (q.get 1 + s * 0) - c) (1 * u) 0 := by
    simp only [mul_zero, add_zero]
    exact ((((hasDerivAt_id (0 : ℝ)).mul_const u).const_add (q.get 0)).add_const _).sub_const _
  have h3 := h1.unique h2
  rw [one_mul] at h3
  exact h3

theorem ahead_eq {j : JaxComp ℝ} {c : ℝ} {q : Vec ℝ}
    (h : ∃ r, evalValue env j (update env model q) = .ok r ∧ r.len = 1 ∧ ∀ i, r.get i = Crane.tip q 0 - c) :
    evalValue env j (update env model q) = .ok (ahead c q) := by
  obtain ⟨⟨n, g⟩, h1, h2, h3⟩ := h
  rw [h1]
  obtain rfl : n = 1 := h2
  rw [show g = fun _ => Crane.tip q 0 - c from funext h3]
  rfl

/-- What the problem compiles to. -/
theorem compiled {more : List (Op ℝ)} (h : more = [] ∨ more = [.compile 0]) :
    ∃ (P : Prob ℝ) (ct cb : Comp ℝ) (jt jb : JaxComp ℝ), (run World.init (ops ++ more)).probs[0]? = some P ∧ P.comps = [("t", 0), ("b", 1)] ∧
      (∀ k, P.vMin.get [k] = -1) ∧ (∀ k, P.vMax.get [k] = 1) ∧
      (run World.init (ops ++ more)).comps = [ct, cb] ∧
      (∃ a o x, ct.attrs.kind = .positionTask a o x ∧ a.lmDamping = 0) ∧ (∃ o l h t i, cb.attrs.kind = .positionBarrier 0 o l h t i) ∧
      (ct.attrs.gainFn = id ∧ ∀ r, gainAt ct.attrs.gain r = 1) ∧ (cb.attrs.gainFn = id ∧ ∀ r, gainAt cb.attrs.gain r = 1) ∧
      P.model = model ∧
      (step (run World.init (ops ++ more)) (.compile 0)).1 = .ok (.compiled ⟨model, P.vMin, P.vMax, [("t", jt), ("b", jb)]⟩) ∧
      jt.model = model ∧ jb.model = model ∧ Differentiated jt ∧ Differentiated jb ∧ Usable env jt ∧ Usable env jb ∧
      (∀ q, evalValue env jt (update env model q) = .ok (ahead 2 q)) ∧ (∀ q, evalValue env jb (update env model q) = .ok (ahead 1 q)) ∧
      (∀ q G, evalJacobian env jt (update env model q) = .ok G → G.rows = 1) ∧ ∀ q G, evalJacobian env jb (update env model q) = .ok G → G.rows = 1 := by
  rw [run_ops]
  have e1 : (1 : ℝ) * (-1) = -1 := by norm_num
  have e2 : (1 : ℝ) * 1 = 1 := by norm_num
  rcases h with rfl | rfl
  all_goals
    exact ⟨_, _, _, _, _, rfl, rfl, fun _ => e1, fun _ => e2, rfl, ⟨_, _, _, rfl, rfl⟩, ⟨_, _, _, _, _, rfl⟩, ⟨rfl, fun _ => rfl⟩, ⟨rfl, fun _ => rfl⟩, rfl, rfl,
      rfl, rfl, trivial, trivial, ⟨rfl, by decide⟩, ⟨rfl, rfl, by decide⟩,
      fun q => ahead_eq ⟨_, rfl, rfl, fun i => by cases i <;> rfl⟩, fun q => ahead_eq ⟨_, rfl, rfl, fun i => by cases i <;> rfl⟩,
      fun q G h => by cases h; rfl, fun q G h => by cases h; rfl⟩

theorem clean_ops' {more : List (Op ℝ)} (h : more = [] ∨ more = [.compile 0]) : CleanProgram World.init (ops ++ more) := by
  refine ⟨trivial, ?_⟩
  show CleanProgram (step World.init _).2 (rest ++ more)
  rw [step_first]
  rcases h with rfl | rfl
  · refine ⟨trivial, trivial, ?_, ?_, trivial, trivial⟩ <;> · intro e h; cases h
  · refine ⟨trivial, trivial, ?_, ?_, trivial, trivial, trivial⟩ <;> · intro e h; cases h

/-- Nothing raises; while the tip is not behind 0, some velocity is allowed; and while it is at most 1 away from 2, moving the trolley alone
does all that is asked for. -/
theorem fits {more : List (Op ℝ)} (h : more = [] ∨ more = [.compile 0]) (osqp : QPSolver ℝ Unit) (q : Vec ℝ) (hq : q.len = 2)
    (s : LocalIKData ℝ) :
    Works env osqp model 0 ⟨run World.init (ops ++ more), q, s⟩ ∧
    (0 ≤ Crane.tip q 0 → CanMove env model 0 ⟨run World.init (ops ++ more), q, s⟩) ∧
    (|Crane.tip q 0 - 2| ≤ 1 → Compatible env model 0 ⟨run World.init (ops ++ more), q, s⟩) := by
  have hcl := clean_ops' h
  obtain ⟨P, ct, cb, jt, jb, hP, hPc, hmin, hmax, hcs, ⟨a, o, x, hkt, hlm⟩, ⟨o', l', h', t', i', hkb⟩, ⟨hgt, hgt'⟩, ⟨hgb, hgb'⟩, hPm, hJ, m1, m2, d1, d2, u1, u2, v1, v2, n1, n2⟩ :=
    compiled h
  have hmod : ∀ nj ∈ ([("t", jt), ("b", jb)] : List (String × JaxComp ℝ)), nj.2.model = model := by
    intro nj h
    fin_cases h
    · exact m1
    · exact m2
  have huse : ∀ nj ∈ ([("t", jt), ("b", jb)] : List (String × JaxComp ℝ)), Usable env nj.2 := by
    intro nj h
    fin_cases h
    · exact u1
    · exact u2
  have hws : WellSized env ⟨model, P.vMin, P.vMax, [("t", jt), ("b", jb)]⟩ (update env model q) :=
    C68_problem_partial hcl hJ hmod (fun nj h => settled_of_usable (huse nj h)) model_wf (sized q hq)
  have hwk : Works env osqp model 0 ⟨run World.init (ops ++ more), q, s⟩ := by
    obtain ⟨qp, -, h⟩ := (C87_solve_partial hcl hJ hmod huse model_fits env_fits (fun q hq => ⟨sized q hq, data_fits q⟩) osqp q.toArr s).2
      (congrArg (fun n => [n]) hq) (by
        have hvec : (⟨model.nq, fun i => q.toArr.get [i]⟩ : Vec ℝ) = q := by
          rw [show model.nq = q.len from hq.symm]
          rfl
        show ∀ nj ∈ ([("t", jt), ("b", jb)] : List (String × JaxComp ℝ)), CompiledBarrier nj.2 → ∀ G,
          evalJacobian env nj.2 (update env model ⟨model.nq, fun i => q.toArr.get [i]⟩) = .ok G → ¬ ZeroMat G
        rw [hvec]
        intro nj h hb G hG h0
        have hmem : nj.2 = jt ∨ nj.2 = jb := by fin_cases h <;> simp
        have hrow : G.rows = 1 ∧ rowDot G 0 (fun k => if k = 0 then 1 else 0) = 1 := by
          rcases hmem with e | e <;> rw [e] at hG
          · exact ⟨n1 q G hG, trolley m1 d1 v1 hq hG 1⟩
          · exact ⟨n2 q G hG, trolley m2 d2 v2 hq hG 1⟩
        have hz : rowDot G 0 (fun k => if k = 0 then 1 else 0) = 0 := by
          unfold rowDot
          exact sum_eq_zero fun k hk => by rw [h0 0 (by rw [hrow.1]; norm_num) k (mem_range.1 hk), zero_mul]
        rw [hrow.2] at hz
        exact one_ne_zero hz)
    exact ⟨_, _, hJ, h⟩
  have key : ∀ ts, TermsOf (run World.init (ops ++ more)) P ⟨model, P.vMin, P.vMax, [("t", jt), ("b", jb)]⟩ env (update env model q) ts →
      (∀ t ∈ ts, t.Plain) ∧ ∀ u : ℝ, |u| ≤ 1 → - (Crane.tip q 0 - 1) ≤ u →
        Allowed P.model.nv P.vMin P.vMax ts (fun k => if k = 0 then u else 0) ∧
        (u = - (Crane.tip q 0 - 2) → ∀ t ∈ ts, t.MetBy (fun k => if k = 0 then u else 0)) := by
    intro ts hts
    unfold TermsOf at hts
    rw [hPc, hcs] at hts
    cases hts with
    | cons ht hts =>
    cases hts with
    | cons hb hnil =>
    cases hnil
    rename_i t b
    obtain ⟨c, hc, hta, j, hj, hjac, hval⟩ := ht
    obtain ⟨c', hc', hba, j', hj', hjac', hval'⟩ := hb
    cases hc
    cases hc'
    obtain rfl : j = jt := by simpa using hj
    obtain rfl : j' = jb := by simpa using hj'
    have r1 := n1 q _ hjac
    have r2 := n2 q _ hjac'
    rw [v1] at hval
    rw [v2] at hval'
    have hval : ahead 2 q = t.value := Except.ok.inj hval
    have hval' : ahead 1 q = b.value := Except.ok.inj hval'
    have w1 := trolley m1 d1 v1 hq hjac
    have w2 := trolley m2 d2 v2 hq hjac'
    have q1 : t.rate 0 = Crane.tip q 0 - 2 := by
      unfold Term.rate
      rw [hta, hgt, hgt', ← hval, one_mul]
      rfl
    have q2 : b.rate 0 = Crane.tip q 0 - 1 := by
      unfold Term.rate
      rw [hba, hgb, hgb', ← hval', one_mul]
      rfl
    have z : ∀ {A : Mat ℝ}, A.rows = 1 → ∀ i < A.rows, i = 0 := by
      intro A h i hi
      omega
    refine ⟨?_, fun u hu1 hu2 => ⟨⟨?_, ?_⟩, ?_⟩⟩
    · intro u hu
      unfold Term.Plain
      fin_cases hu
      · simp only [hta, hkt]; exact hlm
      · simp only [hba, hkb]
    · intro i hi
      rw [hmin, hmax]
      obtain ⟨o1, o2⟩ := abs_le.1 hu1
      dsimp only
      split <;> constructor <;> linarith
    · intro x hx
      unfold Term.Allows
      fin_cases hx
      · simp only [hta, hkt]
      · simp only [hba, hkb]
        intro i hi
        rw [z r2 i hi, w2, q2]
        exact hu2
    · intro e x hx
      unfold Term.MetBy
      fin_cases hx
      · simp only [hta, hkt]
        intro i hi
        rw [z r1 i hi, w1, q1]
        exact e
      · simp only [hba, hkb]
  refine ⟨hwk, fun hpos => ?_, fun hoff => ?_⟩
  · intro J' hJ'
    dsimp only at hJ' ⊢
    rw [hJ] at hJ'; cases hJ'
    refine ⟨hws, fun P' ts hP' hts => ?_⟩
    rw [hP] at hP'; cases hP'
    rcases le_total (Crane.tip q 0) 1 with hle | hle
    · exact ⟨_, ((key ts hts).2 (1 - Crane.tip q 0) (abs_le.2 ⟨by linarith, by linarith⟩) (by linarith)).1⟩
    · exact ⟨_, ((key ts hts).2 0 (abs_le.2 ⟨by linarith, by linarith⟩) (by linarith)).1⟩
  · intro J' hJ'
    dsimp only at hJ' ⊢
    rw [hJ] at hJ'; cases hJ'
    refine ⟨hws, fun P' ts hP' hts => ?_⟩
    rw [hP] at hP'; cases hP'
    obtain ⟨k1, k2⟩ := key ts hts
    have := k2 (- (Crane.tip q 0 - 2)) (by rw [abs_neg]; exact hoff) (by linarith)
    exact ⟨k1, _, this.1, this.2 rfl⟩

/-- The conditions of C98 and C99 at a control step. -/
def Good (osqp : QPSolver ℝ Unit) (dt ε : ℝ) (S : Robot ℝ) : Prop :=
  Aimed model 0 (.object .body "arm") mask target (fun _ => 1) 1 S.world ∧
  Fenced model 0 dt .body "arm" "min" mask lower (Arr.zeros 1) 1 S.world ∧ SpeedAtMost model 0 ε (fun _ => 1 + ε) S.world ∧
  Works env osqp model 0 S ∧ (0 ≤ Crane.tip S.q 0 → CanMove env model 0 S) ∧ (|Crane.tip S.q 0 - 2| ≤ 1 → Compatible env model 0 S)

theorem good {more : List (Op ℝ)} (h : more = [] ∨ more = [.compile 0]) (osqp : QPSolver ℝ Unit) {dt : ℝ} (hdt : dt ≤ 1) (ε : ℝ) {q : Vec ℝ}
    (hq : q.len = 2) (s : LocalIKData ℝ) : Good osqp dt ε ⟨run World.init (ops ++ more), q, s⟩ :=
  ⟨aimed h, fenced h hdt, speeds h ε, fits h osqp q hq s⟩

theorem ticks (osqp : QPSolver ℝ Unit) {dt : ℝ} (hdt : dt ≤ 1) (ε : ℝ) {q0 : Vec ℝ} (hq : q0.len = 2) (s0 : LocalIKData ℝ) :
    AtEveryTick env osqp model 0 dt (Good osqp dt ε) ⟨World.init, q0, s0⟩ acts := by
  have skip : ∀ (ops : List (Op ℝ)) (G : Robot ℝ → Prop) (S : Robot ℝ) (rest : List (Act ℝ)),
      AtEveryTick env osqp model 0 dt G ⟨run S.world ops, S.q, S.data⟩ rest →
      AtEveryTick env osqp model 0 dt G S (ops.map .call ++ rest) := by
    intro ops
    induction ops with
    | nil => intro G S rest h; exact h
    | cons op ops ih => intro G S rest h; exact ⟨(fun h => by cases h), ih G _ rest h⟩
  have h0 : ∀ q : Vec ℝ, q.len = 2 → ∀ s, Good osqp dt ε ⟨run World.init (ops ++ []), q, s⟩ := fun q hq s => good (.inl rfl) osqp hdt ε hq s
  have h1 : ∀ q : Vec ℝ, q.len = 2 → ∀ s, Good osqp dt ε ⟨run World.init (ops ++ [.compile 0]), q, s⟩ := fun q hq s => good (.inr rfl) osqp hdt ε hq s
  rw [List.append_nil] at h0
  unfold acts
  refine skip ops _ _ _ ?_
  have hrun : (step (run World.init ops) (.compile 0)).2 = run World.init (ops ++ [.compile 0]) := by
    simp only [run, List.foldl_append, List.foldl_cons, List.foldl_nil]
  dsimp only
  generalize run World.init (ops ++ [.compile 0]) = w1 at *
  generalize run World.init ops = w0 at *
  refine ⟨fun _ => h0 q0 hq s0, ?_⟩
  have hl := tick_len (S := ⟨w0, q0, s0⟩) env osqp model_wf 0 dt hq
  have hw := tick_world env osqp model 0 dt ⟨w0, q0, s0⟩
  generalize controlStep env osqp model 0 dt ⟨w0, q0, s0⟩ .tick = S at hl hw
  obtain ⟨w, q, s⟩ := S
  dsimp only at hl hw
  subst hw
  refine ⟨fun _ => ?_, trivial⟩
  rw [hrun]
  exact h1 q hl s

theorem weaken {osqp : QPSolver ℝ Unit} {dt : ℝ} {G H : Robot ℝ → Prop} (h : ∀ S, G S → H S) {S : Robot ℝ} {acts : List (Act ℝ)}
    (ht : AtEveryTick env osqp model 0 dt G S acts) : AtEveryTick env osqp model 0 dt H S acts := by
  induction acts generalizing S with
  | nil => trivial
  | cons a acts ih => exact ⟨fun e => h _ (ht.1 e), ih ht.2⟩

theorem axes : selectedAxes mask = [0] := by decide
theorem full : FullMask 3 mask := by
  intro m h
  cases h
  rfl

theorem inFence_iff {b : ℝ} {x : V3 ℝ} : InFence "min" mask lower (Arr.zeros 1) b x ↔ 1 - b ≤ x 0 := by
  unfold InFence
  simp only [axes]
  constructor
  · intro h
    exact (h 0 (by norm_num)).1 (by decide)
  · intro h r hr
    obtain rfl : r = 0 := by simpa using hr
    exact ⟨fun _ => h, fun h => (h rfl).elim⟩

theorem offBy_iff {e : ℝ} {x : V3 ℝ} : OffBy mask target (fun _ => e) x ↔ |x 0 - 2| ≤ e := by
  unfold OffBy
  simp only [axes]
  constructor
  · intro h
    exact h 0 (by norm_num)
  · intro h r hr
    obtain rfl : r = 0 := by simpa using hr
    exact h

end SampledEx

open SampledEx in
/-- With rows that are off by at most 1/100 and control steps of 1/50 s, the tip stays within 1/20 of its limit 1, from every configuration
that keeps it. -/
example {osqp : QPSolver ℝ Unit} (ho : FindsFeasibleUpTo (1 / 100) osqp) (x0 : Fin model.nq → ℝ) (s0 : LocalIKData ℝ)
    (h0 : 1 ≤ Crane.tip (vecOf x0) 0) :
    1 - 1 / 20 ≤ Crane.tip (Spec.control env osqp model 0 (1 / 50) ⟨World.init, vecOf x0, s0⟩ acts).q 0 :=
  inFence_iff.1 (C98_position_limits (m := model) ho model_wf model_scalar exact (by norm_num) full (by decide) (by decide) located smooth
    (acceleration (1 + 1 / 100) (1 / 50)) (γ := 1) (b := 1 / 20) (by norm_num) (by norm_num) clean x0 s0
    (weaken (fun S hS => ⟨hS.2.1, hS.2.2.1, fun h => hS.2.2.2.2.1 (by have := inFence_iff.1 h; linarith)⟩)
      (ticks osqp (by norm_num) (1 / 100) rfl s0))
    (inFence_iff.2 (by linarith)))

open SampledEx in
/-- With objectives that are 1/20000 too large in addition, the tip is after two control steps closer to its target by the factor 0.9604, up
to 1/20. -/
example {osqp : QPSolver ℝ Unit} (hopt : OptimalUpTo (1 / 20000) osqp) (ho : FindsFeasibleUpTo (1 / 100) osqp) (x0 : Fin model.nq → ℝ)
    (s0 : LocalIKData ℝ) (h0 : |Crane.tip (vecOf x0) 0 - 2| ≤ 1) :
    |Crane.tip (Spec.control env osqp model 0 (1 / 50) ⟨World.init, vecOf x0, s0⟩ acts).q 0 - 2| ≤
      9604 / 10000 * |Crane.tip (vecOf x0) 0 - 2| + 1 / 20 := by
  have h := C99_converges (m := model) hopt ho model_wf model_scalar exact (by norm_num) full (by decide) located smooth
    (mul_nonneg (by norm_num) (sq_nonneg (1 + 1 / 100 : ℝ))) (acceleration (1 + 1 / 100) (1 / 50)) (g := fun _ => 1) (fun _ _ => by norm_num) (μ := 1) (b := 1 / 100)
    (by norm_num) (by norm_num) (by norm_num) (e := fun _ => 1) (fun _ _ => by norm_num) clean x0 s0
    (weaken (fun S hS => ⟨hS.1, hS.2.2.1, fun h => ⟨hS.2.2.2.2.2 (offBy_iff.1 h), hS.2.2.2.1⟩⟩) (ticks osqp (by norm_num) (1 / 100) rfl s0))
    (offBy_iff.2 h0)
  rw [show ticksIn acts = 2 from rfl] at h
  simp only [axes] at h
  have h1 := h 0 (by norm_num)
  simp only [List.getElem_cons_zero, show entry target 0 = 2 from rfl] at h1
  refine le_trans h1 ?_
  norm_num

end Mjinx.Props
