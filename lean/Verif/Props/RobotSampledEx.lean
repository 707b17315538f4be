import Verif.Props.SampledEx
import Verif.Props.RobotSampled

/-!
# The crane in the simulator

The program of `SampledEx` with the simulator of mjx: the hypotheses of `C98_robot` and `C99_robot` hold.
-/

set_option linter.unusedSectionVars false

namespace Mjinx.Props
open Mjinx Mjinx.Spec Finset

namespace Jib
open SampledEx (model ops rest acts mask target lower run_ops step_first clean aimed fenced speeds clean_ops' axes full inFence_iff offBy_iff model_wf model_scalar
  model_fits)

/-- The arm is 2 long, and its frame is at the tip: the hinge is 2 behind the origin of the body. -/
noncomputable def geometry : Geometry where
  bodyPos := [0, ![2, 0, 0]]
  bodyQuat := [1, 1]
  bodyIpos := [0, 0]
  jntBodyid := [1, 1]
  jntPos := [0, ![-2, 0, 0]]
  jntAxis := [![1, 0, 0], ![0, 0, 1]]
  qpos0 := fun _ => 0
  geomPos := []
  geomQuat := []
  sitePos := []
  siteQuat := []

noncomputable def env : Env ℝ := { Rod.env 0 with kinematics := simKinematics geometry, comPos := simComPos geometry, makeConstraint := fun _ d => d }

theorem simulates : Simulates env geometry model := ⟨fun _ => rfl, fun _ => rfl, fun d => ⟨d.efcEq, d.efcPos, d.efcJ, rfl⟩, rfl⟩

theorem robot : RobotWF geometry model where
  tree := by
    refine ⟨?_, by decide, rfl, by decide⟩
    intro b h0 hb
    have : b < 2 := hb
    interval_cases b; decide
  addr := model_wf
  joints := by
    intro j hj
    have : j < 2 := hj
    interval_cases j <;> exact ⟨by decide, by decide⟩
  dofs := rfl
  axis := by
    intro j hj ht
    have : j < 2 := hj
    interval_cases j
    · cases ht
    · show sq3 ![0, 0, 1] = 1
      simp [sq3]
  quat := Buoy.unitOne _ (by simp [geometry])
  free := by
    intro j hj ht
    have : j < 2 := hj
    interval_cases j <;> cases ht
  ball := by
    intro j i hji hi _ ht
    have hi' : i < 2 := hi
    have : j = 0 := by omega
    subst this
    cases ht
  roots := ⟨rfl, by decide⟩
  root := by
    intro b h0 hb hp
    have : b < 2 := hb
    interval_cases b
    exact absurd rfl hp
  mass := rfl
  objects := ⟨by simp [model, Crane.model, MjModel.empty], by simp [model, Crane.model, MjModel.empty]⟩
  turns := ⟨Buoy.unitOne _ (by simp [geometry]), Buoy.unitOne _ (by simp [geometry])⟩

theorem arm : RailArm geometry model where
  joints := by
    intro t ht
    have : t ∈ ([.slide, .hinge] : List JntType) := ht
    fin_cases this <;> simp
  rails := by
    intro j hj hs i hi hh
    have hi' : i < 2 := hi
    have hj' : j < 2 := hj
    obtain rfl : j = 0 := by
      by_contra h
      obtain rfl : j = 1 := by omega
      cases hs
    obtain rfl : i = 1 := by
      by_contra h
      obtain rfl : i = 0 := by omega
      cases hh
    refine ⟨?_, fun h => absurd h.2 (by decide)⟩
    intro h
    have h1 := anc_le robot.tree h (by decide)
    exact absurd h1 (by decide)

noncomputable def tip (q : Vec ℝ) : V3 ℝ := (bodyPose geometry model q.get 1).trans
noncomputable def swing (a : ℝ) : ℝ := - rotate (axisAngleQuat ![0, 0, 1] (a - 0)) ![-2, 0, 0] 0

theorem tip_eq (q : Vec ℝ) : tip q 0 = q.get 0 + swing (q.get 1) := by
  have hj : jointsOfBody geometry model 1 = [0, 1] := rfl
  unfold tip
  rw [bodyPose, if_neg (by decide), hj]
  have hp : model.bodyParentid.getD 1 0 = 0 := rfl
  simp only [hp, dif_pos (show 0 < 1 by decide), bodyPose_zero, List.foldl_cons, List.foldl_nil]
  have e : jointMove geometry model q.get ((SE3.one : SE3 ℝ).mul ⟨geometry.bodyQuat.getD 1 1, geometry.bodyPos.getD 1 0⟩) 0 =
      ⟨1 * 1, (rotate 1 ![2, 0, 0] + 0) + (q.get 0 - 0) • rotate (1 * 1) ![1, 0, 0]⟩ := rfl
  have e2 : ∀ T : SE3 ℝ, jointMove geometry model q.get T 1 =
      ⟨T.rot * axisAngleQuat ![0, 0, 1] (q.get 1 - 0), (rotate T.rot ![-2, 0, 0] + T.trans) - rotate (T.rot * axisAngleQuat ![0, 0, 1] (q.get 1 - 0)) ![-2, 0, 0]⟩ :=
    fun _ => rfl
  rw [e, e2]
  simp only [one_mul, rotate_one, swing]
  simp
  ring

theorem part : PartOf model (.object .body "arm") := by
  refine ⟨by decide, 1, fun k => ⟨fun h => ?_, fun h => by subst h; rfl⟩, 1, rfl⟩
  match k with
  | 0 => exact absurd (Option.some.inj h) (by decide)
  | 1 => rfl
  | k + 2 => cases h

/-- So is the centre of mass. -/
example : PartOf model .centreOfMass := by
  refine ⟨rfl, ?_, ?_⟩
  · intro w hw
    have : w ∈ ([0, 1] : List ℝ) := hw
    fin_cases this <;> norm_num
  · rw [show model.nbody = 2 from rfl, sum_range_succ, sum_range_one]
    show (1 : ℝ) / 10 ^ 15 ≤ (0 : ℝ) + 1
    norm_num

theorem isAt {q : Vec ℝ} {x : V3 ℝ} : IsAt env model q (.object .body "arm") x ↔ x = tip q := by
  rw [point_is simulates robot part]
  have : whereIs geometry model (.object .body "arm") q = tip q := by
    show rotate _ 0 + _ = _
    rw [rotate_zero, zero_add]; rfl
  rw [this]

theorem exact : ExactSim env model := arm_exact simulates robot arm (jacrevR_exact rfl)
theorem env_fits : EnvFits env model := ⟨fun _ _ => ⟨⟨rfl, rfl, rfl⟩, rfl⟩, fun _ _ _ _ => le_refl _⟩
theorem sized (q : Vec ℝ) (_hq : q.len = 2) : Sized env model (update env model q) := ⟨fun _ _ => ⟨rfl, rfl⟩, rfl, rfl, rfl⟩
theorem data_fits (q : Vec ℝ) : DataFits model (update env model q) := ⟨⟨rfl, rfl, rfl⟩, rfl, rfl, rfl, rfl⟩

theorem smooth (q : Vec ℝ) (hq : q.len = 2) : DifferentiableAt ℝ (fun x : Fin q.len → ℝ => tip (vecOf x) 0) (coordsOf q) := by
  have h := point_smooth_arm (pt := .object .body "arm") arm q hq 0
  have e : ∀ p, whereIs geometry model (.object .body "arm") p = tip p := fun p => (point_is simulates robot part p _).symm.1 rfl |> isAt.1
  simpa only [e] using h

/-- The distance of the tip from `c` along the first axis. -/
noncomputable def ahead (c : ℝ) (q : Vec ℝ) : Vec ℝ := ⟨1, fun _ => tip q 0 - c⟩

/-- A trolley that moves alone takes the tip along. -/
theorem trolley {j : JaxComp ℝ} (hm : j.model = model) (hd : Differentiated j) {c : ℝ}
    (hf : ∀ q, evalValue env j (update env model q) = .ok (ahead c q)) {q : Vec ℝ} (_hq : q.len = 2) {J : Mat ℝ}
    (hJ : evalJacobian env j (update env model q) = .ok J) (u : ℝ) : rowDot J 0 (fun k => if k = 0 then u else 0) = u := by
  have hs : Smooth (ahead c) (update env model q).qpos := by
    intro i _
    exact (smooth _ rfl).sub_const c
  have h1 := C78_rate_partial (env := env) (j := j) (d := update env model q) (n := 1) rfl (jacrevR_exact rfl) (by rw [hm]; exact model_wf)
    (by rw [hm]; exact exact.kept) hd (by rw [hm]; exact rfl) (scalar_unit (by rw [hm]; exact model_scalar) _) hJ (by rw [hm]; exact hf) (fun _ => rfl) hs
    ⟨2, fun k => if k = 0 then u else 0⟩
    (fun k hk h => by
      have := dofKinds_scalar (ts := j.model.jntType) (by rw [hm]; exact model_scalar) k
      unfold angularDof at h
      rw [this] at h; cases h)
    (i := 0) (by norm_num)
  rw [hm] at h1
  have h2 : HasDerivAt (fun s : ℝ => (ahead c (integrate env model (update env model q).qpos ⟨2, fun k => if k = 0 then u else 0⟩ s)).get 0) (1 * u) 0 := by
    have e : (fun s : ℝ => (ahead c (integrate env model (update env model q).qpos ⟨2, fun k => if k = 0 then u else 0⟩ s)).get 0) =
        fun s => q.get 0 + s * u + swing (q.get 1) - c := by
      funext s
      show tip _ 0 - c = _
      rw [tip_eq]
      show (q.get 0 + s * u) + swing (q.get 1 + s * 0) - c = _
      rw [mul_zero, add_zero]
    rw [e]
    exact ((((hasDerivAt_id (0 : ℝ)).mul_const u).const_add (q.get 0)).add_const _).sub_const _
  have h3 := h1.unique h2
  rw [one_mul] at h3
  exact h3

theorem ahead_eq {j : JaxComp ℝ} {c : ℝ} {q : Vec ℝ}
    (h : ∃ r, evalValue env j (update env model q) = .ok r ∧ r.len = 1 ∧ ∀ i, r.get i = tip q 0 - c) :
    evalValue env j (update env model q) = .ok (ahead c q) := by
  obtain ⟨⟨n, g⟩, h1, h2, h3⟩ := h
  rw [h1]
  obtain rfl : n = 1 := h2
  rw [show g = fun _ => tip q 0 - c from funext h3]
  rfl

/-- What the problem compiles to. -/
theorem compiled {more : List (Op ℝ)} (h : more = [] ∨ more = [.compile 0]) :
    ∃ (P : Prob ℝ) (ct cb : Comp ℝ) (jt jb : JaxComp ℝ), (run World.init (ops ++ more)).probs[0]? = some P ∧ P.comps = [("t", 0), ("b", 1)] ∧
      (∀ k, P.vMin.get [k] = -1) ∧ (∀ k, P.vMax.get [k] = 1) ∧
      (run World.init (ops ++ more)).comps = [ct, cb] ∧
      (∃ a o x, ct.attrs.kind = .positionTask a o x ∧ a.lmDamping = 0) ∧ (∃ o l h t i, cb.attrs.kind = .positionBarrier 0 o l h t i) ∧
      (ct.attrs.gainFn = id ∧ ∀ r, gainAt ct.attrs.gain r = 1) ∧ (cb.attrs.gainFn = id ∧ ∀ r, gainAt cb.attrs.gain r = 1) ∧
      P.model = model ∧
      (step (run World.init (ops ++ more)) (.compile 0)).1 = .ok (.compiled ⟨model, P.vMin, P.vMax, [("t", jt), ("b", jb)]⟩) ∧
      jt.model = model ∧ jb.model = model ∧ Differentiated jt ∧ Differentiated jb ∧ Usable env jt ∧ Usable env jb ∧
      (∀ q, evalValue env jt (update env model q) = .ok (ahead 2 q)) ∧ (∀ q, evalValue env jb (update env model q) = .ok (ahead 1 q)) ∧
      (∀ q G, evalJacobian env jt (update env model q) = .ok G → G.rows = 1) ∧ ∀ q G, evalJacobian env jb (update env model q) = .ok G → G.rows = 1 := by
  rw [run_ops]
  have e1 : (1 : ℝ) * (-1) = -1 := by norm_num
  have e2 : (1 : ℝ) * 1 = 1 := by norm_num
  rcases h with rfl | rfl
  all_goals
    exact ⟨_, _, _, _, _, rfl, rfl, fun _ => e1, fun _ => e2, rfl, ⟨_, _, _, rfl, rfl⟩, ⟨_, _, _, _, _, rfl⟩, ⟨rfl, fun _ => rfl⟩, ⟨rfl, fun _ => rfl⟩, rfl, rfl,
      rfl, rfl, trivial, trivial, ⟨rfl, by decide⟩, ⟨rfl, rfl, by decide⟩,
      fun q => ahead_eq ⟨_, rfl, rfl, fun i => by cases i <;> rfl⟩, fun q => ahead_eq ⟨_, rfl, rfl, fun i => by cases i <;> rfl⟩,
      fun q G h => by cases h; rfl, fun q G h => by cases h; rfl⟩

/-- Nothing raises; while the tip is not behind 0, some velocity is allowed; and while it is at most 1 away from 2, moving the trolley alone
does all that is asked for. -/
theorem fits {more : List (Op ℝ)} (h : more = [] ∨ more = [.compile 0]) (osqp : QPSolver ℝ Unit) (q : Vec ℝ) (hq : q.len = 2)
    (s : LocalIKData ℝ) :
    Works env osqp model 0 ⟨run World.init (ops ++ more), q, s⟩ ∧
    (0 ≤ tip q 0 → CanMove env model 0 ⟨run World.init (ops ++ more), q, s⟩) ∧
    (|tip q 0 - 2| ≤ 1 → Compatible env model 0 ⟨run World.init (ops ++ more), q, s⟩) := by
  have hcl := clean_ops' h
  obtain ⟨P, ct, cb, jt, jb, hP, hPc, hmin, hmax, hcs, ⟨a, o, x, hkt, hlm⟩, ⟨o', l', h', t', i', hkb⟩, ⟨hgt, hgt'⟩, ⟨hgb, hgb'⟩, hPm, hJ, m1, m2, d1, d2, u1, u2, v1, v2, n1, n2⟩ :=
    compiled h
  have hmod : ∀ nj ∈ ([("t", jt), ("b", jb)] : List (String × JaxComp ℝ)), nj.2.model = model := by
    intro nj h
    fin_cases h
    · exact m1
    · exact m2
  have huse : ∀ nj ∈ ([("t", jt), ("b", jb)] : List (String × JaxComp ℝ)), Usable env nj.2 := by
    intro nj h
    fin_cases h
    · exact u1
    · exact u2
  have hws : WellSized env ⟨model, P.vMin, P.vMax, [("t", jt), ("b", jb)]⟩ (update env model q) :=
    C68_problem_partial hcl hJ hmod (fun nj h => settled_of_usable (huse nj h)) model_wf (sized q hq)
  have hwk : Works env osqp model 0 ⟨run World.init (ops ++ more), q, s⟩ := by
    obtain ⟨qp, -, h⟩ := (C87_solve_partial hcl hJ hmod huse model_fits env_fits (fun q hq => ⟨sized q hq, data_fits q⟩) osqp q.toArr s).2
      (congrArg (fun n => [n]) hq) (by
        have hvec : (⟨model.nq, fun i => q.toArr.get [i]⟩ : Vec ℝ) = q := by
          rw [show model.nq = q.len from hq.symm]
          rfl
        show ∀ nj ∈ ([("t", jt), ("b", jb)] : List (String × JaxComp ℝ)), CompiledBarrier nj.2 → ∀ G,
          evalJacobian env nj.2 (update env model ⟨model.nq, fun i => q.toArr.get [i]⟩) = .ok G → ¬ ZeroMat G
        rw [hvec]
        intro nj h hb G hG h0
        have hmem : nj.2 = jt ∨ nj.2 = jb := by fin_cases h <;> simp
        have hrow : G.rows = 1 ∧ rowDot G 0 (fun k => if k = 0 then 1 else 0) = 1 := by
          rcases hmem with e | e <;> rw [e] at hG
          · exact ⟨n1 q G hG, trolley m1 d1 v1 hq hG 1⟩
          · exact ⟨n2 q G hG, trolley m2 d2 v2 hq hG 1⟩
        have hz : rowDot G 0 (fun k => if k = 0 then 1 else 0) = 0 := by
          unfold rowDot
          exact sum_eq_zero fun k hk => by rw [h0 0 (by rw [hrow.1]; norm_num) k (mem_range.1 hk), zero_mul]
        rw [hrow.2] at hz
        exact one_ne_zero hz)
    exact ⟨_, _, hJ, h⟩
  have key : ∀ ts, TermsOf (run World.init (ops ++ more)) P ⟨model, P.vMin, P.vMax, [("t", jt), ("b", jb)]⟩ env (update env model q) ts →
      (∀ t ∈ ts, t.Plain) ∧ ∀ u : ℝ, |u| ≤ 1 → - (tip q 0 - 1) ≤ u →
        Allowed P.model.nv P.vMin P.vMax ts (fun k => if k = 0 then u else 0) ∧
        (u = - (tip q 0 - 2) → ∀ t ∈ ts, t.MetBy (fun k => if k = 0 then u else 0)) := by
    intro ts hts
    unfold TermsOf at hts
    rw [hPc, hcs] at hts
    cases hts with
    | cons ht hts =>
    cases hts with
    | cons hb hnil =>
    cases hnil
    rename_i t b
    obtain ⟨c, hc, hta, j, hj, hjac, hval⟩ := ht
    obtain ⟨c', hc', hba, j', hj', hjac', hval'⟩ := hb
    cases hc
    cases hc'
    obtain rfl : j = jt := by simpa using hj
    obtain rfl : j' = jb := by simpa using hj'
    have r1 := n1 q _ hjac
    have r2 := n2 q _ hjac'
    rw [v1] at hval
    rw [v2] at hval'
    have hval : ahead 2 q = t.value := Except.ok.inj hval
    have hval' : ahead 1 q = b.value := Except.ok.inj hval'
    have w1 := trolley m1 d1 v1 hq hjac
    have w2 := trolley m2 d2 v2 hq hjac'
    have q1 : t.rate 0 = tip q 0 - 2 := by
      unfold Term.rate
      rw [hta, hgt, hgt', ← hval, one_mul]
      rfl
    have q2 : b.rate 0 = tip q 0 - 1 := by
      unfold Term.rate
      rw [hba, hgb, hgb', ← hval', one_mul]
      rfl
    have z : ∀ {A : Mat ℝ}, A.rows = 1 → ∀ i < A.rows, i = 0 := by
      intro A h i hi
      omega
    refine ⟨?_, fun u hu1 hu2 => ⟨⟨?_, ?_⟩, ?_⟩⟩
    · intro u hu
      unfold Term.Plain
      fin_cases hu
      · simp only [hta, hkt]; exact hlm
      · simp only [hba, hkb]
    · intro i hi
      rw [hmin, hmax]
      obtain ⟨o1, o2⟩ := abs_le.1 hu1
      dsimp only
      split <;> constructor <;> linarith
    · intro x hx
      unfold Term.Allows
      fin_cases hx
      · simp only [hta, hkt]
      · simp only [hba, hkb]
        intro i hi
        rw [z r2 i hi, w2, q2]
        exact hu2
    · intro e x hx
      unfold Term.MetBy
      fin_cases hx
      · simp only [hta, hkt]
        intro i hi
        rw [z r1 i hi, w1, q1]
        exact e
      · simp only [hba, hkb]
  refine ⟨hwk, fun hpos => ?_, fun hoff => ?_⟩
  · intro J' hJ'
    dsimp only at hJ' ⊢
    rw [hJ] at hJ'; cases hJ'
    refine ⟨hws, fun P' ts hP' hts => ?_⟩
    rw [hP] at hP'; cases hP'
    rcases le_total (tip q 0) 1 with hle | hle
    · exact ⟨_, ((key ts hts).2 (1 - tip q 0) (abs_le.2 ⟨by linarith, by linarith⟩) (by linarith)).1⟩
    · exact ⟨_, ((key ts hts).2 0 (abs_le.2 ⟨by linarith, by linarith⟩) (by linarith)).1⟩
  · intro J' hJ'
    dsimp only at hJ' ⊢
    rw [hJ] at hJ'; cases hJ'
    refine ⟨hws, fun P' ts hP' hts => ?_⟩
    rw [hP] at hP'; cases hP'
    obtain ⟨k1, k2⟩ := key ts hts
    have := k2 (- (tip q 0 - 2)) (by rw [abs_neg]; exact hoff) (by linarith)
    exact ⟨k1, _, this.1, this.2 rfl⟩

/-- The conditions of C98 and C99 at a control step. -/
def Good (osqp : QPSolver ℝ Unit) (dt ε : ℝ) (S : Robot ℝ) : Prop :=
  Aimed model 0 (.object .body "arm") mask target (fun _ => 1) 1 S.world ∧
  Fenced model 0 dt .body "arm" "min" mask lower (Arr.zeros 1) 1 S.world ∧ SpeedAtMost model 0 ε (fun _ => 1 + ε) S.world ∧
  Works env osqp model 0 S ∧ (0 ≤ tip S.q 0 → CanMove env model 0 S) ∧ (|tip S.q 0 - 2| ≤ 1 → Compatible env model 0 S)

theorem good {more : List (Op ℝ)} (h : more = [] ∨ more = [.compile 0]) (osqp : QPSolver ℝ Unit) {dt : ℝ} (hdt : dt ≤ 1) (ε : ℝ) {q : Vec ℝ}
    (hq : q.len = 2) (s : LocalIKData ℝ) : Good osqp dt ε ⟨run World.init (ops ++ more), q, s⟩ :=
  ⟨aimed h, fenced h hdt, speeds h ε, fits h osqp q hq s⟩

theorem ticks (osqp : QPSolver ℝ Unit) {dt : ℝ} (hdt : dt ≤ 1) (ε : ℝ) {q0 : Vec ℝ} (hq : q0.len = 2) (s0 : LocalIKData ℝ) :
    AtEveryTick env osqp model 0 dt (Good osqp dt ε) ⟨World.init, q0, s0⟩ acts := by
  have skip : ∀ (ops : List (Op ℝ)) (G : Robot ℝ → Prop) (S : Robot ℝ) (rest : List (Act ℝ)),
      AtEveryTick env osqp model 0 dt G ⟨run S.world ops, S.q, S.data⟩ rest →
      AtEveryTick env osqp model 0 dt G S (ops.map .call ++ rest) := by
    intro ops
    induction ops with
    | nil => intro G S rest h; exact h
    | cons op ops ih => intro G S rest h; exact ⟨(fun h => by cases h), ih G _ rest h⟩
  have h0 : ∀ q : Vec ℝ, q.len = 2 → ∀ s, Good osqp dt ε ⟨run World.init (ops ++ []), q, s⟩ := fun q hq s => good (.inl rfl) osqp hdt ε hq s
  have h1 : ∀ q : Vec ℝ, q.len = 2 → ∀ s, Good osqp dt ε ⟨run World.init (ops ++ [.compile 0]), q, s⟩ := fun q hq s => good (.inr rfl) osqp hdt ε hq s
  rw [List.append_nil] at h0
  unfold acts
  refine skip ops _ _ _ ?_
  have hrun : (step (run World.init ops) (.compile 0)).2 = run World.init (ops ++ [.compile 0]) := by
    simp only [run, List.foldl_append, List.foldl_cons, List.foldl_nil]
  dsimp only
  generalize run World.init (ops ++ [.compile 0]) = w1 at *
  generalize run World.init ops = w0 at *
  refine ⟨fun _ => h0 q0 hq s0, ?_⟩
  have hl := tick_len (S := ⟨w0, q0, s0⟩) env osqp model_wf 0 dt hq
  have hw := tick_world env osqp model 0 dt ⟨w0, q0, s0⟩
  generalize controlStep env osqp model 0 dt ⟨w0, q0, s0⟩ .tick = S at hl hw
  obtain ⟨w, q, s⟩ := S
  dsimp only at hl hw
  subst hw
  refine ⟨fun _ => ?_, trivial⟩
  rw [hrun]
  exact h1 q hl s

theorem weaken {osqp : QPSolver ℝ Unit} {dt : ℝ} {G H : Robot ℝ → Prop} (h : ∀ S, G S → H S) {S : Robot ℝ} {acts : List (Act ℝ)}
    (ht : AtEveryTick env osqp model 0 dt G S acts) : AtEveryTick env osqp model 0 dt H S acts := by
  induction acts generalizing S with
  | nil => trivial
  | cons a acts ih => exact ⟨fun e => h _ (ht.1 e), ih ht.2⟩


theorem speedOf {B : ℝ} : turnSpeed model (fun _ => B) = B := by
  unfold turnSpeed
  rw [show model.jntType.length = 2 from rfl, sum_range_succ, sum_range_one, show model.jntType.getD 0 .hinge = .slide from rfl,
    show model.jntType.getD 1 .hinge = .hinge from rfl]
  simp

theorem long : armLength geometry model = 6 := by
  have h1 : gap 0 (![2, 0, 0] : V3 ℝ) = 2 := by
    unfold gap
    rw [show sq3 ((![2, 0, 0] : V3 ℝ) - 0) = 2 ^ 2 by simp [sq3]]
    exact Real.sqrt_sq (by norm_num)
  have h2 : gap 0 (![-2, 0, 0] : V3 ℝ) = 2 := by
    unfold gap
    rw [show sq3 ((![-2, 0, 0] : V3 ℝ) - 0) = 2 ^ 2 by simp [sq3]]
    exact Real.sqrt_sq (by norm_num)
  have h0 : gap 0 (0 : V3 ℝ) = 0 := by simp [gap, sq3]
  unfold armLength
  rw [show model.jntType.length = 2 from rfl, show model.nbody = 2 from rfl, sum_range_succ, sum_range_one, sum_range_succ, sum_range_one]
  show gap 0 (0 : V3 ℝ) + gap 0 ![2, 0, 0] + (2 * gap 0 0 + 2 * gap 0 ![-2, 0, 0]) = 6
  rw [h0, h1, h2]
  norm_num

/-- With a speed limit of `B`, the bound on the acceleration of the tip is `6 B²`. -/
theorem accel {B : ℝ} : maxAcceleration geometry model (fun _ => B) (.object .body "arm") = B ^ 2 * 6 := by
  have h0 : overhang geometry model (.object .body "arm") = 0 := by
    show gap 0 (0 : V3 ℝ) = 0
    simp [gap, sq3]
  unfold maxAcceleration
  rw [speedOf, long, h0, add_zero]

end Jib

open Jib in
/-- With rows that are off by at most 1/100 and control steps of 1/50 s, the tip stays within 1/10 of its limit 1, from every configuration
that keeps it. -/
example {osqp : QPSolver ℝ Unit} (ho : FindsFeasibleUpTo (1 / 100) osqp) (x0 : Fin 2 → ℝ) (s0 : LocalIKData ℝ) (h0 : 1 ≤ tip (vecOf x0) 0) :
    1 - 1 / 10 ≤ tip (Spec.control env osqp SampledEx.model 0 (1 / 50) ⟨World.init, vecOf x0, s0⟩ SampledEx.acts).q 0 :=
  SampledEx.inFence_iff.1 (C98_robot (m := SampledEx.model) ho simulates robot arm (jacrevR_exact rfl) (by norm_num) part SampledEx.full (by decide) (by decide)
    (V := fun _ => 1 + 1 / 100) (γ := 1) (b := 1 / 10) (by norm_num) (by rw [accel]; norm_num) SampledEx.clean x0 s0
    (weaken (fun S hS => ⟨hS.2.1, hS.2.2.1, fun h => hS.2.2.2.2.1 (by have := SampledEx.inFence_iff.1 (h _ (isAt.2 rfl)); linarith)⟩)
      (ticks osqp (by norm_num) (1 / 100) rfl s0))
    (fun x hx => by rw [isAt.1 hx]; exact SampledEx.inFence_iff.2 (le_trans (by norm_num) h0)) _ (isAt.2 rfl))

open Jib in
/-- With objectives that are 1/20000 too large in addition, the tip is after two control steps closer to its target by the factor 0.9604, up
to 1/10. -/
example {osqp : QPSolver ℝ Unit} (hopt : OptimalUpTo (1 / 20000) osqp) (ho : FindsFeasibleUpTo (1 / 100) osqp) (x0 : Fin 2 → ℝ)
    (s0 : LocalIKData ℝ) (h0 : |tip (vecOf x0) 0 - 2| ≤ 1) :
    |tip (Spec.control env osqp SampledEx.model 0 (1 / 50) ⟨World.init, vecOf x0, s0⟩ SampledEx.acts).q 0 - 2| ≤
      9604 / 10000 * |tip (vecOf x0) 0 - 2| + 1 / 10 := by
  have h := C99_robot (m := SampledEx.model) hopt ho simulates robot arm (jacrevR_exact rfl) (by norm_num) part SampledEx.full
    (x := SampledEx.target) (by decide) (V := fun _ => 1 + 1 / 100) (dt := 1 / 50) (g := fun _ => 1) (fun _ _ => by norm_num) (μ := 1) (b := 1 / 100)
    (by norm_num) (by norm_num) (by norm_num) (e := fun _ => 1) (fun _ _ => by rw [accel]; norm_num) SampledEx.clean x0 s0
    (weaken (fun S hS => ⟨hS.1, hS.2.2.1, fun h => ⟨hS.2.2.2.2.2 (SampledEx.offBy_iff.1 (h _ (isAt.2 rfl))), hS.2.2.2.1⟩⟩) (ticks osqp (by norm_num) (1 / 100) rfl s0))
    (fun x hx => by rw [isAt.1 hx]; exact SampledEx.offBy_iff.2 h0)
  rw [show ticksIn SampledEx.acts = 2 from rfl] at h
  simp only [SampledEx.axes] at h
  have h1 := h _ _ (isAt.2 rfl) (isAt.2 rfl) 0 (by norm_num)
  simp only [List.getElem_cons_zero, show entry SampledEx.target 0 = 2 from rfl, accel] at h1
  exact le_trans h1 (add_le_add (mul_le_mul_of_nonneg_right (by norm_num) (abs_nonneg _)) (by norm_num))

end Mjinx.Props
