import Verif.Spec.Steer
import Verif.Props.Loop

/-!
# Control loops that are set up once

Property C100.
-/

namespace Mjinx.Props
open Spec
set_option linter.unusedSectionVars false
variable {K : Type} [Field K] [LinearOrder K]

/-- What a loop that steers `T` keeps of the world it started in. -/
structure Kept (p : Nat) (T : Nat → Prop) (w0 w : World K) : Prop where
  prob : ∀ P, w0.probs[p]? = some P → w.probs[p]? = some P
  len : w0.comps.length ≤ w.comps.length
  comp : ∀ i c0, w0.comps[i]? = some c0 → ∃ c, w.comps[i]? = some c ∧ c.attrs.model = c0.attrs.model ∧ c.attrs.kind.tag = c0.attrs.kind.tag ∧
    (¬ T i → c.attrs.kind = c0.attrs.kind ∧ c.attrs.gain = c0.attrs.gain ∧ c.attrs.gainFn = c0.attrs.gainFn)

theorem Kept.refl (p : Nat) (T : Nat → Prop) (w : World K) : Kept p T w w :=
  ⟨fun _ h => h, le_rfl, fun _ c h => ⟨c, h, rfl, rfl, fun _ => ⟨rfl, rfl, rfl⟩⟩⟩

theorem Kept.trans {p : Nat} {T : Nat → Prop} {a b c : World K} (h1 : Kept p T a b) (h2 : Kept p T b c) : Kept p T a c := by
  refine ⟨fun P h => h2.prob P (h1.prob P h), h1.len.trans h2.len, fun i x hx => ?_⟩
  obtain ⟨y, hy, m1, t1, k1⟩ := h1.comp i x hx
  obtain ⟨z, hz, m2, t2, k2⟩ := h2.comp i y hy
  refine ⟨z, hz, m2.trans m1, t2.trans t1, fun hT => ?_⟩
  obtain ⟨a1, a2, a3⟩ := k1 hT
  obtain ⟨b1, b2, b3⟩ := k2 hT
  exact ⟨b1.trans a1, b2.trans a2, b3.trans a3⟩

/-- Worlds with the same components. -/
theorem kept_comps {p : Nat} {T : Nat → Prop} {w w' : World K} (hp : ∀ P, w.probs[p]? = some P → w'.probs[p]? = some P) (hc : w'.comps = w.comps) :
    Kept p T w w' :=
  ⟨hp, by rw [hc], fun _ c h => ⟨c, by rw [hc]; exact h, rfl, rfl, fun _ => ⟨rfl, rfl, rfl⟩⟩⟩

theorem maskFill_same {a b : Attrs K} (h : MaskFill a b) : b.model = a.model ∧ b.kind = a.kind ∧ b.gain = a.gain ∧ b.gainFn = a.gainFn := by
  rcases h with rfl | ⟨_, _, rfl⟩ <;> exact ⟨rfl, rfl, rfl, rfl⟩

/-- Compiling changes no component in any way that matters here. -/
theorem kept_compile {p : Nat} {T : Nat → Prop} {w : World K} (hw : ReachableW w) (q : Nat) : Kept p T w (step w (.compile q)).2 := by
  simp only [step]
  split
  · exact .refl _ _ _
  · rename_i P hP
    have h := (compileComps_spec P.comps w.comps (fun c hc => cacheOK_world hw c hc)).2
    have e : (compileProb w.comps P).2 = (compileComps w.comps P.comps).2 := by
      unfold compileProb
      split <;> (rename_i h; rw [h])
    refine ⟨fun _ h => h, ?_, fun i c hc => ?_⟩
    · show w.comps.length ≤ (compileProb w.comps P).2.length
      rw [e, h.1]
    · obtain ⟨c', hc', hf, -⟩ := h.2 i c hc
      obtain ⟨f1, f2, f3, f4⟩ := maskFill_same hf
      exact ⟨c', by rw [← e] at hc'; exact hc', f1, by rw [f2], fun _ => ⟨f2, f3, f4⟩⟩

theorem kept_call {p : Nat} {T : Nat → Prop} {w : World K} (hw : ReachableW w) {op : Op K} (h : Steers p T (.call op)) :
    Kept p T w (step w op).2 := by
  cases op
  case newComp n =>
    simp only [step]
    split
    · exact .refl _ _ _
    · rename_i c hc
      refine ⟨fun _ h => h, by simp, fun i c0 h0 => ?_⟩
      have : i < w.comps.length := (List.getElem?_eq_some_iff.1 h0).1
      exact ⟨c0, by simp only; rw [List.getElem?_append_left this]; exact h0, rfl, rfl, fun _ => ⟨rfl, rfl, rfl⟩⟩
  case comp i op =>
    simp only [step]
    split
    · exact .refl _ _ _
    · rename_i c hc
      refine ⟨fun _ h => h, by simp [setComp], fun k c0 h0 => ?_⟩
      by_cases hk : i = k
      · subst hk
        rw [hc] at h0; cases h0
        have : i < w.comps.length := (List.getElem?_eq_some_iff.1 hc).1
        exact ⟨(op.run c).2, by simp [setComp, this], run_model op c h.2, run_tag op c, fun hT => absurd h.1 hT⟩
      · exact ⟨c0, by simp [setComp, hk, h0], rfl, rfl, fun _ => ⟨rfl, rfl, rfl⟩⟩
  case newProblem m lo hi =>
    simp only [step]
    split
    · exact .refl _ _ _
    · refine kept_comps (fun P hP => ?_) rfl
      have : p < w.probs.length := (List.getElem?_eq_some_iff.1 hP).1
      simp only
      rw [List.getElem?_append_left this]
      exact hP
  case updateVMin q v =>
    simp only [step]
    split
    · exact .refl _ _ _
    · exact kept_comps (fun P hP => by rw [List.getElem?_set_ne h]; exact hP) rfl
  case updateVMax q v =>
    simp only [step]
    split
    · exact .refl _ _ _
    · exact kept_comps (fun P hP => by rw [List.getElem?_set_ne h]; exact hP) rfl
  case add => exact h.elim
  case remove q name =>
    simp only [step]
    split
    · exact .refl _ _ _
    · exact kept_comps (fun P hP => by rw [List.getElem?_set_ne h]; exact hP) rfl
  case compile q => exact kept_compile hw q
  case component => simp only [step]; split <;> exact .refl _ _ _
  case task => simp only [step]; split <;> exact .refl _ _ _
  case barrier => simp only [step]; split <;> exact .refl _ _ _

/-- The calls of a loop that steers leave no component half updated. -/
theorem steers_clean {p : Nat} {T : Nat → Prop} : ∀ (acts : List (Act K)) (w : World K), (∀ a ∈ acts, Steers p T a) →
    CleanProgram w (callsOf p acts) := by
  intro acts
  induction acts with
  | nil => intro w _; trivial
  | cons a acts ih =>
    intro w h
    have ha := h a (by simp)
    refine ⟨?_, ih _ (fun b hb => h b (by simp [hb]))⟩
    cases a with
    | tick => trivial
    | call op =>
      cases op with
      | add => exact ha.elim
      | comp i op =>
        cases op with
        | updateModel m => exact absurd rfl (ha.2 m)
        | _ => trivial
      | _ => trivial

variable [IsStrictOrderedRing K]

omit [IsStrictOrderedRing K] in
theorem clean_concat : ∀ (ops ops' : List (Op K)) (w : World K), CleanProgram w ops → CleanProgram (run w ops) ops' → CleanProgram w (ops ++ ops') := by
  intro ops
  induction ops with
  | nil => intro ops' w _ h; exact h
  | cons op ops ih => intro ops' w h h'; exact ⟨h.1, ih ops' _ h.2 h'⟩

/-- The world of a robot is the result of a program without half-done model updates. -/
def CleanWorld (w : World K) : Prop := ∃ ops, w = run World.init ops ∧ CleanProgram World.init ops

omit [IsStrictOrderedRing K] in
/-- What holds whenever the loop is in a world that kept what it started with holds at every control step. -/
theorem steers_ticks {I : Type} {env : Env K} {osqp : QPSolver K I} {m : MjModel K} (hw : JointsWF m) {p : Nat} {dt : K} {T : Nat → Prop}
    {w0 : World K} {G : Robot K → Prop} (hG : ∀ S, Sane m S → CleanWorld S.world → Kept p T w0 S.world → G S) :
    ∀ (acts : List (Act K)) (S : Robot K), Sane m S → CleanWorld S.world → Kept p T w0 S.world → (∀ a ∈ acts, Steers p T a) →
      AtEveryTick env osqp m p dt G S acts := by
  intro acts
  induction acts with
  | nil => intro S _ _ _ _; trivial
  | cons a acts ih =>
    intro S hS hcw hk hst
    have hc1 := steers_clean (a :: acts) S.world hst
    obtain ⟨h1, -⟩ := sane_step env osqp hw p dt hS hc1
    have hcw' : ∀ op, CleanProgram S.world [op] → CleanWorld (step S.world op).2 := by
      intro op hop
      obtain ⟨ops, e, hcl⟩ := hcw
      rw [e] at hop ⊢
      exact ⟨ops ++ [op], by rw [run_append]; rfl, clean_concat _ _ _ hcl hop⟩
    have hhead := hc1.1
    refine ⟨fun _ => hG S hS hcw hk, ih _ h1 ?_ (hk.trans ?_) (fun b hb => hst b (by simp [hb]))⟩ <;> cases a with
    | tick =>
      rw [tick_world]
      first | exact kept_compile hS.reach p | exact hcw' _ ⟨hhead, trivial⟩
    | call op => first | exact kept_call hS.reach (hst _ (by simp)) | exact hcw' _ ⟨hhead, trivial⟩

omit [IsStrictOrderedRing K] in
theorem isTask_of_tag {k k' : Kind K} (h : k'.tag = k.tag) (hk : IsTask k) : IsTask k' := by
  cases hk <;> cases k' <;> first | (simp only [Kind.tag] at h; cases h; done) | constructor

omit [IsStrictOrderedRing K] in
theorem kept_guarded {m : MjModel K} {p : Nat} {dt : K} {fm : Option (List Int)} {lo hi : Arr K} {T : Nat → Prop} {w0 w : World K}
    (hk : Kept p T w0 w) (hT : SteersTasks m p T w0) (h : Guarded m p dt fm lo hi w0) : Guarded m p dt fm lo hi w := by
  obtain ⟨P, name, i, c, s, qi, hP, hPm, hmem, hc, hcm, hkd, hg⟩ := h
  obtain ⟨c', hc', m1, -, same⟩ := hk.comp i c hc
  have hnT : ¬ T i := fun hi => by
    have := (hT P hP _ hmem c hc).2 hi
    rw [hkd] at this
    cases this
  obtain ⟨s1, s2, s3⟩ := same hnT
  exact ⟨P, name, i, c', s, qi, hk.prob P hP, hPm, hmem, hc', m1.trans hcm, s1.trans hkd, by rw [s2, s3]; exact hg⟩

omit [IsStrictOrderedRing K] in
theorem comps_back {p : Nat} {T : Nat → Prop} {w0 w : World K} (hk : Kept p T w0 w) (hr : ReachableW w0) {P : Prob K} (hP : w0.probs[p]? = some P)
    {ni : String × Nat} (hni : ni ∈ P.comps) {c : Comp K} (hc : w.comps[ni.2]? = some c) :
    ∃ c0, w0.comps[ni.2]? = some c0 ∧ c.attrs.model = c0.attrs.model ∧ c.attrs.kind.tag = c0.attrs.kind.tag ∧
      (¬ T ni.2 → c.attrs.kind = c0.attrs.kind ∧ c.attrs.gain = c0.attrs.gain ∧ c.attrs.gainFn = c0.attrs.gainFn) := by
  have hlt := refs_valid hr p P hP ni hni
  obtain ⟨c', hc', r⟩ := hk.comp ni.2 _ (List.getElem?_eq_getElem hlt)
  rw [hc] at hc'; cases hc'
  exact ⟨_, List.getElem?_eq_getElem hlt, r⟩

omit [IsStrictOrderedRing K] in
theorem kept_limits {m : MjModel K} {p : Nat} {fm : Option (List Int)} {lo hi : Arr K} {T : Nat → Prop} {w0 w : World K}
    (hk : Kept p T w0 w) (hr : ReachableW w0) (hT : SteersTasks m p T w0) (h : TasksAndLimits m p fm lo hi w0) : TasksAndLimits m p fm lo hi w := by
  obtain ⟨P, hP, hlim, hcs⟩ := h
  refine ⟨P, hk.prob P hP, hlim, fun ni hni c hc => ?_⟩
  obtain ⟨c0, hc0, m1, t1, same⟩ := comps_back hk hr hP hni hc
  rcases hcs ni hni c0 hc0 with ht | ⟨s, qi, hcm, hkd, hg⟩
  · exact .inl (isTask_of_tag t1 ht)
  · have hnT : ¬ T ni.2 := fun hi => by
      have := (hT P hP _ hni c0 hc0).2 hi
      rw [hkd] at this
      cases this
    obtain ⟨s1, s2, s3⟩ := same hnT
    exact .inr ⟨s, qi, m1.trans hcm, s1.trans hkd, by rw [s2, s3]; exact hg⟩

omit [IsStrictOrderedRing K] in
theorem kept_steers {m : MjModel K} {p : Nat} {T : Nat → Prop} {w0 w : World K} (hk : Kept p T w0 w) (hr : ReachableW w0)
    {P : Prob K} (hP : w0.probs[p]? = some P) (hT : SteersTasks m p T w0) : SteersTasks m p T w := by
  intro P' hP' ni hni c hc
  rw [hk.prob P hP] at hP'; cases hP'
  obtain ⟨c0, hc0, m1, t1, -⟩ := comps_back hk hr hP hni hc
  obtain ⟨h1, h2⟩ := hT P hP ni hni c0 hc0
  exact ⟨m1.trans h1, fun hi => isTask_of_tag t1 (h2 hi)⟩

omit [IsStrictOrderedRing K] in
/-- A problem of tasks and joint barriers has fitting sizes. -/
theorem sizes_of_limits {env : Env K} {m : MjModel K} (hw : JointsWF m) {p : Nat} {fm : Option (List Int)} {lo hi : Arr K}
    (flo : FitsVec lo (selectedJoints m fm).length) (fhi : FitsVec hi (selectedJoints m fm).length)
    (hz : ∀ q : Vec K, q.len = m.nq → Sized env m (update env m q)) {S : Robot K} {ops : List (Op K)} (hS : S.world = run World.init ops)
    (hcl : CleanProgram World.init ops) (hq : S.q.len = m.nq) (hlim : TasksAndLimits m p fm lo hi S.world)
    (hm : ∀ P, S.world.probs[p]? = some P → P.model = m ∧ ∀ ni ∈ P.comps, ∀ c, S.world.comps[ni.2]? = some c → c.attrs.model = some m) :
    SizesFit env m p S := by
  intro J hJ
  rw [hS] at hJ hm hlim
  obtain ⟨P, hP, -, hcs⟩ := hlim
  obtain ⟨hPm, hcm⟩ := hm P hP
  obtain ⟨P', hP', hJm, -, -, hall⟩ := compile_comps ⟨ops, rfl⟩ hJ
  rw [hP] at hP'; cases hP'
  rw [hPm] at hJm
  have hentry : ∀ nj ∈ J.comps, ∃ ni ∈ P.comps, ∃ c, (run World.init ops).comps[ni.2]? = some c ∧ CompilesTo c.attrs nj.2 := by
    intro nj hnj
    obtain ⟨ni, hni, -, c, hc, hC⟩ := terms_entry' hall hnj
    exact ⟨ni, hni, c, hc, hC⟩
  have hclean := cleanComp_program ops World.init (by intro c hc; cases hc) hcl
  have hmod : ∀ nj ∈ J.comps, nj.2.model = m := by
    intro nj hnj
    obtain ⟨ni, hni, c, hc, hC⟩ := hentry nj hnj
    have := hC.model
    rw [hcm ni hni c hc] at this
    exact (Option.some.inj this).symm
  refine C68_problem_partial hcl hJ (fun nj h => by rw [hmod nj h, hJm]) ?_ (by rw [hJm]; exact hw) (by rw [hJm]; exact hz _ hq)
  intro nj hnj
  obtain ⟨ni, hni, c, hc, hC⟩ := hentry nj hnj
  have hjm := hmod nj hnj
  rcases hcs ni hni c hc with ht | ⟨s, qi, -, hkd, -⟩
  · have hK := hC.kind
    unfold Settled
    generalize c.attrs.kind = k at ht hK
    cases ht <;> cases hjk : nj.2.kind <;> rw [hjk] at hK <;> simp only [KindOf] at hK <;> trivial
  · have := jointBarrier_of_clean (hclean c (List.mem_of_getElem? hc)) hC (by rw [hjm]; exact hw) hkd
    unfold Settled
    rw [this.kind, hjm]
    simp only [List.length_map]
    exact ⟨flo, fhi⟩

omit [IsStrictOrderedRing K] in
theorem control_calls {I : Type} (env : Env K) (osqp : QPSolver K I) (m : MjModel K) (p : Nat) (dt : K) (ops : List (Op K)) (S : Robot K)
    (acts : List (Act K)) :
    control env osqp m p dt S (ops.map .call ++ acts) = control env osqp m p dt ⟨run S.world ops, S.q, S.data⟩ acts := by
  induction ops generalizing S with
  | nil => rfl
  | cons op ops ih => exact ih _

omit [IsStrictOrderedRing K] in
theorem ticks_calls {I : Type} (env : Env K) (osqp : QPSolver K I) (m : MjModel K) (p : Nat) (dt : K) (G : Robot K → Prop) (ops : List (Op K))
    (S : Robot K) (acts : List (Act K)) (h : AtEveryTick env osqp m p dt G ⟨run S.world ops, S.q, S.data⟩ acts) :
    AtEveryTick env osqp m p dt G S (ops.map .call ++ acts) := by
  induction ops generalizing S with
  | nil => exact h
  | cons op ops ih => exact ⟨(fun h => by cases h), ih _ h⟩

/-- **C100** (joint limits): set a problem of tasks and joint limits up once, then let a loop change targets, gains, costs and dampings of its tasks
between the control steps, in any order and for as long as it likes: the joints stay within the limits. -/
theorem C100_joint_limits {I : Type} {env : Env K} {osqp : QPSolver K I} (ho : FindsFeasible osqp) {m : MjModel K} (hw : JointsWF m)
    (hkeep : KeepsScalars env m) (hz : ∀ q : Vec K, q.len = m.nq → Sized env m (update env m q)) {p : Nat} {dt : K} (hdt : 0 ≤ dt)
    {fm : Option (List Int)} {lo hi : Arr K} (flo : FitsVec lo (selectedJoints m fm).length) (fhi : FitsVec hi (selectedJoints m fm).length)
    {setup : List (Op K)} (hclean : CleanProgram World.init setup) {T : Nat → Prop} (hT : SteersTasks m p T (run World.init setup))
    (hguard : Guarded m p dt fm lo hi (run World.init setup)) (hlim : TasksAndLimits m p fm lo hi (run World.init setup))
    {acts : List (Act K)} (hsteer : ∀ a ∈ acts, Steers p T a) {q0 : Vec K} (hq0 : q0.len = m.nq) (s0 : LocalIKData K)
    (hstart : Within m fm lo hi q0) :
    Within m fm lo hi (control env osqp m p dt ⟨run World.init setup, q0, s0⟩ acts).q := by
  have hreach : ReachableW (run World.init setup) := ⟨setup, rfl⟩
  have hsane0 : Sane m ⟨run World.init setup, q0, s0⟩ := ⟨hreach, cleanComp_program setup World.init (by intro c hc; cases hc) hclean, hq0⟩
  obtain ⟨P, -, -, -, -, -, hP, hPm, -⟩ := id hguard
  have hticks := steers_ticks (env := env) (osqp := osqp) (dt := dt) hw (p := p) (T := T) (w0 := run World.init setup)
    (G := fun S => Guarded m p dt fm lo hi S.world ∧ TasksAndLimits m p fm lo hi S.world ∧ SizesFit env m p S)
    (fun S hS hcw hk => by
      have hl := kept_limits hk hreach hT hlim
      obtain ⟨ops, e, hcl⟩ := hcw
      refine ⟨kept_guarded hk hT hguard, hl, sizes_of_limits hw flo fhi hz e hcl hS.len hl fun P' hP' => ?_⟩
      have hst := kept_steers hk hreach hP hT P' hP'
      rw [hk.prob P hP] at hP'; cases hP'
      exact ⟨hPm, fun ni hni c hc => (hst ni hni c hc).1⟩)
    acts ⟨run World.init setup, q0, s0⟩ hsane0 ⟨setup, rfl, hclean⟩ (.refl _ _ _) hsteer
  have h := C93_tasks_and_limits (osqp := osqp) ho hw hkeep hdt flo fhi (acts := setup.map .call ++ acts) (p := p) ?_ hq0 s0
    (ticks_calls env osqp m p dt _ setup ⟨World.init, q0, s0⟩ acts hticks) hstart
  · rw [control_calls] at h
    exact h
  · have e : callsOf p (setup.map Act.call ++ acts) = setup ++ callsOf p acts := by
      simp [callsOf, Function.comp_def]
    rw [e]
    exact clean_concat _ _ _ hclean (steers_clean acts _ hsteer)

/-- The program of `LoopEx`, set up once: whatever targets the center of mass is sent to, step by step, both joints stay between -1 and 1. -/
example {osqp : QPSolver ℚ Unit} (ho : FindsFeasible osqp) (q0 : Vec ℚ) (hq : q0.len = 13) (s0 : LocalIKData ℚ)
    (h7 : -1 ≤ q0.get 7 ∧ q0.get 7 ≤ 1) (h12 : -1 ≤ q0.get 12 ∧ q0.get 12 ≤ 1) (targets : List (Arr ℚ)) :
    let loop := targets.flatMap fun x => [Act.call (.comp 0 (.updateTarget x)), .tick]
    let q := (control Ex.env osqp Ex.model 0 (1 / 10) ⟨run World.init LoopEx.ops, q0, s0⟩ loop).q
    (-1 ≤ q.get 7 ∧ q.get 7 ≤ 1) ∧ -1 ≤ q.get 12 ∧ q.get 12 ≤ 1 := by
  have h := C100_joint_limits ho Ex.model_wf (Ex.env_keeps _) (fun q hq => SizeEx.sized q hq) (by norm_num) (fm := none) (lo := Ex.scalar (-1))
    (hi := Ex.scalar 1) (.inl rfl) (.inl rfl) (setup := LoopEx.ops) (by refine ⟨trivial, trivial, trivial, ?_, ?_, trivial⟩ <;> · intro e h; cases h)
    (T := fun i => i = 0) (by
      intro P hP ni hni c hc
      cases hP
      fin_cases hni <;> cases hc
      · exact ⟨rfl, fun _ => .com _ _⟩
      · exact ⟨rfl, fun h => by cases h⟩)
    LoopEx.guarded1 LoopEx.limits1 (acts := targets.flatMap fun x => [Act.call (.comp 0 (.updateTarget x)), .tick]) (by
      intro a ha
      obtain ⟨x, -, hx⟩ := List.mem_flatMap.1 ha
      fin_cases hx
      · exact ⟨rfl, fun m h => by cases h⟩
      · trivial) hq s0 (by
      intro i hi
      have : i = 0 ∨ i = 1 := by
        have : i < 2 := hi
        omega
      rcases this with rfl | rfl
      · exact h7
      · exact h12)
  exact ⟨h 0 (by decide), h 1 (by decide)⟩

end Mjinx.Props
