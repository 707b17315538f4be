import Verif.Props.Energy
import Verif.Props.RobotFlow
import Verif.Props.Sizes

/-!
# C119: moving with optimal velocities never increases the total weighted error
-/

set_option linter.unusedSectionVars false

namespace Mjinx.Props
open Spec Finset

section
variable {env : Env ℝ} {G : Geometry} {T : ℝ}

/-- The value of a component along a motion: entries that are continuous and change at the rate of the Jacobian. -/
structure ValuePath (env : Env ℝ) (j : JaxComp ℝ) (T : ℝ) (x : ℝ → Fin j.model.nq → ℝ) (v : ℝ → Vec ℝ) (n : Nat) (F : ℝ → Nat → ℝ) : Prop where
  value : ∀ t ∈ Set.Icc 0 T, ∃ V, evalValue env j (update env j.model (vecOf (x t))) = .ok V ∧ V.len = n ∧ ∀ i < n, V.get i = F t i
  cont : ∀ i < n, ContinuousOn (fun t => F t i) (Set.Icc 0 T)
  rate : ∀ t ∈ Set.Ico 0 T, ∀ J, evalJacobian env j (update env j.model (vecOf (x t))) = .ok J → ∀ i < n,
    HasDerivWithinAt (fun s => F s i) (rowDot J i (v t).get) (Set.Ici t) t

variable {j : JaxComp ℝ} {x : ℝ → Fin j.model.nq → ℝ} {v : ℝ → Vec ℝ}

private theorem path_differentiated (hs : Simulates env G j.model) (hw : RobotWF G j.model) (hj : JacrevExact env) (hd : Differentiated j)
    (hT : 0 < T) (hm : MovesWith env j.model T x v) (hv : ∀ t ∈ Set.Ico 0 T, ∀ k < j.model.nv, angularDof j.model k = true → (v t).get k = 0)
    {V0 : Vec ℝ} (h0 : evalValue env j (update env j.model (vecOf (x 0))) = .ok V0) : ∃ F, ValuePath env j T x v V0.len F := by
  obtain ⟨f, hf1, hf2, hf3⟩ := value_smooth hs hw hd h0
  have hu := unit_closed hT hm
  refine ⟨fun t i => (f (vecOf (x t))).get i, fun t _ => ⟨_, hf1 _, hf2 _, fun _ _ => rfl⟩, fun i hi => ?_, fun t ht J hJ i hi => ?_⟩
  · exact value_cont hm.cont (fun t ht => hf3 (x t) (unit_nonzero (hu t ht))) hf2 hi
  · exact value_rate hs.quat hj hw.addr (sim_kept hs) (sim_qpos hs hw.addr (hm.unit t ht)) hd hf1 hf2 hm ht (hf3 (x t) (unit_nonzero (hm.unit t ht))) (hv t ht) hJ hi

private theorem path_joint (hs : Simulates env G j.model) (hw : RobotWF G j.model) {fm : Option (List Int)} {w tq : Arr ℝ} {lm : ℝ}
    (hc : JointTaskCompiled fm j w lm tq) (hT : 0 < T) (hm : MovesWith env j.model T x v)
    {V0 : Vec ℝ} (h0 : evalValue env j (update env j.model (vecOf (x 0))) = .ok V0) : ∃ F, ValuePath env j T x v V0.len F := by
  have hu := unit_closed hT hm
  have hq : ∀ t ∈ Set.Icc 0 T, (update env j.model (vecOf (x t))).qpos = vecOf (x t) := fun t ht => sim_qpos hs hw.addr (hu t ht)
  have hl : ∀ t ∈ Set.Icc 0 T, (update env j.model (vecOf (x t))).qpos.len = j.model.nq := fun t ht => by rw [hq t ht]; rfl
  have h0T : (0 : ℝ) ∈ Set.Icc 0 T := ⟨le_rfl, hT.le⟩
  have htq : tq.ndim ≤ 1 := by
    unfold evalValue at h0
    rw [hc.kind] at h0
    obtain ⟨t, ht, -⟩ := Except.bind_eq_ok h0
    unfold Arr.operand at ht
    unfold Arr.ndim
    split at ht
    · rename_i e; rw [e]; simp
    · rename_i e; rw [e]; simp
    · cases ht
  have hev := fun t (ht : t ∈ Set.Icc 0 T) => jointTask_eval hc hw.addr htq env (update env j.model (vecOf (x t))) (hl t ht)
  obtain ⟨e0, J0, a1, -, a3, -⟩ := hev 0 h0T
  have hlen : V0.len = (selectedJoints j.model fm).length := by
    rw [← Except.ok.inj (a1.symm.trans h0)]; exact a3
  rw [hlen]
  have hsel : ∀ i (hi : i < (selectedJoints j.model fm).length), (selectedJoints j.model fm)[i] ∈ scalarJoints j.model := by
    intro i hi
    exact mem_selectedJoints (List.getElem_mem hi)
  refine ⟨fun t i => (vecOf (x t)).get (qposOf j.model ((selectedJoints j.model fm).getD i 0)) - entry tq i, fun t ht => ?_, fun i hi => ?_, fun t ht J hJ i hi => ?_⟩
  · obtain ⟨e, J, b1, -, b3, -, -, b6⟩ := hev t ht
    refine ⟨e, b1, b3, fun i hi => ?_⟩
    rw [(b6 i hi).1, hq t ht, List.getD_eq_getElem _ _ hi]
  · simp only [List.getD_eq_getElem _ _ hi]
    exact ((scalar_path hw.addr hm (hsel i hi)).1).sub continuousOn_const
  · obtain ⟨e, J', -, b2, -, -, b5, b6⟩ := hev t ⟨ht.1, ht.2.le⟩
    have := Except.ok.inj (b2.symm.trans hJ)
    subst this
    simp only [List.getD_eq_getElem _ _ hi]
    refine (((scalar_path hw.addr hm (hsel i hi)).2 t ht).sub_const _).congr_deriv ?_
    have hdof := ((integrate_scalar env hw.addr (vecOf (x 0)) (v 0) 0).2 _ (hsel i hi)).2.1
    unfold rowDot
    rw [b5]
    simp only [(b6 i hi).2, ite_mul, one_mul, zero_mul]
    rw [Finset.sum_ite_eq' (range j.model.nv), if_pos (mem_range.2 hdof)]

/-! ### The energy of one component -/

/-- The energy of a component along a motion: continuous, and its rate is the pull. -/
structure EnergyPath (env : Env ℝ) (j : JaxComp ℝ) (T : ℝ) (x : ℝ → Fin j.model.nq → ℝ) (v : ℝ → Vec ℝ) (E E' : ℝ → ℝ) : Prop where
  value : ∀ t ∈ Set.Icc 0 T, energyOf env j (vecOf (x t)) = E t
  cont : ContinuousOn E (Set.Icc 0 T)
  rate : ∀ t ∈ Set.Ico 0 T, HasDerivWithinAt E (E' t) (Set.Ici t) t
  pull : ∀ t ∈ Set.Ico 0 T, ∀ c, solverComp env (update env j.model (vecOf (x t))) j = .ok c → CompShaped j.model.nv c →
    E' t = Spec.pull (v t).get c ∧ 0 ≤ drag c ∧ NoDisplacement c

private theorem toMat_get {w : Arr ℝ} {W : Mat ℝ} (h : w.toMat = .ok W) (r k : Nat) : W.get r k = w.get [r, k] := by
  unfold Arr.toMat at h
  split at h
  · cases h; rfl
  · cases h

private theorem toVec_get {a : Arr ℝ} {g : Vec ℝ} (h : a.toVec = .ok g) : a.shape = [g.len] ∧ ∀ i, g.get i = a.get [i] := by
  unfold Arr.toVec at h
  split at h
  · rename_i e; cases h; exact ⟨e, fun _ => rfl⟩
  · cases h

private theorem energy_task {w : Arr ℝ} {lm : ℝ} {n : Nat} {F : ℝ → Nat → ℝ} (hF : ValuePath env j T x v n F) (hk : weightOf j.kind = some w)
    (hwrap : ∀ e c, wrapComp j e = .ok c → ∃ W, w.toMat = .ok W ∧ c = .task e W lm) (hlm : 0 ≤ lm) (hid : j.gainFn = id)
    (hg : ∀ n, j.vectorGain.shape = [n] → ∀ i < n, j.vectorGain.get [i] = j.vectorGain.get [0])
    (hex : ∀ t ∈ Set.Ico 0 T, ∃ c, solverComp env (update env j.model (vecOf (x t))) j = .ok c) : ∃ E E', EnergyPath env j T x v E E' := by
  have hJex : ∀ t ∈ Set.Ico 0 T, ∃ J, evalJacobian env j (update env j.model (vecOf (x t))) = .ok J := fun t ht => by
    obtain ⟨c, hc⟩ := hex t ht
    obtain ⟨J, V, g, h1, -⟩ := solverComp_ok hc
    exact ⟨J, h1⟩
  have : Nonempty (Mat ℝ) := ⟨Mat.zero 0 0⟩
  choose! J hJ using hJex
  refine ⟨fun t => j.vectorGain.get [0] * (∑ r ∈ range n, (∑ k ∈ range n, w.get [r, k] * F t k) ^ 2) / 2,
    fun t => j.vectorGain.get [0] * (∑ r ∈ range n, 2 * (∑ k ∈ range n, w.get [r, k] * F t k) * ∑ k ∈ range n, w.get [r, k] * rowDot (J t) k (v t).get) / 2, ?_, ?_, ?_, ?_⟩
  · intro t ht
    obtain ⟨V, h1, h2, h3⟩ := hF.value t ht
    unfold energyOf
    rw [hk, h1]
    dsimp only
    rw [h2]
    congr 2
    refine sum_congr rfl fun r _ => ?_
    congr 1
    exact sum_congr rfl fun k hk => by rw [h3 k (mem_range.1 hk)]
  · refine (ContinuousOn.mul continuousOn_const ?_).div_const _
    refine continuousOn_finsetSum _ fun r _ => ContinuousOn.pow ?_ 2
    exact continuousOn_finsetSum _ fun k hk => continuousOn_const.mul (hF.cont k (mem_range.1 hk))
  · intro t ht
    refine HasDerivWithinAt.div_const (HasDerivWithinAt.const_mul _ ?_) _
    refine HasDerivWithinAt.fun_sum fun r _ => ?_
    have h1 : HasDerivWithinAt (fun s => ∑ k ∈ range n, w.get [r, k] * F s k) (∑ k ∈ range n, w.get [r, k] * rowDot (J t) k (v t).get) (Set.Ici t) t :=
      HasDerivWithinAt.fun_sum fun k hk => (hF.rate t ht _ (hJ t ht) k (mem_range.1 hk)).const_mul _
    refine (h1.pow 2).congr_deriv ?_
    simp
  · intro t ht c hc hsh
    obtain ⟨J', V, g, h1, h2, h3, h4⟩ := solverComp_ok hc
    obtain rfl := Except.ok.inj ((hJ t ht).symm.trans h1)
    obtain ⟨V', h5, h6, h7⟩ := hF.value t ⟨ht.1, ht.2.le⟩
    obtain rfl := Except.ok.inj (h2.symm.trans h5)
    obtain ⟨W, hW, rfl⟩ := hwrap _ _ h4
    obtain ⟨hsh, -, -⟩ := hsh
    have hrows : (J t).rows = n := hsh.value.symm.trans h6
    obtain ⟨hgs, hgg⟩ := toVec_get h3
    have hglen : g.len = n := (show g.len = (J t).rows from hsh.gain).trans hrows
    refine ⟨?_, mul_nonneg hlm (sqNorm_nn _ _), trivial⟩
    unfold Spec.pull
    dsimp only
    rw [hrows, mul_sum, sum_div]
    refine sum_congr rfl fun r _ => ?_
    have e1 : weightedRate W ⟨J t, V, g, j.gainFn⟩ (v t).get r = ∑ k ∈ range n, w.get [r, k] * rowDot (J t) k (v t).get := by
      unfold weightedRate
      dsimp only
      rw [hrows]
      exact sum_congr rfl fun k _ => by rw [toMat_get hW]
    have e2 : Spec.residual W ⟨J t, V, g, j.gainFn⟩ (fun _ => 0) r = j.vectorGain.get [0] * ∑ k ∈ range n, w.get [r, k] * F t k := by
      unfold Spec.residual gained
      dsimp only
      rw [hrows, mul_sum]
      refine sum_congr rfl fun k hk => ?_
      have hk := mem_range.1 hk
      have z : rowDot (J t) k (fun _ => (0 : ℝ)) = 0 := by simp [rowDot]
      rw [toMat_get hW, z, hid, hgg, hg _ hgs k (by rw [hglen]; exact hk), h7 k hk]
      simp only [id]
      ring
    rw [e1, e2]
    ring

private theorem energy_none (hk : weightOf j.kind = none)
    (hp : ∀ t ∈ Set.Ico 0 T, ∀ c, solverComp env (update env j.model (vecOf (x t))) j = .ok c → Spec.pull (v t).get c = 0 ∧ 0 ≤ drag c ∧ NoDisplacement c) :
    EnergyPath env j T x v (fun _ => 0) fun _ => 0 := by
  refine ⟨fun t _ => ?_, continuousOn_const, fun t _ => hasDerivWithinAt_const _ _ _, fun t ht c hc _ => ?_⟩
  · unfold energyOf; rw [hk]
  · obtain ⟨h1, h2⟩ := hp t ht c hc
    exact ⟨h1.symm, h2⟩

private theorem energy_path (hs : Simulates env G j.model) (hw : RobotWF G j.model) (hj : JacrevExact env)
    (hclean : ∃ n c0 c, NewComp.run n = .ok c0 ∧ CleanRun c0 c ∧ (jaxComponent c).1 = .ok j) (hcons : Conservative j) (hT : 0 < T) (hm : MovesWith env j.model T x v)
    (hv : ∀ t ∈ Set.Ico 0 T, ∀ k < j.model.nv, angularDof j.model k = true → (v t).get k = 0)
    (hex : ∀ t ∈ Set.Ico 0 T, ∃ c, solverComp env (update env j.model (vecOf (x t))) j = .ok c) : ∃ E E', EnergyPath env j T x v E E' := by
  have h0 : ∃ V0, evalValue env j (update env j.model (vecOf (x 0))) = .ok V0 := by
    obtain ⟨c, hc⟩ := hex 0 ⟨le_rfl, hT⟩
    obtain ⟨J, V, g, -, h2, -⟩ := solverComp_ok hc
    exact ⟨V, h2⟩
  obtain ⟨V0, h0⟩ := h0
  have frob : ∀ A : Mat ℝ, 0 ≤ frobSq A := fun A => sum_nonneg fun i _ => sum_nonneg fun j _ => sq_nonneg _
  have wrapTask : ∀ (w : Arr ℝ) (lm : ℝ) (e : Evaluated ℝ) (c : SolverComp ℝ), w.toMat.map (fun W => SolverComp.task e W lm) = .ok c → ∃ W, w.toMat = .ok W ∧ c = .task e W lm := by
    intro w lm e c h
    cases hW : w.toMat with
    | error _ => rw [hW] at h; cases h
    | ok W => rw [hW] at h; cases h; exact ⟨W, rfl, rfl⟩
  cases hk : j.kind with
  | comTask w lm tgt =>
    unfold Conservative at hcons
    rw [hk] at hcons
    obtain ⟨F, hF⟩ := path_differentiated hs hw hj (by unfold Differentiated; rw [hk]; trivial) hT hm hv h0
    exact energy_task hF (by rw [hk]; rfl) (fun e c h => by unfold wrapComp at h; rw [hk] at h; exact wrapTask w lm e c h) hcons.1 hcons.2.1 hcons.2.2 hex
  | positionTask w lm oi ty tgt =>
    unfold Conservative at hcons
    rw [hk] at hcons
    obtain ⟨F, hF⟩ := path_differentiated hs hw hj (by unfold Differentiated; rw [hk]; trivial) hT hm hv h0
    exact energy_task hF (by rw [hk]; rfl) (fun e c h => by unfold wrapComp at h; rw [hk] at h; exact wrapTask w lm e c h) hcons.1 hcons.2.1 hcons.2.2 hex
  | jointTask w lm tgt qi =>
    unfold Conservative at hcons
    rw [hk] at hcons
    obtain ⟨nc, c0, c, hn, hr, hjc⟩ := hclean
    obtain ⟨a, fm, rfl⟩ : ∃ a fm, nc = .jointTask a fm := by
      have hC : CompilesTo c.attrs j := jaxComponent_spec (cacheOK_reachable (hr.reachable hn)) (c' := (jaxComponent c).2) (by rw [← hjc])
      have hK := hC.kind
      refine new_jointTask hn (hr.tag.symm.trans ?_)
      rw [hk] at hK
      cases hck : c.attrs.kind <;> rw [hck] at hK <;> first | rfl | exact hK.elim
    obtain ⟨w', lm', tq, hc, -⟩ := jointTask_compiled hn hr hjc hw.addr
    obtain ⟨F, hF⟩ := path_joint hs hw hc hT hm h0
    exact energy_task hF (by rw [hk]; rfl) (fun e c h => by unfold wrapComp at h; rw [hk] at h; exact wrapTask w lm e c h) hcons.1 hcons.2.1 hcons.2.2 hex
  | frameTask => unfold Conservative at hcons; rw [hk] at hcons; exact hcons.elim
  | jointBarrier s lo hi qi =>
    refine ⟨_, _, energy_none (by rw [hk]; rfl) fun t ht c hc => ?_⟩
    unfold Conservative at hcons
    rw [hk] at hcons
    obtain ⟨J, V, g, -, -, -, h4⟩ := solverComp_ok hc
    unfold wrapComp at h4; rw [hk] at h4; cases h4
    exact ⟨rfl, div_nonneg hcons (frob _), fun _ => rfl⟩
  | positionBarrier s oi ty lo hi li =>
    refine ⟨_, _, energy_none (by rw [hk]; rfl) fun t ht c hc => ?_⟩
    unfold Conservative at hcons
    rw [hk] at hcons
    obtain ⟨J, V, g, -, -, -, h4⟩ := solverComp_ok hc
    unfold wrapComp at h4; rw [hk] at h4; cases h4
    exact ⟨rfl, div_nonneg hcons (frob _), fun _ => rfl⟩
  | selfCollision s dm ps nc =>
    refine ⟨_, _, energy_none (by rw [hk]; rfl) fun t ht c hc => ?_⟩
    unfold Conservative at hcons
    rw [hk] at hcons
    obtain ⟨J, V, g, -, -, -, h4⟩ := solverComp_ok hc
    unfold wrapComp at h4; rw [hk] at h4; cases h4
    exact ⟨rfl, div_nonneg hcons (frob _), fun _ => rfl⟩
  | modelEquality a hard w =>
    refine ⟨_, _, energy_none (by rw [hk]; rfl) fun t ht c hc => ?_⟩
    unfold Conservative at hcons
    rw [hk] at hcons
    obtain ⟨J, V, g, -, -, -, h4⟩ := solverComp_ok hc
    unfold wrapComp at h4; rw [hk] at h4
    dsimp only at h4 hcons
    cases hW : w.toMat with
    | error _ => rw [hW] at h4; cases h4
    | ok W =>
      rw [hW] at h4; cases h4
      subst hcons
      exact ⟨rfl, le_rfl, trivial⟩

end

/-! ### All components -/

private theorem sum_paths {ι : Type} (l : List ι) {f E E' : ι → ℝ → ℝ} {T : ℝ} (h1 : ∀ i ∈ l, ∀ t ∈ Set.Icc 0 T, f i t = E i t)
    (h2 : ∀ i ∈ l, ContinuousOn (E i) (Set.Icc 0 T)) (h3 : ∀ i ∈ l, ∀ t ∈ Set.Ico 0 T, HasDerivWithinAt (E i) (E' i t) (Set.Ici t) t) :
    (∀ t ∈ Set.Icc 0 T, (l.map fun i => f i t).sum = (l.map fun i => E i t).sum) ∧ ContinuousOn (fun t => (l.map fun i => E i t).sum) (Set.Icc 0 T) ∧
      ∀ t ∈ Set.Ico 0 T, HasDerivWithinAt (fun t => (l.map fun i => E i t).sum) (l.map fun i => E' i t).sum (Set.Ici t) t := by
  induction l with
  | nil => simpa using ⟨continuousOn_const, fun t _ _ => hasDerivWithinAt_const _ _ _⟩
  | cons i l ih =>
    obtain ⟨a, b, c⟩ := ih (fun i hi => h1 i (by simp [hi])) (fun i hi => h2 i (by simp [hi])) (fun i hi => h3 i (by simp [hi]))
    simp only [List.map_cons, List.sum_cons]
    refine ⟨fun t ht => ?_, (h2 i (by simp)).add b, fun t ht => (h3 i (by simp) t ht).add (c t ht)⟩
    rw [a t ht, h1 i (by simp) t ht]

private theorem falls {E E' : ℝ → ℝ} {T : ℝ} (hc : ContinuousOn E (Set.Icc 0 T)) (hd : ∀ t ∈ Set.Ico 0 T, HasDerivWithinAt E (E' t) (Set.Ici t) t)
    (hn : ∀ t ∈ Set.Ico 0 T, E' t ≤ 0) : AntitoneOn E (Set.Icc 0 T) := by
  intro s hs t ht hst
  exact image_le_of_deriv_right_le_deriv_boundary (f := E) (f' := E') (a := s) (b := T) (hc.mono (Set.Icc_subset_Icc_left hs.1))
    (fun u hu => hd u ⟨hs.1.trans hu.1, hu.2⟩) (B := fun _ => E s) (B' := fun _ => 0) le_rfl continuousOn_const
    (fun u _ => hasDerivWithinAt_const _ _ _) (fun u hu => hn u ⟨hs.1.trans hu.1, hu.2⟩) ⟨hst, ht.2⟩

private theorem sum_pull {α : Type} {f : α → Except Err (SolverComp ℝ)} {g : α → ℝ} {h : SolverComp ℝ → ℝ} : ∀ {xs : List α} {ys : List (SolverComp ℝ)},
    List.Forall₂ (fun x y => f x = .ok y) xs ys → (∀ x ∈ xs, ∀ y ∈ ys, f x = .ok y → g x = h y) → (xs.map g).sum = (ys.map h).sum
  | [], [], .nil, _ => rfl
  | x :: xs, y :: ys, .cons h1 h2, hg => by
    rw [List.map_cons, List.map_cons, List.sum_cons, List.sum_cons, hg x (by simp) y (by simp) h1, sum_pull h2 fun x hx y hy => hg x (by simp [hx]) y (by simp [hy])]

/-- **C119 (energy).** A problem compiled after any program without failed model updates, whose components are joint, position and centre-of-mass tasks (default gain
function, one gain per task), barriers and hard constraints: if the robot moves at every moment with an optimal velocity, standing still being allowed, the total
energy of the tasks, half the gain times the squared weighted error, never increases.  Angular velocities of free and ball joints have to be zero (C78). -/
theorem C119_energy {ops : List (Op ℝ)} (hops : CleanProgram World.init ops) {p : Nat} {J : JaxProblem ℝ}
    (hJ : (step (run World.init ops) (.compile p)).1 = .ok (.compiled J)) {env : Env ℝ} {G : Geometry} {m : MjModel ℝ} (hs : Simulates env G m) (hw : RobotWF G m)
    (hj : JacrevExact env) (hmod : ∀ nj ∈ J.comps, nj.2.model = m) (hcons : ∀ nj ∈ J.comps, Conservative nj.2)
    {T : ℝ} {x : ℝ → Fin m.nq → ℝ} {v : ℝ → Vec ℝ} (hl : OptimalFlow env m J T x v)
    (hv : ∀ t ∈ Set.Ico 0 T, ∀ k < m.nv, angularDof m k = true → (v t).get k = 0) :
    AntitoneOn (fun t => energy env J (vecOf (x t))) (Set.Icc 0 T) := by
  by_cases hT : 0 < T
  swap
  · intro s hs' t ht _
    have e1 : s = 0 := le_antisymm (by have := hs'.2; linarith) hs'.1
    have e2 : t = 0 := le_antisymm (by have := ht.2; linarith) ht.1
    rw [e1, e2]
  have hclean := (compiled_from_clean hops hJ).2.2
  -- the quadratic programs along the motion
  have hqp : ∀ t ∈ Set.Ico 0 T, ∃ vMin vMax cs qp, (J.comps.map Prod.snd).mapM (solverComp env (update env m (vecOf (x t)))) = .ok cs ∧
      ProblemShaped m.nv vMin vMax cs ∧ computeQP m.nv m.nv vMin vMax cs = .ok qp ∧ Optimal qp (v t).get ∧ Feasible qp fun _ => 0 := by
    intro t ht
    obtain ⟨qp, hqp, -⟩ := hl.feasible t ht
    obtain ⟨vMin, vMax, cs, p1, p2, p3, p4⟩ := problemQP_ok hqp
    have hsz := hl.sized t ht vMin vMax cs p1 p2 p3
    rw [hl.model t ht] at hsz p4
    exact ⟨vMin, vMax, cs, qp, p3, hsz, p4, hl.optimal t ht qp hqp, hl.still t ht qp hqp⟩
  have hpath : ∀ nj ∈ J.comps, ∃ E E' : ℝ → ℝ, (∀ t ∈ Set.Icc 0 T, energyOf env nj.2 (vecOf (x t)) = E t) ∧ ContinuousOn E (Set.Icc 0 T) ∧
      (∀ t ∈ Set.Ico 0 T, HasDerivWithinAt E (E' t) (Set.Ici t) t) ∧
      ∀ t ∈ Set.Ico 0 T, ∀ c, solverComp env (update env m (vecOf (x t))) nj.2 = .ok c → CompShaped m.nv c → E' t = Spec.pull (v t).get c ∧ 0 ≤ drag c ∧ NoDisplacement c := by
    intro nj hnj
    have hcl := hclean nj hnj
    have hco := hcons nj hnj
    have hmo := hmod nj hnj
    have hex : ∀ t ∈ Set.Ico 0 T, ∃ c, solverComp env (update env m (vecOf (x t))) nj.2 = .ok c := by
      intro t ht
      obtain ⟨_, _, cs, _, h1, -⟩ := hqp t ht
      obtain ⟨c, -, hc⟩ := (mapM_mem h1).1 nj.2 (List.mem_map.2 ⟨nj, hnj, rfl⟩)
      exact ⟨c, hc⟩
    clear hqp
    have hmv := hl.toMovesWith
    clear hl hcons hmod hclean
    subst hmo
    obtain ⟨E, E', hE⟩ := energy_path hs hw hj hcl hco hT hmv hv hex
    exact ⟨E, E', hE.value, hE.cont, hE.rate, hE.pull⟩
  choose! E E' q1 q2 q3 q4 using hpath
  obtain ⟨r1, r2, r3⟩ := sum_paths J.comps (f := fun nj t => energyOf env nj.2 (vecOf (x t))) q1 q2 q3
  have hfall := falls r2 r3 (fun t ht => by
    obtain ⟨vMin, vMax, cs, qp, p3, hsz, p4, p5, p6⟩ := hqp t ht
    have hall : ∀ c ∈ cs, ∃ nj ∈ J.comps, solverComp env (update env m (vecOf (x t))) nj.2 = .ok c := by
      intro c hc
      obtain ⟨j, hj', hc'⟩ := (mapM_mem p3).2.1 c hc
      obtain ⟨nj, hnj, rfl⟩ := List.mem_map.1 hj'
      exact ⟨nj, hnj, hc'⟩
    have hd := C119_descent hsz (fun c hc => by
      obtain ⟨nj, hnj, hc'⟩ := hall c hc
      exact (q4 nj hnj t ht c hc' (hsz.comps c hc)).2.2) p4 p6 p5
    have e : (J.comps.map fun nj => E' nj t).sum = total (Spec.pull (v t).get) cs := by
      have hf := mapM_forall₂ p3
      rw [List.forall₂_map_left_iff] at hf
      exact sum_pull (f := fun nj : String × JaxComp ℝ => solverComp env (update env m (vecOf (x t))) nj.2) (g := fun nj => E' nj t) hf fun nj hnj c hc h => (q4 nj hnj t ht c h (hsz.comps c hc)).1
    rw [e]
    have hp : 0 ≤ total (pace (v t).get) cs := by
      unfold total
      refine List.sum_nonneg fun y hy => ?_
      obtain ⟨c, -, rfl⟩ := List.mem_map.1 hy
      cases c with
      | task e W lm => exact sqNorm_nn _ _
      | barrier => exact le_rfl
      | constraint e a hard W =>
        unfold pace; dsimp only
        by_cases h : hard = true
        · simp [h]
        · simp only [h, if_false, Bool.false_eq_true]; exact sqNorm_nn _ _
    have hg : 0 ≤ total drag cs := by
      unfold total
      refine List.sum_nonneg fun y hy => ?_
      obtain ⟨c, hc, rfl⟩ := List.mem_map.1 hy
      obtain ⟨nj, hnj, hc'⟩ := hall c hc
      exact (q4 nj hnj t ht c hc' (hsz.comps c hc)).2.1
    have := mul_nonneg hg (sqNorm_nn m.nv (v t).get)
    linarith)
  intro s hs' t ht hst
  have h := hfall hs' ht hst
  show energy env J (vecOf (x t)) ≤ energy env J (vecOf (x s))
  unfold energy
  rw [r1 s hs', r1 t ht]
  exact h

end Mjinx.Props
