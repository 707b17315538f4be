import Verif.Spec.Follow
import Verif.Props.Approx
import Verif.Props.Steer
import Verif.Props.Compiles
import Verif.Props.Solvable

/-!
# Control programs that follow moving targets

Property C101.
-/

namespace Mjinx.Props
open Spec
set_option linter.unusedSectionVars false
variable {K : Type} [Field K] [LinearOrder K] [IsStrictOrderedRing K]

/-- One control step after the other: the error bound, and that the problem was compatible at every control step. -/
theorem follows_key {I : Type} {env : Env K} {osqp : QPSolver K I} {δ : K} (ho : OptimalUpTo δ osqp) {m : MjModel K} (hw : JointsWF m)
    (hkeep : KeepsScalars env m) {p : Nat} {dt : K} (hdt : 0 < dt) {fm : Option (List Int)} {g : Nat → K}
    (hg : ∀ i < (selectedJoints m fm).length, 0 < g i ∧ g i * dt ≤ 1) {μ b : K} (hμ : 0 < μ) (hb : 0 ≤ b) (hδ : 2 * δ ≤ (μ * b) ^ 2)
    {d e : Nat → K} (he : ∀ i < (selectedJoints m fm).length, d i / (g i * dt) + b / g i ≤ e i) :
    ∀ (acts : List (Act K)) (S : Robot K) (x0 : Arr K) (xs : List (Arr K)) (E : Nat → K), Sane m S →
      CleanProgram S.world (callsOf p acts) → (∀ x ∈ xs, x.ndim ≤ 1) → List.IsChain (Near (selectedJoints m fm).length d) (x0 :: xs) →
      (∀ i < (selectedJoints m fm).length, E i + d i ≤ e i) → OffTarget m fm x0 E S.q →
      TicksWith env osqp m p dt
        (fun x S => TrackedBy m p fm x g μ S.world ∧ (OffTarget m fm x e S.q → Compatible env m p S ∧ Works env osqp m p S)) S acts xs →
      (∀ i (h : i < (selectedJoints m fm).length),
        |(Spec.control env osqp m p dt S acts).q.get (qposOf m (selectedJoints m fm)[i]) - entry (xs.getLastD x0) i| ≤
          (1 - g i * dt) ^ xs.length * E i + (1 - (1 - g i * dt) ^ xs.length) * ((1 - g i * dt) * (d i / (g i * dt)) + b / g i)) ∧
        AtEveryTick env osqp m p dt (fun S => Compatible env m p S ∧ Works env osqp m p S) S acts := by
  intro acts
  induction acts with
  | nil =>
    intro S x0 xs E _ _ _ _ _ hoff ht
    cases ht
    refine ⟨fun i hi => ?_, trivial⟩
    simpa [Spec.control] using hoff i hi
  | cons a acts ih =>
    intro S x0 xs E hS hcp hnd hch hE hoff ht
    obtain ⟨hS', hcp'⟩ := sane_step env osqp hw p dt hS hcp
    cases a with
    | call op =>
      obtain ⟨r1, r2⟩ := ih _ x0 xs E hS' hcp' hnd hch hE hoff ht
      exact ⟨r1, (fun h => by cases h), r2⟩
    | tick =>
      cases xs with
      | nil => exact ht.elim
      | cons x xs =>
        obtain ⟨⟨hT, hC⟩, ht'⟩ := ht
        rw [List.isChain_cons_cons] at hch
        obtain ⟨hx, hch'⟩ := hch
        have hoff' : ∀ i (h : i < (selectedJoints m fm).length),
            |S.q.get (qposOf m (selectedJoints m fm)[i]) - entry x i| ≤ E i + d i := by
          intro i h
          have h1 := hoff i h
          have h2 := hx i h
          have h3 : S.q.get (qposOf m (selectedJoints m fm)[i]) - entry x i =
              (S.q.get (qposOf m (selectedJoints m fm)[i]) - entry x0 i) - (entry x i - entry x0 i) := by ring
          rw [h3]
          exact (abs_sub _ _).trans (add_le_add h1 h2)
        obtain ⟨hC1, hC2⟩ := hC fun i h => (hoff' i h).trans (hE i h)
        have hstep := tracked_step_upTo (dt := dt) ho hw hkeep hdt.le (hnd x (by simp)) hμ hb hδ hS hT hC1 hC2
        have hR : ∀ i < (selectedJoints m fm).length,
            (1 - g i * dt) * (E i + d i) + dt * b =
              (1 - g i * dt) * E i + g i * dt * ((1 - g i * dt) * (d i / (g i * dt)) + b / g i) := by
          intro i h
          have := (hg i h).1
          field_simp
          ring
        have := ih _ x xs (fun i => (1 - g i * dt) * E i + g i * dt * ((1 - g i * dt) * (d i / (g i * dt)) + b / g i)) hS' hcp'
          (fun y hy => hnd y (by simp [hy])) hch' ?_ ?_ ht'
        · refine ⟨fun i hi => ?_, fun _ => ⟨hC1, hC2⟩, this.2⟩
          rw [List.getLastD_cons]
          refine (this.1 i hi).trans (le_of_eq ?_)
          rw [List.length_cons, pow_succ]
          ring
        · intro i h
          obtain ⟨g1, g2⟩ := hg i h
          have h1 := hE i h
          have h2 := he i h
          have h3 : (1 - g i * dt) * (d i / (g i * dt)) + b / g i + d i = d i / (g i * dt) + b / g i := by
            field_simp
            ring
          have h4 : 0 < g i * dt := mul_pos g1 hdt
          have h5 : 0 ≤ 1 - g i * dt := by linarith
          rw [← h3] at h2
          have h6 := mul_le_mul_of_nonneg_left h1 h5
          have h7 := mul_le_mul_of_nonneg_left h2 h4.le
          linarith
        · intro i h
          dsimp only
          rw [← hR i h]
          obtain ⟨g1, g2⟩ := hg i h
          have ha : 0 ≤ 1 - g i * dt := by linarith
          have h6 := abs_sub_abs_le_abs_sub ((controlStep env osqp m p dt S .tick).q.get (qposOf m (selectedJoints m fm)[i]) - entry x i)
            ((1 - g i * dt) * (S.q.get (qposOf m (selectedJoints m fm)[i]) - entry x i))
          rw [abs_mul, abs_of_nonneg ha] at h6
          have h7 := mul_le_mul_of_nonneg_left (hoff' i h) ha
          have h8 := hstep i h
          linarith

/-- **C101** (moving targets): let a problem have a joint task with gains `g` whose target moves between control steps by at most `d`.  After any number of
control steps the joints are off the last target by at most the shrunken initial error, plus what the target moves while the gain catches up, plus what
the tolerance of the solver adds.  Compatibility of the problem has to be shown only for joints that are off the target by at most `e`. -/
theorem C101_follows {I : Type} {env : Env K} {osqp : QPSolver K I} {δ : K} (ho : OptimalUpTo δ osqp) {m : MjModel K} (hw : JointsWF m)
    (hkeep : KeepsScalars env m) {p : Nat} {dt : K} (hdt : 0 < dt) {fm : Option (List Int)} {g : Nat → K}
    (hg : ∀ i < (selectedJoints m fm).length, 0 < g i ∧ g i * dt ≤ 1) {μ b : K} (hμ : 0 < μ) (hb : 0 ≤ b) (hδ : 2 * δ ≤ (μ * b) ^ 2)
    {d e : Nat → K} (hd : ∀ i < (selectedJoints m fm).length, 0 ≤ d i) {x0 : Arr K} {xs : List (Arr K)} (hnd : ∀ x ∈ xs, x.ndim ≤ 1)
    (hnear : List.IsChain (Near (selectedJoints m fm).length d) (x0 :: xs))
    {acts : List (Act K)} (hclean : CleanProgram World.init (callsOf p acts)) {q0 : Vec K} (hq0 : q0.len = m.nq) (s0 : LocalIKData K)
    (he : ∀ i (h : i < (selectedJoints m fm).length),
      |q0.get (qposOf m (selectedJoints m fm)[i]) - entry x0 i| + d i ≤ e i ∧ d i / (g i * dt) + b / g i ≤ e i)
    (hticks : TicksWith env osqp m p dt
      (fun x S => TrackedBy m p fm x g μ S.world ∧ (OffTarget m fm x e S.q → Compatible env m p S ∧ Works env osqp m p S))
      ⟨World.init, q0, s0⟩ acts xs) :
    ∀ i (h : i < (selectedJoints m fm).length),
      |(Spec.control env osqp m p dt ⟨World.init, q0, s0⟩ acts).q.get (qposOf m (selectedJoints m fm)[i]) - entry (xs.getLastD x0) i| ≤
        (1 - g i * dt) ^ xs.length * |q0.get (qposOf m (selectedJoints m fm)[i]) - entry x0 i| + (1 - g i * dt) * (d i / (g i * dt)) + b / g i := by
  intro i hi
  obtain ⟨g1, g2⟩ := hg i hi
  have h := (follows_key ho hw hkeep hdt hg hμ hb hδ (fun i h => (he i h).2) acts _ x0 xs (fun i => |q0.get (qposOf m ((selectedJoints m fm).getD i 0)) - entry x0 i|) (sane_start hq0 s0) hclean hnd hnear
    (fun i hi => by
      have := (he i hi).1
      simpa [hi] using this)
    (fun i hi => by simp [hi]) hticks).1 i hi
  simp only [List.getD_eq_getElem?_getD, List.getElem?_eq_getElem hi, Option.getD_some] at h
  refine h.trans ?_
  have ha : 0 ≤ 1 - g i * dt := by linarith
  have hpow := pow_nonneg ha xs.length
  have hR : 0 ≤ (1 - g i * dt) * (d i / (g i * dt)) + b / g i :=
    add_nonneg (mul_nonneg ha (div_nonneg (hd i hi) (mul_pos g1 hdt).le)) (div_nonneg hb g1.le)
  nlinarith [mul_nonneg hpow hR]

/-- The world of the loop: as set up, with this target. -/
private def At (m : MjModel K) (p k : Nat) (fm : Option (List Int)) (g : Nat → K) (μ : K) (lo hi : Arr K) (e : Nat → K) (x : Arr K) (w : World K) : Prop :=
  TaskWithLimits m p k fm g μ lo hi e w ∧ ∃ c a qi, w.comps[k]? = some c ∧ c.attrs.kind = .jointTask a fm (some x) qi

/-- Components of a world without half-done model updates that are joint tasks bound to the model have one row per selected joint. -/
private theorem dim_of_clean {c : Comp K} (hcl : CleanComp c) {m : MjModel K} (hw : JointsWF m) (hm : c.attrs.model = some m) {a : TaskA K}
    {fm : Option (List Int)} {tq : Option (Arr K)} {qi : Option (List Nat)} (hk : c.attrs.kind = .jointTask a fm tq qi) :
    c.attrs.dim = ((selectedJoints m fm).length : Int) := by
  obtain ⟨n, c0, hn, hr⟩ := hcl
  have hJ := hr.jInv (jInv_new hn) m hm
  unfold JInvAt at hJ
  rw [hk] at hJ
  obtain ⟨mk, x, h1, -, -, h4, -⟩ := hJ
  have hs := applyFinalMask_spec hw fm
  have hlen : ∀ f, fm = some f → f.length = (scalarJoints m).length := by
    intro f hf
    by_contra hne
    rw [hs.1 f hf hne] at h1
    cases h1
  obtain ⟨mk', h1', h2', -⟩ := hs.2 hlen
  rw [h1] at h1'; cases h1'
  rw [h4, h2', List.length_map]

/-- Sending the task to a target. -/
private theorem send_step {m : MjModel K} (hw : JointsWF m) {p k : Nat} {fm : Option (List Int)} {g : Nat → K} {μ : K} {lo hi : Arr K} {e : Nat → K}
    {x : Arr K} (hx : x.shape = [(selectedJoints m fm).length]) {w : World K} (hclean : ∀ c ∈ w.comps, CleanComp c)
    (h : TaskWithLimits m p k fm g μ lo hi e w) : At m p k fm g μ lo hi e x (step w (.comp k (.updateTarget x))).2 := by
  obtain ⟨P, hP, hPm, hv, hb, ⟨name, hk⟩, hne, hall⟩ := h
  obtain ⟨c, hc, hcomp, hm, hgf, hK⟩ := hall _ hk
  have hK : ∃ a tq qi, c.attrs.kind = .jointTask a fm tq qi ∧ a.lmDamping = 0 ∧ CostAtLeast a.cost (selectedJoints m fm).length μ ∧
      ∀ r < (selectedJoints m fm).length, gainAt c.attrs.gain r = g r := by
    rcases hK with ⟨-, h⟩ | ⟨h, -⟩
    · exact h
    · exact absurd rfl h
  obtain ⟨a, tq, qi, hkd, h0, hcost, hgain⟩ := hK
  have hdim := dim_of_clean (hclean c (List.mem_of_getElem? hc)) hw hm hkd
  have hl : x.lastDim = .ok (selectedJoints m fm).length := by
    unfold Arr.lastDim
    rw [hx]
    rfl
  have hrun : (CompOp.updateTarget x).run c = (.ok (), c.set { c.attrs with kind := .jointTask a fm (some x) qi }) := by
    show updateTarget x c = _
    unfold updateTarget
    rw [hkd]
    dsimp only
    rw [if_neg (by omega), hl]
    dsimp only
    rw [if_neg (by omega)]
  have hlt : k < w.comps.length := (List.getElem?_eq_some_iff.1 hc).1
  have hw' : (step w (.comp k (.updateTarget x))).2 =
      { w with comps := setComp w.comps k (c.set { c.attrs with kind := .jointTask a fm (some x) qi }) } := by
    simp only [step, hc, hrun]
  rw [hw']
  have hget : (setComp w.comps k (c.set { c.attrs with kind := .jointTask a fm (some x) qi }))[k]? =
      some (c.set { c.attrs with kind := .jointTask a fm (some x) qi }) := by
    simp [setComp, hlt]
  refine ⟨⟨P, hP, hPm, hv, hb, ⟨name, hk⟩, hne, fun ni hni => ?_⟩, c.set { c.attrs with kind := .jointTask a fm (some x) qi }, a, qi, hget, rfl⟩
  by_cases hnk : ni.2 = k
  · refine ⟨c.set { c.attrs with kind := .jointTask a fm (some x) qi }, by rw [hnk]; exact hget, ⟨hcomp.bound, hcomp.dim, hcomp.gain, ?_⟩, hm, hgf, .inl ⟨hnk, a, _, qi, rfl, h0, hcost, hgain⟩⟩
    have := hcomp.cost
    rw [hkd] at this
    exact this
  · obtain ⟨c', hc', h⟩ := hall ni hni
    exact ⟨c', by simp [setComp, Ne.symm hnk, hc'], h⟩

private theorem maskFill_complete {a b : Attrs K} (h : MaskFill a b) (ha : Complete a) : Complete b := by
  rcases h with rfl | ⟨_, _, rfl⟩
  · exact ha
  · exact ⟨ha.bound, ha.dim, ha.gain, ha.cost⟩

/-- A control step changes nothing. -/
private theorem compile_keeps {m : MjModel K} {p k : Nat} {fm : Option (List Int)} {g : Nat → K} {μ : K} {lo hi : Arr K} {e : Nat → K}
    {w : World K} (hr : ReachableW w) (h : TaskWithLimits m p k fm g μ lo hi e w) : TaskWithLimits m p k fm g μ lo hi e (step w (.compile p)).2 := by
  obtain ⟨P, hP, hPm, hv, hb, hk, hne, hall⟩ := h
  have hs := (compileComps_spec P.comps w.comps (fun c hc => cacheOK_world hr c hc)).2
  have e' : (step w (.compile p)).2 = { w with comps := (compileComps w.comps P.comps).2 } := by
    simp only [step, hP]
    congr 1
    unfold compileProb
    split <;> (rename_i h; rw [h])
  rw [e']
  refine ⟨P, hP, hPm, hv, hb, hk, hne, fun ni hni => ?_⟩
  obtain ⟨c, hc, hcomp, hm, hgf, hK⟩ := hall ni hni
  obtain ⟨c', hc', hf, -⟩ := hs.2 _ c hc
  obtain ⟨f1, f2, f3, f4⟩ := maskFill_same hf
  exact ⟨c', hc', maskFill_complete hf hcomp, by rw [f1, hm], by rw [f4, hgf], by rw [f2, f3]; exact hK⟩

/-- What the world of the loop gives at a control step. -/
private theorem at_tick {I : Type} {env : Env K} {osqp : QPSolver K I} {m : MjModel K} (hm : ModelFits m) (henv : EnvFits env m)
    (hkeep : KeepsScalars env m) (hz : ∀ q : Vec K, q.len = m.nq → Sized env m (update env m q) ∧ DataFits m (update env m q)) {p k : Nat}
    {fm : Option (List Int)} {g : Nat → K} {μ : K} {lo hi : Arr K} {e : Nat → K} (flo : FitsVec lo (selectedJoints m fm).length)
    (fhi : FitsVec hi (selectedJoints m fm).length) (hsel : selectedJoints m fm ≠ []) {x : Arr K}
    (hx : x.shape = [(selectedJoints m fm).length]) {S : Robot K} (hq : S.q.len = m.nq) (hcw : CleanWorld S.world)
    (h : At m p k fm g μ lo hi e x S.world) :
    TrackedBy m p fm x g μ S.world ∧ SameGains m p fm x g lo hi e S.world ∧
      GuardedBy m p fm lo hi (fun r => g (r % (selectedJoints m fm).length)) S.world ∧ SizesFit env m p S ∧ Works env osqp m p S := by
  obtain ⟨⟨P, hP, hPm, hv, hb, ⟨name, hk⟩, ⟨nb, hnb, hne⟩, hall⟩, ck, ak, qk, hck, hkk⟩ := h
  obtain ⟨ops, ew, hcl⟩ := hcw
  have hclean := cleanComp_program ops World.init (by intro c hc; cases hc) hcl
  rw [← ew] at hclean
  have hlen : 0 < (selectedJoints m fm).length := List.length_pos_iff.2 hsel
  have hkind : ∀ ni ∈ P.comps, ∀ c, S.world.comps[ni.2]? = some c → Complete c.attrs ∧ c.attrs.model = some m ∧ c.attrs.gainFn = id ∧
      ((ni.2 = k ∧ ∃ a qi, c.attrs.kind = .jointTask a fm (some x) qi ∧ a.lmDamping = 0 ∧ CostAtLeast a.cost (selectedJoints m fm).length μ ∧
          ∀ r < (selectedJoints m fm).length, gainAt c.attrs.gain r = g r) ∨
        (ni.2 ≠ k ∧ ∃ qi, c.attrs.kind = .jointBarrier 0 fm (some lo) (some hi) qi ∧ ∀ r < (selectedJoints m fm).length,
          gainAt c.attrs.gain r = g r ∧ gainAt c.attrs.gain ((selectedJoints m fm).length + r) = g r)) := by
    intro ni hni c hc
    obtain ⟨c', hc', h1, h2, h3, h4⟩ := hall ni hni
    rw [hc] at hc'; cases hc'
    refine ⟨h1, h2, h3, ?_⟩
    rcases h4 with ⟨e1, a, tq, qi, e2, h5, h6, h7⟩ | h4
    · left
      rw [e1, hck] at hc
      cases hc
      rw [hkk] at e2
      cases e2
      exact ⟨e1, ak, qk, hkk, h5, h6, h7⟩
    · exact .inr h4
  have hcomplete : ∃ J, (step S.world (.compile p)).1 = .ok (.compiled J) := by
    rw [ew] at hP hall ⊢
    refine (C102_problem hcl p).2 ⟨P, hP, fun ni hni => ?_⟩
    obtain ⟨c, hc, h, -⟩ := hall ni hni
    exact ⟨c, hc, h⟩
  have hcompiled : ∀ J, (step S.world (.compile p)).1 = .ok (.compiled J) → J.model = m ∧ ∀ nj ∈ J.comps, nj.2.model = m ∧
      ((∃ w lm, JointTaskCompiled fm nj.2 w lm x) ∨ JointBarrierCompiled fm nj.2 0 lo hi) := by
    intro J hJ
    obtain ⟨P', hP', hJm, -, -, hcs⟩ := compile_comps ⟨ops, ew⟩ hJ
    rw [hP] at hP'; cases hP'
    refine ⟨by rw [hJm, hPm], fun nj hnj => ?_⟩
    obtain ⟨ni, hni, -, c, hc, hC⟩ := terms_entry' hcs hnj
    obtain ⟨-, h2, -, h4⟩ := hkind ni hni c hc
    have hjm : nj.2.model = m := by
      have := hC.model
      rw [h2] at this
      exact (Option.some.inj this).symm
    refine ⟨hjm, ?_⟩
    have hwj : JointsWF nj.2.model := by rw [hjm]; exact hm.joints
    rcases h4 with ⟨-, a, qi, e2, -⟩ | ⟨-, qi, e2, -⟩
    · exact .inl (jointTask_of_clean (hclean c (List.mem_of_getElem? hc)) hC hwj e2)
    · exact .inr (jointBarrier_of_clean (hclean c (List.mem_of_getElem? hc)) hC hwj e2)
  have hsizes : SizesFit env m p S := by
    intro J hJ
    obtain ⟨hJm, hcs⟩ := hcompiled J hJ
    rw [ew] at hJ
    refine C68_problem_partial hcl hJ (fun nj h => by rw [(hcs nj h).1, hJm]) ?_ (by rw [hJm]; exact hm.joints) (by rw [hJm]; exact (hz _ hq).1)
    intro nj hnj
    obtain ⟨hjm, hc⟩ := hcs nj hnj
    unfold Settled
    rcases hc with ⟨w, lm, hc⟩ | hc
    · rw [hc.kind]; trivial
    · rw [hc.kind, hjm]
      simp only [List.length_map]
      exact ⟨flo, fhi⟩
  refine ⟨?_, ⟨P, hP, hPm, hv, hb, fun ni hni c hc => ?_⟩, ?_, hsizes, ?_⟩
  · obtain ⟨-, h2, h3, h4⟩ := hkind _ hk ck hck
    rcases h4 with ⟨-, a, qi, e2, -, e3, e4⟩ | ⟨h, -⟩
    · exact ⟨P, name, k, ck, a, qi, hP, hPm, hk, hck, h2, e2, e3, h3, e4⟩
    · exact absurd rfl h
  · obtain ⟨-, h2, h3, h4⟩ := hkind ni hni c hc
    refine ⟨h2, h3, ?_⟩
    rcases h4 with ⟨-, a, qi, e2, e3, -, e4⟩ | ⟨-, qi, e2, e3⟩
    · exact .inl ⟨a, qi, e2, e3, e4⟩
    · exact .inr ⟨qi, e2, e3⟩
  · obtain ⟨c, hc, -⟩ := hall nb hnb
    obtain ⟨-, h2, h3, h4⟩ := hkind nb hnb c hc
    rcases h4 with ⟨h, -⟩ | ⟨-, qi, e2, e3⟩
    · exact absurd h hne
    · refine ⟨P, nb.1, nb.2, c, 0, qi, hP, hPm, hnb, hc, h2, e2, h3, fun r hr => ?_⟩
      dsimp only
      by_cases hlt : r < (selectedJoints m fm).length
      · rw [Nat.mod_eq_of_lt hlt]
        exact (e3 r hlt).1
      · obtain ⟨s, rfl⟩ := Nat.exists_eq_add_of_le (not_lt.1 hlt)
        have hs : s < (selectedJoints m fm).length := by omega
        rw [Nat.add_mod_left, Nat.mod_eq_of_lt hs]
        exact (e3 s hs).2
  · obtain ⟨J, hJ⟩ := hcomplete
    obtain ⟨hJm, hcs⟩ := hcompiled J hJ
    have hJ' := hJ
    rw [ew] at hJ'
    subst hJm
    have hr := (C87_solve_partial hcl hJ' (fun nj h => (hcs nj h).1) ?_ hm henv hz osqp S.q.toArr S.data).2 ?_ ?_
    · obtain ⟨qp, -, hr⟩ := hr
      exact ⟨J, _, hJ, hr⟩
    · intro nj hnj
      obtain ⟨hjm, hc⟩ := hcs nj hnj
      unfold Usable
      rcases hc with ⟨w, lm, hc⟩ | hc
      · rw [hc.kind]
        show x.shape.length = 1
        rw [hx]; rfl
      · rw [hc.kind, hjm]
        simp only [List.length_map]
        exact ⟨flo, fhi⟩
    · show [S.q.len] = _
      rw [hq]
    · intro nj hnj hbar G hG h0
      obtain ⟨hjm, hc⟩ := hcs nj hnj
      rcases hc with ⟨w, lm, hc⟩ | hc
      · unfold CompiledBarrier at hbar
        rw [hc.kind] at hbar
        exact hbar
      · have hlen' := hlen
        rw [← hjm] at hm flo fhi hkeep hG hlen'
        obtain ⟨_, J', -, x2, -, x4, x5, x6⟩ := jointBarrier_eval hc hm.joints flo fhi env
          (update env nj.2.model ⟨nj.2.model.nq, fun i => S.q.toArr.get [i]⟩) (hkeep _ rfl).1
        rw [hG] at x2; cases x2
        obtain ⟨-, -, y, -⟩ := x6 0 hlen'
        have hd := (integrate_scalar env hm.joints S.q S.q 0).2 _ (mem_selectedJoints (List.getElem_mem hlen'))
        have := h0 0 (by rw [x4]; omega) (dofOf nj.2.model (selectedJoints nj.2.model fm)[0]) (by rw [x5]; exact hd.2.1)
        rw [y, if_pos rfl] at this
        exact one_ne_zero this

private theorem sends_clean {p : Nat} (k : Nat) : ∀ (xs : List (Arr K)) (w : World K), CleanProgram w (callsOf p (sendTo k xs)) := by
  intro xs
  induction xs with
  | nil => intro w; trivial
  | cons x xs ih => intro w; exact ⟨trivial, trivial, ih _⟩

/-- At every control step of the loop. -/
private theorem sends_ticks {I : Type} {env : Env K} {osqp : QPSolver K I} {m : MjModel K} (hw : JointsWF m) {p k : Nat} {dt : K}
    {fm : Option (List Int)} {g : Nat → K} {μ : K} {lo hi : Arr K} {e : Nat → K} {G : Arr K → Robot K → Prop}
    (hG : ∀ x S, x.shape = [(selectedJoints m fm).length] → (∀ i < (selectedJoints m fm).length, entry lo i ≤ entry x i ∧ entry x i ≤ entry hi i) →
      Sane m S → CleanWorld S.world → At m p k fm g μ lo hi e x S.world → G x S) :
    ∀ (xs : List (Arr K)) (S : Robot K), (∀ x ∈ xs, x.shape = [(selectedJoints m fm).length] ∧
        ∀ i < (selectedJoints m fm).length, entry lo i ≤ entry x i ∧ entry x i ≤ entry hi i) →
      Sane m S → CleanWorld S.world → TaskWithLimits m p k fm g μ lo hi e S.world → TicksWith env osqp m p dt G S (sendTo k xs) xs := by
  intro xs
  induction xs with
  | nil => intro S _ _ _ _; rfl
  | cons x xs ih =>
    intro S hx hS hcw hT
    obtain ⟨x1, x2⟩ := hx x (by simp)
    obtain ⟨hS1, -⟩ := sane_step env osqp hw p dt hS (a := .call (.comp k (.updateTarget x))) (acts := []) ⟨trivial, trivial⟩
    obtain ⟨hS2, -⟩ := sane_step env osqp hw p dt hS1 (a := .tick) (acts := []) ⟨trivial, trivial⟩
    have hA := send_step (p := p) hw x1 hS.clean hT
    obtain ⟨ops, ew, hcl⟩ := hcw
    have c1 : CleanWorld (controlStep env osqp m p dt S (.call (.comp k (.updateTarget x)))).world :=
      ⟨ops ++ [.comp k (.updateTarget x)], by rw [run_append, ← ew]; rfl, clean_concat _ _ _ hcl ⟨trivial, trivial⟩⟩
    have e2 := tick_world env osqp m p dt (controlStep env osqp m p dt S (.call (.comp k (.updateTarget x))))
    have c2 : CleanWorld (controlStep env osqp m p dt (controlStep env osqp m p dt S (.call (.comp k (.updateTarget x)))) .tick).world := by
      obtain ⟨ops, ew, hcl⟩ := c1
      refine ⟨ops ++ [.compile p], ?_, clean_concat _ _ _ hcl ⟨trivial, trivial⟩⟩
      rw [e2, run_append, ← ew]; rfl
    exact ⟨hG x _ x1 x2 hS1 c1 hA, ih _ (fun y hy => hx y (by simp [hy])) hS2 c2 (by rw [e2]; exact compile_keeps hS1.reach hA.1)⟩

private theorem ticksWith_calls {I : Type} (env : Env K) (osqp : QPSolver K I) (m : MjModel K) (p : Nat) (dt : K) (G : Arr K → Robot K → Prop)
    (ops : List (Op K)) (S : Robot K) (acts : List (Act K)) (xs : List (Arr K)) (h : TicksWith env osqp m p dt G ⟨run S.world ops, S.q, S.data⟩ acts xs) :
    TicksWith env osqp m p dt G S (ops.map .call ++ acts) xs := by
  induction ops generalizing S with
  | nil => exact h
  | cons op ops ih => exact ih _ h

private theorem ticks_both {I : Type} {env : Env K} {osqp : QPSolver K I} {m : MjModel K} {p : Nat} {dt : K} {G : Arr K → Robot K → Prop}
    {A B : Robot K → Prop} (h : ∀ x S, G x S → A S → B S) : ∀ (acts : List (Act K)) (S : Robot K) (xs : List (Arr K)),
    TicksWith env osqp m p dt G S acts xs → AtEveryTick env osqp m p dt A S acts → AtEveryTick env osqp m p dt B S acts
  | [], _, _, _, _ => trivial
  | .call _ :: acts, _, xs, h1, h2 => ⟨(fun h => by cases h), ticks_both h acts _ xs h1 h2.2⟩
  | .tick :: _, _, [], h1, _ => h1.elim
  | .tick :: acts, _, x :: xs, h1, h2 => ⟨fun _ => h x _ h1.1 (h2.1 rfl), ticks_both h acts _ xs h1.2 h2.2⟩

private theorem ticksWith_mono {I : Type} {env : Env K} {osqp : QPSolver K I} {m : MjModel K} {p : Nat} {dt : K} {G H : Arr K → Robot K → Prop}
    (h : ∀ x S, G x S → H x S) : ∀ (acts : List (Act K)) (S : Robot K) (xs : List (Arr K)),
    TicksWith env osqp m p dt G S acts xs → TicksWith env osqp m p dt H S acts xs
  | [], _, _, h1 => h1
  | .call _ :: acts, _, xs, h1 => ticksWith_mono h acts _ xs h1
  | .tick :: _, _, [], h1 => h1.elim
  | .tick :: acts, _, x :: xs, h1 => ⟨h x _ h1.1, ticksWith_mono h acts _ xs h1.2⟩

private theorem every_after {I : Type} {env : Env K} {osqp : QPSolver K I} {m : MjModel K} {p : Nat} {dt : K} {A : Robot K → Prop} :
    ∀ (ops : List (Op K)) (S : Robot K) (acts : List (Act K)), AtEveryTick env osqp m p dt A S (ops.map .call ++ acts) →
      AtEveryTick env osqp m p dt A ⟨run S.world ops, S.q, S.data⟩ acts
  | [], _, _, h => h
  | _ :: ops, _, acts, h => every_after ops _ acts h.2

/-- **C101** (the loop): set a joint task and joint limits with the same gains up once, then send the task from target to target, with a control step
after each.  No control step raises, the joints follow the targets, and they exceed their limits by no more than the tolerance of the solver adds. -/
theorem C101_targets {I : Type} {env : Env K} {osqp : QPSolver K I} {δ ε : K} (ho : OptimalUpTo δ osqp) (hf : FindsFeasibleUpTo ε osqp)
    {m : MjModel K} (hm : ModelFits m) (henv : EnvFits env m) (hkeep : KeepsScalars env m)
    (hz : ∀ q : Vec K, q.len = m.nq → Sized env m (update env m q) ∧ DataFits m (update env m q)) {p k : Nat} {dt : K} (hdt : 0 < dt)
    {fm : Option (List Int)} (hsel : selectedJoints m fm ≠ []) {g : Nat → K} {lo hi : Arr K} (flo : FitsVec lo (selectedJoints m fm).length)
    (fhi : FitsVec hi (selectedJoints m fm).length) (hg : ∀ i < (selectedJoints m fm).length, 0 < g i ∧ g i * dt ≤ 1)
    {μ b : K} (hμ : 0 < μ) (hb : 0 ≤ b) (hδ : 2 * δ ≤ (μ * b) ^ 2) {d e : Nat → K} (hd : ∀ i < (selectedJoints m fm).length, 0 ≤ d i)
    {setup : List (Op K)} (hclean : CleanProgram World.init setup) (hT : TaskWithLimits m p k fm g μ lo hi e (run World.init setup))
    {x0 : Arr K} {xs : List (Arr K)} (hxs : ∀ x ∈ xs, x.shape = [(selectedJoints m fm).length] ∧
      ∀ i < (selectedJoints m fm).length, entry lo i ≤ entry x i ∧ entry x i ≤ entry hi i)
    (hnear : List.IsChain (Near (selectedJoints m fm).length d) (x0 :: xs)) {q0 : Vec K} (hq0 : q0.len = m.nq) (s0 : LocalIKData K)
    (he : ∀ i (h : i < (selectedJoints m fm).length),
      |q0.get (qposOf m (selectedJoints m fm)[i]) - entry x0 i| + d i ≤ e i ∧ d i / (g i * dt) + b / g i ≤ e i)
    (hstart : WithinUpTo m fm lo hi (fun i => ε / g i) (fun i => ε / g i) q0) :
    AtEveryTick env osqp m p dt (Works env osqp m p) ⟨run World.init setup, q0, s0⟩ (sendTo k xs) ∧
    (∀ i (h : i < (selectedJoints m fm).length),
      |(Spec.control env osqp m p dt ⟨run World.init setup, q0, s0⟩ (sendTo k xs)).q.get (qposOf m (selectedJoints m fm)[i]) -
          entry (xs.getLastD x0) i| ≤
        (1 - g i * dt) ^ xs.length * |q0.get (qposOf m (selectedJoints m fm)[i]) - entry x0 i| + (1 - g i * dt) * (d i / (g i * dt)) + b / g i) ∧
    WithinUpTo m fm lo hi (fun i => ε / g i) (fun i => ε / g i)
      (Spec.control env osqp m p dt ⟨run World.init setup, q0, s0⟩ (sendTo k xs)).q := by
  have hw := hm.joints
  have hnd : ∀ x ∈ xs, x.ndim ≤ 1 := fun x hx => by unfold Arr.ndim; rw [(hxs x hx).1]; simp
  have hsane : Sane m ⟨run World.init setup, q0, s0⟩ := ⟨⟨setup, rfl⟩, cleanComp_program setup World.init (by intro c hc; cases hc) hclean, hq0⟩
  have hcalls : CleanProgram World.init (callsOf p (setup.map Act.call ++ sendTo k xs)) := by
    have e : callsOf p (setup.map Act.call ++ sendTo k xs) = setup ++ callsOf p (sendTo k xs) := by
      simp [callsOf, Function.comp_def]
    rw [e]
    exact clean_concat _ _ _ hclean (sends_clean k xs _)
  have hall := ticksWith_calls env osqp m p dt _ setup ⟨World.init, q0, s0⟩ _ _ (sends_ticks (env := env) (osqp := osqp) (dt := dt) hw (p := p) (k := k)
    (fm := fm) (g := g) (μ := μ) (lo := lo) (hi := hi) (e := e)
    (G := fun x S => (TrackedBy m p fm x g μ S.world ∧ (OffTarget m fm x e S.q → Compatible env m p S ∧ Works env osqp m p S)) ∧
      GuardedBy m p fm lo hi (fun r => g (r % (selectedJoints m fm).length)) S.world)
    (fun x S x1 x2 hS hcw hA => by
      obtain ⟨h1, h2, h3, h4, h5⟩ := at_tick (osqp := osqp) hm henv hkeep hz flo fhi hsel x1 hS.len hcw hA
      exact ⟨⟨h1, fun hoff => ⟨compatible_same_gain hw hkeep (by unfold Arr.ndim; rw [x1]; simp) flo fhi (fun i h => (hg i h).1.le) x2 hS h4 h2 hoff,
        h5⟩⟩, h3⟩)
    xs ⟨run World.init setup, q0, s0⟩ hxs hsane ⟨setup, rfl, hclean⟩ hT)
  have hticks := ticksWith_mono (fun x S h => h.1) _ _ _ hall
  have hkey := (follows_key ho hw hkeep hdt hg hμ hb hδ (fun i h => (he i h).2) _ _ x0 xs
    (fun i => |q0.get (qposOf m ((selectedJoints m fm).getD i 0)) - entry x0 i|) (sane_start hq0 s0) hcalls hnd hnear
    (fun i hi => by
      have := (he i hi).1
      simpa [hi] using this)
    (fun i hi => by simp [hi]) hticks).2
  rw [← control_calls env osqp m p dt setup ⟨World.init, q0, s0⟩]
  refine ⟨every_after setup ⟨World.init, q0, s0⟩ _ (ticks_both (fun x S _ h => h.2) _ _ _ hall hkey),
    C101_follows ho hw hkeep hdt hg hμ hb hδ hd hnd hnear hcalls hq0 s0 he hticks, ?_⟩
  have hmod : ∀ i < (selectedJoints m fm).length, i % (selectedJoints m fm).length = i ∧
      ((selectedJoints m fm).length + i) % (selectedJoints m fm).length = i := by
    intro i hi
    exact ⟨Nat.mod_eq_of_lt hi, by rw [Nat.add_mod_left, Nat.mod_eq_of_lt hi]⟩
  have hw' : ∀ q, WithinUpTo m fm lo hi (fun i => ε / g (i % (selectedJoints m fm).length))
      (fun i => ε / g (((selectedJoints m fm).length + i) % (selectedJoints m fm).length)) q ↔
      WithinUpTo m fm lo hi (fun i => ε / g i) (fun i => ε / g i) q := by
    intro q
    unfold WithinUpTo
    refine forall₂_congr fun i hi => ?_
    dsimp only
    rw [(hmod i hi).1, (hmod i hi).2]
  rw [← hw']
  refine C96_joint_limits hf hw hkeep hdt.le flo fhi (g := fun r => g (r % (selectedJoints m fm).length)) (fun r hr => hg _ (Nat.mod_lt _ (by omega)))
    hcalls hq0 s0 (ticks_both (fun x S h1 h2 => ⟨h1.2, fun _ J hJ => ?_⟩) _ _ _ hall hkey) ((hw' q0).2 hstart)
  obtain ⟨k1, k2⟩ := h2.1 J hJ
  refine ⟨k1, fun P ts hP hts => ?_⟩
  obtain ⟨-, v, hv, -⟩ := k2 P ts hP hts
  exact ⟨v, hv⟩

/-- The program of `ConvEx` as it is set up. -/
private theorem follow_setup : TaskWithLimits Ex.model 0 0 none (fun _ => 3) 2 (Ex.scalar (-1)) (Ex.scalar 1) (fun _ => 2) (run World.init ConvEx.ops) := by
  refine ⟨_, rfl, rfl, fun k _ => ⟨?_, ?_⟩, fun i _ => ⟨?_, ?_⟩, ⟨"t", .head _⟩, ⟨("b", 1), .tail _ (.head _), by decide⟩, ?_⟩
  · show - (1 * 6 : ℚ) ≤ 0
    norm_num
  · show (0 : ℚ) ≤ - (1 * (-6))
    norm_num
  · show - (1 * 6 : ℚ) ≤ - (3 * 2)
    norm_num
  · show (3 * 2 : ℚ) ≤ - (1 * (-6))
    norm_num
  · intro ni hni
    fin_cases hni
    · exact ⟨_, rfl, ⟨(by intro h; cases h), by decide, .inl rfl, .inl rfl⟩, rfl, rfl, .inl ⟨rfl, _, _, _, rfl, rfl, ApproxEx.atLeast, fun _ _ => rfl⟩⟩
    · exact ⟨_, rfl, ⟨(by intro h; cases h), by decide, .inl rfl, trivial⟩, rfl, rfl, .inr ⟨by decide, _, rfl, fun _ _ => ⟨rfl, rfl⟩⟩⟩

/-- Targets between -1 and 1 that move by at most 1/20 per control step: hinge and slide are never more than 2/15 behind, apart from what is left of the
error at the start, and they stay within 1/100 of their limits. -/
example {osqp : QPSolver ℚ Unit} (ho : OptimalUpTo (1 / 200) osqp) (hf : FindsFeasibleUpTo (3 / 100) osqp) (q0 : Vec ℚ) (hq : q0.len = 13)
    (s0 : LocalIKData ℚ) (h7 : -1 ≤ q0.get 7 ∧ q0.get 7 ≤ 1) (h12 : -1 ≤ q0.get 12 ∧ q0.get 12 ≤ 1) (xs : List (Arr ℚ))
    (hxs : ∀ x ∈ xs, x.shape = [2] ∧ ∀ i < 2, -1 ≤ x.get [i] ∧ x.get [i] ≤ 1)
    (hnear : List.IsChain (fun x y => ∀ i < 2, |y.get [i] - x.get [i]| ≤ 1 / 20) (ConvEx.tq :: xs)) :
    ∀ q, (Spec.control Ex.env osqp Ex.model 0 (1 / 10) ⟨run World.init ConvEx.ops, q0, s0⟩ (sendTo 0 xs)).q = q →
      |q.get 7 - (xs.getLastD ConvEx.tq).get [0]| ≤ (7 / 10) ^ xs.length * |q0.get 7 - 1 / 2| + 2 / 15 ∧ -101 / 100 ≤ q.get 12 ∧ q.get 12 ≤ 101 / 100 := by
  have split : ∀ i, i < (selectedJoints Ex.model none).length → i = 0 ∨ i = 1 := by
    intro i hi
    have : i < 2 := hi
    omega
  have hent : ∀ (x : Arr ℚ) i, x.shape = [2] → entry x i = x.get [i] := by
    intro x i h
    unfold entry
    rw [h]
    rfl
  have hshape : ∀ x ∈ ConvEx.tq :: xs, x.shape = [2] := by
    intro x hx
    rcases List.mem_cons.1 hx with rfl | hx
    · rfl
    · exact (hxs x hx).1
  have hchain : List.IsChain (Near (selectedJoints Ex.model none).length (fun _ => 1 / 20)) (ConvEx.tq :: xs) := by
    refine hnear.imp_of_mem_imp fun x y hx hy h i hi => ?_
    rw [hent x i (hshape x hx), hent y i (hshape y hy)]
    exact h i hi
  have hlast : (xs.getLastD ConvEx.tq).shape = [2] := by
    cases xs with
    | nil => rfl
    | cons x xs =>
      rw [List.getLastD_cons, ← List.getLast_eq_getLastD (by simp)]
      exact hshape _ (.tail _ (List.getLast_mem (by simp)))
  obtain ⟨-, h1, h2⟩ := C101_targets ho hf SolveEx.model_fits SolveEx.env_fits (Ex.env_keeps _) (fun q hq => ⟨SizeEx.sized q hq, SolveEx.data_fits q⟩)
    (p := 0) (k := 0) (dt := 1 / 10) (by norm_num) (fm := none) (by decide) (g := fun _ => 3) (lo := Ex.scalar (-1)) (hi := Ex.scalar 1) (.inl rfl)
    (.inl rfl) (fun _ _ => by norm_num) (μ := 2) (b := 1 / 20) (by norm_num) (by norm_num) (by norm_num) (d := fun _ => 1 / 20) (e := fun _ => 2)
    (fun _ _ => by norm_num) (setup := ConvEx.ops)
    (by refine ⟨trivial, trivial, trivial, ?_, ?_, trivial, trivial⟩ <;> · intro e h; cases h)
    follow_setup (x0 := ConvEx.tq) (xs := xs) (fun x hx => ⟨(hxs x hx).1, fun i hi => by
      rw [hent x i (hxs x hx).1]
      exact (hxs x hx).2 i hi⟩) hchain hq s0 (by
      intro i hi
      refine ⟨?_, by norm_num⟩
      rcases split i hi with rfl | rfl
      · show |q0.get 7 - 1 / 2| + 1 / 20 ≤ 2
        have : |q0.get 7 - 1 / 2| ≤ 3 / 2 := abs_le.2 ⟨by linarith [h7.1], by linarith [h7.2]⟩
        linarith
      · show |q0.get 12 - -1 / 2| + 1 / 20 ≤ 2
        have : |q0.get 12 - -1 / 2| ≤ 3 / 2 := abs_le.2 ⟨by linarith [h12.1], by linarith [h12.2]⟩
        linarith) (by
      intro i hi
      rcases split i hi with rfl | rfl
      · show (-1 : ℚ) - 3 / 100 / 3 ≤ q0.get 7 ∧ q0.get 7 ≤ 1 + 3 / 100 / 3
        constructor <;> linarith [h7.1, h7.2]
      · show (-1 : ℚ) - 3 / 100 / 3 ≤ q0.get 12 ∧ q0.get 12 ≤ 1 + 3 / 100 / 3
        constructor <;> linarith [h12.1, h12.2])
  intro q hQ
  rw [hQ] at h1 h2
  have a := h1 0 (by decide)
  have c := h2 1 (by decide)
  rw [hent _ 0 hlast, show (1 - (3 : ℚ) * (1 / 10)) = 7 / 10 by norm_num] at a
  have a' : |q.get 7 - (xs.getLastD ConvEx.tq).get [0]| ≤
      (7 / 10) ^ xs.length * |q0.get 7 - 1 / 2| + 7 / 10 * (1 / 20 / (3 * (1 / 10))) + 1 / 20 / 3 := a
  have c' : (-1 : ℚ) - 3 / 100 / 3 ≤ q.get 12 ∧ q.get 12 ≤ 1 + 3 / 100 / 3 := c
  generalize (xs.getLastD ConvEx.tq).get [0] = z at a' ⊢
  norm_num at a' c'
  refine ⟨by linarith, by linarith [c'.1], by linarith [c'.2]⟩

end Mjinx.Props
