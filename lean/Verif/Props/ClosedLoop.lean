import Verif.Props.JointMask
import Verif.Props.LocalIK
import Verif.Lemmas.Pipeline

/-!
# C29, C30, C34: running the local solver in a loop
-/

namespace Mjinx.Props
open Spec Finset
set_option linter.unusedSectionVars false
variable {K : Type} [Field K] [LinearOrder K] [IsStrictOrderedRing K]

/-- C29: in a control loop whose problems all contain the joint barrier (identity gain function, gain
`g` with `0 ≤ g` and `g * dt ≤ 1` per row), selected joints that start within their limits stay within them
forever, whatever else the problems contain. -/
theorem C29_joint_limits_invariant {a : BarrierArgs K} {lo0 hi0 : Option (Arr K)} {fm : Option (List Int)}
    {c0 c : Comp K} {j : JaxComp K} {lo hi : Arr K}
    (h0 : newJointBarrier a lo0 hi0 fm = .ok c0) (hr : CleanRun c0 c) (hj : (jaxComponent c).1 = .ok j)
    (hw : JointsWF j.model) (hlo : qMin c = some lo) (hhi : qMax c = some hi)
    (flo : FitsVec lo (selectedJoints j.model fm).length)
    (fhi : FitsVec hi (selectedJoints j.model fm).length)
    {env : Env K} (hk : KeepsScalars env j.model) {dt : K} (hdt : 0 ≤ dt) (hid : j.gainFn = id)
    (hgain : ∀ r < 2 * (selectedJoints j.model fm).length,
      0 ≤ j.vectorGain.get [r] ∧ j.vectorGain.get [r] * dt ≤ 1)
    {ps : Nat → JaxProblem K} {qs vs : Nat → Vec K} (hl : FeasibleLoop env j.model ps dt qs vs)
    (hin : ∀ n, ∃ name, (name, j) ∈ (ps n).comps)
    (hstart : ∀ i (h : i < (selectedJoints j.model fm).length),
      entry lo i ≤ (qs 0).get (qposOf j.model (selectedJoints j.model fm)[i]) ∧
      (qs 0).get (qposOf j.model (selectedJoints j.model fm)[i]) ≤ entry hi i) :
    ∀ n i (h : i < (selectedJoints j.model fm).length),
      entry lo i ≤ (qs n).get (qposOf j.model (selectedJoints j.model fm)[i]) ∧
      (qs n).get (qposOf j.model (selectedJoints j.model fm)[i]) ≤ entry hi i := by
  obtain ⟨s, lo', hi', hc, qi, hkind⟩ := jointBarrier_compiled h0 hr hj hw
  have e1 : lo' = lo := by simpa [qMin, hkind] using hlo
  have e2 : hi' = hi := by simpa [qMax, hkind] using hhi
  subst e1 e2
  have hlen : ∀ n, (qs n).len = j.model.nq := by
    intro n
    cases n with
    | zero => exact hl.start
    | succ n => rw [hl.move]; exact (integrate_scalar env hw _ _ _).1
  intro n
  induction n with
  | zero => exact hstart
  | succ n ih =>
    intro i hi
    obtain ⟨name, hmem⟩ := hin n
    obtain ⟨qp, hqp, hf⟩ := hl.feasible n
    obtain ⟨vMin, vMax, cs, p1, p2, p3, p4⟩ := problemQP_ok hqp
    have hsz := hl.sized n vMin vMax cs p1 p2 p3
    rw [hl.model n] at hsz p4
    obtain ⟨sc, hsc, hsc'⟩ := (mapM_mem p3).1 j (List.mem_map.2 ⟨(name, j), hmem, rfl⟩)
    obtain ⟨J, v, g, w1, w2, w3, w4⟩ := solverComp_ok hsc'
    have hsc2 : sc = .barrier ⟨J, v, g, j.gainFn⟩ s (Vec.zero j.model.nv) := by
      unfold wrapComp at w4; rw [hc.kind] at w4; cases w4; rfl
    subst hsc2
    obtain ⟨v', J', x1, x2, x3, x4, x5, x6⟩ := jointBarrier_eval hc hw flo fhi env
      (update env j.model (qs n)) (hk _ (hlen n)).1
    rw [w1] at x2; cases x2
    rw [w2] at x1; cases x1
    rw [toVec_of_shape hc.gain] at w3; cases w3
    have hB := ((C22_barrier_rows hsz p4 (vs n).get).1 hf).2.1 _ _ _ hsc
    dsimp only at hB
    rw [hid] at hB
    obtain ⟨y1, y2, y3, y4⟩ := x6 i hi
    have hs := mem_selectedJoints (List.getElem_mem hi)
    obtain ⟨_, hdof, hint⟩ := (integrate_scalar env hw (qs n) (vs n) dt).2 _ hs
    have b1 := hB i (by rw [x4]; omega)
    have b2 := hB ((selectedJoints j.model fm).length + i) (by rw [x4]; omega)
    rw [rowDot_unit (by rw [x5]; exact hdof) y3] at b1
    have hneg : rowDot J ((selectedJoints j.model fm).length + i) (vs n).get =
        - (vs n).get (dofOf j.model (selectedJoints j.model fm)[i]) := by
      have := rowDot_unit (S := J.neg) (i := (selectedJoints j.model fm).length + i)
        (c := dofOf j.model (selectedJoints j.model fm)[i]) (by simp only [Mat.neg, x5]; exact hdof)
        (by intro k; simp only [Mat.neg, y4 k]; split <;> simp) (vs n).get
      rw [rowDot_neg] at this
      rw [← this]; ring
    rw [hneg] at b2
    simp only [id] at b1 b2
    rw [y1, (hk _ (hlen n)).2 _ hs] at b1
    rw [y2, (hk _ (hlen n)).2 _ hs] at b2
    obtain ⟨g1, g2⟩ := hgain i (by omega)
    obtain ⟨g3, g4⟩ := hgain ((selectedJoints j.model fm).length + i) (by omega)
    obtain ⟨s1, s2⟩ := ih i hi
    rw [hl.move, hint]
    set q := (qs n).get (qposOf j.model (selectedJoints j.model fm)[i])
    set w := (vs n).get (dofOf j.model (selectedJoints j.model fm)[i])
    constructor
    · have t1 := mul_le_mul_of_nonneg_left b1 hdt
      have t2 : (j.vectorGain.get [i] * dt) * (q - entry lo' i) ≤ 1 * (q - entry lo' i) :=
        mul_le_mul_of_nonneg_right g2 (by linarith)
      nlinarith
    · have t1 := mul_le_mul_of_nonneg_left b2 hdt
      have t2 : (j.vectorGain.get [(selectedJoints j.model fm).length + i] * dt) * (entry hi' i - q) ≤
          1 * (entry hi' i - q) := mul_le_mul_of_nonneg_right g4 (by linarith)
      nlinarith

namespace CEx
def q0 : Vec ℚ := ⟨13, fun i => if i = 12 then 1/2 else 0⟩
def vel (q : Vec ℚ) : Vec ℚ := ⟨11, fun k => if k = 10 then -(3/2) * q.get 12 else 0⟩
def qs : Nat → Vec ℚ
  | 0 => q0
  | n + 1 => integrate Ex.env Ex.model (qs n) (vel (qs n)) (1/3)
def prob (j : JaxComp ℚ) : JaxProblem ℚ := ⟨Ex.model, ⟨[11], fun _ => -10⟩, ⟨[11], fun _ => 10⟩, [("b", j)]⟩

theorem qs12 (n : Nat) : (qs n).len = 13 ∧ (qs n).get 12 = (1/2)^(n+1) := by
  induction n with
  | zero => exact ⟨rfl, by show (if (12:Nat)=12 then (1/2:ℚ) else 0) = _; norm_num⟩
  | succ n ih =>
    obtain ⟨h1, h2⟩ := integrate_scalar Ex.env Ex.model_wf (qs n) (vel (qs n)) (1/3)
    refine ⟨h1, ?_⟩
    have := (h2 3 (by decide)).2.2
    have e1 : qposOf Ex.model 3 = 12 := rfl
    have e2 : dofOf Ex.model 3 = 10 := rfl
    rw [e1, e2] at this
    show (integrate Ex.env Ex.model (qs n) (vel (qs n)) (1/3)).get 12 = _
    rw [this]
    show _ + 1/3 * (if (10:Nat)=10 then -(3/2) * (qs n).get 12 else 0) = _
    rw [if_pos rfl, ih.2]; ring

theorem mapM_one {α β : Type} {f : α → Except Err β} {a : α} {b : β} (h : f a = .ok b) :
    [a].mapM f = .ok [b] := by
  simp only [List.mapM_cons, List.mapM_nil, h, bind, Except.bind, pure, Except.pure]

theorem sel : selectedJoints Ex.model (some [0, 1]) = [3] := by decide

theorem feasible {j : JaxComp ℚ} {s : ℚ}
    (hc : JointBarrierCompiled (some [0, 1]) j s (Ex.scalar (-1)) (Ex.scalar 1)) (hm : j.model = Ex.model)
    (hid : j.gainFn = id) (hg : ∀ r < 2, j.vectorGain.get [r] = 3) :
    FeasibleLoop Ex.env j.model (fun _ => prob j) (1/3) qs (fun n => vel (qs n)) := by
  have hsel : selectedJoints j.model (some [0, 1]) = [3] := by rw [hm]; exact sel
  have hl : (selectedJoints j.model (some [0, 1])).length = 1 := by rw [hsel]; rfl
  have h3 : ∀ h, (selectedJoints j.model (some [0, 1]))[0]'h = 3 := by simp [hsel]
  have hwf : JointsWF j.model := hm ▸ Ex.model_wf
  have key : ∀ n, ∃ h J, h.len = 2 ∧ J.rows = 2 ∧ J.cols = 11 ∧
      h.get 0 = (qs n).get 12 + 1 ∧ h.get 1 = 1 - (qs n).get 12 ∧
      (∀ k, J.get 0 k = if k = 10 then 1 else 0) ∧ (∀ k, J.get 1 k = if k = 10 then -1 else 0) ∧
      solverComp Ex.env (update Ex.env j.model (qs n)) j =
        .ok (.barrier ⟨J, h, ⟨2, fun i => j.vectorGain.get [i]⟩, j.gainFn⟩ s (Vec.zero j.model.nv)) := by
    intro n
    obtain ⟨h, J, x1, x2, x3, x4, x5, x6⟩ := jointBarrier_eval hc hwf (.inl rfl) (.inl rfl) Ex.env
      (update Ex.env j.model (qs n)) (by rw [hm]; exact (qs12 n).1)
    obtain ⟨y1, y2, y3, y4⟩ := x6 0 (by rw [hl]; exact Nat.one_pos)
    rw [h3] at y1 y2 y3 y4
    rw [hl] at y2 y4
    rw [hm] at y1 y2 y3 y4
    have hg := hc.gain
    rw [hl] at x3 x4 hg
    refine ⟨h, J, x3, x4, by rw [x5, hm]; rfl, ?_, ?_, y3, ?_, ?_⟩
    · rw [y1]; show (qs n).get 12 - -1 = _; ring
    · exact y2
    · exact y4
    · unfold solverComp evaluate wrapComp
      simp only [bind, Except.bind, x1, x2, toVec_of_shape hg, pure, Except.pure, hc.kind]
  have shp : ∀ n, WellSized Ex.env (prob j) (update Ex.env j.model (qs n)) := by
    intro n vMin vMax cs e1 e2 e3
    obtain ⟨h, J, k1, k2, k3, -, -, -, -, k8⟩ := key n
    have e4 := (mapM_one k8).symm.trans e3
    cases e1; cases e2; cases e4
    refine ⟨rfl, rfl, ?_⟩
    simp only [List.mem_singleton, forall_eq]
    exact ⟨⟨k3, by rw [k1, k2], by rw [k2]⟩, by rw [hm]; rfl⟩
  refine ⟨?_, ?_, ?_, shp, ?_⟩
  · rw [hm]; rfl
  · intro n; rw [hm]; rfl
  · intro n; rw [hm]; rfl
  · intro n
    obtain ⟨h, J, k1, k2, k3, k4, k5, k6, k7, k8⟩ := key n
    have hsz := shp n ⟨11, fun _ => -10⟩ ⟨11, fun _ => 10⟩ _ rfl rfl (mapM_one k8)
    have hb : ¬ ZeroMat J := by
      intro hz
      have := hz 0 (by omega) 10 (by omega)
      rw [k6] at this; simp at this
    obtain ⟨qp, hq, -⟩ := computeQP_form (n := 11) hsz (by
      intro c hc; simp only [List.mem_singleton] at hc; subst hc
      rw [badBarrier_iff]; exact hb)
    refine ⟨qp, ?_, ?_⟩
    · unfold problemQP
      have e1 : (prob j).vMin.toVec = .ok ⟨11, fun _ => -10⟩ := rfl
      have e2 : (prob j).vMax.toVec = .ok ⟨11, fun _ => 10⟩ := rfl
      have e3 : (List.map Prod.snd (prob j).comps) = [j] := rfl
      simp only [bind, Except.bind, e1, e2, e3, mapM_one k8]
      rw [hm] at hq ⊢; exact hq
    · rw [C22_barrier_rows (n := 11) hsz hq]
      have hp : (0:ℚ) ≤ (1/2)^(n+1) := by positivity
      have hp1 : ((1/2)^(n+1) : ℚ) ≤ 1 := pow_le_one₀ (by norm_num) (by norm_num)
      have hq12 := (qs12 n).2
      refine ⟨?_, ?_, ?_⟩
      · intro i _
        show (-(10:ℚ)) ≤ (if i = 10 then _ else _) ∧ (if i = 10 then -(3/2) * (qs n).get 12 else 0) ≤ -(-10:ℚ)
        rw [hq12]
        split <;> constructor <;> linarith
      · intro e s' d he i hi
        simp only [List.mem_singleton, SolverComp.barrier.injEq] at he
        obtain ⟨rfl, -, -⟩ := he
        have hi : i < J.rows := hi
        rw [k2] at hi
        have hv : (vel (qs n)).get 10 = -(3/2) * (qs n).get 12 := by simp [vel]
        dsimp only
        rw [hid, hg i hi]
        simp only [id]
        obtain rfl | rfl : i = 0 ∨ i = 1 := by omega
        · rw [rowDot_unit (c := 10) (by omega) k6, hv, k4, hq12]; linarith
        · have := rowDot_unit (S := J.neg) (i := 1) (c := 10) (by simp only [Mat.neg]; omega)
            (by intro k; simp only [Mat.neg, k7 k]; split <;> simp) (vel (qs n)).get
          rw [rowDot_neg, hv] at this
          rw [k5, hq12]; rw [hq12] at this; linarith
      · intro e a W he
        simp at he

theorem loop : ∃ c0 c j, newJointBarrier Ex.barrierArgs (some (Ex.scalar (-1))) (some (Ex.scalar 1)) (some [0, 1]) = .ok c0 ∧
    CleanRun c0 c ∧ (jaxComponent c).1 = .ok j ∧ JointsWF j.model ∧ j.gainFn = id ∧
    qMin c = some (Ex.scalar (-1)) ∧ qMax c = some (Ex.scalar 1) ∧
    (∀ r < 2, 0 ≤ j.vectorGain.get [r] ∧ j.vectorGain.get [r] * (1/3) ≤ 1) ∧
    FeasibleLoop Ex.env j.model (fun _ => prob j) (1/3) qs (fun n => vel (qs n)) := by
  obtain ⟨c0, c, j, h0, hr, hj, hm, hid, hlo, hhi, hg⟩ : ∃ c0 c j,
      newJointBarrier Ex.barrierArgs (some (Ex.scalar (-1))) (some (Ex.scalar 1)) (some [0, 1]) = .ok c0 ∧
      CleanRun c0 c ∧ (jaxComponent c).1 = .ok j ∧ j.model = Ex.model ∧ j.gainFn = id ∧
      qMin c = some (Ex.scalar (-1)) ∧ qMax c = some (Ex.scalar 1) ∧
      (∀ r, j.vectorGain.get [r] = (1 : ℚ) * 3) := by
    refine ⟨_, _, _, rfl, .step (.updateModel Ex.model) .refl (fun m h => ?_), rfl, rfl, rfl, rfl, rfl, fun r => rfl⟩
    rfl
  have hw : JointsWF j.model := hm ▸ Ex.model_wf
  obtain ⟨s, lo, hi, hc, qi, hkind⟩ := jointBarrier_compiled h0 hr hj hw
  have e1 : lo = Ex.scalar (-1) := by simpa [qMin, hkind] using hlo
  have e2 : hi = Ex.scalar 1 := by simpa [qMax, hkind] using hhi
  subst e1 e2
  refine ⟨c0, c, j, h0, hr, hj, hw, hid, hlo, hhi, fun r _ => ?_, feasible hc hm hid (fun r _ => by rw [hg]; norm_num)⟩
  rw [hg]; norm_num
end CEx

/-- The hypotheses are met by a loop in which the slide joint moves from 1/2 towards 0. -/
example : ∃ c0 c j, newJointBarrier Ex.barrierArgs (some (Ex.scalar (-1))) (some (Ex.scalar 1)) (some [0, 1]) = .ok c0 ∧
    CleanRun c0 c ∧ (jaxComponent c).1 = .ok j ∧ JointsWF j.model ∧ j.gainFn = id ∧
    qMin c = some (Ex.scalar (-1)) ∧ qMax c = some (Ex.scalar 1) ∧
    (∀ r < 2, 0 ≤ j.vectorGain.get [r] ∧ j.vectorGain.get [r] * (1/3) ≤ 1) ∧
    FeasibleLoop Ex.env j.model (fun _ => CEx.prob j) (1/3) CEx.qs (fun n => CEx.vel (CEx.qs n)) ∧
    (CEx.qs 0).get 12 = 1/2 ∧ (CEx.qs 1).get 12 = 1/4 := by
  obtain ⟨c0, c, j, h⟩ := CEx.loop
  refine ⟨c0, c, j, h.1, h.2.1, h.2.2.1, h.2.2.2.1, h.2.2.2.2.1, h.2.2.2.2.2.1, h.2.2.2.2.2.2.1,
    h.2.2.2.2.2.2.2.1, h.2.2.2.2.2.2.2.2, ?_, ?_⟩ <;> rw [(CEx.qs12 _).2] <;> norm_num

/-- C30: if in every step the velocity makes the residual `J v + gain * error` of a joint task (identity gain
function) zero, then after `n` steps each error entry is the initial one times `(1 - gain * dt)^n`. -/
theorem C30_geometric {a : TaskArgs K} {fm : Option (List Int)} {c0 c : Comp K} {j : JaxComp K}
    {tq : Arr K} (h0 : newJointTask a fm = .ok c0) (hr : CleanRun c0 c) (hj : (jaxComponent c).1 = .ok j)
    (hw : JointsWF j.model) (ht : targetQ c = some tq) (hnd : tq.ndim ≤ 1) {env : Env K}
    (hk : KeepsScalars env j.model) {dt : K} (hid : j.gainFn = id) {qs vs : Nat → Vec K}
    (hq : (qs 0).len = j.model.nq) (hmove : ∀ n, qs (n + 1) = integrate env j.model (qs n) (vs n) dt)
    (hzero : ∀ n e, evaluate env j (update env j.model (qs n)) = .ok e →
      ∀ i < e.jac.rows, rowDot e.jac i (vs n).get + gained e i = 0) :
    ∃ e₀, evalValue env j (update env j.model (qs 0)) = .ok e₀ ∧
      e₀.len = (selectedJoints j.model fm).length ∧
      ∀ n, ∃ eₙ, evalValue env j (update env j.model (qs n)) = .ok eₙ ∧ eₙ.len = e₀.len ∧
        ∀ i < e₀.len, eₙ.get i = (1 - j.vectorGain.get [i] * dt) ^ n * e₀.get i := by
  obtain ⟨w, lm, tq', hc, t, qi, hkind, -, -⟩ := jointTask_compiled h0 hr hj hw
  have e1 : tq' = tq := by simpa [targetQ, hkind] using ht
  subst e1
  have hlen : ∀ n, (qs n).len = j.model.nq := by
    intro n
    cases n with
    | zero => exact hq
    | succ n => rw [hmove]; exact (integrate_scalar env hw _ _ _).1
  have hev : ∀ n, ∃ e J, evalValue env j (update env j.model (qs n)) = .ok e ∧
      evalJacobian env j (update env j.model (qs n)) = .ok J ∧
      e.len = (selectedJoints j.model fm).length ∧ J.rows = (selectedJoints j.model fm).length ∧
      evaluate env j (update env j.model (qs n)) = .ok ⟨J, e, ⟨(selectedJoints j.model fm).length, fun i => j.vectorGain.get [i]⟩, j.gainFn⟩ := by
    intro n
    obtain ⟨e, J, x1, x2, x3, x4, -, -⟩ := jointTask_eval hc hw hnd env _ (hk _ (hlen n)).1
    refine ⟨e, J, x1, x2, x3, x4, ?_⟩
    unfold evaluate
    simp only [bind, Except.bind, x1, x2, toVec_of_shape hc.gain, pure, Except.pure]
  obtain ⟨e₀, J₀, x1, -, x3, -⟩ := hev 0
  refine ⟨e₀, x1, x3, ?_⟩
  intro n
  induction n with
  | zero => exact ⟨e₀, x1, rfl, fun i _ => by simp⟩
  | succ n ih =>
    obtain ⟨eₙ, y1, y2, y3⟩ := ih
    obtain ⟨e, J, e', z1, z2, z3, z4, z5, z6⟩ :=
      C14_exact_derivative h0 hr hj hw ht hnd env hk (qs n) (vs n) dt (hlen n)
    rw [y1] at z1; cases z1
    obtain ⟨e2, J2, u1, u2, u3, u4, u5⟩ := hev n
    rw [y1] at u1; cases u1
    rw [z2] at u2; cases u2
    refine ⟨e', by rw [hmove]; exact z3, by rw [z4, y2], ?_⟩
    intro i hi
    rw [← y2] at hi
    have := hzero n _ u5 i (by rw [u4, ← u3]; exact hi)
    simp only [gained, hid, id] at this
    rw [z6 i hi]
    have hr' : rowDot J i (vs n).get = - (j.vectorGain.get [i] * eₙ.get i) := by linarith
    rw [hr', y3 i (by rw [← y2]; exact hi)]
    ring

namespace CEx
def vel2 (q : Vec ℚ) : Vec ℚ := ⟨11, fun k => if k = 10 then -3 * q.get 12 else 0⟩
def qs2 : Nat → Vec ℚ
  | 0 => q0
  | n + 1 => integrate Ex.env Ex.model (qs2 n) (vel2 (qs2 n)) (1/6)
theorem qs2_len (n : Nat) : (qs2 n).len = 13 := by
  cases n with
  | zero => rfl
  | succ n => exact (integrate_scalar Ex.env Ex.model_wf _ _ _).1
end CEx

/-- The hypotheses are met by a loop that moves the slide joint to 0 with gain 3 and time step 1/6. -/
example : ∃ c0 c j tq, newJointTask Ex.taskArgs (some [0, 1]) = .ok c0 ∧ CleanRun c0 c ∧
    (jaxComponent c).1 = .ok j ∧ JointsWF j.model ∧ targetQ c = some tq ∧ tq.ndim ≤ 1 ∧ j.gainFn = id ∧
    (CEx.qs2 0).len = j.model.nq ∧
    (∀ n, CEx.qs2 (n + 1) = integrate Ex.env j.model (CEx.qs2 n) (CEx.vel2 (CEx.qs2 n)) (1/6)) ∧
    ∀ n e, evaluate Ex.env j (update Ex.env j.model (CEx.qs2 n)) = .ok e →
      ∀ i < e.jac.rows, rowDot e.jac i (CEx.vel2 (CEx.qs2 n)).get + gained e i = 0 := by
  obtain ⟨c0, c, j, tq, h0, hr, hj, hm, ht, hnd, hid, hg, htq⟩ : ∃ c0 c j tq,
      newJointTask Ex.taskArgs (some [0, 1]) = .ok c0 ∧
      CleanRun c0 c ∧ (jaxComponent c).1 = .ok j ∧ j.model = Ex.model ∧ targetQ c = some tq ∧
      tq.ndim ≤ 1 ∧ j.gainFn = id ∧ (∀ r, j.vectorGain.get [r] = (1 : ℚ) * 3) ∧ ∀ i, entry tq i = 0 := by
    refine ⟨_, _, _, _, rfl, .step (.updateModel Ex.model) .refl (fun m h => ?_), rfl, rfl, rfl, by decide, rfl,
      fun r => rfl, fun i => rfl⟩
    rfl
  have hw : JointsWF j.model := hm ▸ Ex.model_wf
  refine ⟨c0, c, j, tq, h0, hr, hj, hw, ht, hnd, hid, by rw [hm]; rfl, fun n => by rw [hm]; rfl, ?_⟩
  intro n e he i hi
  obtain ⟨w, lm, tq', hc, t, qi, hkind, -, -⟩ := jointTask_compiled h0 hr hj hw
  have e1 : tq' = tq := by simpa [targetQ, hkind] using ht
  subst e1
  obtain ⟨v, J, x1, x2, x3, x4, x5, x6⟩ := jointTask_eval hc hw hnd Ex.env
    (update Ex.env j.model (CEx.qs2 n)) (by rw [hm]; exact CEx.qs2_len n)
  unfold evaluate at he
  simp only [bind, Except.bind, x1, x2, toVec_of_shape hc.gain, pure, Except.pure] at he
  cases he
  have hsel : selectedJoints j.model (some [0, 1]) = [3] := by rw [hm]; exact CEx.sel
  have hl : (selectedJoints j.model (some [0, 1])).length = 1 := by rw [hsel]; rfl
  have h3 : ∀ h, (selectedJoints j.model (some [0, 1]))[0]'h = 3 := by simp [hsel]
  have hi : i < J.rows := hi
  rw [x4, hl] at hi
  obtain rfl : i = 0 := by omega
  obtain ⟨y1, y2⟩ := x6 0 (by rw [hl]; exact Nat.one_pos)
  rw [h3] at y1 y2
  rw [hm] at y1 y2
  have hd : dofOf Ex.model 3 = 10 := rfl
  have hq : qposOf Ex.model 3 = 12 := rfl
  rw [hd] at y2
  have hv : (CEx.vel2 (CEx.qs2 n)).get 10 = -3 * (CEx.qs2 n).get 12 := by simp [CEx.vel2]
  simp only [gained, hid, id]
  rw [y1, htq, hg]
  rw [rowDot_unit (c := 10) (by rw [x5, hm]; decide) y2, hv, hq]
  show _ + 1 * 3 * ((CEx.qs2 n).get 12 - 0) = _
  ring

/-- C34: a configuration of the wrong shape is refused with `ValueError`; otherwise `solve` is
`solve_from_data` on the data of that configuration: kinematics, then centre-of-mass quantities, then constraint rows. -/
theorem C34_solve {I : Type} (env : Env K) (osqp : QPSolver K I) (m : MjModel K) (q : Arr K)
    (s : LocalIKData K) (p : JaxProblem K) :
    (q.shape ≠ [m.nq] → localSolve env osqp m q s p = .error .valueError) ∧
    (∀ x : Vec K, q.toVec = .ok x → x.len = m.nq →
      localSolve env osqp m q s p =
        localSolveFromData env osqp m p s (env.makeConstraint m (env.comPos m (env.kinematics m x)))) := by
  unfold localSolve solve
  constructor
  · intro h; rw [if_pos h]
  · intro x hx hl
    unfold Arr.toVec at hx
    split at hx
    · rename_i n hs
      cases hx
      subst hl
      rw [if_neg (by rw [hs]; simp)]
      rfl
    · cases hx
example : ∃ q : Arr ℚ, q.shape ≠ [Ex.model.nq] := ⟨⟨[12], fun _ => 0⟩, by decide⟩
example : ∃ (q : Arr ℚ) (x : Vec ℚ), q.toVec = .ok x ∧ x.len = Ex.model.nq := ⟨⟨[13], fun _ => 1⟩, _, rfl, rfl⟩

/-- C34, `init` of the local solver: without an argument the data starts at the zero velocity of the solver's model; a velocity
with one entry per degree of freedom is taken over; anything else is refused with `ValueError`. -/
theorem C34_init (nv : Nat) :
    (∃ d, localInit (K := K) nv none = .ok d ∧ d.vPrev.len = nv ∧ ∀ i < nv, d.vPrev.get i = 0) ∧
    ∀ a : Arr K, (a.shape = [nv] → ∃ d, localInit nv (some a) = .ok d ∧ d.vPrev.len = nv ∧ ∀ i < nv, d.vPrev.get i = a.get [i]) ∧
      (a.shape ≠ [nv] → localInit nv (some a) = .error .valueError) := by
  refine ⟨⟨_, rfl, rfl, fun _ _ => rfl⟩, ?_⟩
  intro a
  constructor
  · intro h
    exact ⟨_, by rw [localInit, if_neg (by simpa using h)], rfl, fun _ _ => rfl⟩
  · intro h
    rw [localInit, if_pos h]
example : ∃ a b : Arr ℚ, a.shape = [Ex.model.nv] ∧ b.shape ≠ [Ex.model.nv] := ⟨⟨[11], fun _ => 2⟩, ⟨[], fun _ => 2⟩, rfl, by decide⟩

end Mjinx.Props
