import Verif.Lemmas.Structure
import Verif.Lemmas.ObjInv
import Verif.Props.Vmap
import Verif.Props.RunningRobot

/-!
# What works once keeps working

Property C118.
-/

namespace Mjinx.Props
open Spec Structure
set_option linter.unusedSectionVars false
variable {K : Type} [Field K] [LinearOrder K]

/-- **C118** (local solver): for two compiled problems of the same structure, from configurations of the same shape, whatever the values and the velocities of
the previous solutions: both solves succeed, or both raise the same exception (unless one of them divides by zero and goes on with infinite numbers). -/
theorem C118_local {I : Type} {env : Env K} {ms : MjModel K} (hs : FixedSizes env ms) {J J' : JaxProblem K}
    (hf : ∀ nj ∈ J.comps, FixedSizes env nj.2.model) (hJ : SameProblem J J') (osqp : QPSolver K I) {q q' : Arr K} (hq : q.shape = q'.shape)
    (s s' : LocalIKData K) : EndAlike (localSolve env osqp ms q s J) (localSolve env osqp ms q' s' J') := by
  unfold localSolve solve
  rw [← hq]
  split_ifs
  · exact .inr (.inl ⟨_, rfl, rfl⟩)
  · have hd := hs.update ⟨ms.nq, fun i => q.get [i]⟩ ⟨ms.nq, fun i => q'.get [i]⟩ rfl
    have h := alike_qp hJ hf hd ms
    have e : ∀ (J : JaxProblem K) (s : LocalIKData K) (d : MjData K), localSolveFromData env osqp ms J s d =
        problemQP env ms J d >>= fun qp => .ok (⟨(osqp qp).1, (osqp qp).2⟩, ⟨(osqp qp).1⟩) := by
      intro J s d
      unfold localSolveFromData problemQP solveFromData
      cases J.vMin.toVec <;> cases J.vMax.toVec <;> try rfl
      simp only [bind, Except.bind]
      cases List.mapM (solverComp env d) (J.comps.map Prod.snd) <;> rfl
    rw [e, e]
    exact (h.bind (s := fun _ _ => True) fun _ _ _ _ _ => .ok trivial).endAlike

/-- **C118** (quadratic program): and the quadratic programs handed to the solver have the same sizes, with the same constraints present. -/
theorem C118_sizes {env : Env K} {ms : MjModel K} (hs : FixedSizes env ms) {J J' : JaxProblem K}
    (hf : ∀ nj ∈ J.comps, FixedSizes env nj.2.model) (hJ : SameProblem J J') {q q' : Vec K} (hq : q.len = q'.len) {Q Q' : QP K}
    (h : problemQP env ms J (update env ms q) = .ok Q) (h' : problemQP env ms J' (update env ms q') = .ok Q') :
    Q.P.rows = Q'.P.rows ∧ Q.P.cols = Q'.P.cols ∧ Q.c.len = Q'.c.len ∧ Q.G.rows = Q'.G.rows ∧ Q.G.cols = Q'.G.cols ∧ Q.h.len = Q'.h.len ∧
    Option.Rel (fun A A' => A.rows = A'.rows ∧ A.cols = A'.cols) Q.A Q'.A ∧ Option.Rel (fun b b' => b.len = b'.len) Q.b Q'.b := by
  have := alike_qp hJ hf (hs.update q q' hq) ms
  rw [h, h'] at this
  rcases this with ⟨a, b, h1, h2, hr⟩ | ⟨e, h1, -⟩ | h1 | h1
  · cases h1; cases h2
    exact ⟨hr.P.1, hr.P.2, hr.c, hr.G.1, hr.G.2, hr.h, hr.A, hr.b⟩
  · cases h1
  · cases h1
  · cases h1

/-- The value of a component of the global solver. -/
private theorem alike_globalStep {env : Env K} {log : K → K} {d d' : MjData K} {j j' : JaxComp K} (hf : FixedSizes env j.model) (h : SameStructure j j')
    (hd : SameSizes d d') (l l' : K) : Alike (fun _ _ => True) (globalStep env log d l j) (globalStep env log d' l' j') := by
  have hv := alike_value hf h hd
  have hg := alike_toVec h.gain
  have hc : j.cls = j'.cls := by
    have := h.fields
    unfold JaxComp.cls
    cases e : j.kind <;> cases e' : j'.kind <;> simp only [e, e', SameFields] at this <;> rfl
  unfold globalStep
  rw [← hc]
  split
  · refine hv.bind fun _ _ _ _ h1 => hg.bind fun _ _ _ _ h2 => ?_
    refine (alike_zip h2 h1).bind fun _ _ _ _ h3 => ?_
    exact (alike_dot h3 h1).bind fun _ _ _ _ _ => .ok trivial
  · refine hv.bind fun v v' _ _ h1 => hg.bind fun g g' _ _ h2 => ?_
    have h3 : VL ((v.map (clip (1 / 10 ^ 9) 1)).map log) ((v'.map (clip (1 / 10 ^ 9) 1)).map log) := h1
    have hb : Alike (fun _ _ => True) (logBarrier log (v.map (clip (1 / 10 ^ 9) 1)) g) (logBarrier log (v'.map (clip (1 / 10 ^ 9) 1)) g') :=
      (alike_zip h2 h3).bind fun _ _ _ _ _ => .ok trivial
    exact hb.bind fun _ _ _ _ _ => .ok trivial
  · exact .error _

/-- **C118** (global solver): the same for the global solver, with any optimiser that returns updates of the size of the gradient. -/
theorem C118_global {S : Type} {env : Env K} {log : K → K} {grad : Grad K} (hgrad : ∀ f q, (grad f q).len = q.len) {opt : Optimizer K S}
    (hopt : ∀ g s, (opt.update g s).1.len = g.len) (dt : K) (ms : MjModel K) {J J' : JaxProblem K} (hs : FixedSizes env J.model)
    (hf : ∀ nj ∈ J.comps, FixedSizes env nj.2.model) (hJ : SameProblem J J') {q q' : Arr K} (hq : q.shape = q'.shape) (s s' : S) :
    EndAlike (globalSolve env log grad opt dt ms q s J) (globalSolve env log grad opt dt ms q' s' J') := by
  unfold globalSolve
  rw [← hq]
  split_ifs
  · exact .inr (.inl ⟨_, rfl, rfl⟩)
  · have hl : Alike (fun _ _ => True) (globalLoss env log J ⟨ms.nq, fun i => q.get [i]⟩) (globalLoss env log J' ⟨ms.nq, fun i => q'.get [i]⟩) := by
      have hd := hs.update ⟨ms.nq, fun i => q.get [i]⟩ ⟨ms.nq, fun i => q'.get [i]⟩ rfl
      unfold globalLoss
      rw [← hJ.model]
      refine Alike.foldlM (s := fun _ _ => True) trivial ?_
      have hc : ∀ {l l' : List (String × JaxComp K)}, List.Forall₂ (fun a b => a.1 = b.1 ∧ SameStructure a.2 b.2) l l' →
          (∀ nj ∈ l, FixedSizes env nj.2.model) → List.Forall₂ (fun a b => ∀ c c', True → Alike (fun _ _ => True)
            (globalStep env log (update env J.model ⟨ms.nq, fun i => q.get [i]⟩) c a)
            (globalStep env log (update env J.model ⟨ms.nq, fun i => q'.get [i]⟩) c' b)) (l.map Prod.snd) (l'.map Prod.snd) := by
        intro l l' h
        induction h with
        | nil => exact fun _ => .nil
        | cons h _ ih => exact fun H => .cons (fun c c' _ => alike_globalStep (H _ (by simp)) h.2 hd c c') (ih fun nj hnj => H nj (by simp [hnj]))
      exact hc hJ.comps hf
    have hg : Alike VL (globalGrad env log grad J ⟨ms.nq, fun i => q.get [i]⟩) (globalGrad env log grad J' ⟨ms.nq, fun i => q'.get [i]⟩) := by
      refine hl.bind fun _ _ _ _ _ => ?_
      rw [hJ.comps.length_eq]
      split_ifs
      · exact .error _
      · exact .ok (by unfold VL; rw [hgrad, hgrad])
    unfold globalStepFrom
    refine Alike.endAlike (r := fun _ _ => True) (hg.bind fun g g' _ _ h1 => ?_)
    have h2 : VL (opt.update g s).1 (opt.update g' s').1 := by
      unfold VL at h1 ⊢
      rw [hopt, hopt, h1]
    refine (alike_zip (a := ⟨ms.nq, fun i => q.get [i]⟩) (a' := ⟨ms.nq, fun i => q'.get [i]⟩) rfl h2).bind fun _ _ _ _ _ => ?_
    split_ifs
    · exact .error _
    · exact .ok trivial

/-! ## Programs -/

/-- Settings of the same structure. -/
private def KindAlike : Kind K → Kind K → Prop
  | .comTask _ x, .comTask _ x' => x.shape = x'.shape
  | .jointTask _ _ x qi, .jointTask _ _ x' qi' => x.map Arr.shape = x'.map Arr.shape ∧ qi = qi'
  | .positionTask _ o x, .positionTask _ o' x' => o = o' ∧ x.shape = x'.shape
  | .frameTask _ o x, .frameTask _ o' x' => o = o' ∧ x.shape = x'.shape
  | .jointBarrier _ _ lo hi qi, .jointBarrier _ _ lo' hi' qi' => lo.map Arr.shape = lo'.map Arr.shape ∧ hi.map Arr.shape = hi'.map Arr.shape ∧ qi = qi'
  | .positionBarrier _ o lo hi _ li, .positionBarrier _ o' lo' hi' _ li' => o = o' ∧ lo.shape = lo'.shape ∧ hi.shape = hi'.shape ∧ li = li'
  | .selfCollision _ _ _ _ n ps, .selfCollision _ _ _ _ n' ps' => n = n' ∧ ps = ps'
  | .modelEquality _ h _, .modelEquality _ h' _ => h = h'
  | _, _ => False

private theorem KindAlike.refl (k : Kind K) : KindAlike k k := by cases k <;> simp [KindAlike]

private theorem KindAlike.trans {k1 k2 k3 : Kind K} (h : KindAlike k1 k2) (h' : KindAlike k2 k3) : KindAlike k1 k3 := by
  cases k1 <;> cases k2 <;> simp only [KindAlike] at h <;> cases k3 <;> simp only [KindAlike] at h' ⊢ <;> simp_all

private structure AttrsAlike (a b : Attrs K) : Prop where
  model : a.model = b.model
  dim : a.dim = b.dim
  mask : (if a.mask.isSome then a.maskIdxs else List.range a.dim.toNat) = if b.mask.isSome then b.maskIdxs else List.range b.dim.toNat
  kind : KindAlike a.kind b.kind

private theorem AttrsAlike.refl (a : Attrs K) : AttrsAlike a a := ⟨rfl, rfl, rfl, .refl _⟩

private theorem AttrsAlike.trans {a b c : Attrs K} (h : AttrsAlike a b) (h' : AttrsAlike b c) : AttrsAlike a c :=
  ⟨h.model.trans h'.model, h.dim.trans h'.dim, h.mask.trans h'.mask, h.kind.trans h'.kind⟩

private theorem shapedLike_congr {x : Arr K} {y y' : Option (Arr K)} (h : y.map Arr.shape = y'.map Arr.shape) (hx : ShapedLike x y) : ShapedLike x y' := by
  obtain ⟨z, rfl, hz⟩ := hx
  rcases y' with _ | z'
  · cases h
  · exact ⟨z', rfl, hz.trans (by simpa using h)⟩

private theorem keeps_congr {k k' : Kind K} (h : KindAlike k k') {op : CompOp K} (hk : KeepsShapes k op) : KeepsShapes k' op := by
  cases op
  case updateTarget x =>
    cases k <;> cases k' <;> simp only [KindAlike] at h <;> simp only [KeepsShapes] at hk ⊢
    · rw [hk, h]
    · exact shapedLike_congr h.1 hk
    · rw [hk, h.2]
  case updateTargetFrame x =>
    cases k <;> cases k' <;> simp only [KindAlike] at h <;> cases x <;> simp only [KeepsShapes] at hk ⊢
    · rw [hk, h.2]
    · rw [hk, h.2]
  case updateQLimit u x =>
    cases k <;> cases k' <;> simp only [KindAlike] at h <;> simp only [KeepsShapes] at hk ⊢
    refine shapedLike_congr ?_ hk
    split_ifs
    · exact h.2.1
    · exact h.1
  case updatePLimit u x =>
    cases k <;> cases k' <;> simp only [KindAlike] at h <;> simp only [KeepsShapes] at hk ⊢
    cases u
    · simpa [h.2.1] using hk
    · simpa [h.2.2.1] using hk
  case setNClosest n => cases k <;> cases k' <;> simp only [KindAlike] at h <;> simp only [KeepsShapes] at hk ⊢; rw [hk, h.1]
  case setHard b => cases k <;> cases k' <;> simp only [KindAlike] at h <;> simp only [KeepsShapes] at hk ⊢; rw [hk, h]
  all_goals cases k <;> cases k' <;> simp only [KindAlike] at h <;> simp only [KeepsShapes] at hk ⊢

private theorem bound_shape {b : Bool} {n : Nat} {x p y : Arr K} (h : newPositionBound b n x = .ok (some p)) (hy : y.lastDim = .ok n)
    (hx : x.shape = y.shape ∨ x.shape = [] ∧ y.shape.length = 1) : y.shape = p.shape := by
  obtain ⟨-, -, h3⟩ := newPositionBound_some h
  have hne : y.shape ≠ [] := by intro e; simp [Arr.lastDim, e] at hy
  rcases h3 with ⟨h1, rfl⟩ | ⟨h1, rfl⟩
  · rcases hx with hx | ⟨-, hl⟩
    · exact absurd (hx.symm.trans h1) hne
    · match hs : y.shape, hl with
      | [k], _ =>
        simp [Arr.lastDim, hs] at hy
        rw [hy]; rfl
  · rcases hx with hx | ⟨hx, -⟩
    · exact hx.symm
    · simp [Arr.lastDim, hx] at h1

private theorem kind_run {op : CompOp K} {c : Comp K} (hF : FInv c.attrs) (h : KeepsShapes c.attrs.kind op) :
    KindAlike c.attrs.kind (op.run c).2.attrs.kind := by
  cases op <;> simp only [CompOp.run]
  case updateModel m => cases hk : c.attrs.kind <;> rw [hk] at h <;> exact h.elim
  case updateGain => unfold updateGain; split <;> exact .refl _
  case updateCost =>
    unfold updateCost; repeat' split
    · exact .refl _
    · exact .refl _
    · cases hk : c.attrs.kind <;> simp [Comp.set, Kind.setTaskA, KindAlike]
  case setLmDamping =>
    unfold setLmDamping; split
    · exact .refl _
    · cases hk : c.attrs.kind <;> simp [Comp.set, Kind.setTaskA, KindAlike]
  case setSafeDisplacementGain =>
    unfold setSafeDisplacementGain; split
    · cases hk : c.attrs.kind <;> simp [Comp.set, Kind.setSdg, KindAlike]
    · exact .refl _
  case updateTarget x =>
    unfold updateTarget
    cases hk : c.attrs.kind <;> rw [hk] at h <;> simp only [KeepsShapes] at h <;> dsimp only
    case comTask => repeat' split
                    all_goals first | (rw [hk]; exact .refl _) | exact h.symm
    case positionTask => repeat' split
                         all_goals first | (rw [hk]; exact .refl _) | exact ⟨rfl, h.symm⟩
    case jointTask =>
      obtain ⟨z, rfl, hz⟩ := h
      repeat' split
      all_goals first | (rw [hk]; exact .refl _) | exact ⟨by simp [hz], rfl⟩
    all_goals rw [hk]; exact .refl _
  case updateTargetFrame x =>
    unfold updateTargetFrame
    cases hk : c.attrs.kind <;> rw [hk] at h <;> dsimp only
    case frameTask =>
      cases x <;> simp only [KeepsShapes] at h <;> dsimp only
      · exact ⟨rfl, h.symm⟩
      · repeat' split
        all_goals first | (rw [hk]; exact .refl _) | exact ⟨rfl, h.symm⟩
    all_goals rw [hk]; exact .refl _
  case updateQLimit u x =>
    unfold updateQLimit
    cases hk : c.attrs.kind <;> rw [hk] at h <;> dsimp only
    case jointBarrier s fm lo hi qi =>
      simp only [KeepsShapes] at h
      obtain ⟨z, hz, hx⟩ := h
      cases u
      · have hz : lo = some z := hz
        subst hz
        repeat' split
        all_goals first | (rw [hk]; exact .refl _) | exact ⟨by simp [hx], rfl, rfl⟩ | skip
        simp_all
      · have hz : hi = some z := hz
        subst hz
        repeat' split
        all_goals first | (rw [hk]; exact .refl _) | exact ⟨rfl, by simp [hx], rfl⟩ | skip
        simp_all
    all_goals rw [hk]; exact .refl _
  case updatePLimit u x =>
    unfold FInv at hF
    unfold updatePLimit
    cases hk : c.attrs.kind <;> rw [hk] at h hF <;> dsimp only
    case positionBarrier s o lo hi lt li =>
      simp only [KeepsShapes] at h
      obtain ⟨-, -, -, hlo, hhi, -⟩ := hF
      split
      · rw [hk]; exact .refl _
      · rw [hk]; exact .refl _
      · rename_i p hp
        cases u
        · exact ⟨rfl, bound_shape hp hlo h, rfl, rfl⟩
        · exact ⟨rfl, rfl, bound_shape hp hhi h, rfl⟩
    all_goals rw [hk]; exact .refl _
  case setActive => unfold setActive; split
                    · rename_i hk; rw [hk]; exact rfl
                    · exact .refl _
  case setHard b => unfold setHard; split
                    · rename_i hk; rw [hk] at h ⊢; exact (show b = _ from h).symm
                    · exact .refl _
  case setDMin => unfold setDMin; split
                  · rename_i hk; rw [hk]; exact ⟨rfl, rfl⟩
                  · exact .refl _
  case setNClosest k => unfold setNClosest; split
                        · rename_i hk; rw [hk] at h ⊢; exact ⟨(show k = _ from h).symm, rfl⟩
                        · exact .refl _
  case setCollisionBodies => unfold setCollisionBodies; split
                             · rename_i hk; rw [hk]; exact ⟨rfl, rfl⟩
                             · exact .refl _
  case readMask => rcases maskFill_ensureMask c with e | ⟨_, _, e⟩ <;> rw [e] <;> exact .refl _
  case compile => rcases maskFill_jaxComponent c with e | ⟨_, _, e⟩ <;> rw [e] <;> exact .refl _

private theorem attrs_run {op : CompOp K} {c : Comp K} (hF : FInv c.attrs) (h : KeepsShapes c.attrs.kind op) :
    AttrsAlike c.attrs (op.run c).2.attrs := by
  have hu : ∀ m, op ≠ .updateModel m := by
    rintro m rfl
    cases hk : c.attrs.kind <;> rw [hk] at h <;> exact h
  refine ⟨(run_model op c hu).symm, (run_dim op c hu).symm, ?_, kind_run hF h⟩
  rcases run_mask op c hu with ⟨h1, h2⟩ | ⟨h1, h2, h3⟩
  · rw [h1, h2, run_dim op c hu]
  · rw [h1, h2, h3]; rfl

private theorem attrs_fill {a b : Attrs K} (h : MaskFill a b) : AttrsAlike a b := by
  rcases h with rfl | ⟨h0, _, rfl⟩
  · exact .refl _
  · refine ⟨rfl, rfl, ?_, .refl _⟩
    simp [h0]

private theorem same_of_attrs {a b : Attrs K} (h : AttrsAlike a b) {j j' : JaxComp K} (hj : CompilesTo a j) (hj' : CompilesTo b j') : SameStructure j j' := by
  obtain ⟨n, hn, hg, -⟩ := hj.gain
  obtain ⟨n', hn', hg', -⟩ := hj'.gain
  have hnn : n = n' := by have := h.dim; omega
  subst hnn
  refine ⟨?_, by rw [hj.dim, hj'.dim, h.dim], by rw [hj.maskIdxs, hj'.maskIdxs, h.mask], by rw [hg, hg'], ?_⟩
  · have := h.model
    rw [hj.model, hj'.model] at this
    exact Option.some.inj this
  · have hk := h.kind
    have h1 := hj.kind
    have h2 := hj'.kind
    have hcost : ∀ {c c' w w' : Arr K}, CostOf a.dim c w → CostOf b.dim c' w' → w.shape = w'.shape := by
      rintro c c' w w' ⟨k, e, hw, -⟩ ⟨k', e', hw', -⟩
      have : k = k' := by have := h.dim; omega
      rw [hw, hw', this]
    have hgain : ∀ {c c' w w' : Arr K}, GainOf a.dim c w → GainOf b.dim c' w' → w.shape = w'.shape := by
      rintro c c' w w' ⟨k, e, hw, -⟩ ⟨k', e', hw', -⟩
      have : k = k' := by have := h.dim; omega
      rw [hw, hw', this]
    have hopt : ∀ {x x' : Option (Arr K)} {y y' : Arr K}, x.map Arr.shape = x'.map Arr.shape → some y = x → some y' = x' → y.shape = y'.shape := by
      rintro _ _ y y' e rfl rfl
      simpa using e
    cases ha : a.kind <;> cases hb : b.kind <;> simp only [ha, hb, KindAlike] at hk <;> cases hj1 : j.kind <;> simp only [ha, hj1, KindOf] at h1 <;>
      cases hj2 : j'.kind <;> simp only [hb, hj2, KindOf] at h2 <;> simp only [SameFields]
    · exact ⟨hcost h1.1 h2.1, by rw [h1.2.2, h2.2.2, hk]⟩
    · exact ⟨hcost h1.1 h2.1, hopt hk.1 h1.2.2.1 h2.2.2.1, by
        have := h1.2.2.2.trans (hk.2.trans h2.2.2.2.symm)
        rw [Option.some.inj this]⟩
    · obtain ⟨c1, -, rfl, rfl, rfl⟩ := h1
      obtain ⟨c2, -, rfl, rfl, rfl⟩ := h2
      exact ⟨hcost c1 c2, by rw [hk.1], by rw [hk.1], hk.2⟩
    · obtain ⟨c1, -, rfl, rfl, rfl⟩ := h1
      obtain ⟨c2, -, rfl, rfl, rfl⟩ := h2
      exact ⟨hcost c1 c2, by rw [hk.1], by rw [hk.1], hk.2⟩
    · exact ⟨hopt hk.1 h1.2.1 h2.2.1, hopt hk.2.1 h1.2.2.1 h2.2.2.1, by
        have := h1.2.2.2.trans (hk.2.2.trans h2.2.2.2.symm)
        rw [Option.some.inj this]⟩
    · obtain ⟨-, rfl, rfl, rfl, rfl, rfl, -⟩ := h1
      obtain ⟨-, rfl, rfl, rfl, rfl, rfl, -⟩ := h2
      exact ⟨by rw [hk.1], by rw [hk.1], hk.2.1, hk.2.2.1, hk.2.2.2⟩
    · exact ⟨hgain h1.2.1 h2.2.1, Option.some.inj (h1.2.2.1.trans (hk.2.trans h2.2.2.1.symm)), by rw [h1.2.2.2, h2.2.2.2, hk.1]⟩
    · exact ⟨by rw [h1.2.1, h2.2.1, hk], hcost h1.2.2 h2.2.2⟩

/-- What the calls keep. -/
private def Lasting (p : Nat) (w0 w : World K) : Prop :=
  ∀ P0, w0.probs[p]? = some P0 → ∃ P, w.probs[p]? = some P ∧ P.model = P0.model ∧ P.comps = P0.comps ∧
    ∀ i c0, IsPartOf p w0 i → w0.comps[i]? = some c0 → ∃ c, w.comps[i]? = some c ∧ AttrsAlike c0.attrs c.attrs

private theorem kept_move {p : Nat} {w0 w w' : World K} (h : Lasting p w0 w)
    (hp : ∀ P, w.probs[p]? = some P → ∃ P', w'.probs[p]? = some P' ∧ P'.model = P.model ∧ P'.comps = P.comps)
    (hc : ∀ i c, IsPartOf p w0 i → w.comps[i]? = some c → ∃ c', w'.comps[i]? = some c' ∧ AttrsAlike c.attrs c'.attrs) : Lasting p w0 w' := by
  intro P0 hP0
  obtain ⟨P, hP, h1, h2, h3⟩ := h P0 hP0
  obtain ⟨P', hP', h4, h5⟩ := hp P hP
  refine ⟨P', hP', h4.trans h1, h5.trans h2, fun i c0 hi hc0 => ?_⟩
  obtain ⟨c, hc1, hc2⟩ := h3 i c0 hi hc0
  obtain ⟨c', hc3, hc4⟩ := hc i c hi hc1
  exact ⟨c', hc3, hc2.trans hc4⟩

private theorem set_kept {w : World K} {p q : Nat} {Q Q' : Prob K} (hQ : w.probs[q]? = some Q) (hm : q = p → Q'.model = Q.model ∧ Q'.comps = Q.comps) :
    ∀ P, w.probs[p]? = some P → ∃ P', (w.probs.set q Q')[p]? = some P' ∧ P'.model = P.model ∧ P'.comps = P.comps := by
  intro P hP
  by_cases h : q = p
  · obtain ⟨h1, h2⟩ := hm h
    subst h
    rw [hQ] at hP; cases hP
    have : q < w.probs.length := (List.getElem?_eq_some_iff.1 hQ).1
    exact ⟨Q', by simp [this], h1, h2⟩
  · exact ⟨P, by rw [List.getElem?_set_ne h]; exact hP, rfl, rfl⟩

private theorem kept_step {p : Nat} {w0 w : World K} (hr : ReachableW w) (hF : ∀ c ∈ w.comps, FInv c.attrs) (hk0 : ∀ i, IsPartOf p w0 i → ∃ c, w0.comps[i]? = some c)
    (hP0 : ∃ P0, w0.probs[p]? = some P0) {op : Op K} (hg : KeepsStructure p w0 op) (h : Lasting p w0 w) : Lasting p w0 (step w op).2 := by
  have same : ∀ P, w.probs[p]? = some P → ∃ P', w.probs[p]? = some P' ∧ P'.model = P.model ∧ P'.comps = P.comps := fun P h => ⟨P, h, rfl, rfl⟩
  have samec : ∀ i c, IsPartOf p w0 i → w.comps[i]? = some c → ∃ c', w.comps[i]? = some c' ∧ AttrsAlike c.attrs c'.attrs := fun i c _ h => ⟨c, h, .refl _⟩
  cases op
  case newComp n =>
    simp only [step]
    split
    · exact h
    · refine kept_move h same (fun i c _ hc => ⟨c, ?_, .refl _⟩)
      have : i < w.comps.length := (List.getElem?_eq_some_iff.1 hc).1
      simp only
      rw [List.getElem?_append_left this]
      exact hc
  case comp i op =>
    simp only [step]
    split
    · exact h
    · rename_i c hc
      refine kept_move h same (fun k c' hk hc' => ?_)
      by_cases hi : i = k
      · subst hi
        rw [hc] at hc'; cases hc'
        obtain ⟨c0, hc0⟩ := hk0 i hk
        obtain ⟨P0, hP0⟩ := hP0
        obtain ⟨-, -, -, -, h3⟩ := h P0 hP0
        obtain ⟨c1, hc1, ha⟩ := h3 i c0 hk hc0
        rw [hc] at hc1; cases hc1
        have : i < w.comps.length := (List.getElem?_eq_some_iff.1 hc).1
        exact ⟨(op.run c).2, by simp [setComp, this], attrs_run (hF c (List.mem_of_getElem? hc)) (keeps_congr ha.kind (hg hk c0 hc0))⟩
      · exact ⟨c', by simp [setComp, hi, hc'], .refl _⟩
  case newProblem m lo hi =>
    simp only [step]
    split
    · exact h
    · refine kept_move h (fun P hP => ⟨P, ?_, rfl, rfl⟩) samec
      have : p < w.probs.length := (List.getElem?_eq_some_iff.1 hP).1
      simp only
      rw [List.getElem?_append_left this]
      exact hP
  case updateVMin q v =>
    simp only [step]
    split
    · exact h
    · rename_i Q hQ
      refine kept_move h (set_kept hQ fun _ => ?_) samec
      unfold Prob.updateVMin; split <;> exact ⟨rfl, rfl⟩
  case updateVMax q v =>
    simp only [step]
    split
    · exact h
    · rename_i Q hQ
      refine kept_move h (set_kept hQ fun _ => ?_) samec
      unfold Prob.updateVMax; split <;> exact ⟨rfl, rfl⟩
  case add q i =>
    simp only [step]
    split
    · rename_i Q c hQ hc
      refine kept_move h (set_kept hQ fun e => absurd e hg.1) (fun k c' hk hc' => ⟨c', ?_, .refl _⟩)
      have : i ≠ k := by rintro rfl; exact hg.2 hk
      simp [setComp, this, hc']
    · exact h
  case remove q name =>
    simp only [step]
    split
    · exact h
    · rename_i Q hQ
      exact kept_move h (set_kept hQ fun e => absurd e hg) samec
  case compile q =>
    simp only [step]
    split
    · exact h
    · rename_i Q hQ
      have hs := (compileComps_spec Q.comps w.comps (fun c hc => cacheOK_world hr c hc)).2
      have e : (compileProb w.comps Q).2 = (compileComps w.comps Q.comps).2 := by
        unfold compileProb
        split <;> (rename_i h; rw [h])
      refine kept_move h same (fun i c _ hc => ?_)
      obtain ⟨c', hc', hf, -⟩ := hs.2 _ c hc
      refine ⟨c', ?_, attrs_fill hf⟩
      show (compileProb w.comps Q).2[i]? = _
      rw [e]
      exact hc'
  case component => simp only [step]; split <;> exact h
  case task => simp only [step]; split <;> exact h
  case barrier => simp only [step]; split <;> exact h

/-- **C118** (calls): calls that keep shapes keep the structure of a compiled problem: between two compilations gains, costs, dampings, margins, velocity limits and the
entries of targets and limits may have changed, but no shape, and nothing jax treats as static but dampings and gain functions. -/
theorem C118_calls {w : World K} (hw : ReachableW w) {p : Nat} {ops : List (Op K)} (hops : ∀ op ∈ ops, KeepsStructure p w op) {J J' : JaxProblem K}
    (hJ : (step w (.compile p)).1 = .ok (.compiled J)) (hJ' : (step (run w ops) (.compile p)).1 = .ok (.compiled J')) : SameProblem J J' := by
  obtain ⟨P, hP, hm, hlo, hhi, hF⟩ := compile_comps hw hJ
  have hpart : ∀ i, IsPartOf p w i → ∃ c, w.comps[i]? = some c := by
    rintro i ⟨P', name, hP', hmem⟩
    rw [hP] at hP'; cases hP'
    obtain ⟨-, -, -, c, hc, -⟩ := terms_entry hF hmem
    exact ⟨c, hc⟩
  have hkept : ∀ (ops : List (Op K)) (v : World K), ReachableW v → (∀ op ∈ ops, KeepsStructure p w op) → Lasting p w v →
      Lasting p w (run v ops) ∧ ReachableW (run v ops) := by
    intro ops
    induction ops with
    | nil => intro v hv _ h; exact ⟨h, hv⟩
    | cons op ops ih =>
      intro v hv ho h
      refine ih _ ?_ (fun o ho' => ho o (by simp [ho'])) (kept_step hv ?_ hpart ⟨P, hP⟩ (ho op (by simp)) h)
      · obtain ⟨l, rfl⟩ := hv
        exact ⟨l ++ [op], by rw [run_append]; rfl⟩
      · intro c hc
        obtain ⟨n, c0, l, hn, rfl⟩ := reachable_of_world hv c hc
        exact runOps_induct (P := fun c => FInv c.attrs) (finv_new hn) finv_run l
  obtain ⟨hk, hw'⟩ := hkept ops w hw hops (fun P0 hP0 => ⟨P0, hP0, rfl, rfl, fun i c0 _ h => ⟨c0, h, .refl _⟩⟩)
  obtain ⟨P', hP', hm', hlo', hhi', hF'⟩ := compile_comps hw' hJ'
  obtain ⟨Q, hQ, hQm, hQc, hall⟩ := hk P hP
  rw [hP'] at hQ; cases hQ
  have l1 := C06_limits_shape hw hP
  have l2 := C06_limits_shape hw' hP'
  refine ⟨by rw [hm, hm', hQm], by rw [hlo, hlo', l1.1, l2.1, hQm], by rw [hhi, hhi', l1.2, l2.2, hQm], ?_⟩
  rw [hQc] at hF'
  have hsub : ∀ ni ∈ P.comps, IsPartOf p w ni.2 := fun ni h => ⟨P, ni.1, hP, h⟩
  clear hJ hJ' hpart hkept hlo hhi hlo' hhi' hm hm' l1 l2
  revert hF hF'
  generalize J.comps = js
  generalize J'.comps = js'
  revert hsub
  generalize P.comps = cs
  intro hsub hF hF'
  induction hF generalizing js' with
  | nil => cases hF'; exact .nil
  | @cons ni nj cs js h1 _ ih =>
    cases hF' with
    | @cons _ nj' _ js'' h2 t2 =>
      refine .cons ⟨h1.1.symm.trans h2.1, ?_⟩ (ih _ (fun ni h => hsub ni (by simp [h])) t2)
      obtain ⟨-, c, hc, hC⟩ := h1
      obtain ⟨-, c', hc', hC'⟩ := h2
      obtain ⟨c2, hc2, ha⟩ := hall _ _ (hsub ni (by simp)) hc
      rw [hc'] at hc2; cases hc2
      exact same_of_attrs ha hC hC'

/-- **C118** (control loops): if solving worked once, then after any calls that keep shapes, from any configuration and any previous solution, it works again as long as the
problem compiles, unless the result is not a number. -/
theorem C118_again {I : Type} {env : Env K} {m : MjModel K} (hs : FixedSizes env m) {w : World K} (hw : ReachableW w) {p : Nat} {ops : List (Op K)}
    (hops : ∀ op ∈ ops, KeepsStructure p w op) {J J' : JaxProblem K} (hJ : (step w (.compile p)).1 = .ok (.compiled J))
    (hm : ∀ nj ∈ J.comps, FixedSizes env nj.2.model) (hJ' : (step (run w ops) (.compile p)).1 = .ok (.compiled J')) (osqp : QPSolver K I) {q q' : Arr K}
    {s s' : LocalIKData K} {r : LocalIKSolution K I × LocalIKData K} (hr : localSolve env osqp m q s J = .ok r) (hq : q'.shape = [m.nq]) :
    (∃ r', localSolve env osqp m q' s' J' = .ok r') ∨ localSolve env osqp m q' s' J' = .error .nonFinite := by
  have hq0 : q.shape = [m.nq] := by
    by_contra hne
    unfold localSolve solve at hr
    rw [if_pos hne] at hr
    cases hr
  have := C118_local hs hm (C118_calls hw hops hJ hJ') osqp (hq0.trans hq.symm) s s'
  rw [hr] at this
  rcases this with ⟨a, b, -, h⟩ | ⟨e, h, -⟩ | h | h
  · exact .inl ⟨b, h⟩
  · cases h
  · cases h
  · exact .inr h

/-! ## Robots -/

private theorem qpos_length (m : MjModel ℝ) (q q' : Nat → ℝ) : (normalizedQpos m q).length = (normalizedQpos m q').length := by
  unfold normalizedQpos
  rw [List.length_flatMap, List.length_flatMap]
  congr 1
  refine List.map_congr_left fun p _ => ?_
  obtain ⟨t, a⟩ := p
  cases t <;> rfl

private theorem cdof_len (G : Geometry) (m : MjModel ℝ) (q q' : Nat → ℝ) (x x' : V3 ℝ) (j : Nat) : (jointCdof G m q x j).length = (jointCdof G m q' x' j).length := by
  unfold jointCdof
  cases m.jntType.getD j .hinge <;> simp only [List.length_append, List.length_map, List.length_cons, List.length_nil]

/-- **C118** (simulated robots): on every robot, with the kinematics of mjx, all sizes are fixed as the theorems above need it; what remains to ask of the libraries is
that constraint rows, contacts and automatic differentiation have fixed sizes. -/
theorem C118_robot {env : Env ℝ} {G : Geometry} {m : MjModel ℝ} (hs : Simulates env G m)
    (hcons : ∀ q q', (update env m q).efcEq = (update env m q').efcEq ∧ (update env m q).efcPos.length = (update env m q').efcPos.length ∧
      (update env m q).efcJ.length = (update env m q').efcJ.length)
    (hcon : ∀ d d' t1 t2, (env.collide m d).known t1 t2 = (env.collide m d').known t1 t2 ∧ (env.collide m d).ncon t1 t2 = (env.collide m d').ncon t1 t2)
    (hjac : ∀ f q, (env.jacrev f q).rows = (f q).len ∧ (env.jacrev f q).cols = q.len) : FixedSizes env m := by
  have hkin : ∀ q q', SameSizes (simKinematics G m q) (simKinematics G m q') := by
    intro q q'
    constructor <;> first | rfl | exact qpos_length m _ _ | simp [simKinematics]
  refine ⟨fun q q' _ => ?_, fun q q' _ => by rw [hs.kinematics, hs.kinematics]; exact hkin q q', hcon, hjac⟩
  obtain ⟨h1, h2, h3⟩ := hcons q q'
  have hk := hkin q q'
  obtain ⟨e, p, J, hup⟩ := update_fields hs q
  obtain ⟨e', p', J', hup'⟩ := update_fields hs q'
  rw [hup, hup'] at h1 h2 h3 ⊢
  refine ⟨hk.qpos, hk.xpos, hk.xmat, hk.geomXpos, hk.geomXmat, hk.siteXpos, hk.siteXmat, hk.xipos, Structure.coms_length m hk.xipos, ?_, h1, h2, h3⟩
  show (List.flatMap _ _).length = (List.flatMap _ _).length
  rw [List.length_flatMap, List.length_flatMap]
  congr 1
  exact List.map_congr_left fun j _ => cdof_len G m _ _ _ _ j

end Mjinx.Props
