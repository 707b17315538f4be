import Verif.Spec.Tempo
import Verif.Lemmas.Edit
import Verif.Props.Nudge
import Verif.Props.Rest
import Verif.Props.CopySet
import Verif.Props.Batch

/-!
# C125: gains are rates
-/

set_option linter.unusedSectionVars false

namespace Mjinx.Props
open Spec Finset
variable {K : Type} [Field K] [LinearOrder K] [IsStrictOrderedRing K]

section
variable {n : Nat} {vMin vMax : Arr K} {ts : List (Term K)} {s : K}

private theorem gainAt_scaled (s : K) (g : Arr K) (r : Nat) : gainAt (scaled s g) r = s * gainAt g r := by
  unfold gainAt scaled
  dsimp only
  split <;> rfl

private theorem rate_quicker (s : K) (t : Term K) (r : Nat) : (t.quicker s).rate r = s * t.rate r := by
  show gainAt (scaled s t.attrs.gain) r * t.attrs.gainFn (t.value.get r) = s * (gainAt t.attrs.gain r * t.attrs.gainFn (t.value.get r))
  rw [gainAt_scaled]; ring

private theorem rowDot_mul (A : Mat K) (r : Nat) (v : Nat → K) (s : K) : rowDot A r (fun i => s * v i) = s * rowDot A r v := by
  unfold rowDot
  rw [mul_sum]
  exact sum_congr rfl fun _ _ => by ring

private theorem misfit_quicker (s : K) (t : Term K) (w : Arr K) (v : Nat → K) (r : Nat) :
    (t.quicker s).misfit w (fun i => s * v i) r = s * t.misfit w v r := by
  unfold Term.misfit
  rw [mul_sum]
  refine sum_congr rfl fun k _ => ?_
  rw [rate_quicker]
  show _ * (rowDot t.jac k _ + _) = _
  rw [rowDot_mul]; ring

private theorem price_quicker {t : Term K} (h : t.Undamped) (s : K) (v : Nat → K) : (t.quicker s).price n (fun i => s * v i) = s ^ 2 * t.price n v := by
  have key : ∀ w : Arr K, sqNorm t.jac.rows ((t.quicker s).misfit w fun i => s * v i) = s ^ 2 * sqNorm t.jac.rows (t.misfit w v) := by
    intro w
    rw [← sqNorm_smul]
    exact sum_congr rfl fun r _ => by rw [misfit_quicker]
  have hk : (t.quicker s).attrs.kind = t.attrs.kind := rfl
  have hJ : (t.quicker s).jac = t.jac := rfl
  unfold Term.price Term.Undamped at *
  rw [hk, hJ]
  cases hc : t.attrs.kind <;> rw [hc] at h <;> dsimp only at h ⊢
  case modelEquality => split <;> first | rw [key]; ring | simp
  all_goals first | rw [h, key]; ring | rw [sqNorm_smul]; ring

private theorem allows_quicker (hs : 0 < s) (t : Term K) (v : Nat → K) : (t.quicker s).Allows (fun i => s * v i) ↔ t.Allows v := by
  have hk : (t.quicker s).attrs.kind = t.attrs.kind := rfl
  have hJ : (t.quicker s).jac = t.jac := rfl
  have h1 : ∀ r, (- (t.quicker s).rate r ≤ rowDot t.jac r fun i => s * v i) ↔ - t.rate r ≤ rowDot t.jac r v := by
    intro r
    rw [rate_quicker, rowDot_mul, ← mul_neg, mul_le_mul_iff_right₀ hs]
  have h2 : ∀ r, (rowDot t.jac r fun i => s * v i) = - (t.quicker s).rate r ↔ rowDot t.jac r v = - t.rate r := by
    intro r
    rw [rate_quicker, rowDot_mul, ← mul_neg, mul_right_inj' hs.ne']
  unfold Term.Allows
  rw [hk, hJ]
  cases t.attrs.kind <;> simp only [h1, h2]

private theorem allowed_quicker (hs : 0 < s) (v : Nat → K) :
    Allowed n (scaled s vMin) (scaled s vMax) (ts.map (Term.quicker s)) (fun i => s * v i) ↔ Allowed n vMin vMax ts v := by
  unfold Allowed
  refine and_congr (forall_congr' fun i => forall_congr' fun _ => ?_) ?_
  · show - (s * vMax.get [i]) ≤ s * v i ∧ s * v i ≤ - (s * vMin.get [i]) ↔ _
    rw [← mul_neg, ← mul_neg, mul_le_mul_iff_right₀ hs, mul_le_mul_iff_right₀ hs]
  · simp only [List.forall_mem_map, allows_quicker hs]

private theorem total_quicker (h : ∀ t ∈ ts, t.Undamped) (v : Nat → K) :
    totalPrice n (ts.map (Term.quicker s)) (fun i => s * v i) = s ^ 2 * totalPrice n ts v := by
  unfold totalPrice
  rw [List.map_map, ← List.sum_map_mul_left]
  refine congrArg List.sum (List.map_congr_left fun t ht => ?_)
  exact price_quicker (h t ht) s v

/-- **C125 (optimal velocities).** Without damping: multiplying all gains and the velocity limits by `s` multiplies the optimal velocities by `s`. -/
theorem C125_best_partial (hs : 0 < s) (h : ∀ t ∈ ts, t.Undamped) (v : Nat → K) :
    Best n (scaled s vMin) (scaled s vMax) (ts.map (Term.quicker s)) (fun i => s * v i) ↔ Best n vMin vMax ts v := by
  unfold Best
  refine and_congr (allowed_quicker hs v) ⟨fun hb u hu => ?_, fun hb u hu => ?_⟩
  · have := hb _ ((allowed_quicker hs u).2 hu)
    rw [total_quicker h, total_quicker h] at this
    exact (mul_le_mul_iff_right₀ (by positivity)).1 this
  · have e : u = fun i => s * (u i / s) := by funext i; field_simp
    rw [e] at hu ⊢
    rw [total_quicker h, total_quicker h]
    exact (mul_le_mul_iff_right₀ (by positivity)).2 (hb _ ((allowed_quicker hs _).1 hu))

/-- Where tasks see every velocity, there is one best velocity. -/
theorem best_unique (hb : ∀ t ∈ ts, t.Braking) (hw : Watched n ts) {v v' : Nat → K} (hv : Best n vMin vMax ts v) (hv' : Best n vMin vMax ts v') :
    ∀ i < n, v' i = v i := by
  have key := C121_same_rates hb hv hv'
  have := hw (fun i => v' i - v i) fun t ht r hr => ?_
  · intro i hi
    have := this i hi
    linarith
  have ew : ∀ w : Arr K, t.weighted w (fun i => v' i - v i) r = ∑ k ∈ range t.jac.rows, weightAt w r k * (rowDot t.jac k v' - rowDot t.jac k v) := by
    intro w
    unfold Term.weighted
    refine sum_congr rfl fun k _ => ?_
    congr 1
    unfold rowDot
    rw [← sum_sub_distrib]
    exact sum_congr rfl fun _ _ => by ring
  have z : ∀ f : Nat → K, sqNorm t.jac.rows f = 0 → f r = 0 := by
    intro f hf
    unfold sqNorm at hf
    have := (sum_eq_zero_iff_of_nonneg fun i _ => sq_nonneg (f i)).1 hf r (mem_range.2 hr)
    exact pow_eq_zero_iff (two_ne_zero) |>.1 this
  have hsw := key t ht
  unfold Term.swing at hsw
  cases hk : t.attrs.kind <;> rw [hk] at hsw <;> dsimp only at hsw ⊢
  case modelEquality a hard c =>
    cases hard with
    | true => exact .inl rfl
    | false =>
      simp only [Bool.false_eq_true, if_false] at hsw
      exact .inr ((ew _).trans (z _ hsw))
  all_goals exact (ew _).trans (z _ hsw)

end

/-! ### Programs -/

private theorem eval_gain {j j' : JaxComp K} {g : Arr K} (h : j' = { j with vectorGain := g }) (env : Env K) (d : MjData K) :
    evalJacobian env j' d = evalJacobian env j d ∧ evalValue env j' d = evalValue env j d := by
  subst h
  exact ⟨rfl, rfl⟩

/-- The components of the quicker problem see the same. -/
private theorem terms_quicker {ops ops' : List (Op K)} {p : Nat} {s : K} (hq : Quicker s p (run World.init ops) (run World.init ops')) {P : Prob K}
    (hP : (run World.init ops).probs[p]? = some P) {J J' : JaxProblem K}
    (hJ : (step (run World.init ops) (.compile p)).1 = .ok (.compiled J)) (hJ' : (step (run World.init ops') (.compile p)).1 = .ok (.compiled J'))
    {env : Env K} {d : MjData K} {ts ts' : List (Term K)} (ht : TermsOf (run World.init ops) P J env d ts)
    (ht' : TermsOf (run World.init ops') { P with vMin := scaled s P.vMin, vMax := scaled s P.vMax } J' env d ts') : ts' = ts.map (Term.quicker s) := by
  obtain ⟨Q, hQ, hQ', hc⟩ := hq
  rw [hP] at hQ; cases hQ
  have h1 := terms_results hP hJ ht
  have h2 := terms_results hQ' hJ' ht'
  clear ht ht'
  dsimp only at h2
  generalize P.comps = l at hc h1 h2
  induction h1 generalizing ts' with
  | nil => cases h2; rfl
  | @cons ni t l ts a _ ih =>
    cases h2 with
    | @cons _ t' _ ts' b h2 =>
    rw [List.map_cons, ih (fun x hx => hc x (List.mem_cons_of_mem _ hx)) h2]
    congr 1
    obtain ⟨c, c', e1, e2, e3⟩ := hc ni (List.mem_cons_self ..)
    obtain ⟨c1, a1, a2, j, a3, a4, a5⟩ := a
    obtain ⟨c2, b1, b2, j', b3, b4, b5⟩ := b
    rw [e1] at a1; cases a1
    rw [e2] at b1; cases b1
    rw [e3] at b2 b3
    obtain ⟨f1, f2⟩ := eval_gain (change_gain a3 b3).2 env d
    rw [f1, a4] at b4
    rw [f2, a5] at b5
    obtain ⟨A, G, v⟩ := t'
    dsimp only at b2 b4 b5
    rw [b2, ← Except.ok.inj b4, ← Except.ok.inj b5, ← a2]
    rfl

/-- **C125 (calls).** Setting the gains of all components of a problem and its velocity limits to `s` times what they are is accepted and does just that. -/
theorem C125_calls (ops : List (Op K)) {p : Nat} {P : Prob K} (hP : (run World.init ops).probs[p]? = some P) (s : K) :
    Quicker s p (run World.init ops) (run World.init (ops ++ speedUp s p (run World.init ops))) := by
  have hr : ReachableW (run (World.init (K := K)) ops) := ⟨ops, rfl⟩
  obtain ⟨hlo, hhi⟩ := C06_limits_shape hr hP
  have hnames := named_run ops p P hP
  have hnd := C03_names_distinct ops hP
  have hgain : ∀ (i : Nat) (c : Comp K), (run World.init ops).comps[i]? = some c → c.attrs.gain.ndim ≤ 1 := fun i c h =>
    C10_gain_rank (reachable_of_world hr c (List.mem_of_getElem? h))
  rw [run_append]
  generalize run World.init ops = w at *
  -- the gains, one component after the other
  have key : ∀ (l : List (String × Nat)) (W : World K), (l.map Prod.snd).Nodup → (∀ x ∈ l, ∃ c, w.comps[x.2]? = some c ∧ W.comps[x.2]? = some c) →
      (run W (l.flatMap fun ni => match w.comps[ni.2]? with | none => [] | some c => [.comp ni.2 (.updateGain (scaled s c.attrs.gain))])).probs = W.probs ∧
      (∀ i, i ∉ l.map Prod.snd → (run W (l.flatMap fun ni => match w.comps[ni.2]? with | none => [] | some c => [.comp ni.2 (.updateGain (scaled s c.attrs.gain))])).comps[i]? = W.comps[i]?) ∧
      ∀ x ∈ l, ∃ c c', w.comps[x.2]? = some c ∧
        (run W (l.flatMap fun ni => match w.comps[ni.2]? with | none => [] | some c => [.comp ni.2 (.updateGain (scaled s c.attrs.gain))])).comps[x.2]? = some c' ∧ c'.attrs = quicker s c.attrs := by
    intro l
    induction l with
    | nil => intro W _ _; exact ⟨rfl, fun _ _ => rfl, fun x hx => by cases hx⟩
    | cons y l ih =>
      intro W hn hl
      obtain ⟨c, h1, h2⟩ := hl y (List.mem_cons_self ..)
      rw [List.map_cons, List.nodup_cons] at hn
      have hacc : (CompOp.updateGain (scaled s c.attrs.gain)).run c = (.ok (), c.set (quicker s c.attrs)) := by
        show updateGain _ _ = _
        unfold updateGain
        exact if_neg (not_lt.2 (hgain _ _ h1))
      have hstep : (step W (.comp y.2 (.updateGain (scaled s c.attrs.gain)))).2 = ⟨setComp W.comps y.2 (c.set (quicker s c.attrs)), W.probs⟩ := by
        simp only [step, h2, hacc]
      have hlen : y.2 < W.comps.length := (List.getElem?_eq_some_iff.1 h2).1
      have hat : (setComp W.comps y.2 (c.set (quicker s c.attrs)))[y.2]? = some (c.set (quicker s c.attrs)) := by simp [setComp, hlen]
      have hother : ∀ i, i ≠ y.2 → (setComp W.comps y.2 (c.set (quicker s c.attrs)))[i]? = W.comps[i]? := fun i hi => by simp [setComp, Ne.symm hi]
      obtain ⟨g1, g2, g3⟩ := ih ⟨setComp W.comps y.2 (c.set (quicker s c.attrs)), W.probs⟩ hn.2 (fun x hx => by
        obtain ⟨c', e1, e2⟩ := hl x (List.mem_cons_of_mem _ hx)
        refine ⟨c', e1, (hother _ fun e => hn.1 ?_).trans e2⟩
        rw [← e]; exact List.mem_map_of_mem hx)
      have hrun : run W ((y :: l).flatMap fun ni => match w.comps[ni.2]? with | none => [] | some c => [.comp ni.2 (.updateGain (scaled s c.attrs.gain))]) =
          run ⟨setComp W.comps y.2 (c.set (quicker s c.attrs)), W.probs⟩
            (l.flatMap fun ni => match w.comps[ni.2]? with | none => [] | some c => [.comp ni.2 (.updateGain (scaled s c.attrs.gain))]) := by
        rw [List.flatMap_cons, run_append, h1]
        show run (step W _).2 _ = _
        rw [hstep]
      rw [hrun]
      refine ⟨g1, fun i hi => ?_, fun x hx => ?_⟩
      · rw [List.map_cons, List.mem_cons, not_or] at hi
        exact (g2 i hi.2).trans (hother i hi.1)
      · rcases List.mem_cons.1 hx with rfl | hx
        · exact ⟨c, _, h1, (g2 _ hn.1).trans hat, rfl⟩
        · exact g3 x hx
  have hidx : (P.comps.map Prod.snd).Nodup := by
    rw [List.nodup_map_iff_inj_on (List.Nodup.of_map _ hnd)]
    intro x hx y hy e
    obtain ⟨c1, e1, e2⟩ := hnames x hx
    obtain ⟨c2, e3, e4⟩ := hnames y hy
    rw [e, e3] at e1; cases e1
    exact Prod.ext (e2.symm.trans e4) e
  have hlen : p < w.probs.length := (List.getElem?_eq_some_iff.1 hP).1
  have hx : ∀ v : Arr K, v.shape = [P.model.nv] → expandVel P.model.nv v = .ok v := by
    intro v hv
    unfold expandVel
    rw [hv]
    simp
  set P1 : Prob K := { P with vMin := scaled s P.vMin } with hP1
  set P2 : Prob K := { P with vMin := scaled s P.vMin, vMax := scaled s P.vMax } with hP2
  have s1 : (step w (.updateVMin p (scaled s P.vMin))).2 = ⟨w.comps, w.probs.set p P1⟩ := by
    simp only [step, hP, Prob.updateVMin, hx (scaled s P.vMin) hlo]
    rfl
  have s2 : (step (⟨w.comps, w.probs.set p P1⟩ : World K) (.updateVMax p (scaled s P.vMax))).2 = ⟨w.comps, w.probs.set p P2⟩ := by
    have : (w.probs.set p P1)[p]? = some P1 := by simp [hlen]
    simp only [step, this, Prob.updateVMax]
    rw [show P1.model.nv = P.model.nv from rfl, hx (scaled s P.vMax) hhi]
    simp only [List.set_set]
    rfl
  obtain ⟨k1, k2, k3⟩ := key P.comps ⟨w.comps, w.probs.set p P2⟩ hidx fun x hx => by
    obtain ⟨c, e, -⟩ := hnames x hx
    exact ⟨c, e, e⟩
  have hall : run w (speedUp s p w) = run ⟨w.comps, w.probs.set p P2⟩
      (P.comps.flatMap fun ni => match w.comps[ni.2]? with | none => [] | some c => [.comp ni.2 (.updateGain (scaled s c.attrs.gain))]) := by
    unfold speedUp
    rw [hP]
    show run (step (step w (.updateVMin p (scaled s P.vMin))).2 (.updateVMax p (scaled s P.vMax))).2 _ = _
    rw [s1, s2]
    rfl
  rw [hall]
  refine ⟨P, hP, ?_, k3⟩
  rw [k1]
  show (w.probs.set p P2)[p]? = some P2
  simp [hlen]

/-! ### Compiling and solving the quicker problem -/

/-- The same compiled component with a gain of the same size. -/
private def Regained (j j' : JaxComp K) : Prop := ∃ g : Arr K, j' = { j with vectorGain := g } ∧ g.shape = j.vectorGain.shape

private theorem gain_quicker {s : K} {a : Attrs K} {g : Arr K} (h : vectorGain a = .ok g) : ∃ g', vectorGain (quicker s a) = .ok g' ∧ g'.shape = g.shape := by
  unfold vectorGain at h ⊢
  have hd : (quicker s a).dim = a.dim := rfl
  have hg : (quicker s a).gain.shape = a.gain.shape := rfl
  rw [hd, hg]
  by_cases h0 : a.dim = -1
  · rw [if_pos h0] at h; cases h
  · rw [if_neg h0] at h ⊢
    cases hs : a.gain.shape with
    | nil =>
      rw [hs] at h
      dsimp only at h ⊢
      cases hn : sizeOf a.dim with
      | error e => rw [hn] at h; cases h
      | ok n => rw [hn] at h; cases h; exact ⟨_, rfl, rfl⟩
    | cons n l =>
      rw [hs] at h
      cases l with
      | nil =>
        dsimp only at h ⊢
        by_cases hn : (n : Int) ≠ a.dim
        · rw [if_pos hn] at h; cases h
        · rw [if_neg hn] at h ⊢; cases h; exact ⟨_, rfl, rfl⟩
      | cons _ _ => cases h

private theorem result_quicker {s : K} {a : Attrs K} {j : JaxComp K} (h : compileResult a = .ok j) : ∃ j', compileResult (quicker s a) = .ok j' ∧ Regained j j' := by
  rw [compileResult_eq] at h ⊢
  have hm' : (quicker s a).model = a.model := rfl
  have hd' : (quicker s a).dim = a.dim := rfl
  rw [hm', hd']
  cases hm : a.model with
  | none => rw [hm] at h; cases h
  | some m =>
    rw [hm] at h
    dsimp only at h ⊢
    by_cases hd : a.dim = -1
    · rw [if_pos hd] at h; cases h
    · rw [if_neg hd, buildComponent_fst, ensureMask_eq] at h
      rw [if_neg hd, buildComponent_fst, ensureMask_eq]
      obtain ⟨g, hg, h⟩ := Except.bind_eq_ok h
      obtain ⟨u, hu, h⟩ := Except.bind_eq_ok h
      obtain ⟨k, hk, h⟩ := Except.bind_eq_ok h
      cases h
      obtain ⟨g', e1, e2⟩ := gain_quicker (s := s) (a := a) hg
      have hk' : buildKind (quicker s a) = .ok k := by
        rw [buildKind_congr (a := quicker s a) (b := a) rfl rfl]; exact hk
      refine ⟨_, ?_, g', rfl, e2⟩
      show (vectorGain (quicker s a) >>= fun g => _) = _
      rw [e1]
      show (_ >>= fun _ => buildKind (quicker s a) >>= fun k => _) = _
      rw [hk']
      have hu' : (if (Comp.fresh (quicker s a)).attrs.mask.isSome then Except.ok () else if (Comp.fresh (quicker s a)).attrs.dim = -1 then Except.error Err.valueError
          else if (Comp.fresh (quicker s a)).attrs.dim < 0 then Except.error Err.typeError else .ok ()) = Except.ok u := hu
      rw [hu']
      rfl

/-- The quicker problem compiles if the other one does, to the same components with gains of the same size. -/
private theorem compile_quicker {s : K} {p : Nat} {w w' : World K} (hq : Quicker s p w w') (hw : ReachableW w) (hw' : ReachableW w') {J : JaxProblem K}
    (hJ : (step w (.compile p)).1 = .ok (.compiled J)) :
    ∃ J', (step w' (.compile p)).1 = .ok (.compiled J') ∧ J'.model = J.model ∧ J'.vMin = scaled s J.vMin ∧ J'.vMax = scaled s J.vMax ∧
      List.Forall₂ (fun nj nj' : String × JaxComp K => nj'.1 = nj.1 ∧ Regained nj.2 nj'.2) J.comps J'.comps := by
  obtain ⟨P, hP, hP', hc⟩ := hq
  obtain ⟨P1, g1, hF⟩ := compile_results hw hJ
  rw [hP] at g1; cases g1
  obtain ⟨P1, g1, m1, m2, m3, -⟩ := compile_comps hw hJ
  rw [hP] at g1; cases g1
  have key : ∀ (l : List (String × Nat)) (js : List (String × JaxComp K)),
      List.Forall₂ (fun (ni : String × Nat) (nj : String × JaxComp K) => ni.1 = nj.1 ∧ ∃ c, w.comps[ni.2]? = some c ∧ compileResult c.attrs = .ok nj.2) l js →
      (∀ ni ∈ l, ∃ c c', w.comps[ni.2]? = some c ∧ w'.comps[ni.2]? = some c' ∧ c'.attrs = quicker s c.attrs) →
      ∃ js', compilePure (heapResult w'.comps) l = .ok js' ∧ List.Forall₂ (fun nj nj' : String × JaxComp K => nj'.1 = nj.1 ∧ Regained nj.2 nj'.2) js js' := by
    intro l js h
    induction h with
    | nil => intro _; exact ⟨[], rfl, .nil⟩
    | @cons ni nj l js a _ ih =>
      intro hc
      obtain ⟨js', h1, h2⟩ := ih fun x hx => hc x (List.mem_cons_of_mem _ hx)
      obtain ⟨c, c', e1, e2, e3⟩ := hc ni (List.mem_cons_self ..)
      obtain ⟨en, c1, a1, a2⟩ := a
      rw [e1] at a1; cases a1
      obtain ⟨j', r1, r2⟩ := result_quicker (s := s) a2
      refine ⟨(ni.1, j') :: js', ?_, .cons ⟨en, r2⟩ h2⟩
      have : heapResult w'.comps ni.2 = .ok j' := by
        unfold heapResult
        rw [e2]
        dsimp only
        rw [e3, r1]
      obtain ⟨nm, i⟩ := ni
      dsimp only at this
      simp only [compilePure, this, h1]
  obtain ⟨js', k1, k2⟩ := key _ _ hF hc
  obtain ⟨h1, -⟩ := compileComps_spec P.comps _ (cacheOK_world hw')
  refine ⟨⟨P.model, scaled s P.vMin, scaled s P.vMax, js'⟩, ?_, m1.symm, by rw [m2], by rw [m3], k2⟩
  simp only [step, hP', compileProb]
  cases hcc : compileComps w'.comps P.comps with
  | mk r h' =>
    rw [hcc] at h1
    dsimp only at h1
    rw [k1] at h1
    subst h1
    rfl

/-- The same for what the solver sees. -/
private def Resized : SolverComp K → SolverComp K → Prop
  | .task e W _, .task e' W' _ => (e'.jac = e.jac ∧ e'.value.len = e.value.len ∧ e'.gain.len = e.gain.len) ∧ W' = W
  | .barrier e _ x, .barrier e' _ x' => (e'.jac = e.jac ∧ e'.value.len = e.value.len ∧ e'.gain.len = e.gain.len) ∧ x'.len = x.len
  | .constraint e _ _ W, .constraint e' _ _ W' => (e'.jac = e.jac ∧ e'.value.len = e.value.len ∧ e'.gain.len = e.gain.len) ∧ W' = W
  | _, _ => False

private theorem resized {env : Env K} {d : MjData K} {j j' : JaxComp K} (h : Regained j j') {c : SolverComp K} (hc : solverComp env d j = .ok c) :
    ∃ c', solverComp env d j' = .ok c' ∧ Resized c c' := by
  obtain ⟨g, rfl, hg⟩ := h
  unfold solverComp evaluate at hc
  obtain ⟨e, he, hc⟩ := Except.bind_eq_ok hc
  obtain ⟨G, h1, he⟩ := Except.bind_eq_ok he
  obtain ⟨v, h2, he⟩ := Except.bind_eq_ok he
  obtain ⟨x, h3, he⟩ := Except.bind_eq_ok he
  cases he
  have hx : j.vectorGain.shape = [x.len] := by
    unfold Arr.toVec at h3
    split at h3
    · cases h3; assumption
    · cases h3
  have hs : solverComp env d { j with vectorGain := g } = wrapComp j ⟨G, v, ⟨x.len, fun i => g.get [i]⟩, j.gainFn⟩ := by
    unfold solverComp evaluate
    have h1' : evalJacobian env { j with vectorGain := g } d = .ok G := h1
    have h2' : evalValue env { j with vectorGain := g } d = .ok v := h2
    have h3' : g.toVec = .ok ⟨x.len, fun i => g.get [i]⟩ := toVec_of_shape (hg.trans hx)
    simp only [bind, Except.bind, h1', h2', h3']
    rfl
  rw [hs]
  unfold wrapComp at hc ⊢
  cases hk : j.kind <;> rw [hk] at hc <;> dsimp only at hc ⊢
  case jointBarrier => cases hc; exact ⟨_, rfl, ⟨rfl, rfl, rfl⟩, rfl⟩
  case positionBarrier => cases hc; exact ⟨_, rfl, ⟨rfl, rfl, rfl⟩, rfl⟩
  case selfCollision => cases hc; exact ⟨_, rfl, ⟨rfl, rfl, rfl⟩, rfl⟩
  case comTask w _ _ =>
    cases hW : w.toMat <;> rw [hW] at hc <;> cases hc
    exact ⟨_, rfl, ⟨rfl, rfl, rfl⟩, rfl⟩
  case jointTask w _ _ _ =>
    cases hW : w.toMat <;> rw [hW] at hc <;> cases hc
    exact ⟨_, rfl, ⟨rfl, rfl, rfl⟩, rfl⟩
  case positionTask w _ _ _ _ =>
    cases hW : w.toMat <;> rw [hW] at hc <;> cases hc
    exact ⟨_, rfl, ⟨rfl, rfl, rfl⟩, rfl⟩
  case frameTask w _ _ _ _ =>
    cases hW : w.toMat <;> rw [hW] at hc <;> cases hc
    exact ⟨_, rfl, ⟨rfl, rfl, rfl⟩, rfl⟩
  case modelEquality w =>
    cases hW : w.toMat <;> rw [hW] at hc <;> cases hc
    exact ⟨_, rfl, ⟨rfl, rfl, rfl⟩, rfl⟩

private theorem shaped_resized {n : Nat} {c c' : SolverComp K} (h : Resized c c') (hc : CompShaped n c) : CompShaped n c' := by
  cases c <;> cases c' <;> simp only [Resized] at h
  all_goals
    obtain ⟨⟨h1, h2, h3⟩, h4⟩ := h
    obtain ⟨⟨a1, a2, a3⟩, a4⟩ := hc
    refine ⟨⟨by rw [h1, a1], by rw [h1, h2, a2], by rw [h1, h3, a3]⟩, ?_⟩
    first
      | (rw [h4, h1]; exact a4)
      | (rw [h4]; exact a4)

private theorem solves_quicker {s : K} {J J' : JaxProblem K} (hm : J'.model = J.model) (h1 : J'.vMin = scaled s J.vMin) (h2 : J'.vMax = scaled s J.vMax)
    (h3 : List.Forall₂ (fun nj nj' : String × JaxComp K => nj'.1 = nj.1 ∧ Regained nj.2 nj'.2) J.comps J'.comps) {env : Env K} {d : MjData K}
    (hz : WellSized env J d) {qp : QP K} (hqp : problemQP env J.model J d = .ok qp) :
    WellSized env J' d ∧ ∃ qp', problemQP env J.model J' d = .ok qp' := by
  obtain ⟨lo, hi, cs, e1, e2, e3, e4⟩ := problemQP_ok hqp
  have hsh := hz lo hi cs e1 e2 e3
  have hv : ∀ {a : Arr K} {v : Vec K}, a.toVec = .ok v → ∃ v', (scaled s a).toVec = .ok v' ∧ v'.len = v.len := by
    intro a v h
    have hx : a.shape = [v.len] := by
      unfold Arr.toVec at h
      split at h
      · cases h; assumption
      · cases h
    exact ⟨_, toVec_of_shape (a := scaled s a) hx, rfl⟩
  obtain ⟨lo', l1, l2⟩ := hv e1
  obtain ⟨hi', u1, u2⟩ := hv e2
  have key : ∀ (l l' : List (String × JaxComp K)), List.Forall₂ (fun nj nj' : String × JaxComp K => nj'.1 = nj.1 ∧ Regained nj.2 nj'.2) l l' →
      ∀ cs, (l.map Prod.snd).mapM (solverComp env d) = .ok cs → ∃ cs', (l'.map Prod.snd).mapM (solverComp env d) = .ok cs' ∧ List.Forall₂ Resized cs cs' := by
    intro l l' h
    induction h with
    | nil => intro cs h; cases h; exact ⟨[], rfl, .nil⟩
    | @cons nj nj' l l' a _ ih =>
      intro cs h
      rw [List.map_cons, List.mapM_cons] at h
      obtain ⟨c, g1, h⟩ := Except.bind_eq_ok h
      obtain ⟨cs, g2, h⟩ := Except.bind_eq_ok h
      cases h
      obtain ⟨c', k1, k2⟩ := resized a.2 g1
      obtain ⟨cs', k3, k4⟩ := ih cs g2
      refine ⟨c' :: cs', ?_, .cons k2 k4⟩
      rw [List.map_cons, List.mapM_cons, k1]
      simp only [bind, Except.bind, k3]
      rfl
  obtain ⟨cs', c1, c2⟩ := key _ _ h3 cs e3
  have hcs : ∀ c' ∈ cs', ∃ c ∈ cs, Resized c c' := by
    clear c1 e3 e4 hsh
    induction c2 with
    | nil => intro c' h; cases h
    | @cons c c' l l' a _ ih =>
      intro x hx
      rcases List.mem_cons.1 hx with rfl | hx
      · exact ⟨c, List.mem_cons_self .., a⟩
      · obtain ⟨y, hy, h⟩ := ih x hx
        exact ⟨y, List.mem_cons_of_mem _ hy, h⟩
  have hsh' : ProblemShaped J.model.nv lo' hi' cs' := ⟨l2.trans hsh.vMin, u2.trans hsh.vMax, fun c' hc' => by
    obtain ⟨c, hc, h⟩ := hcs c' hc'
    exact shaped_resized h (hsh.comps c hc)⟩
  refine ⟨fun a b c ha hb hc => ?_, ?_⟩
  · rw [h1, l1] at ha; rw [h2, u1] at hb; rw [c1] at hc
    cases ha; cases hb; cases hc
    rw [hm]; exact hsh'
  · have hno := (C31_finite_partial hsh).1.1 ⟨qp, e4⟩
    obtain ⟨qp', hqp'⟩ := (C31_finite_partial hsh').1.2 fun e x y hmem h0 => by
      obtain ⟨c, hc, h⟩ := hcs _ hmem
      cases c <;> simp only [Resized] at h
      rw [h.1.1] at h0
      exact hno _ _ _ hc h0
    refine ⟨qp', ?_⟩
    unfold problemQP
    rw [h1, h2, hm]
    simp only [bind, Except.bind, l1, u1, c1]
    exact hqp'

/-- **C125 (solvable).** With all gains and the velocity limits multiplied by any number, a problem that compiles, has components of fitting sizes and is solved still
compiles, still has components of fitting sizes and is still solved. -/
theorem C125_solves {ops ops' : List (Op K)} {p : Nat} {s : K} (hq : Quicker s p (run World.init ops) (run World.init ops')) {J : JaxProblem K}
    (hJ : (step (run World.init ops) (.compile p)).1 = .ok (.compiled J)) {env : Env K} {I : Type} {osqp : QPSolver K I} {q : Arr K}
    (hsz : WellSized env J (update env J.model ⟨J.model.nq, fun i => q.get [i]⟩)) {s₀ : LocalIKData K} {r : LocalIKSolution K I × LocalIKData K}
    (h : localSolve env osqp J.model q s₀ J = .ok r) :
    ∃ J', (step (run World.init ops') (.compile p)).1 = .ok (.compiled J') ∧ J'.model = J.model ∧
      WellSized env J' (update env J.model ⟨J.model.nq, fun i => q.get [i]⟩) ∧ ∀ s₀', ∃ r', localSolve env osqp J.model q s₀' J' = .ok r' := by
  obtain ⟨J', hJ', e0, e1, e2, e3⟩ := compile_quicker hq ⟨_, rfl⟩ ⟨_, rfl⟩ hJ
  obtain ⟨sol, d⟩ := r
  have hsh : ¬ q.shape ≠ [J.model.nq] := by
    intro hne
    unfold localSolve solve at h
    rw [if_pos hne] at h
    cases h
  obtain ⟨qp, hqp, -⟩ := localSolve_ok h
  obtain ⟨z, qp', hqp'⟩ := solves_quicker e0 e1 e2 e3 hsz hqp
  refine ⟨J', hJ', e0, z, fun s₀' => ?_⟩
  obtain ⟨lo, hi, cs, g1, g2, g3, g4⟩ := problemQP_ok hqp'
  unfold localSolve solve
  rw [if_neg hsh]
  unfold localSolveFromData solveFromData
  simp only [bind, Except.bind, g1, g2, g3, g4]
  exact ⟨_, rfl⟩

/-- **C125 (programs).** Two programs whose problems differ in all gains and velocity limits by the factor `s`, without damping: what an exact solver returns for the
quicker one is, divided by `s`, optimal for the other one; and if the tasks together see every velocity, it is `s` times the velocity of the other one. -/
theorem C125_program_partial {ops ops' : List (Op ℝ)} {p : Nat} {s : ℝ} (hs : 0 < s) (hq : Quicker s p (run World.init ops) (run World.init ops')) {P : Prob ℝ}
    (hP : (run World.init ops).probs[p]? = some P) {J J' : JaxProblem ℝ}
    (hJ : (step (run World.init ops) (.compile p)).1 = .ok (.compiled J)) (hJ' : (step (run World.init ops') (.compile p)).1 = .ok (.compiled J'))
    {env : Env ℝ} {I : Type} {osqp : QPSolver ℝ I} (ho : Exact osqp) {q : Arr ℝ}
    (hsz : WellSized env J (update env P.model ⟨P.model.nq, fun i => q.get [i]⟩))
    {s₀ s₁ s₀' s₁' : LocalIKData ℝ} {sol sol' : LocalIKSolution ℝ I}
    (h : localSolve env osqp P.model q s₀ J = .ok (sol, s₁)) (h' : localSolve env osqp P.model q s₀' J' = .ok (sol', s₁')) :
    ∃ ts, TermsOf (run World.init ops) P J env (update env P.model ⟨P.model.nq, fun i => q.get [i]⟩) ts ∧
      ((∃ u, Allowed P.model.nv P.vMin P.vMax ts u) → (∀ t ∈ ts, t.Undamped) →
        Best P.model.nv P.vMin P.vMax ts sol.vOpt.get ∧ Best P.model.nv P.vMin P.vMax ts (fun i => sol'.vOpt.get i / s) ∧
        ((∀ t ∈ ts, t.Braking) → Watched P.model.nv ts → ∀ i < P.model.nv, sol'.vOpt.get i = s * sol.vOpt.get i)) := by
  have hP' : (run World.init ops').probs[p]? = some { P with vMin := scaled s P.vMin, vMax := scaled s P.vMax } := by
    obtain ⟨Q, h1, h2, -⟩ := hq
    rw [hP] at h1; cases h1
    exact h2
  have e1 : J.model = P.model := by
    obtain ⟨Q, hQ, e, -⟩ := compile_comps ⟨_, rfl⟩ hJ
    rw [hP] at hQ; cases hQ; exact e
  have e2 : J'.model = P.model := by
    obtain ⟨Q, hQ, e, -⟩ := compile_comps ⟨_, rfl⟩ hJ'
    rw [hP'] at hQ; cases hQ; exact e
  rw [← e1] at h hsz
  have hsz' : WellSized env J' (update env J'.model ⟨J'.model.nq, fun i => q.get [i]⟩) := by
    obtain ⟨J2, g1, g2, g3, -⟩ := C125_solves hq hJ hsz h
    rw [hJ'] at g1; cases g1
    rw [g2]; exact g3
  rw [← e2] at h'
  obtain ⟨P1, ts, g1, ht, hb⟩ := C91_real_solution ops hJ ho hsz h
  obtain ⟨P2, ts', g2, ht', hb'⟩ := C91_real_solution ops' hJ' ho hsz' h'
  rw [hP] at g1; cases g1
  rw [hP'] at g2; cases g2
  rw [e1] at ht
  rw [e2] at ht'
  obtain rfl := terms_quicker hq hP hJ hJ' ht ht'
  refine ⟨ts, ht, fun hu hd => ?_⟩
  have b1 := hb hu
  obtain ⟨u, hu⟩ := hu
  have b2 := hb' ⟨_, (allowed_quicker hs u).2 hu⟩
  have e : sol'.vOpt.get = fun i => s * (sol'.vOpt.get i / s) := by funext i; field_simp
  rw [e] at b2
  have b3 := (C125_best_partial hs hd _).1 b2
  refine ⟨b1, b3, fun hbr hw i hi => ?_⟩
  have := best_unique hbr hw b1 b3 i hi
  field_simp at this
  linarith

/-! ### Loops -/

private theorem axisQuat_pace {s : ℝ} (hs : 0 < s) (v : V3 ℝ) (dt : ℝ) : axisQuat (s • v) (dt / s) = axisQuat v dt := by
  have hn : √(sq3 (s • v)) = s * √(sq3 v) := by rw [sq3_smul, Real.sqrt_mul (sq_nonneg s), Real.sqrt_sq hs.le]
  have ha : dt / s * (s * √(sq3 v)) / 2 = dt * √(sq3 v) / 2 := by field_simp
  have hb : ∀ a x : ℝ, a / (s * √(sq3 v)) * (s * x) = a / √(sq3 v) * x := by
    intro a x
    rw [div_mul_eq_mul_div, div_mul_eq_mul_div, mul_left_comm, mul_div_mul_left _ _ hs.ne']
  simp only [axisQuat, hn, ha, Pi.smul_apply, smul_eq_mul, hb]
  rfl

private theorem loop_pace {s : ℝ} (hs : 0 < s) (q v : Nat → ℝ) (dt : ℝ) (ts : List JntType) :
    ∀ a b, integrateLoop quatIntegrateR q (fun i => s * v i) (dt / s) ts a b = integrateLoop quatIntegrateR q v dt ts a b := by
  have hv : ∀ b, vec3At (fun i => s * v i) b = s • vec3At v b := by
    intro b; funext k; fin_cases k <;> rfl
  have hd : ∀ x : ℝ, dt / s * (s * x) = dt * x := fun x => by field_simp
  have hl : ∀ x : V3 ℝ, (dt / s) • s • x = dt • x := fun x => by rw [smul_smul, div_mul_cancel₀ _ hs.ne']
  have hq : ∀ (z : Quaternion ℝ) (x : V3 ℝ), quatIntegrateR z (s • x) (dt / s) = quatIntegrateR z x dt := by
    intro z x
    unfold quatIntegrateR
    rw [axisQuat_pace hs]
  induction ts with
  | nil => intro a b; rfl
  | cons t ts ih =>
    intro a b
    cases t <;> simp only [integrateLoop, hv, hd, hl, hq, ih]

private theorem integrate_pace {env : Env ℝ} {m : MjModel ℝ} (he : env.quatIntegrate = quatIntegrateR) (hw : JointsWF m) {s : ℝ} (hs : 0 < s) (q : Vec ℝ) {v v' : Vec ℝ}
    (hv : ∀ i < m.nv, v'.get i = s * v.get i) (dt : ℝ) : integrate env m q v' (dt / s) = integrate env m q v dt := by
  unfold integrate
  rw [integrate_reads env.quatIntegrate q.get (dt / s) (v := v'.get) (v' := fun i => s * v.get i) hv hw.addr, he, loop_pace hs]

/-- **C125 (loops).** Gains are rates: with gains and velocity limits multiplied by `s` and the step divided by `s`, the robot goes through exactly the same configurations. -/
theorem C125_loop_partial {I : Type} {env : Env ℝ} {osqp : QPSolver ℝ I} (ho : Exact osqp) {m : MjModel ℝ} (he : env.quatIntegrate = quatIntegrateR) (hw : JointsWF m)
    {p : Nat} (dt : ℝ) {ops ops' : List (Op ℝ)} {s : ℝ} (hs : 0 < s) (hq : Quicker s p (run World.init ops) (run World.init ops')) {J : JaxProblem ℝ}
    (hJ : (step (run World.init ops) (.compile p)).1 = .ok (.compiled J))
    (q : Vec ℝ) (s0 s0' : LocalIKData ℝ) (k : Nat)
    (hG : AtEveryTick env osqp m p dt (fun S => Paced env osqp m p (run World.init ops) S.q) ⟨run World.init ops, q, s0⟩ (List.replicate k .tick)) :
    (Spec.control env osqp m p (dt / s) ⟨run World.init ops', q, s0'⟩ (List.replicate k .tick)).q =
      (Spec.control env osqp m p dt ⟨run World.init ops, q, s0⟩ (List.replicate k .tick)).q := by
  obtain ⟨J', hJ', -⟩ := compile_quicker hq ⟨_, rfl⟩ ⟨_, rfl⟩ hJ
  have key : ∀ k w w' q s0 s0', ReachableW w → ReachableW w' → (step w (.compile p)).1 = .ok (.compiled J) → (step w' (.compile p)).1 = .ok (.compiled J') →
      AtEveryTick env osqp m p dt (fun S => Paced env osqp m p (run World.init ops) S.q) ⟨w, q, s0⟩ (List.replicate k .tick) →
      (Spec.control env osqp m p (dt / s) ⟨w', q, s0'⟩ (List.replicate k .tick)).q = (Spec.control env osqp m p dt ⟨w, q, s0⟩ (List.replicate k .tick)).q := by
    intro k
    induction k with
    | zero => intros; rfl
    | succ k ih =>
      intro w w' q s0 s0' hr hr' hc hc' hG
      obtain ⟨hg, hG⟩ := hG
      obtain ⟨rfl, z1, f1, hts⟩ := hg rfl J hJ
      obtain ⟨P, hP, em, -⟩ := compile_comps ⟨_, rfl⟩ hJ
      obtain ⟨⟨sol, d⟩, h1⟩ := f1 s0
      dsimp only at h1 z1 hts
      have hlen : q.toArr.shape = [J.model.nq] := by
        by_contra hne
        unfold localSolve solve at h1
        rw [if_pos hne] at h1
        cases h1
      have hqe : (⟨P.model.nq, fun i => q.toArr.get [i]⟩ : Vec ℝ) = q := by
        obtain ⟨n, g⟩ := q
        have : n = J.model.nq := (List.cons.inj hlen).1
        rw [← em, ← this]
        rfl
      have y1 : WellSized env J (update env P.model ⟨P.model.nq, fun i => q.toArr.get [i]⟩) := by rw [hqe, ← em]; exact z1
      have y2 : ∀ s₀', ∃ r', localSolve env osqp J.model q.toArr s₀' J' = .ok r' := by
        obtain ⟨J2, g1, -, -, g4⟩ := C125_solves hq hJ (by rw [em]; exact y1) h1
        rw [hJ'] at g1; cases g1
        exact g4
      obtain ⟨⟨sol', d'⟩, h2⟩ := y2 s0'
      have h1' : localSolve env osqp P.model q.toArr s0 J = .ok (sol, d) := by rw [← em]; exact h1
      have h2' : localSolve env osqp P.model q.toArr s0' J' = .ok (sol', d') := by rw [← em]; exact h2
      obtain ⟨ts, ht, hb⟩ := C125_program_partial hs hq hP hJ hJ' ho y1 h1' h2'
      rw [hqe] at ht
      obtain ⟨g1, g2, g3, g4⟩ := hts P ts hP (by rw [em]; exact ht)
      rw [em] at g1 g4
      have hv := (hb g1 g2).2.2 g3 g4
      have t1 : controlStep env osqp J.model p dt ⟨w, q, s0⟩ .tick = ⟨(step w (.compile p)).2, integrate env J.model q sol.vOpt dt, d⟩ := by
        simp only [controlStep]
        cases hst : step w (.compile p) with
        | mk r w1 =>
          rw [hst] at hc
          dsimp only at hc
          subst hc
          simp only [h1]
      have t2 : controlStep env osqp J.model p (dt / s) ⟨w', q, s0'⟩ .tick = ⟨(step w' (.compile p)).2, integrate env J.model q sol'.vOpt (dt / s), d'⟩ := by
        simp only [controlStep]
        cases hst : step w' (.compile p) with
        | mk r w1 =>
          rw [hst] at hc'
          dsimp only at hc'
          subst hc'
          simp only [h2]
      rw [t1] at hG
      show (Spec.control env osqp J.model p (dt / s) (controlStep env osqp J.model p (dt / s) ⟨w', q, s0'⟩ .tick) (List.replicate k .tick)).q =
        (Spec.control env osqp J.model p dt (controlStep env osqp J.model p dt ⟨w, q, s0⟩ .tick) (List.replicate k .tick)).q
      rw [t1, t2, integrate_pace he hw hs q (by rw [em]; exact hv) dt]
      have reach : ∀ {w : World ℝ}, ReachableW w → ReachableW (step w (.compile p)).2 := by
        rintro w ⟨o, rfl⟩
        exact ⟨o ++ [.compile p], by rw [run_append]; rfl⟩
      exact ih _ _ _ _ _ (reach hr) (reach hr') ((C02_compile_twice hr p).1.trans hc) ((C02_compile_twice hr' p).1.trans hc') hG
  exact key k _ _ q s0 s0' ⟨_, rfl⟩ ⟨_, rfl⟩ hJ hJ' hG

end Mjinx.Props
