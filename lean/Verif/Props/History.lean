import Verif.Spec.History
import Verif.Spec.Examples
import Verif.Props.Problem
import Verif.Props.Settings

/-!
# C97: objects keep to themselves
-/

namespace Mjinx.Props
open Spec
set_option linter.unusedSectionVars false
variable {K : Type} [Field K] [LinearOrder K]

private theorem runOps_append (c : Comp K) (l l' : List (CompOp K)) : runOps c (l ++ l') = runOps (runOps c l) l' := by
  simp [runOps, List.foldl_append]

/-- Compiling a problem only reads components. -/
private theorem compileComps_reads (i : Nat) : ∀ (l : List (String × Nat)) (h : List (Comp K)) (c : Comp K), h[i]? = some c →
    ∃ n : Nat, (compileComps h l).2[i]? = some (runOps c (List.replicate n .compile))
  | [], h, c, hc => ⟨0, hc⟩
  | (name, j) :: rest, h, c, hc => by
    have hone : ∀ cj, h[j]? = some cj → ∃ n : Nat, (setComp h j (jaxComponent cj).2)[i]? = some (runOps c (List.replicate n .compile)) := by
      intro cj hj
      by_cases hji : j = i
      · subst hji
        rw [hj] at hc; cases hc
        refine ⟨1, ?_⟩
        have hlt : j < h.length := (List.getElem?_eq_some_iff.1 hj).1
        simp [setComp, hlt, runOps, CompOp.run]
      · refine ⟨0, ?_⟩
        rw [setComp, List.getElem?_set_ne hji]
        exact hc
    unfold compileComps
    cases hj : h[j]? with
    | none => exact ⟨0, hc⟩
    | some cj =>
      obtain ⟨n, hn⟩ := hone cj hj
      simp only
      cases hx : jaxComponent cj with
      | mk r c' =>
        rw [hx] at hn
        cases r with
        | error e => exact ⟨n, hn⟩
        | ok jc =>
          simp only
          obtain ⟨n', hn'⟩ := compileComps_reads i rest _ _ hn
          refine ⟨n + n', ?_⟩
          rw [List.replicate_add, runOps_append, ← hn']
          cases compileComps (setComp h j c') rest with
          | mk r' h' => cases r' <;> rfl

private theorem reads_replicate (n : Nat) : withoutReads (List.replicate n (CompOp.compile : CompOp K)) = [] := by
  induction n with
  | zero => rfl
  | succ n ih => rw [List.replicate_succ]; exact ih

/-- One call of a program. -/
private theorem step_history (i : Nat) (w : World K) (op : Op K) {c : Comp K} (hc : w.comps[i]? = some c) :
    ∃ l, (step w op).2.comps[i]? = some (runOps c l) ∧ withoutReads l = withoutReads (concerns i w op) := by
  have none : (step w op).2.comps[i]? = w.comps[i]? → concerns i w op = [] → _ :=
    fun h1 h2 => (⟨[], by rw [h1]; exact hc, by rw [h2]⟩ : ∃ l, (step w op).2.comps[i]? = some (runOps c l) ∧
      withoutReads l = withoutReads (concerns i w op))
  cases op with
  | newComp n =>
    refine none ?_ rfl
    simp only [step]
    cases n.run with
    | error e => rfl
    | ok c' => exact List.getElem?_append_left (List.getElem?_eq_some_iff.1 hc).1
  | comp j op =>
    by_cases hj : j = i
    · subst hj
      refine ⟨[op], ?_, by simp [concerns]⟩
      have hlt := (List.getElem?_eq_some_iff.1 hc).1
      simp only [step, hc, setComp]
      rw [List.getElem?_set_self hlt]
      rfl
    · refine none ?_ (by simp [concerns, hj])
      simp only [step]
      cases w.comps[j]? with
      | none => rfl
      | some cj => simp [setComp, hj]
  | newProblem m lo hi => exact none (by simp only [step]; cases newProb m lo hi <;> rfl) rfl
  | updateVMin p v => exact none (by simp only [step]; cases w.probs[p]? <;> rfl) rfl
  | updateVMax p v => exact none (by simp only [step]; cases w.probs[p]? <;> rfl) rfl
  | remove p name => exact none (by simp only [step]; cases w.probs[p]? <;> rfl) rfl
  | component p name => exact none (by simp only [step]; cases w.probs[p]? <;> rfl) rfl
  | task p name => exact none (by simp only [step]; cases w.probs[p]? <;> rfl) rfl
  | barrier p name => exact none (by simp only [step]; cases w.probs[p]? <;> rfl) rfl
  | compile p =>
    cases hp : w.probs[p]? with
    | none => exact none (by simp [step, hp]) rfl
    | some P =>
      obtain ⟨n, hn⟩ := compileComps_reads i P.comps w.comps c hc
      refine ⟨_, ?_, reads_replicate n⟩
      rw [← hn]
      simp only [step, hp, compileProb]
      cases compileComps w.comps P.comps with
      | mk r h => cases r <;> rfl
  | add p j =>
    cases hp : w.probs[p]? with
    | none => exact none (by simp [step, hp]) (by simp [concerns, hp])
    | some P =>
      by_cases hj : j = i
      · subst hj
        have hlt := (List.getElem?_eq_some_iff.1 hc).1
        cases hd : dictGet P.comps c.attrs.name with
        | some k =>
          refine none ?_ ?_
          · simp only [step, hp, hc, Prob.addComponent, hd, setComp]
            rw [List.getElem?_set_self hlt]
          · have : c.attrs.name ∈ P.comps.map Prod.fst := by
              by_contra hn
              have := (dictGet_none_iff P.comps c.attrs.name).2 (fun k hk => hn (List.mem_map.2 ⟨_, hk, rfl⟩))
              rw [hd] at this; cases this
            simp only [concerns, hp, hc]
            rw [if_neg (by rintro ⟨-, h⟩; exact h this)]
        | none =>
          have : c.attrs.name ∉ P.comps.map Prod.fst := by
            intro hn
            obtain ⟨⟨_, k⟩, hk, h⟩ := List.mem_map.1 hn
            cases h
            exact (dictGet_none_iff P.comps c.attrs.name).1 hd k hk
          refine ⟨[.updateModel P.model], ?_, by simp only [concerns, hp, hc]; rw [if_pos ⟨trivial, this⟩]⟩
          simp only [step, hp, hc, Prob.addComponent, hd, setComp]
          rw [List.getElem?_set_self hlt]
          simp only [runOps, List.foldl_cons, List.foldl_nil, CompOp.run]
          cases updateModel P.model c with
          | mk r c' => cases r <;> rfl
      · refine none ?_ ?_
        · simp only [step, hp]
          cases w.comps[j]? with
          | none => rfl
          | some cj => simp [setComp, hj]
        · simp only [concerns, hp, hc]
          rw [if_neg (by rintro ⟨h, -⟩; exact hj h)]

private theorem run_history (i : Nat) : ∀ (ops : List (Op K)) (w : World K) (c : Comp K), w.comps[i]? = some c →
    ∃ l, (run w ops).comps[i]? = some (runOps c l) ∧ withoutReads l = withoutReads (callsOn i w ops)
  | [], w, c, hc => ⟨[], hc, rfl⟩
  | op :: ops, w, c, hc => by
    obtain ⟨l, h1, h2⟩ := step_history i w op hc
    obtain ⟨l', h3, h4⟩ := run_history i ops _ _ h1
    refine ⟨l ++ l', ?_, ?_⟩
    · rw [runOps_append]; exact h3
    · simp only [withoutReads, callsOn, List.filter_append] at *
      rw [h2, h4]

/-- **C97** (components): a constructor returns an object that did not exist before.  Whatever the program does afterwards, the object is what the constructor built,
after the calls of the program that concern it, in order, and some reads of its compiled form. -/
theorem C97_component (pre post : List (Op K)) (n : NewComp K) {r : Res K} (h : (step (run World.init pre) (.newComp n)).1 = .ok r) :
    ∃ i c0, r = .ref i ∧ (run World.init pre).comps[i]? = none ∧ n.run = .ok c0 ∧
      ∃ history, (run World.init (pre ++ .newComp n :: post)).comps[i]? = some (runOps c0 history) ∧
        withoutReads history = withoutReads (callsOn i (run World.init (pre ++ [.newComp n])) post) := by
  rw [run_append]
  have h2 : run World.init (pre ++ [.newComp n]) = (step (run World.init pre) (.newComp n)).2 := by rw [run_append]; rfl
  rw [h2]
  show ∃ i c0, _ ∧ _ ∧ _ ∧ ∃ history, (run (step (run World.init pre) (.newComp n)).2 post).comps[i]? = _ ∧ _
  generalize run World.init pre = w at h
  cases hn : n.run with
  | error e => simp [step, hn] at h
  | ok c0 =>
    simp only [step, hn] at h ⊢
    cases h
    exact ⟨_, c0, rfl, by simp, rfl, run_history _ post _ c0 (by simp)⟩

/-- **C97** (every component): the components of a program are those its constructor calls returned. -/
theorem C97_all (ops : List (Op K)) {i : Nat} {c : Comp K} (hc : (run World.init ops).comps[i]? = some c) :
    ∃ pre n post, ops = pre ++ .newComp n :: post ∧ (step (run World.init pre) (.newComp n)).1 = .ok (.ref i) := by
  induction ops using List.reverseRecOn generalizing c with
  | nil => simp [run, World.init] at hc
  | append_singleton ops op ih =>
    by_cases hold : ∃ c', (run World.init ops).comps[i]? = some c'
    · obtain ⟨c', hc'⟩ := hold
      obtain ⟨pre, n, post, rfl, h⟩ := ih hc'
      exact ⟨pre, n, post ++ [op], by simp, h⟩
    · have hnone : (run World.init ops).comps[i]? = none := by
        cases h : (run World.init ops).comps[i]? with
        | none => rfl
        | some c' => exact absurd ⟨c', h⟩ hold
      rw [run_append] at hc
      change (step (run World.init ops) op).2.comps[i]? = some c at hc
      have hlen : (run World.init ops).comps.length ≤ i := List.getElem?_eq_none_iff.1 hnone
      have hlen' : i < (step (run World.init ops) op).2.comps.length := (List.getElem?_eq_some_iff.1 hc).1
      have cl : ∀ (l : List (String × Nat)) (h : List (Comp K)), (compileComps h l).2.length = h.length := by
        intro l
        induction l with
        | nil => intro h; rfl
        | cons x l ihl =>
          intro h
          unfold compileComps
          split
          · rfl
          · split
            · simp [setComp]
            · rename_i j c' _
              have := ihl (setComp h x.2 c')
              split <;> rename_i heq <;> rw [heq] at this <;> simpa [setComp] using this
      cases op with
      | newComp n =>
        refine ⟨ops, n, [], rfl, ?_⟩
        simp only [step] at hlen' ⊢
        cases hn : n.run with
        | error e => rw [hn] at hlen'; simp only at hlen'; omega
        | ok c0 =>
          rw [hn] at hlen'
          simp only [List.length_append, List.length_singleton] at hlen' ⊢
          rw [show (run World.init ops).comps.length = i by omega]
      | comp j o => exfalso; simp only [step] at hlen'; split at hlen' <;> simp [setComp] at hlen' <;> omega
      | newProblem m lo hi => exfalso; simp only [step] at hlen'; split at hlen' <;> simp at hlen' <;> omega
      | updateVMin p v => exfalso; simp only [step] at hlen'; split at hlen' <;> simp at hlen' <;> omega
      | updateVMax p v => exfalso; simp only [step] at hlen'; split at hlen' <;> simp at hlen' <;> omega
      | add p j => exfalso; simp only [step] at hlen'; split at hlen' <;> simp [setComp] at hlen' <;> omega
      | remove p name => exfalso; simp only [step] at hlen'; split at hlen' <;> simp at hlen' <;> omega
      | compile p =>
        exfalso; simp only [step, compileProb] at hlen'
        split at hlen'
        · dsimp only at hlen'; omega
        · rename_i P _
          have := cl P.comps (run World.init ops).comps
          cases hcc : compileComps (run World.init ops).comps P.comps with
          | mk r h =>
            rw [hcc] at hlen' this
            cases r <;> simp only at hlen' this <;> omega
      | component p name => exfalso; simp only [step] at hlen'; split at hlen' <;> simp at hlen' <;> omega
      | task p name => exfalso; simp only [step] at hlen'; split at hlen' <;> simp at hlen' <;> omega
      | barrier p name => exfalso; simp only [step] at hlen'; split at hlen' <;> simp at hlen' <;> omega

/-- The gain an accepted `update_gain` stores. -/
private def fitGain : CompOp K → Option (Arr K)
  | .updateGain g => if g.shape.length ≤ 1 then some g else none
  | _ => none

private theorem accepted_gain : ∀ (l : List (CompOp K)) (c : Comp K), (accepted c l).filterMap gainArg = l.filterMap fitGain
  | [], _ => rfl
  | op :: l, c => by
    have ih := accepted_gain l (op.run c).2
    unfold accepted
    cases op with
    | updateGain g =>
      by_cases h : g.shape.length ≤ 1
      · have : (CompOp.run (.updateGain g) c).1 = .ok () := by
          simp only [CompOp.run, updateGain]
          rw [if_neg (by unfold Arr.ndim; omega)]
        rw [this]
        simp only [List.filterMap_cons, gainArg, fitGain, if_pos h]
        rw [ih]
      · have : (CompOp.run (.updateGain g) c).1 = .error .valueError := by
          simp only [CompOp.run, updateGain]
          rw [if_pos (by unfold Arr.ndim; omega)]
        rw [this]
        simp only [List.filterMap_cons, fitGain, if_neg h]
        exact ih
    | _ => split <;> simp only [List.filterMap_cons, gainArg, fitGain] <;> exact ih

private theorem fitGain_withoutReads (l : List (CompOp K)) : (withoutReads l).filterMap fitGain = l.filterMap fitGain := by
  induction l with
  | nil => rfl
  | cons op l ih =>
    unfold withoutReads at ih ⊢
    rw [List.filter_cons, List.filterMap_cons]
    cases op with
    | compile => exact ih
    | _ => rw [if_pos (show (!IsRead _) = true from rfl), List.filterMap_cons, ih]

/-- **C97** (gains): the gain of a component is the last acceptable one the program gave to this very object (a number or one-dimensional array), or that of its constructor. -/
theorem C97_gain (pre post : List (Op K)) (n : NewComp K) {i : Nat} (h : (step (run World.init pre) (.newComp n)).1 = .ok (.ref i)) :
    ∃ c, (run World.init (pre ++ .newComp n :: post)).comps[i]? = some c ∧
      c.attrs.gain = (gainsGiven i (post)).getLastD (gain0 n) := by
  obtain ⟨i', c0, hr, -, hn, l, h1, h2⟩ := C97_component pre post n h
  cases hr
  refine ⟨_, h1, ?_⟩
  rw [C80_gain hn, latest, accepted_gain, ← fitGain_withoutReads, h2, fitGain_withoutReads]
  congr 1
  clear h1 h2 h
  generalize run World.init (pre ++ [.newComp n]) = w
  induction post generalizing w with
  | nil => rfl
  | cons op post ih =>
    simp only [callsOn, List.filterMap_append]
    rw [ih]
    cases op with
    | comp j op =>
      cases op with
      | updateGain g =>
        simp only [concerns, gainsGiven]
        by_cases hj : j = i
        · by_cases hg : g.shape.length ≤ 1
          · simp [hj, hg, fitGain]
          · simp [hj, hg, fitGain]
        · simp [hj]
      | _ => simp only [concerns, gainsGiven]; split <;> simp [fitGain]
    | add p j =>
      simp only [concerns, gainsGiven]
      split
      · split <;> simp [fitGain]
      · simp
    | _ => simp [concerns, gainsGiven]

private theorem newProb_ok {m : MjModel K} {lo hi : Arr K} {P : Prob K} (h : newProb m lo hi = .ok P) :
    P.model = m ∧ VelOf m.nv lo P.vMin ∧ VelOf m.nv hi P.vMax := by
  have hv : ∀ v x : Arr K, expandVel m.nv v = .ok x → VelOf m.nv v x := by
    intro v x hx
    have := C06_update (K := K) ⟨m, lo, hi, []⟩ v
    simp only [Prob.updateVMin, hx] at this
    rcases this with ⟨-, -, h, -⟩ | ⟨-, h, -⟩
    · exact h
    · cases h
  unfold newProb at h
  cases h1 : expandVel m.nv lo with
  | error e => rw [h1] at h; cases h
  | ok x =>
    cases h2 : expandVel m.nv hi with
    | error e => rw [h1, h2] at h; cases h
    | ok y =>
      rw [h1, h2] at h
      cases h
      exact ⟨rfl, hv _ _ h1, hv _ _ h2⟩

/-- **C97** (problems): a new problem is an object that did not exist before.  Whatever the program does afterwards, it keeps its model, and its velocity limits are the
last acceptable ones the program gave to this very object. -/
theorem C97_problem (pre post : List (Op K)) (m : MjModel K) (lo hi : Arr K) {r : Res K}
    (h : (step (run World.init pre) (.newProblem m lo hi)).1 = .ok r) :
    ∃ p P, r = .ref p ∧ (run World.init pre).probs[p]? = none ∧ (run World.init (pre ++ .newProblem m lo hi :: post)).probs[p]? = some P ∧
      P.model = m ∧ VelOf m.nv ((vMinArgs p m.nv post).getLastD lo) P.vMin ∧ VelOf m.nv ((vMaxArgs p m.nv post).getLastD hi) P.vMax := by
  rw [run_append]
  show ∃ p P, _ ∧ _ ∧ (run (step (run World.init pre) (.newProblem m lo hi)).2 post).probs[p]? = _ ∧ _
  generalize run World.init pre = w at h
  cases hn : newProb m lo hi with
  | error e => simp [step, hn] at h
  | ok P0 =>
    simp only [step, hn] at h ⊢
    cases h
    obtain ⟨h1, h2, h3⟩ := newProb_ok hn
    have key : ∀ (post : List (Op K)) (w : World K) (p : Nat) (P : Prob K) (lo hi : Arr K), w.probs[p]? = some P → P.model = m →
        VelOf m.nv lo P.vMin → VelOf m.nv hi P.vMax → ∃ P', (run w post).probs[p]? = some P' ∧ P'.model = m ∧
          VelOf m.nv ((vMinArgs p m.nv post).getLastD lo) P'.vMin ∧ VelOf m.nv ((vMaxArgs p m.nv post).getLastD hi) P'.vMax := by
      intro post
      induction post with
      | nil => intro w p P lo hi a b c d; exact ⟨P, a, b, c, d⟩
      | cons op post ih =>
        intro w p P lo hi a b c d
        have hlt := (List.getElem?_eq_some_iff.1 a).1
        have same : (step w op).2.probs[p]? = some P → vMinArgs p m.nv (op :: post) = vMinArgs p m.nv post →
            vMaxArgs p m.nv (op :: post) = vMaxArgs p m.nv post → _ := fun e1 e2 e3 =>
          show ∃ P', (run (step w op).2 post).probs[p]? = some P' ∧ P'.model = m ∧ VelOf m.nv ((vMinArgs p m.nv (op :: post)).getLastD lo) P'.vMin ∧
            VelOf m.nv ((vMaxArgs p m.nv (op :: post)).getLastD hi) P'.vMax by rw [e2, e3]; exact ih _ p P lo hi e1 b c d
        have other : ∀ {q Q}, q ≠ p → (w.probs.set q Q)[p]? = some P := by
          intro q Q hq
          rw [List.getElem?_set_ne hq]; exact a
        have last : ∀ (v : Arr K) l d, (v :: l).getLastD d = l.getLastD v := fun v l d => by cases l <;> rfl
        have hstep := step_probs w op
        cases op with
        | newComp n => exact same (by rw [hstep]; exact a) rfl rfl
        | comp i o => exact same (by rw [hstep]; exact a) rfl rfl
        | compile q => exact same (by rw [hstep]; exact a) rfl rfl
        | component q name => exact same (by rw [hstep]; exact a) rfl rfl
        | task q name => exact same (by rw [hstep]; exact a) rfl rfl
        | barrier q name => exact same (by rw [hstep]; exact a) rfl rfl
        | newProblem m' lo' hi' =>
          refine same ?_ rfl rfl
          rw [hstep]
          dsimp only
          split
          · exact a
          · rw [List.getElem?_append_left hlt]; exact a
        | updateVMin q v =>
          by_cases hq : q = p
          · subst hq
            dsimp only at hstep
            rw [a] at hstep
            dsimp only at hstep
            have hp : (step w (.updateVMin q v)).2.probs[q]? = some (P.updateVMin v).2 := by
              rw [hstep, List.getElem?_set_self hlt]
            rcases C06_update P v with ⟨h1, -, h2, h3, -⟩ | ⟨h1, h2, -⟩
            · rw [b] at h1 h2
              have := ih _ q _ v hi hp (by rw [h3]; exact b) h2 (by rw [h3]; exact d)
              show ∃ P', (run (step w (.updateVMin q v)).2 post).probs[q]? = some P' ∧ _
              simp only [vMinArgs, vMaxArgs]
              rw [if_pos ⟨trivial, h1⟩, last]
              exact this
            · rw [b] at h1
              rw [h2] at hp
              refine same hp ?_ rfl
              simp only [vMinArgs]
              rw [if_neg (by rintro ⟨-, h⟩; exact h1 h)]
          · refine same ?_ (by simp [vMinArgs, hq]) rfl
            rw [hstep]
            dsimp only
            split
            · exact a
            · exact other hq
        | updateVMax q v =>
          by_cases hq : q = p
          · subst hq
            dsimp only at hstep
            rw [a] at hstep
            dsimp only at hstep
            have hp : (step w (.updateVMax q v)).2.probs[q]? = some (P.updateVMax v).2 := by
              rw [hstep, List.getElem?_set_self hlt]
            rcases C06_update P v with ⟨h1, -, -, -, -, h2, h3⟩ | ⟨h1, -, h2⟩
            · rw [b] at h1 h2
              have := ih _ q _ lo v hp (by rw [h3]; exact b) (by rw [h3]; exact c) h2
              show ∃ P', (run (step w (.updateVMax q v)).2 post).probs[q]? = some P' ∧ _
              simp only [vMinArgs, vMaxArgs]
              rw [if_pos ⟨trivial, h1⟩, last]
              exact this
            · rw [b] at h1
              rw [h2] at hp
              refine same hp rfl ?_
              simp only [vMaxArgs]
              rw [if_neg (by rintro ⟨-, h⟩; exact h1 h)]
          · refine same ?_ rfl (by simp [vMaxArgs, hq])
            rw [hstep]
            dsimp only
            split
            · exact a
            · exact other hq
        | add q j =>
          have hmv : ∀ cj, (P.addComponent j cj).2.1.model = P.model ∧ (P.addComponent j cj).2.1.vMin = P.vMin ∧ (P.addComponent j cj).2.1.vMax = P.vMax := by
            intro cj
            unfold Prob.addComponent
            split
            · exact ⟨rfl, rfl, rfl⟩
            · split <;> exact ⟨rfl, rfl, rfl⟩
          by_cases hq : q = p
          · subst hq
            dsimp only at hstep
            cases hj : w.comps[j]? with
            | none => rw [a, hj] at hstep; exact same (by rw [hstep]; exact a) rfl rfl
            | some cj =>
              rw [a, hj] at hstep
              dsimp only at hstep
              have hp : (step w (.add q j)).2.probs[q]? = some (P.addComponent j cj).2.1 := by
                rw [hstep, List.getElem?_set_self hlt]
              obtain ⟨x1, x2, x3⟩ := hmv cj
              exact ih _ q _ lo hi hp (by rw [x1]; exact b) (by rw [x2]; exact c) (by rw [x3]; exact d)
          · refine same ?_ rfl rfl
            rw [hstep]
            dsimp only
            split
            · exact other hq
            · exact a
        | remove q name =>
          by_cases hq : q = p
          · subst hq
            dsimp only at hstep
            rw [a] at hstep
            dsimp only at hstep
            have hp : (step w (.remove q name)).2.probs[q]? = some (P.removeComponent name) := by
              rw [hstep, List.getElem?_set_self hlt]
            exact ih _ q _ lo hi hp b c d
          · refine same ?_ rfl rfl
            rw [hstep]
            dsimp only
            split
            · exact a
            · exact other hq
    obtain ⟨P', k1, k2, k3, k4⟩ := key post ⟨w.comps, w.probs ++ [P0]⟩ w.probs.length P0 lo hi (by simp) h1 h2 h3
    exact ⟨_, P', rfl, by simp, k1, k2, k3, k4⟩

namespace HistoryEx

/-- Two tasks with different gains, one problem; the second task is added and then gets another gain, the first one gets an unacceptable one. -/
def pre : List (Op ℚ) := [.newComp (.comTask Ex.taskArgs)]
def post : List (Op ℚ) :=
  [.newProblem Ex.model (Ex.scalar (-1)) (Ex.scalar 1), .add 0 1, .compile 0, .comp 1 (.updateGain (Ex.scalar 7)),
   .comp 0 (.updateGain ⟨[1, 1], fun _ => 0⟩), .comp 0 (.updateGain (Ex.scalar 8)), .updateVMin 0 (Ex.scalar (-2))]

end HistoryEx

/-- The second task has the gain it was given, and so has the first; they are different objects. -/
example : (∃ c, (run World.init (HistoryEx.pre ++ .newComp (.jointTask Ex.taskArgs none) :: HistoryEx.post)).comps[1]? = some c ∧ c.attrs.gain = Ex.scalar 7) ∧
    ∃ c, (run World.init ([] ++ .newComp (.comTask Ex.taskArgs) :: (.newComp (.jointTask Ex.taskArgs none) :: HistoryEx.post))).comps[0]? = some c ∧
      c.attrs.gain = Ex.scalar 8 :=
  ⟨C97_gain HistoryEx.pre HistoryEx.post _ rfl, C97_gain [] _ _ rfl⟩

/-- The problem has the lower limit it was given later, for every degree of freedom, and the model it was made with. -/
example : ∃ P : Prob ℚ, (run World.init ((HistoryEx.pre ++ [.newComp (.jointTask Ex.taskArgs none)]) ++ HistoryEx.post)).probs[0]? = some P ∧
    P.model = Ex.model ∧ ∀ i < 11, P.vMin.get [i] = -2 := by
  obtain ⟨p, P, hr, -, h1, h2, h3, -⟩ := C97_problem (HistoryEx.pre ++ [.newComp (.jointTask Ex.taskArgs none)]) HistoryEx.post.tail Ex.model (Ex.scalar (-1))
    (Ex.scalar 1) rfl
  cases hr
  refine ⟨P, h1, h2, ?_⟩
  rcases h3 with ⟨-, ⟨-, h⟩ | ⟨h, -⟩⟩
  · exact h
  · cases h

end Mjinx.Props
