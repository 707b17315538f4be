import Verif.Props.Control
import Verif.Props.Problem

/-!
# Two runs that differ in one call on one component
-/

set_option linter.unusedSectionVars false

namespace Mjinx
open Spec Props
variable {K : Type} [Field K] [LinearOrder K]

/-- References in problems go to components of that name. -/
def Named (w : World K) : Prop :=
  ∀ (p : Nat) (P : Prob K), w.probs[p]? = some P → ∀ ni ∈ P.comps, ∃ c, w.comps[ni.2]? = some c ∧ c.attrs.name = ni.1

/-- Components stay and keep their names. -/
def KeepsNames (w w' : World K) : Prop :=
  ∀ (i : Nat) (c : Comp K), w.comps[i]? = some c → ∃ c', w'.comps[i]? = some c' ∧ c'.attrs.name = c.attrs.name

theorem keepsNames_set {w : World K} {i : Nat} {c c' : Comp K} (hi : w.comps[i]? = some c) (hn : c'.attrs.name = c.attrs.name) (ps : List (Prob K)) :
    KeepsNames w ⟨setComp w.comps i c', ps⟩ := by
  intro k x hx
  by_cases h : i = k
  · subst h
    rw [hi] at hx; cases hx
    have : i < w.comps.length := (List.getElem?_eq_some_iff.1 hi).1
    exact ⟨c', by simp [setComp, this], hn⟩
  · exact ⟨x, by simp [setComp, h, hx], rfl⟩

theorem maskFill_name {a b : Attrs K} (h : MaskFill a b) : b.name = a.name := by
  rcases h with rfl | ⟨_, _, rfl⟩ <;> rfl

theorem keepsNames_step {w : World K} (hw : ReachableW w) (op : Op K) : KeepsNames w (step w op).2 := by
  have refl : ∀ ps, KeepsNames w ⟨w.comps, ps⟩ := fun ps i c h => ⟨c, h, rfl⟩
  cases op with
  | newComp n =>
    simp only [step]
    split
    · exact refl _
    · intro i c h
      exact ⟨c, by
        have : i < w.comps.length := (List.getElem?_eq_some_iff.1 h).1
        simpa [List.getElem?_append_left this] using h, rfl⟩
  | comp i op =>
    cases hi : w.comps[i]? with
    | none => simp only [step, hi]; exact refl _
    | some c => simp only [step, hi]; exact keepsNames_set hi (run_name op c) _
  | newProblem m lo hi => simp only [step]; split <;> exact refl _
  | updateVMin p v => simp only [step]; split <;> exact refl _
  | updateVMax p v => simp only [step]; split <;> exact refl _
  | add p i =>
    cases hP : w.probs[p]? with
    | none => simp only [step, hP]; exact refl _
    | some P =>
      cases hi : w.comps[i]? with
      | none => simp only [step, hP, hi]; exact refl _
      | some c =>
        simp only [step, hP, hi]
        refine keepsNames_set hi ?_ _
        unfold Prob.addComponent
        split
        · rfl
        · have hn := (updateModel_frame P.model c).1
          split <;> (rename_i h; rw [h] at hn; exact hn)
  | remove p name => simp only [step]; split <;> exact refl _
  | compile p =>
    cases hP : w.probs[p]? with
    | none => simp only [step, hP]; exact refl _
    | some P =>
      simp only [step, hP]
      obtain ⟨-, h⟩ := compileComps_spec P.comps _ (cacheOK_world hw)
      intro i c hc
      obtain ⟨c', h1, h2, -⟩ := h.2 i c hc
      refine ⟨c', ?_, maskFill_name h2⟩
      unfold compileProb
      split <;> (rename_i h; rw [h] at h1; exact h1)
  | component p name => simp only [step]; split <;> exact refl _
  | task p name => simp only [step]; split <;> exact refl _
  | barrier p name => simp only [step]; split <;> exact refl _

theorem named_run (ops : List (Op K)) : Named (run (World.init (K := K)) ops) := by
  induction ops using List.reverseRecOn with
  | nil => intro p P h; simp [run, World.init] at h
  | append_singleton ops op ih =>
    rw [run_snoc]
    have hk := keepsNames_step (w := run World.init ops) ⟨ops, rfl⟩ op
    generalize run (World.init (K := K)) ops = w at ih hk
    have hold : ∀ (p : Nat) (P : Prob K), w.probs[p]? = some P → ∀ ni ∈ P.comps, ∃ c, (step w op).2.comps[ni.2]? = some c ∧ c.attrs.name = ni.1 := by
      intro p P hP ni hni
      obtain ⟨c, h1, h2⟩ := ih p P hP ni hni
      obtain ⟨c', h3, h4⟩ := hk _ _ h1
      exact ⟨c', h3, h4.trans h2⟩
    have hset : ∀ (q : Nat) (Q Q' : Prob K), w.probs[q]? = some Q → (∀ ni ∈ Q'.comps, ni ∈ Q.comps ∨ ∃ c, (step w op).2.comps[ni.2]? = some c ∧ c.attrs.name = ni.1) →
        (step w op).2.probs = w.probs.set q Q' → Named (step w op).2 := by
      intro q Q Q' hQ hQ' e p P hP ni hni
      rw [e] at hP
      by_cases h : q = p
      · subst h
        have hl : q < w.probs.length := (List.getElem?_eq_some_iff.1 hQ).1
        simp [hl] at hP
        subst hP
        rcases hQ' ni hni with h | h
        · exact hold q Q hQ ni h
        · exact h
      · simp [h] at hP
        exact hold p P hP ni hni
    have hsame : (step w op).2.probs = w.probs → Named (step w op).2 := by
      intro e p P hP
      rw [e] at hP
      exact hold p P hP
    have e := step_probs w op
    cases op with
    | newComp n => exact hsame e
    | comp i op => exact hsame e
    | newProblem m lo hi =>
      cases hn : newProb m lo hi with
      | error er => simp only [hn] at e; exact hsame e
      | ok Q =>
        simp only [hn] at e
        intro p P hP ni hni
        rw [e] at hP
        by_cases h : p < w.probs.length
        · rw [List.getElem?_append_left h] at hP
          exact hold p P hP ni hni
        · rw [List.getElem?_append_right (by omega)] at hP
          have : p - w.probs.length = 0 := by
            by_contra hne
            rw [List.getElem?_eq_none (by simp; omega)] at hP
            cases hP
          rw [this] at hP
          have hP : Q = P := by simpa using hP
          subst hP
          unfold newProb at hn
          split at hn
          · cases hn
          · split at hn
            · cases hn
            · cases hn
              cases hni
    | updateVMin q v =>
      cases hQ : w.probs[q]? with
      | none => simp only [hQ] at e; exact hsame e
      | some Q => simp only [hQ] at e; exact hset q Q _ hQ (fun ni h => Or.inl (by rwa [updateVMin_comps] at h)) e
    | updateVMax q v =>
      cases hQ : w.probs[q]? with
      | none => simp only [hQ] at e; exact hsame e
      | some Q => simp only [hQ] at e; exact hset q Q _ hQ (fun ni h => Or.inl (by rwa [updateVMax_comps] at h)) e
    | add q i =>
      cases hQ : w.probs[q]? with
      | none => simp only [hQ] at e; exact hsame e
      | some Q =>
        cases hi : w.comps[i]? with
        | none => simp only [hQ, hi] at e; exact hsame e
        | some c =>
          simp only [hQ, hi] at e
          refine hset q Q _ hQ (fun ni h => ?_) e
          rcases addComponent_cases Q i c with ⟨_, h1, h2⟩ | ⟨h1, h2, h3⟩
          · rw [h2] at h; exact Or.inl h
          · rw [h3] at h
            rcases List.mem_append.1 h with h | h
            · exact Or.inl h
            · rw [List.mem_singleton] at h
              subst h
              exact Or.inr (hk i c hi)
    | remove q name =>
      cases hQ : w.probs[q]? with
      | none => simp only [hQ] at e; exact hsame e
      | some Q =>
        simp only [hQ] at e
        refine hset q Q _ hQ (fun ni h => Or.inl ?_) e
        unfold Prob.removeComponent at h
        exact (List.mem_filter.1 h).1
    | compile p => exact hsame e
    | component p name => exact hsame e
    | task p name => exact hsame e
    | barrier p name => exact hsame e

/-- What compiling gives, component by component, as a function of the attributes. -/
theorem compile_results {w : World K} (hw : ReachableW w) {p : Nat} {J : JaxProblem K} (hJ : (step w (.compile p)).1 = .ok (.compiled J)) :
    ∃ P, w.probs[p]? = some P ∧ List.Forall₂ (fun (ni : String × Nat) (nj : String × JaxComp K) =>
      ni.1 = nj.1 ∧ ∃ c, w.comps[ni.2]? = some c ∧ compileResult c.attrs = .ok nj.2) P.comps J.comps := by
  cases hP : w.probs[p]? with
  | none => simp [step, hP] at hJ
  | some P =>
    obtain ⟨h1, -⟩ := compileComps_spec P.comps _ (cacheOK_world hw)
    simp only [step, hP, compileProb] at hJ
    cases hc : compileComps w.comps P.comps with
    | mk r h' =>
      rw [hc] at hJ h1
      cases r with
      | error e => simp [Except.map] at hJ
      | ok js =>
        simp only [Except.map, Except.ok.injEq, Res.compiled.injEq] at hJ
        subst hJ
        refine ⟨P, rfl, ?_⟩
        refine (compilePure_ok h1.symm).imp ?_
        intro ni nj h
        refine ⟨h.1, ?_⟩
        have h2 := h.2
        unfold heapResult at h2
        split at h2
        · cases h2
        · rename_i c hc
          exact ⟨c, hc, h2⟩

/-- Every term is what the compiled attributes of its component evaluate to. -/
theorem terms_results {ops : List (Op K)} {p : Nat} {P : Prob K} (hP : (run World.init ops).probs[p]? = some P) {J : JaxProblem K}
    (hJ : (step (run World.init ops) (.compile p)).1 = .ok (.compiled J)) {env : Env K} {d : MjData K} {ts : List (Term K)}
    (ht : TermsOf (run World.init ops) P J env d ts) :
    List.Forall₂ (fun (ni : String × Nat) (t : Term K) => ∃ c, (run World.init ops).comps[ni.2]? = some c ∧ t.attrs = c.attrs ∧
      ∃ j, compileResult c.attrs = .ok j ∧ evalJacobian env j d = .ok t.jac ∧ evalValue env j d = .ok t.value) P.comps ts := by
  obtain ⟨P', hP', hF⟩ := compile_results ⟨ops, rfl⟩ hJ
  rw [hP] at hP'; cases hP'
  have hn := C03_names_distinct ops hP
  have hall : ∀ nj ∈ J.comps, ∃ i c, (nj.1, i) ∈ P.comps ∧ (run World.init ops).comps[i]? = some c ∧ compileResult c.attrs = .ok nj.2 := by
    clear ht
    intro nj hnj
    revert hF
    generalize P.comps = l
    generalize J.comps = m at hnj
    intro hF
    induction hF with
    | nil => cases hnj
    | @cons x y xs ys h1 h2 ih =>
      rcases List.mem_cons.1 hnj with rfl | h
      · obtain ⟨e, c, h3, h4⟩ := h1
        exact ⟨x.2, c, by rw [← e]; simp, h3, h4⟩
      · obtain ⟨i, c, h3, h4⟩ := ih h
        exact ⟨i, c, by simp [h3], h4⟩
  unfold TermsOf at ht
  have huniq : ∀ (nm : String) (i i' : Nat), (nm, i) ∈ P.comps → (nm, i') ∈ P.comps → i = i' := by
    intro nm i i' h1 h2
    have := List.inj_on_of_nodup_map hn h1 h2 rfl
    exact (Prod.mk.inj this).2
  have gen : ∀ (l : List (String × Nat)) (ts : List (Term K)), (∀ x ∈ l, x ∈ P.comps) →
      List.Forall₂ (fun (ni : String × Nat) (t : Term K) => ∃ c, (run World.init ops).comps[ni.2]? = some c ∧ t.attrs = c.attrs ∧
        ∃ j, (ni.1, j) ∈ J.comps ∧ evalJacobian env j d = .ok t.jac ∧ evalValue env j d = .ok t.value) l ts →
      List.Forall₂ (fun (ni : String × Nat) (t : Term K) => ∃ c, (run World.init ops).comps[ni.2]? = some c ∧ t.attrs = c.attrs ∧
        ∃ j, compileResult c.attrs = .ok j ∧ evalJacobian env j d = .ok t.jac ∧ evalValue env j d = .ok t.value) l ts := by
    intro l ts hl h
    induction h with
    | nil => exact .nil
    | @cons x t xs ts h1 h2 ih =>
      refine .cons ?_ (ih fun y hy => hl y (by simp [hy]))
      obtain ⟨c, a1, a2, j, a3, a4, a5⟩ := h1
      obtain ⟨i, c', b1, b2, b3⟩ := hall _ a3
      have hi : i = x.2 := huniq x.1 _ _ b1 (hl x (by simp))
      subst hi
      rw [a1] at b2; cases b2
      exact ⟨c, a1, a2, j, b3, a4, a5⟩
  exact gen _ _ (fun _ h => h) ht

theorem forall₂_split {α β : Type} {R : α → β → Prop} : ∀ {xs ys : List α} {zs : List β}, List.Forall₂ R (xs ++ ys) zs →
    ∃ a b, List.Forall₂ R xs a ∧ List.Forall₂ R ys b ∧ zs = a ++ b
  | [], _, zs, h => ⟨[], zs, .nil, h, rfl⟩
  | _ :: xs, ys, _ :: zs, .cons h hs => by
    obtain ⟨a, b, h1, h2, rfl⟩ := forall₂_split (xs := xs) hs
    exact ⟨_ :: a, b, .cons h h1, h2, rfl⟩

/-- Two runs that differ in one last call on component `k`: the terms of the other components are the same. -/
theorem edit_terms {ops : List (Op K)} {p k : Nat} {nm : String} {P : Prob K} (hP : (run World.init ops).probs[p]? = some P) (hk : (nm, k) ∈ P.comps) {c : Comp K}
    (hc : (run World.init ops).comps[k]? = some c) (op : CompOp K) {J J' : JaxProblem K} (hJ : (step (run World.init ops) (.compile p)).1 = .ok (.compiled J))
    (hJ' : (step (run World.init (ops ++ [.comp k op])) (.compile p)).1 = .ok (.compiled J')) {env : Env K} {d : MjData K} {ts ts' : List (Term K)}
    (ht : TermsOf (run World.init ops) P J env d ts) (ht' : TermsOf (run World.init (ops ++ [.comp k op])) P J' env d ts') :
    ∃ a t t' b, ts = a ++ t :: b ∧ ts' = a ++ t' :: b ∧ P.comps[a.length]? = some (nm, k) ∧ t.attrs = c.attrs ∧ t'.attrs = (op.run c).2.attrs ∧
      ∃ j j', compileResult c.attrs = .ok j ∧ compileResult (op.run c).2.attrs = .ok j' ∧
        evalJacobian env j d = .ok t.jac ∧ evalValue env j d = .ok t.value ∧ evalJacobian env j' d = .ok t'.jac ∧ evalValue env j' d = .ok t'.value := by
  have hrun : run World.init (ops ++ [.comp k op]) = ⟨setComp (run World.init ops).comps k (op.run c).2, (run World.init ops).probs⟩ := by
    rw [run_snoc]; simp only [step, hc]
  have hP' : (run World.init (ops ++ [.comp k op])).probs[p]? = some P := by rw [hrun]; exact hP
  have h1 := terms_results hP hJ ht
  have h2 := terms_results hP' hJ' ht'
  have hnames := named_run ops p P hP
  have hn := C03_names_distinct ops hP
  obtain ⟨A, B, hAB⟩ := List.append_of_mem hk
  have hne : ∀ x ∈ P.comps, x ≠ (nm, k) → x.2 ≠ k := by
    intro x hx hxn he
    obtain ⟨c1, e1, e2⟩ := hnames x hx
    obtain ⟨c2, e3, e4⟩ := hnames _ hk
    rw [he, hc] at e1
    rw [hc] at e3
    cases e1; cases e3
    exact hxn (Prod.ext (e2.symm.trans e4) he)
  rw [hAB] at hn hne h1 h2 ⊢
  have hk1 : (run World.init (ops ++ [.comp k op])).comps[k]? = some (op.run c).2 := by
    have : k < (run World.init ops).comps.length := (List.getElem?_eq_some_iff.1 hc).1
    rw [hrun]; simp [setComp, this]
  have hk2 : ∀ i, i ≠ k → (run World.init (ops ++ [.comp k op])).comps[i]? = (run World.init ops).comps[i]? := by
    intro i hi
    rw [hrun]; simp [setComp, Ne.symm hi]
  have hsame : ∀ (l : List (String × Nat)) (us us' : List (Term K)), (∀ x ∈ l, x.2 ≠ k) →
      List.Forall₂ (fun (ni : String × Nat) (t : Term K) => ∃ c, (run World.init ops).comps[ni.2]? = some c ∧ t.attrs = c.attrs ∧
        ∃ j, compileResult c.attrs = .ok j ∧ evalJacobian env j d = .ok t.jac ∧ evalValue env j d = .ok t.value) l us →
      List.Forall₂ (fun (ni : String × Nat) (t : Term K) => ∃ c, (run World.init (ops ++ [.comp k op])).comps[ni.2]? = some c ∧ t.attrs = c.attrs ∧
        ∃ j, compileResult c.attrs = .ok j ∧ evalJacobian env j d = .ok t.jac ∧ evalValue env j d = .ok t.value) l us' → us = us' := by
    intro l us us' hl g1
    induction g1 generalizing us' with
    | nil => intro g2; cases g2; rfl
    | @cons x t xs ts a1 a2 ih =>
      intro g2
      cases g2 with
      | @cons _ t' _ ts' b1 b2 =>
        obtain ⟨c1, x1, x2, j, x3, x4, x5⟩ := a1
        obtain ⟨c2, y1, y2, j', y3, y4, y5⟩ := b1
        rw [hk2 _ (hl x (by simp)), x1] at y1
        cases y1
        rw [x3] at y3; cases y3
        rw [x4] at y4; rw [x5] at y5
        have e1 := Except.ok.inj y4
        have e2 := Except.ok.inj y5
        rw [ih _ (fun y hy => hl y (by simp [hy])) b2]
        congr 1
        cases t; cases t'
        simp_all
  obtain ⟨a, b, f1, f2, rfl⟩ := forall₂_split h1
  obtain ⟨a', b', f1', f2', rfl⟩ := forall₂_split h2
  have hnd : (A ++ (nm, k) :: B).Nodup := List.Nodup.of_map _ hn
  have hA : ∀ x ∈ A, x.2 ≠ k := fun x hx => hne x (by simp [hx]) (by
    rintro rfl
    rw [List.nodup_append] at hnd
    exact hnd.2.2 _ hx _ (by simp) rfl)
  have hB : ∀ x ∈ B, x.2 ≠ k := fun x hx => hne x (by simp [hx]) (by
    rintro rfl
    rw [List.nodup_append] at hnd
    exact (List.nodup_cons.1 hnd.2.1).1 hx)
  have ea := hsame A a a' hA f1 f1'
  subst ea
  cases f2 with
  | @cons _ t _ b g1 g2 =>
    cases f2' with
    | @cons _ t' _ b' g1' g2' =>
      have eb := hsame B b b' hB g2 g2'
      subst eb
      obtain ⟨c1, x1, x2, j, x3, x4, x5⟩ := g1
      obtain ⟨c2, y1, y2, j', y3, y4, y5⟩ := g1'
      rw [hc] at x1; cases x1
      rw [hk1] at y1; cases y1
      refine ⟨a, t, t', b, rfl, rfl, ?_, x2, y2, j, j', x3, y3, x4, x5, y4, y5⟩
      rw [← f1.length_eq]
      simp

end Mjinx
