import Verif.Spec.Batch
import Verif.Props.Vmap

/-!
# C79: A batch of targets is solved as if each target had been set alone

Setters accept arrays of targets with extra axes in front.  With the batch axis given to `set_vmap_dimension`, element `k` of the compiled
problem is the problem compiled with target `k`.
-/

set_option linter.unusedSectionVars false
set_option linter.unusedTactic false

namespace Mjinx.Props
open Mjinx Mjinx.Spec
variable {K : Type} [Field K] [LinearOrder K]

/-- The target a component holds. -/
def target? : Kind K → Option (Arr K)
  | .comTask _ x => some x
  | .jointTask _ _ x _ => x
  | .positionTask _ _ x => some x
  | .frameTask _ _ x => some x
  | _ => none

def setT (x : Arr K) : Kind K → Kind K
  | .comTask t _ => .comTask t x
  | .jointTask t f _ q => .jointTask t f (some x) q
  | .positionTask t o _ => .positionTask t o x
  | .frameTask t o _ => .frameTask t o x
  | k => k

def jtarget? : JaxKind K → Option (Arr K)
  | .comTask _ _ x => some x
  | .jointTask _ _ x _ => some x
  | .positionTask _ _ _ _ x => some x
  | .frameTask _ _ _ _ x => some x
  | _ => none

def jsetT (x : Arr K) : JaxKind K → JaxKind K
  | .comTask w l _ => .comTask w l x
  | .jointTask w l _ q => .jointTask w l x q
  | .positionTask w l i t _ => .positionTask w l i t x
  | .frameTask w l i t _ => .frameTask w l i t x
  | k => k

theorem setT_setT (x y : Arr K) (k : Kind K) : setT x (setT y k) = setT x k := by cases k <;> rfl

/-- The attributes with another target. -/
def withT (a : Attrs K) (x : Arr K) : Attrs K := { a with kind := setT x a.kind }

theorem withT_withT (a : Attrs K) (x y : Arr K) : withT (withT a y) x = withT a x := by simp [withT, setT_setT]

theorem slice_element {B k : Nat} (hk : k < B) {x : Arr K} {n : Nat} {s : List Nat} (h : x.shape = B :: n :: s) :
    SliceArr k x (element k x) := ⟨B, by simp [element, h], hk, fun _ _ => rfl⟩

theorem lastDim_element {B k : Nat} {x : Arr K} {n : Nat} {s : List Nat} (h : x.shape = B :: n :: s) :
    (element k x).lastDim = x.lastDim := by
  simp only [Arr.lastDim, element, h, List.tail_cons, List.getLast?_cons_cons]

theorem slice_frame {B k : Nat} (hk : k < B) {x : Arr K} {n : Nat} {s : List Nat} (h : x.shape = B :: n :: s) :
    SliceArr k (frameOfArray x) (frameOfArray (element k x)) := by
  refine ⟨B, by simp [frameOfArray, element, h], hk, ?_⟩
  intro ix hix
  have hne : ix ≠ [] := by
    intro h0
    rw [h0] at hix
    simp [frameOfArray, element, h] at hix
  obtain ⟨b, l, rfl⟩ := List.exists_cons_of_ne_nil hne
  rfl

/-- One accepted call. -/
theorem batched_call {B k : Nat} (hk : k < B) {op : CompOp K} (hb : BatchedTarget B op) {c : Comp K}
    (hok : (op.run c).1 = .ok ()) : ∃ x y, SliceArr k x y ∧ target? (setT x c.attrs.kind) = some x ∧ (op.run c).2.attrs = withT c.attrs x ∧
      ∀ c' : Comp K, (c'.attrs = c.attrs ∨ ∃ z, c'.attrs = withT c.attrs z) →
        ((elementCall k op).run c').1 = .ok () ∧ ((elementCall k op).run c').2.attrs = withT c.attrs y := by
  cases op <;> try exact hb.elim
  case updateTarget x =>
    obtain ⟨n, s, hs⟩ := hb
    refine ⟨x, element k x, slice_element hk hs, ?_⟩
    have hl := lastDim_element (k := k) hs
    simp only [CompOp.run, elementCall] at hok ⊢
    unfold updateTarget at hok ⊢
    cases hkd : c.attrs.kind <;> simp only [hkd] at hok ⊢ <;> try (cases hok; done)
    case comTask t x0 =>
      cases hd : x.lastDim with
      | error e => rw [hd] at hok; cases hok
      | ok n =>
        rw [hd] at hl
        simp only [hd] at hok ⊢
        by_cases hn : (n : Int) ≠ c.attrs.dim
        · rw [if_pos hn] at hok; cases hok
        · rw [if_neg hn]
          refine ⟨rfl, by simp [Comp.set, withT, hkd, setT], fun c' hc' => ?_⟩
          have e : ∃ t0, c'.attrs.kind = .comTask t t0 ∧ withT c'.attrs (element k x) = withT c.attrs (element k x) := by
            rcases hc' with h | ⟨z, h⟩
            · exact ⟨x0, by rw [h, hkd], by rw [h]⟩
            · exact ⟨z, by rw [h]; simp [withT, hkd, setT], by rw [h, withT_withT]⟩
          have ed : c'.attrs.dim = c.attrs.dim := by rcases hc' with h | ⟨z, h⟩ <;> rw [h]; rfl
          obtain ⟨t0, e1, e2⟩ := e
          rw [← e2]
          simp only [e1, hl, ed, if_neg hn, withT, Comp.set, setT]
          trivial
    case jointTask t fm x0 qi =>
      by_cases hm : c.attrs.dim = -1
      · rw [if_pos hm]
        refine ⟨rfl, by simp [Comp.set, withT, hkd, setT], fun c' hc' => ?_⟩
        have e : ∃ t0, c'.attrs.kind = .jointTask t fm t0 qi ∧ withT c'.attrs (element k x) = withT c.attrs (element k x) := by
          rcases hc' with h | ⟨z, h⟩
          · exact ⟨x0, by rw [h, hkd], by rw [h]⟩
          · exact ⟨some z, by rw [h]; simp [withT, hkd, setT], by rw [h, withT_withT]⟩
        have ed : c'.attrs.dim = c.attrs.dim := by rcases hc' with h | ⟨z, h⟩ <;> rw [h]; rfl
        obtain ⟨t0, e1, e2⟩ := e
        rw [← e2]
        simp only [e1, ed, if_pos hm, withT, Comp.set, setT]
        trivial
      · rw [if_neg hm] at hok ⊢
        cases hd : x.lastDim with
        | error e => rw [hd] at hok; cases hok
        | ok n =>
          rw [hd] at hl
          simp only [hd] at hok ⊢
          by_cases hn : (n : Int) ≠ c.attrs.dim
          · rw [if_pos hn] at hok; cases hok
          · rw [if_neg hn]
            refine ⟨rfl, by simp [Comp.set, withT, hkd, setT], fun c' hc' => ?_⟩
            have e : ∃ t0, c'.attrs.kind = .jointTask t fm t0 qi ∧ withT c'.attrs (element k x) = withT c.attrs (element k x) := by
              rcases hc' with h | ⟨z, h⟩
              · exact ⟨x0, by rw [h, hkd], by rw [h]⟩
              · exact ⟨some z, by rw [h]; simp [withT, hkd, setT], by rw [h, withT_withT]⟩
            have ed : c'.attrs.dim = c.attrs.dim := by rcases hc' with h | ⟨z, h⟩ <;> rw [h]; rfl
            obtain ⟨t0, e1, e2⟩ := e
            rw [← e2]
            simp only [e1, ed, hl, if_neg hm, if_neg hn, withT, Comp.set, setT]
            trivial
    case positionTask t o x0 =>
      cases hd : x.lastDim with
      | error e => rw [hd] at hok; cases hok
      | ok n =>
        rw [hd] at hl
        simp only [hd] at hok ⊢
        by_cases hn : (n : Int) ≠ c.attrs.dim
        · rw [if_pos hn] at hok; cases hok
        · rw [if_neg hn]
          refine ⟨rfl, by simp [Comp.set, withT, hkd, setT], fun c' hc' => ?_⟩
          have e : ∃ t0, c'.attrs.kind = .positionTask t o t0 ∧ withT c'.attrs (element k x) = withT c.attrs (element k x) := by
            rcases hc' with h | ⟨z, h⟩
            · exact ⟨x0, by rw [h, hkd], by rw [h]⟩
            · exact ⟨z, by rw [h]; simp [withT, hkd, setT], by rw [h, withT_withT]⟩
          have ed : c'.attrs.dim = c.attrs.dim := by rcases hc' with h | ⟨z, h⟩ <;> rw [h]; rfl
          obtain ⟨t0, e1, e2⟩ := e
          rw [← e2]
          simp only [e1, hl, ed, if_neg hn, withT, Comp.set, setT]
          trivial
  case updateTargetFrame fa =>
    cases fa with
    | se3 x =>
      obtain ⟨n, s, hs⟩ := hb
      refine ⟨x, element k x, slice_element hk hs, ?_⟩
      simp only [CompOp.run, elementCall] at hok ⊢
      unfold updateTargetFrame at hok ⊢
      cases hkd : c.attrs.kind <;> simp only [hkd] at hok ⊢ <;> try (cases hok; done)
      case frameTask t o x0 =>
        refine ⟨rfl, by simp [Comp.set, withT, hkd, setT], fun c' hc' => ?_⟩
        have e : ∃ t0, c'.attrs.kind = .frameTask t o t0 ∧ withT c'.attrs (element k x) = withT c.attrs (element k x) := by
          rcases hc' with h | ⟨z, h⟩
          · exact ⟨x0, by rw [h, hkd], by rw [h]⟩
          · exact ⟨z, by rw [h]; simp [withT, hkd, setT], by rw [h, withT_withT]⟩
        obtain ⟨t0, e1, e2⟩ := e
        rw [← e2]
        simp only [e1, withT, Comp.set, setT]
        trivial
    | array x =>
      obtain ⟨n, s, hs⟩ := hb
      refine ⟨frameOfArray x, frameOfArray (element k x), slice_frame hk hs, ?_⟩
      have hl := lastDim_element (k := k) hs
      simp only [CompOp.run, elementCall] at hok ⊢
      unfold updateTargetFrame at hok ⊢
      cases hkd : c.attrs.kind <;> simp only [hkd] at hok ⊢ <;> try (cases hok; done)
      case frameTask t o x0 =>
        cases hd : x.lastDim with
        | error e => rw [hd] at hok; cases hok
        | ok n =>
          rw [hd] at hl
          simp only [hd] at hok ⊢
          by_cases hn : n ≠ 7
          · rw [if_pos hn] at hok; cases hok
          · rw [if_neg hn]
            refine ⟨rfl, by simp [Comp.set, withT, hkd, setT], fun c' hc' => ?_⟩
            have e : ∃ t0, c'.attrs.kind = .frameTask t o t0 ∧
                withT c'.attrs (frameOfArray (element k x)) = withT c.attrs (frameOfArray (element k x)) := by
              rcases hc' with h | ⟨z, h⟩
              · exact ⟨x0, by rw [h, hkd], by rw [h]⟩
              · exact ⟨z, by rw [h]; simp [withT, hkd, setT], by rw [h, withT_withT]⟩
            obtain ⟨t0, e1, e2⟩ := e
            rw [← e2]
            simp only [e1, hl, if_neg hn, withT, Comp.set, setT]
            trivial

/-! ### Programs -/

/-- Components after the batched calls and after the calls with element `k`. -/
def RelC (k : Nat) (c c' : Comp K) : Prop :=
  ∃ x y, SliceArr k x y ∧ target? c.attrs.kind = some x ∧ c'.attrs = withT c.attrs y

structure RelW (k : Nat) (ids : List Nat) (w w' : World K) : Prop where
  probs : w'.probs = w.probs
  len : w'.comps.length = w.comps.length
  rel : ∀ i c c', w.comps[i]? = some c → w'.comps[i]? = some c' → if i ∈ ids then RelC k c c' else c' = c

theorem rel_step {B k : Nat} (hk : k < B) {ids : List Nat} {w w' : World K} (h : RelW k ids w w') {i : Nat} {op : CompOp K}
    (hb : BatchedTarget B op) {r : Res K} (hok : (step w (.comp i op)).1 = .ok r) :
    (step w' (.comp i (elementCall k op))).1 = .ok .none ∧
      RelW k (i :: ids) (step w (.comp i op)).2 (step w' (.comp i (elementCall k op))).2 := by
  cases hc : w.comps[i]? with
  | none => simp [step, hc] at hok
  | some c =>
    have hi : i < w.comps.length := (List.getElem?_eq_some_iff.1 hc).1
    obtain ⟨c', hc'⟩ : ∃ c', w'.comps[i]? = some c' := ⟨_, List.getElem?_eq_getElem (by rw [h.len]; exact hi)⟩
    simp only [step, hc, hc'] at hok ⊢
    have hok' : (op.run c).1 = .ok () := by
      cases h1 : (op.run c).1 with
      | error e => rw [h1] at hok; cases hok
      | ok u => rfl
    obtain ⟨x, y, h1, h2, h3, h4⟩ := batched_call hk hb hok'
    have hrel : c'.attrs = c.attrs ∨ ∃ z, c'.attrs = withT c.attrs z := by
      have := h.rel i c c' hc hc'
      split at this
      · obtain ⟨_, z, _, _, hz⟩ := this
        exact Or.inr ⟨z, hz⟩
      · exact Or.inl (by rw [this])
    obtain ⟨h5, h6⟩ := h4 c' hrel
    refine ⟨by rw [h5]; rfl, h.probs, by simp [setComp, h.len], ?_⟩
    intro n d d' hd hd'
    simp only [setComp] at hd hd'
    by_cases hn : i = n
    · subst hn
      rw [List.getElem?_set_self hi] at hd
      rw [List.getElem?_set_self (by rw [h.len]; exact hi)] at hd'
      cases hd
      cases hd'
      rw [if_pos (by simp)]
      refine ⟨x, y, h1, ?_, ?_⟩
      · rw [h3]; exact h2
      · rw [h6, h3, withT_withT]
    · rw [List.getElem?_set_ne hn] at hd hd'
      have := h.rel n d d' hd hd'
      simp only [List.mem_cons]
      by_cases hm : n ∈ ids
      · rw [if_pos hm] at this
        rw [if_pos (Or.inr hm)]
        exact this
      · rw [if_neg hm] at this
        rw [if_neg (by rintro (rfl | h); exacts [hn rfl, hm h])]
        exact this

theorem rel_run {B k : Nat} (hk : k < B) : ∀ (us : List (Nat × CompOp K)) (ids : List Nat) (w w' : World K), RelW k ids w w' →
    (∀ u ∈ us, BatchedTarget B u.2) → Accepted w (calls us) →
    Accepted w' (calls (us.map fun u => (u.1, elementCall k u.2))) ∧
      ∃ ids', (∀ i, i ∈ ids' ↔ i ∈ ids ∨ i ∈ us.map (fun u => u.1)) ∧
        RelW k ids' (run w (calls us)) (run w' (calls (us.map fun u => (u.1, elementCall k u.2))))
  | [], ids, w, w', h, _, _ => ⟨trivial, ids, by simp, h⟩
  | u :: us, ids, w, w', h, hb, ha => by
    obtain ⟨⟨r, hr⟩, ha⟩ := ha
    obtain ⟨h1, h2⟩ := rel_step hk h (hb u (by simp)) hr
    obtain ⟨h3, ids', h4, h5⟩ := rel_run hk us _ _ _ h2 (fun v hv => hb v (by simp [hv])) ha
    refine ⟨⟨⟨_, h1⟩, h3⟩, ids', fun i => ?_, h5⟩
    rw [h4]
    simp only [List.mem_cons, List.map_cons]
    tauto

/-! ### Compiling -/

/-- Compiled components. -/
def RelJ (k : Nat) (j j' : JaxComp K) : Prop :=
  ∃ x y, SliceArr k x y ∧ jtarget? j.kind = some x ∧ j' = { j with kind := jsetT y j.kind }

theorem build_withT {a : Attrs K} {x : Arr K} (hx : target? a.kind = some x) (y : Arr K) {jk : JaxKind K} (h : buildKind a = .ok jk) :
    jtarget? jk = some x ∧ buildKind (withT a y) = .ok (jsetT y jk) := by
  cases hk : a.kind <;> rw [hk] at hx <;> simp only [target?, reduceCtorEq] at hx
  case comTask t x0 =>
    cases hx
    simp only [buildKind, hk, withT, setT] at h ⊢
    obtain ⟨w, hw, h⟩ := Except.bind_eq_ok h
    cases h
    simp only [hw, bind, Except.bind]
    exact ⟨rfl, rfl⟩
  case jointTask t fm x0 qi =>
    subst hx
    simp only [buildKind, hk, withT, setT] at h ⊢
    obtain ⟨w, hw, h⟩ := Except.bind_eq_ok h
    cases qi with
    | none => cases h
    | some q =>
      cases h
      simp only [hw, bind, Except.bind]
      exact ⟨rfl, rfl⟩
  case positionTask t o x0 =>
    cases hx
    simp only [buildKind, hk, withT, setT] at h ⊢
    obtain ⟨w, hw, h⟩ := Except.bind_eq_ok h
    cases h
    simp only [hw, bind, Except.bind]
    exact ⟨rfl, rfl⟩
  case frameTask t o x0 =>
    cases hx
    simp only [buildKind, hk, withT, setT] at h ⊢
    obtain ⟨w, hw, h⟩ := Except.bind_eq_ok h
    cases h
    simp only [hw, bind, Except.bind]
    exact ⟨rfl, rfl⟩

theorem compileResult_eq (a : Attrs K) : compileResult a =
    (match a.model with
     | none => .error .valueError
     | some m => if a.dim = -1 then .error .valueError else (buildComponent m (Comp.fresh a)).1) := by
  unfold compileResult jaxComponent
  simp only [Comp.fresh]
  cases a.model with
  | none => rfl
  | some m =>
    by_cases hd : a.dim = -1
    · simp [hd]
    · simp only [if_neg hd]
      cases h : buildComponent m { attrs := a, modified := true, cache := none } with
      | mk r c => cases r <;> simp

theorem compile_withT {k : Nat} {c c' : Comp K} (h : RelC k c c') {j : JaxComp K} (hj : compileResult c.attrs = .ok j) :
    ∃ j', compileResult c'.attrs = .ok j' ∧ RelJ k j j' := by
  obtain ⟨x, y, h1, h2, h3⟩ := h
  rw [h3]
  rw [compileResult_eq] at hj ⊢
  cases hm : c.attrs.model with
  | none => rw [hm] at hj; cases hj
  | some m =>
    have hm' : (withT c.attrs y).model = some m := hm
    rw [hm] at hj
    rw [hm']
    simp only at hj ⊢
    by_cases hd : c.attrs.dim = -1
    · rw [if_pos hd] at hj; cases hj
    · have hd' : ¬ (withT c.attrs y).dim = -1 := hd
      rw [if_neg hd, buildComponent_fst, ensureMask_eq] at hj
      rw [if_neg hd', buildComponent_fst, ensureMask_eq]
      obtain ⟨g, hg, hj⟩ := Except.bind_eq_ok hj
      obtain ⟨u, hu, hj⟩ := Except.bind_eq_ok hj
      obtain ⟨jk, hjk, hj⟩ := Except.bind_eq_ok hj
      cases hj
      obtain ⟨h4, h5⟩ := build_withT h2 y hjk
      refine ⟨_, ?_, x, y, h1, h4, rfl⟩
      have hg' : vectorGain (Comp.fresh (withT c.attrs y)).attrs = .ok g := by
        rw [← hg]; exact vectorGain_congr rfl rfl
      have hk' : buildKind (Comp.fresh (withT c.attrs y)).attrs = .ok (jsetT y jk) := h5
      have hu' : (if (Comp.fresh (withT c.attrs y)).attrs.mask.isSome then .ok () else if (Comp.fresh (withT c.attrs y)).attrs.dim = -1
          then .error .valueError else if (Comp.fresh (withT c.attrs y)).attrs.dim < 0 then .error .typeError else .ok () : Except Err Unit) =
          .ok u := hu
      simp only [hg', hu', hk', bind, Except.bind]
      rfl

theorem compile_rel {k : Nat} {ids : List Nat} {w w' : World K} (h : RelW k ids w w') : ∀ (l : List (String × Nat))
    {js : List (String × JaxComp K)}, compilePure (heapResult w.comps) l = .ok js →
    ∃ js', compilePure (heapResult w'.comps) l = .ok js' ∧
      List.Forall₂ (fun (x y : String × JaxComp K) => y.1 = x.1 ∧ ∃ i, (x.1, i) ∈ l ∧ if i ∈ ids then RelJ k x.2 y.2 else y.2 = x.2) js js'
  | [], js, hj => by cases hj; exact ⟨[], rfl, .nil⟩
  | (nm, i) :: l, js, hj => by
    simp only [compilePure] at hj
    split at hj
    · cases hj
    · rename_i j h1
      split at hj
      · cases hj
      · rename_i js1 h2
        cases hj
        obtain ⟨js', h3, h4⟩ := compile_rel h l h2
        have key : ∃ j', heapResult w'.comps i = .ok j' ∧ if i ∈ ids then RelJ k j j' else j' = j := by
          unfold heapResult at h1 ⊢
          cases hc : w.comps[i]? with
          | none => rw [hc] at h1; cases h1
          | some c =>
            have hi : i < w.comps.length := (List.getElem?_eq_some_iff.1 hc).1
            obtain ⟨c', hc'⟩ : ∃ c', w'.comps[i]? = some c' := ⟨_, List.getElem?_eq_getElem (by rw [h.len]; exact hi)⟩
            rw [hc] at h1
            rw [hc']
            have hr := h.rel i c c' hc hc'
            by_cases hm : i ∈ ids
            · rw [if_pos hm] at hr
              simp only [if_pos hm]
              exact compile_withT hr h1
            · rw [if_neg hm] at hr
              subst hr
              simp only [if_neg hm]
              exact ⟨j, h1, rfl⟩
        obtain ⟨j', h5, h6⟩ := key
        refine ⟨(nm, j') :: js', by simp only [compilePure, h5, h3], .cons ⟨rfl, i, by simp, h6⟩ (h4.imp ?_)⟩
        rintro x y ⟨e, n, hn, hr⟩
        exact ⟨e, n, by simp [hn], hr⟩

/-! ### Trees -/

theorem paths_ofList {S A : Type} : ∀ (l : List (String × PyTree S A)),
    (Kids.ofList l).paths = l.flatMap (fun x => x.2.paths.map (fun y => (x.1 :: y.1, y.2)))
  | [] => rfl
  | (n, t) :: l => by rw [Kids.ofList, Kids.paths, paths_ofList l]; rfl

theorem forall₂_flatMap {α β γ δ : Type} {R : α → β → Prop} {S : γ → δ → Prop} {f : α → List γ} {g : β → List δ}
    (hfg : ∀ a b, R a b → List.Forall₂ S (f a) (g b)) : ∀ {l : List α} {l' : List β}, List.Forall₂ R l l' →
    List.Forall₂ S (l.flatMap f) (l'.flatMap g)
  | _, _, .nil => .nil
  | _, _, .cons h t => by
    simp only [List.flatMap_cons]
    exact List.rel_append (hfg _ _ h) (forall₂_flatMap hfg t)

theorem forall₂_zip {α β : Type} {R : α → β → Prop} : ∀ {l : List α} {l' : List β}, List.Forall₂ R l l' →
    ∃ z : List (α × β), l = z.map Prod.fst ∧ l' = z.map Prod.snd ∧ ∀ x ∈ z, R x.1 x.2
  | _, _, .nil => ⟨[], rfl, rfl, by simp⟩
  | _, _, .cons (a := a) (b := b) h t => by
    obtain ⟨z, h1, h2, h3⟩ := forall₂_zip t
    refine ⟨(a, b) :: z, by simp [h1], by simp [h2], ?_⟩
    simp only [List.mem_cons]
    rintro x (rfl | hx)
    · exact h
    · exact h3 x hx

theorem forall₂_of_zip {α β : Type} {R : α → β → Prop} : ∀ (z : List (α × β)), (∀ x ∈ z, R x.1 x.2) →
    List.Forall₂ R (z.map Prod.fst) (z.map Prod.snd)
  | [], _ => .nil
  | x :: z, h => .cons (h x (by simp)) (forall₂_of_zip z (fun y hy => h y (by simp [hy])))

/-- Sorting by name keeps corresponding components together. -/
theorem forall₂_sort {α β : Type} {R : String × α → String × β → Prop} (hR : ∀ x y, R x y → y.1 = x.1)
    {l : List (String × α)} {l' : List (String × β)} (h : List.Forall₂ R l l') :
    List.Forall₂ R (l.insertionSort (fun a b => a.1 ≤ b.1)) (l'.insertionSort (fun a b => a.1 ≤ b.1)) := by
  obtain ⟨z, rfl, rfl, h3⟩ := forall₂_zip h
  have e1 := List.map_insertionSort (r := fun (a b : (String × α) × (String × β)) => a.1.1 ≤ b.1.1)
    (s := fun (a b : String × α) => a.1 ≤ b.1) Prod.fst z (fun _ _ _ _ => Iff.rfl)
  have e2 := List.map_insertionSort (r := fun (a b : (String × α) × (String × β)) => a.1.1 ≤ b.1.1)
    (s := fun (a b : String × β) => a.1 ≤ b.1) Prod.snd z (fun a ha b hb => by rw [hR _ _ (h3 a ha), hR _ _ (h3 b hb)])
  rw [← e1, ← e2]
  refine forall₂_of_zip _ fun x hx => h3 x ?_
  exact (List.perm_insertionSort _ _).mem_iff.1 hx

theorem elements_refl {axis : List String → Option Int} {k : Nat} : ∀ (l : List (List String × Leaf K)), (∀ x ∈ l, axis x.1 = none) →
    Elements axis k l l
  | [], _ => .nil
  | x :: l, h => .cons ⟨rfl, by rw [h x (by simp)]; rfl⟩ (elements_refl l (fun y hy => h y (by simp [hy])))

theorem elements_map {axis : List String → Option Int} {k : Nat} {n : String} {l l' : List (List String × Leaf K)}
    (h : Elements (fun p => axis (n :: p)) k l l') :
    Elements axis k (l.map (fun y => (n :: y.1, y.2))) (l'.map (fun y => (n :: y.1, y.2))) := by
  unfold Elements at h ⊢
  rw [List.forall₂_map_left_iff, List.forall₂_map_right_iff]
  refine h.imp ?_
  rintro x y ⟨h1, h2⟩
  exact ⟨by rw [h1], h2⟩

/-- One component whose target is an element of the other's. -/
theorem comp_elements (mt : MjModel K → PyTree (Static K) (Leaf K)) {axis : List String → Option Int} {k : Nat} {j j' : JaxComp K}
    (h : RelJ k j j') {f : String} (hf : targetField j.kind = some f)
    (ha : ∀ g p, axis (g :: p) = if g = f then some 0 else none) :
    Elements axis k (compTree mt j).paths (compTree mt j').paths := by
  obtain ⟨x, y, h1, h2, rfl⟩ := h
  have hm : Elements axis k ((mt j.model).paths.map (fun y => ("model" :: y.1, y.2))) ((mt j.model).paths.map (fun y => ("model" :: y.1, y.2))) := by
    refine elements_refl _ ?_
    intro z hz
    obtain ⟨z', -, rfl⟩ := List.mem_map.1 hz
    rw [ha, if_neg]
    rintro rfl
    cases hk : j.kind <;> rw [hk] at hf <;> simp [targetField] at hf
  cases hk : j.kind <;> rw [hk] at hf h2 <;> simp only [targetField, jtarget?, Option.some.injEq, reduceCtorEq] at hf h2 <;> subst hf <;> subst h2 <;>
    simp only [compTree, PyTree.paths, hk, jsetT, JaxKind.fields, List.cons_append, List.nil_append, Kids.ofList, Kids.paths, List.map_cons,
      List.map_nil] <;>
    refine List.rel_append hm ?_ <;>
    simp [ha, LeafElement, h1]


theorem lastWrite_none {ws : List (List String × Int)} {p : List String} (h : ∀ w ∈ ws, w.1.isPrefixOf p = false) :
    lastWrite ws p = none := by
  unfold lastWrite
  rw [List.find?_eq_none.2]
  · rfl
  · intro w hw
    rw [h w (List.mem_reverse.1 hw)]
    simp

theorem lastWrite_zero {ws : List (List String × Int)} {p : List String} (h0 : ∀ w ∈ ws, w.2 = 0) {w : List String × Int} (hw : w ∈ ws)
    (h : w.1.isPrefixOf p) : lastWrite ws p = some 0 := by
  unfold lastWrite
  cases hf : ws.reverse.find? (fun w => w.1.isPrefixOf p) with
  | none => exact absurd h (List.find?_eq_none.1 hf w (List.mem_reverse.2 hw))
  | some v => simp [h0 v (List.mem_reverse.1 (List.mem_of_find?_eq_some hf))]

theorem targetField_of_jtarget {k : JaxKind K} {x : Arr K} (h : jtarget? k = some x) : ∃ f, targetField k = some f := by
  cases k <;> simp [jtarget?] at h <;> exact ⟨_, rfl⟩

theorem relJ_shape (mt : MjModel K → PyTree (Static K) (Leaf K)) {k : Nat} {j j' : JaxComp K} (h : RelJ k j j') :
    shapeOf (compTree mt j) = shapeOf (compTree mt j') := by
  obtain ⟨x, y, -, -, rfl⟩ := h
  cases hk : j.kind <;>
    simp [compTree, hk, jsetT, shapeOf, shapeOfK, Kids.ofList, JaxKind.fields, JaxKind.static, JaxKind.className]

/-- **C79.** After any program `ops`, let batches of `B` targets be set, by calls that are all accepted, and let the problem compile to `J`.
Then for every `k < B` the same calls with target `k` alone are accepted, and the problem then compiles to some `Jk`.  If axis 0 is given to
the targets that were set, in the block of `set_vmap_dimension`, `jax.vmap` accepts the axes for `J`, and the problem that the
mapped function receives in call `k` is `Jk`: the same tree, with target `k` where targets were set and with equal leaves elsewhere. -/
theorem C79_batch (mt : MjModel K → PyTree (Static K) (Leaf K)) (hmt : ∀ m, DistinctNames (mt m)) (ops : List (Op K))
    (us : List (Nat × CompOp K)) {B k : Nat} (hk : k < B) (hb : ∀ u ∈ us, BatchedTarget B u.2)
    (hacc : Accepted (run World.init ops) (calls us)) {p : Nat} {P : Prob K} (hP : (run World.init ops).probs[p]? = some P)
    {J : JaxProblem K} (hJ : (step (run World.init (ops ++ calls us)) (.compile p)).1 = .ok (.compiled J)) :
    Accepted (run World.init ops) (calls (us.map fun u => (u.1, elementCall k u.2))) ∧
    ∃ Jk, (step (run World.init (ops ++ calls (us.map fun u => (u.1, elementCall k u.2)))) (.compile p)).1 = .ok (.compiled Jk) ∧
      shapeOf (problemTree mt Jk) = shapeOf (problemTree mt J) ∧
      ∀ ws, TargetWrites P.comps J (us.map (fun u => u.1)) ws →
        ∃ ax0 ax, (setVmapDimension mt (run World.init (ops ++ calls us)).comps P).1 = .ok ax0 ∧ ax0.writes ws = .ok ax ∧
          flattenAxes ax (problemTree mt J) = .ok ((problemTree mt J).paths.map (fun leaf => lastWrite ws leaf.1)) ∧
          Elements (lastWrite ws) k (problemTree mt J).paths (problemTree mt Jk).paths := by
  obtain ⟨h1, ids, hids, hR⟩ := rel_run hk us [] (run World.init ops) (run World.init ops)
    ⟨rfl, rfl, fun i c c' h h' => by rw [if_neg (by simp)]; rw [h] at h'; exact (Option.some.inj h').symm⟩ hb hacc
  refine ⟨h1, ?_⟩
  have hids' : ∀ i, i ∈ ids ↔ i ∈ us.map (fun u => u.1) := fun i => by rw [hids]; simp
  rw [← run_append, ← run_append] at hR
  set w := run World.init (ops ++ calls us) with hw
  set w' := run World.init (ops ++ calls (us.map fun u => (u.1, elementCall k u.2))) with hw'
  have hr : ReachableW w := ⟨_, rfl⟩
  have hr' : ReachableW w' := ⟨_, rfl⟩
  have hPw : w.probs[p]? = some P := by
    rw [hw, run_append, ← hP]
    clear hR hacc hJ h1 hb
    have : ∀ (us : List (Nat × CompOp K)) (v : World K), (run v (calls us)).probs = v.probs := by
      intro us
      induction us with
      | nil => intro v; rfl
      | cons u us ih =>
        intro v
        show (run (step v (.comp u.1 u.2)).2 (calls us)).probs = _
        rw [ih]
        simp only [step]
        cases v.comps[u.1]? <;> rfl
    rw [this]
  have hPw' : w'.probs[p]? = some P := by rw [hR.probs]; exact hPw
  obtain ⟨s1, -⟩ := compileComps_spec P.comps _ (cacheOK_world hr)
  obtain ⟨s2, -⟩ := compileComps_spec P.comps _ (cacheOK_world hr')
  have hJ' := hJ
  simp only [step, hPw, compileProb] at hJ'
  cases hc : compileComps w.comps P.comps with
  | mk r hh =>
    rw [hc] at hJ' s1
    cases r with
    | error e => simp [Except.map] at hJ'
    | ok js =>
      simp only [Except.map, Except.ok.injEq, Res.compiled.injEq] at hJ'
      subst hJ'
      obtain ⟨js', t1, t2⟩ := compile_rel hR P.comps s1.symm
      refine ⟨⟨P.model, P.vMin, P.vMax, js'⟩, ?_, ?_, ?_⟩
      · simp only [step, hPw', compileProb]
        cases hc' : compileComps w'.comps P.comps with
        | mk r' hh' =>
          rw [hc', t1] at s2
          simp only at s2
          subst s2
          rfl
      · refine (problemTree_shape mt (J := ⟨P.model, P.vMin, P.vMax, js⟩) (J' := ⟨P.model, P.vMin, P.vMax, js'⟩) rfl (t2.imp ?_)).symm
        rintro x y ⟨e, i, -, h⟩
        refine ⟨e.symm, ?_⟩
        split at h
        · exact relJ_shape mt h
        · rw [h]
      · intro ws hws
        have hnames := compile_names (ops := ops ++ calls us) hJ
        have hPn : (P.comps.map Prod.fst).Nodup := C03_names_distinct (ops ++ calls us) hPw
        have hset : (setVmapDimension mt w.comps P).1 = .ok ((problemTree mt ⟨P.model, P.vMin, P.vMax, js⟩).blank Int) := by
          simp only [setVmapDimension, compileProb, hc]
        obtain ⟨Ja, ha1, ha2⟩ := C67_assignable mt hmt (ops ++ calls us) hPw hset
        obtain ⟨Jb, hb1, hb2⟩ := C67_axes mt hmt (ops ++ calls us) hPw hset
        rw [hJ] at ha1 hb1
        cases ha1
        cases hb1
        obtain ⟨ax, hax⟩ := ha2 ws (by
          rintro ⟨path, a⟩ hwm
          obtain ⟨-, nm, i, j, f, -, -, hj, hf, rfl⟩ := (hws path a).1 hwm
          refine C67_target_path mt (ops ++ calls us) hJ hj ?_
          cases hk : j.kind <;> rw [hk] at hf <;> simp [targetField] at hf ⊢ <;> exact hf.symm) (by
          have hlen : ∀ v ∈ ws, v.1.length = 3 := by
            rintro ⟨path, a⟩ hv
            obtain ⟨-, nm, i, j, f, -, -, -, -, rfl⟩ := (hws path a).1 hv
            rfl
          refine List.pairwise_of_forall_mem_list fun v hv u hu => ?_
          by_cases hp : v.1.isPrefixOf u.1 = true
          · right
            exact (List.isPrefixOf_iff_prefix.1 hp).eq_of_length (by rw [hlen v hv, hlen u hu])
          · left
            exact Bool.eq_false_iff.2 hp)
        refine ⟨_, ax, hset, hax, hb2 ws ax hax, ?_⟩
        have h0 : ∀ v ∈ ws, v.2 = 0 := fun v hv => ((hws v.1 v.2).1 hv).1
        have hnone : ∀ (p : List String), p.head? ≠ some "components" → lastWrite ws p = none := by
          intro p hp
          refine lastWrite_none ?_
          rintro ⟨path, a⟩ hv
          obtain ⟨-, nm, i, j, f, -, -, -, -, rfl⟩ := (hws path a).1 hv
          cases p with
          | nil => rfl
          | cons q p =>
            have : ¬ "components" = q := fun h => hp (by rw [h]; rfl)
            simp [List.isPrefixOf, this]
        have hval : ∀ (x : String × JaxComp K), x ∈ js → ∀ i, (x.1, i) ∈ P.comps → ∀ g q, lastWrite ws ("components" :: x.1 :: g :: q) =
            if i ∈ ids ∧ targetField x.2.kind = some g then some 0 else none := by
          intro x hx i hi g q
          split
          · rename_i hh
            refine lastWrite_zero h0 ((hws ["components", x.1, g] 0).2 ⟨rfl, x.1, i, x.2, g, hi, (hids' i).1 hh.1, hx, hh.2, rfl⟩) ?_
            simp [List.isPrefixOf]
          · rename_i hh
            refine lastWrite_none ?_
            rintro ⟨path, a⟩ hv
            obtain ⟨-, nm, i', j, f, e1, e2, e3, e4, rfl⟩ := (hws path a).1 hv
            by_contra hne
            simp only [List.isPrefixOf, Bool.not_eq_false, Bool.and_eq_true, beq_iff_eq, Bool.and_true, true_and] at hne
            obtain ⟨hnm, rfl⟩ := hne
            refine hh ⟨?_, ?_⟩
            · have := List.inj_on_of_nodup_map hPn e1 hi hnm
              cases this
              exact (hids' _).2 e2
            · have := List.inj_on_of_nodup_map hnames e3 hx hnm
              rw [show x.2 = j from (congrArg Prod.snd this).symm]
              exact e4
        have hlist : ∀ y ∈ (mt P.model).paths.map (fun y => ("model" :: y.1, y.2)), lastWrite ws y.1 = none := by
          intro y hy
          obtain ⟨z, -, rfl⟩ := List.mem_map.1 hy
          exact hnone _ (by simp)
        unfold problemTree
        simp only [PyTree.paths, paths_ofList, List.flatMap_cons, List.flatMap_nil, List.append_nil]
        refine List.rel_append (elements_refl _ hlist) (List.rel_append ?_ (List.rel_append ?_ ?_))
        · exact .cons ⟨rfl, by rw [hnone _ (by simp)]; rfl⟩ .nil
        · exact .cons ⟨rfl, by rw [hnone _ (by simp)]; rfl⟩ .nil
        · refine elements_map ?_
          rw [List.flatMap_map, List.flatMap_map]
          have hz : List.Forall₂ (fun (x y : String × JaxComp K) => y.1 = x.1 ∧ x ∈ js ∧
              ∃ i, (x.1, i) ∈ P.comps ∧ if i ∈ ids then RelJ k x.2 y.2 else y.2 = x.2) js js' := by
            obtain ⟨z, z1, z2, z3⟩ := forall₂_zip t2
            rw [z1, z2]
            exact forall₂_of_zip z fun x hx => ⟨(z3 x hx).1, List.mem_map_of_mem hx, (z3 x hx).2⟩
          refine forall₂_flatMap ?_ (forall₂_sort (fun x y h => h.1) hz)
          rintro x y ⟨e, hx, i, hi, hrel⟩
          rw [e]
          refine elements_map (axis := fun p => lastWrite ws ("components" :: p)) (n := x.1) ?_
          by_cases hm : i ∈ ids
          · rw [if_pos hm] at hrel
            obtain ⟨x0, y0, -, hx0, -⟩ := id hrel
            obtain ⟨f, hf⟩ := targetField_of_jtarget hx0
            refine comp_elements mt hrel hf fun g q => ?_
            show lastWrite ws ("components" :: x.1 :: g :: q) = _
            rw [hval x hx i hi g q, hf]
            simp only [hm, true_and, Option.some.injEq]
            by_cases hg : g = f
            · rw [if_pos hg, if_pos hg.symm]
            · rw [if_neg hg, if_neg (fun h => hg h.symm)]
          · rw [if_neg hm] at hrel
            rw [hrel]
            refine elements_refl _ ?_
            rintro ⟨q, lf⟩ hq
            obtain ⟨g, q', rfl, -⟩ := pathsK_get _ _ hq
            show lastWrite ws ("components" :: x.1 :: g :: q') = none
            rw [hval x hx i hi g q', if_neg (fun h => hm h.1)]

namespace BatchEx

/-- A batch of five target frames for the frame task and of five joint targets for the joint task of `VmapEx`. -/
def us : List (Nat × CompOp ℚ) :=
  [(0, .updateTargetFrame (.array ⟨[5, 7], fun i => (i.getD 0 0 : ℚ)⟩)), (1, .updateTarget ⟨[5, 2], fun i => (10 * i.getD 0 0 + i.getD 1 0 : ℚ)⟩)]

def ws : List (List String × Int) := [(["components", "t", "target_frame"], 0), (["components", "j", "target_q"], 0)]

/-- `C79_batch` applies: the calls are accepted, the problem compiles, and the axes are those of the two targets. -/
example : (∀ u ∈ us, BatchedTarget 5 u.2) ∧ Accepted (run World.init VmapEx.ops) (calls us) ∧
    ∃ P J, (run World.init VmapEx.ops).probs[0]? = some P ∧
      (step (run World.init (VmapEx.ops ++ calls us)) (.compile 0)).1 = .ok (.compiled J) ∧ TargetWrites P.comps J (us.map (fun u => u.1)) ws ∧
      ∃ Jk, (step (run World.init (VmapEx.ops ++ calls (us.map fun u => (u.1, elementCall 3 u.2)))) (.compile 0)).1 = .ok (.compiled Jk) ∧
        Elements (lastWrite ws) 3 (problemTree VmapEx.mt J).paths (problemTree VmapEx.mt Jk).paths := by
  have hb : ∀ u ∈ us, BatchedTarget 5 u.2 := by
    intro u hu
    fin_cases hu
    · exact ⟨7, [], rfl⟩
    · exact ⟨2, [], rfl⟩
  have ha : Accepted (run World.init VmapEx.ops) (calls us) := ⟨⟨_, rfl⟩, ⟨_, rfl⟩, trivial⟩
  obtain ⟨J, hJ⟩ : ∃ J, (step (run World.init (VmapEx.ops ++ calls us)) (.compile 0)).1 = .ok (.compiled J) := ⟨_, rfl⟩
  obtain ⟨P, hP⟩ : ∃ P, (run World.init VmapEx.ops).probs[0]? = some P := ⟨_, rfl⟩
  have hw : TargetWrites P.comps J (us.map (fun u => u.1)) ws := by
    cases hP
    cases hJ
    intro path a
    constructor
    · intro h
      simp only [ws, List.mem_cons, List.not_mem_nil, or_false, Prod.mk.injEq] at h
      rcases h with ⟨rfl, rfl⟩ | ⟨rfl, rfl⟩
      · exact ⟨rfl, "t", 0, _, _, by decide, by decide, List.mem_of_getElem? (i := 0) rfl, rfl, rfl⟩
      · exact ⟨rfl, "j", 1, _, _, by decide, by decide, List.mem_of_getElem? (i := 1) rfl, rfl, rfl⟩
    · rintro ⟨rfl, nm, i, j, f, -, -, hj, hf, rfl⟩
      rcases List.mem_cons.1 hj with h | h
      · cases h
        cases hf
        decide
      · rcases List.mem_cons.1 h with h | h
        · cases h
          cases hf
          decide
        · cases h
  obtain ⟨-, Jk, h1, -, h2⟩ := C79_batch VmapEx.mt VmapEx.mt_distinct VmapEx.ops us (B := 5) (k := 3) (by decide) hb ha hP hJ
  obtain ⟨-, -, -, -, -, h3⟩ := h2 ws hw
  exact ⟨hb, ha, P, J, hP, hJ, hw, Jk, h1, h3⟩

end BatchEx

end Mjinx.Props
