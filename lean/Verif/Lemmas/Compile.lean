import Verif.Lemmas.Build

/-! Helper lemmas: compiling as a pure function of the attributes. -/

set_option linter.unusedSectionVars false

namespace Mjinx
variable {K : Type} [Field K] [LinearOrder K]
open Spec

/-- `a'` is `a`, possibly with the default mask filled in. -/
def MaskFill (a a' : Attrs K) : Prop :=
  a' = a ∨ (a.mask = none ∧ 0 ≤ a.dim ∧
    a' = { a with mask := some (List.replicate a.dim.toNat 1), maskIdxs := List.range a.dim.toNat })

theorem MaskFill.refl (a : Attrs K) : MaskFill a a := Or.inl rfl

theorem MaskFill.trans {a b c : Attrs K} (h1 : MaskFill a b) (h2 : MaskFill b c) : MaskFill a c := by
  rcases h1 with rfl | ⟨h1, h1', rfl⟩
  · exact h2
  · rcases h2 with rfl | ⟨h2, _, rfl⟩
    · exact Or.inr ⟨h1, h1', rfl⟩
    · cases h2

theorem MaskFill.observe {c c' : Comp K} (h : MaskFill c.attrs c'.attrs) : observe c' = observe c := by
  rcases h with h | ⟨h1, h2, h⟩
  · simp only [Spec.observe, h]
  · have : ¬ c.attrs.dim < 0 := by omega
    simp only [Spec.observe, h, h1, this, if_false]

theorem maskFill_ensureMask (c : Comp K) : MaskFill c.attrs (ensureMask c).2.attrs := by
  cases h : ensureMask c with
  | mk r c' =>
    cases r with
    | error e => rw [ensureMask_err h]; exact .refl _
    | ok _ =>
      obtain ⟨-, -, -, -, -, -, -, h7⟩ := ensureMask_ok h
      rcases h7 with ⟨_, rfl⟩ | ⟨ha, hb, rfl⟩
      · exact .refl _
      · exact Or.inr ⟨ha, hb, rfl⟩

theorem maskFill_build (m : MjModel K) (c : Comp K) : MaskFill c.attrs (buildComponent m c).2.attrs := by
  have := maskFill_ensureMask c
  unfold buildComponent
  split
  · exact .refl _
  · split
    · rename_i h; rw [h] at this; exact this
    · rename_i h; rw [h] at this
      split <;> exact this

theorem maskFill_jaxComponent (c : Comp K) : MaskFill c.attrs (jaxComponent c).2.attrs := by
  unfold jaxComponent
  split
  · exact .refl _
  · rename_i m _
    split
    · exact .refl _
    · split
      · have := maskFill_build m c
        split <;> (rename_i h; rw [h] at this; exact this)
      · split <;> exact .refl _

/-- The result of compiling as a function of the attributes alone. -/
def compileResult (a : Attrs K) : Except Err (JaxComp K) := (jaxComponent (Comp.fresh a)).1

theorem ensureMask_eq (c : Comp K) : (ensureMask c).1 =
    (if c.attrs.mask.isSome then .ok () else if c.attrs.dim = -1 then .error .valueError
      else if c.attrs.dim < 0 then .error .typeError else .ok ()) := by
  unfold ensureMask sizeOf
  cases c.attrs.mask with
  | some _ => rfl
  | none =>
    dsimp only
    by_cases h : c.attrs.dim = -1
    · simp [h]
    · by_cases h2 : c.attrs.dim < 0 <;> simp [h, h2]

/-- The pure content of `buildComponent`. -/
theorem buildComponent_fst (m : MjModel K) (c : Comp K) :
    (buildComponent m c).1 = (do
      let g ← vectorGain c.attrs
      let _ ← (ensureMask c).1
      let k ← buildKind c.attrs
      return { dim := c.attrs.dim, model := m, vectorGain := g, gainFn := c.attrs.gainFn,
               maskIdxs := if c.attrs.mask.isSome then c.attrs.maskIdxs else List.range c.attrs.dim.toNat,
               kind := k }) := by
  unfold buildComponent
  cases hg : vectorGain c.attrs with
  | error e => rfl
  | ok g =>
    cases he : ensureMask c with
    | mk r c' =>
      cases r with
      | error e => rfl
      | ok u =>
        obtain ⟨h1, h2, h3, h4, h5, h6, _, h7⟩ := ensureMask_ok he
        dsimp only
        have hk := buildKind_congr h2 h6
        have hmask : c'.attrs.maskIdxs =
            if c.attrs.mask.isSome then c.attrs.maskIdxs else List.range c.attrs.dim.toNat := by
          rcases h7 with ⟨ha, rfl⟩ | ⟨ha, hb, rfl⟩
          · simp [ha]
          · simp [ha, Comp.set]
        rw [hk]
        cases buildKind c.attrs with
        | error e => rfl
        | ok k =>
          show Except.ok _ = Except.ok _
          rw [h2, h5, hmask]

theorem buildComponent_fst_congr (m : MjModel K) {c c' : Comp K} (h : MaskFill c.attrs c'.attrs) :
    (buildComponent m c').1 = (buildComponent m c).1 := by
  rw [buildComponent_fst, buildComponent_fst, ensureMask_eq, ensureMask_eq]
  rcases h with h | ⟨h1, h2, h⟩
  · rw [h]
  · have hd : ¬ c.attrs.dim < 0 := by omega
    have hd' : ¬ c.attrs.dim = -1 := by omega
    rw [h, h1]
    simp only [hd, hd', Option.isSome_some, Option.isSome_none, if_true, if_false]
    rw [vectorGain_congr (a := { c.attrs with mask := _, maskIdxs := _ }) (b := c.attrs) rfl rfl]
    rfl

/-- Caching does not change the result. -/
theorem jaxComponent_fst {c : Comp K} (hc : CacheOK c) : (jaxComponent c).1 = compileResult c.attrs := by
  unfold compileResult jaxComponent
  show _ = (match c.attrs.model with | none => _ | some m => _ : Except Err (JaxComp K) × Comp K).1
  cases hm : c.attrs.model with
  | none => rfl
  | some m =>
    by_cases hd : c.attrs.dim = -1
    · simp [hd, Comp.fresh]
    · by_cases hmod : c.modified
      · simp only [hd, hmod, if_true, if_false]
        have := buildComponent_fst_congr m (c := c) (c' := Comp.fresh c.attrs) (.refl _)
        cases h1 : buildComponent m c with
        | mk r c1 =>
          cases h2 : buildComponent m (Comp.fresh c.attrs) with
          | mk r2 c2 =>
            rw [h1, h2] at this
            cases r <;> cases r2 <;> simp_all [Comp.fresh]
      · simp only [hd, hmod, if_false]
        obtain ⟨m', j, h1, h2, h3, h4, h5, h6, h7, h8, h9, h10⟩ := hc (by simpa using hmod)
        rw [h3]
        have hb := buildComponent_fst m (Comp.fresh c.attrs)
        rw [ensureMask_eq] at hb
        simp only [Comp.fresh, h5, h6, h4] at hb
        have hm' : m' = m := by rw [hm] at h1; exact (Option.some.inj h1).symm
        have hj : (buildComponent m (Comp.fresh c.attrs)).1 = .ok j := by
          rw [show (buildComponent m (Comp.fresh c.attrs)).1 = _ from hb]
          show Except.ok _ = Except.ok _
          congr 1
          cases j
          simp_all
        cases h2' : buildComponent m (Comp.fresh c.attrs) with
        | mk r2 c2 =>
          rw [h2'] at hj
          cases hj
          have hd' : ¬ (Comp.fresh c.attrs).attrs.dim = -1 := hd
          simp only [hd', if_false]
          have : (Comp.fresh c.attrs).modified = true := rfl
          simp [this]

theorem compileResult_congr {a a' : Attrs K} (h : MaskFill a a') : compileResult a' = compileResult a := by
  have hmod : a'.model = a.model := by rcases h with rfl | ⟨_, _, rfl⟩ <;> rfl
  have hdim : a'.dim = a.dim := by rcases h with rfl | ⟨_, _, rfl⟩ <;> rfl
  unfold compileResult jaxComponent
  simp only [Comp.fresh, hmod, hdim]
  cases a.model with
  | none => rfl
  | some m =>
    dsimp only
    split
    · rfl
    · have := buildComponent_fst_congr m (c := Comp.fresh a) (c' := Comp.fresh a') h
      cases h1 : buildComponent m (Comp.fresh a) with
      | mk r c1 =>
        cases h2 : buildComponent m (Comp.fresh a') with
        | mk r2 c2 =>
          rw [h1, h2] at this
          simp only [Comp.fresh] at h1 h2
          cases r <;> cases r2 <;> simp_all

/-- Two heaps with the same components up to filled-in default masks and caches. -/
def HeapFill (h h' : List (Comp K)) : Prop :=
  h'.length = h.length ∧ ∀ (i : Nat) (c : Comp K), h[i]? = some c →
    ∃ c', h'[i]? = some c' ∧ MaskFill c.attrs c'.attrs ∧ (CacheOK c → CacheOK c')

theorem HeapFill.refl (h : List (Comp K)) : HeapFill h h :=
  ⟨rfl, fun _ c hc => ⟨c, hc, .refl _, id⟩⟩

theorem HeapFill.trans {a b c : List (Comp K)} (h1 : HeapFill a b) (h2 : HeapFill b c) : HeapFill a c := by
  refine ⟨h2.1.trans h1.1, fun i x hx => ?_⟩
  obtain ⟨y, hy, m1, k1⟩ := h1.2 i x hx
  obtain ⟨z, hz, m2, k2⟩ := h2.2 i y hy
  exact ⟨z, hz, m1.trans m2, k2 ∘ k1⟩

theorem heapFill_set {h : List (Comp K)} {i : Nat} {c c' : Comp K} (hi : h[i]? = some c)
    (hm : MaskFill c.attrs c'.attrs) (hk : CacheOK c → CacheOK c') : HeapFill h (setComp h i c') := by
  refine ⟨by simp [setComp], fun k x hx => ?_⟩
  by_cases hik : i = k
  · subst hik
    rw [hi] at hx; cases hx
    have : i < h.length := (List.getElem?_eq_some_iff.1 hi).1
    exact ⟨c', by simp [setComp, this], hm, hk⟩
  · exact ⟨x, by simp [setComp, hik, hx], .refl _, id⟩

/-- Compiling a list of named references, given the result for each reference. -/
def compilePure (f : Nat → Except Err (JaxComp K)) :
    List (String × Nat) → Except Err (List (String × JaxComp K))
  | [] => .ok []
  | (name, i) :: rest =>
    match f i with
    | .error e => .error e
    | .ok j =>
      match compilePure f rest with
      | .error e => .error e
      | .ok js => .ok ((name, j) :: js)

def heapResult (h : List (Comp K)) (i : Nat) : Except Err (JaxComp K) :=
  match h[i]? with
  | none => .error .attributeError
  | some c => compileResult c.attrs

theorem heapResult_congr {h h' : List (Comp K)} (hf : HeapFill h h') (i : Nat) :
    heapResult h' i = heapResult h i := by
  unfold heapResult
  cases hi : h[i]? with
  | none =>
    have : h'[i]? = none := by
      rw [List.getElem?_eq_none_iff] at hi ⊢; rw [hf.1]; exact hi
    rw [this]
  | some c =>
    obtain ⟨c', hc', hm, _⟩ := hf.2 i c hi
    rw [hc']
    exact compileResult_congr hm

theorem compileComps_spec : ∀ (l : List (String × Nat)) (h : List (Comp K)), (∀ c ∈ h, CacheOK c) →
    (compileComps h l).1 = compilePure (heapResult h) l ∧ HeapFill h (compileComps h l).2 := by
  intro l
  induction l with
  | nil => intro h _; exact ⟨rfl, .refl _⟩
  | cons x rest ih =>
    intro h hh
    obtain ⟨name, i⟩ := x
    cases hi : h[i]? with
    | none =>
      simp only [compileComps, compilePure, hi]
      exact ⟨by simp [heapResult, hi], .refl _⟩
    | some c =>
      have hcc := hh c (List.mem_of_getElem? hi)
      have hr : heapResult h i = (jaxComponent c).1 := by
        simp only [heapResult, hi]; exact (jaxComponent_fst hcc).symm
      have hfill : HeapFill h (setComp h i (jaxComponent c).2) :=
        heapFill_set hi (maskFill_jaxComponent c) (fun _ => cacheOK_compile c hcc)
      cases hj : jaxComponent c with
      | mk r c' =>
        rw [hj] at hfill hr
        have hall : ∀ c ∈ setComp h i c', CacheOK c := all_setComp hh (by
          have := cacheOK_compile c hcc; rw [hj] at this; exact this)
        cases r with
        | error e =>
          simp only [compileComps, compilePure, hi, hj, hr]
          exact ⟨trivial, hfill⟩
        | ok j =>
          obtain ⟨h1, h2⟩ := ih (setComp h i c') hall
          have hfun : heapResult (setComp h i c') = heapResult h :=
            funext (fun k => heapResult_congr hfill k)
          rw [hfun] at h1
          cases hr2 : compileComps (setComp h i c') rest with
          | mk r2 h3 =>
            rw [hr2] at h1 h2
            simp only at h1
            cases r2 with
            | error e => simp only [compileComps, compilePure, hi, hj, hr, hr2, ← h1]; exact ⟨trivial, hfill.trans h2⟩
            | ok js => simp only [compileComps, compilePure, hi, hj, hr, hr2, ← h1]; exact ⟨trivial, hfill.trans h2⟩

theorem cacheOK_world {w : World K} (h : ReachableW w) : ∀ c ∈ w.comps, CacheOK c :=
  fun c hc => cacheOK_reachable (reachable_of_world h c hc)

theorem compileResult_spec {a : Attrs K} {j : JaxComp K} (h : compileResult a = .ok j) :
    CompilesTo a j := by
  unfold compileResult at h
  cases h' : jaxComponent (Comp.fresh a) with
  | mk r c' =>
    rw [h'] at h
    cases h
    exact jaxComponent_spec (c := Comp.fresh a) (cacheOK_of_modified rfl) h'

/-- What a successful pure compile returns. -/
theorem compilePure_ok {f : Nat → Except Err (JaxComp K)} : ∀ {l : List (String × Nat)}
    {js : List (String × JaxComp K)}, compilePure f l = .ok js →
    List.Forall₂ (fun (ni : String × Nat) (nj : String × JaxComp K) =>
      ni.1 = nj.1 ∧ f ni.2 = .ok nj.2) l js := by
  intro l
  induction l with
  | nil => intro js h; cases h; exact .nil
  | cons x rest ih =>
    intro js h
    obtain ⟨name, i⟩ := x
    simp only [compilePure] at h
    split at h
    · cases h
    · rename_i j hj
      split at h
      · cases h
      · rename_i js' hjs
        cases h
        exact .cons ⟨rfl, hj⟩ (ih hjs)

end Mjinx
