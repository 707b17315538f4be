import Verif.Spec.CopySet
import Verif.Lemmas.Compile
import Verif.Spec.Examples

/-!
# Copies of compiled components

Property C103.
-/

namespace Mjinx.Props
open Spec
set_option linter.unusedSectionVars false
variable {K : Type} [Field K] [LinearOrder K]

private theorem get_cons (x : String × PyVal K) (d : PyDict K) (n : String) :
    PyDict.get? (x :: d) n = if x.1 = n then some x.2 else PyDict.get? d n := by
  unfold PyDict.get?
  by_cases h : x.1 = n <;> simp [h]

private theorem get_append (d e : PyDict K) (n : String) : PyDict.get? (d ++ e) n = (PyDict.get? d n).or (PyDict.get? e n) := by
  induction d with
  | nil => rfl
  | cons x d ih =>
    rw [List.cons_append, get_cons, get_cons, ih]
    split <;> rfl

private theorem get_map (f : String → PyVal K → PyVal K) (d : PyDict K) (n : String) :
    PyDict.get? (d.map (fun x => (x.1, f x.1 x.2))) n = (PyDict.get? d n).map (f n) := by
  induction d with
  | nil => rfl
  | cons x d ih =>
    rw [List.map_cons, get_cons, get_cons, ih]
    by_cases h : x.1 = n
    · simp [h]
    · simp [h]

private theorem get_filter (p : String → Bool) (d : PyDict K) (n : String) :
    PyDict.get? (d.filter (fun x => p x.1)) n = if p n then PyDict.get? d n else none := by
  induction d with
  | nil => simp [PyDict.get?]
  | cons x d ih =>
    rw [List.filter_cons, get_cons]
    by_cases h : x.1 = n
    · subst h
      by_cases hp : p x.1
      · simp [hp, get_cons]
      · simp [hp, ih]
    · by_cases hp : p x.1
      · simp [hp, get_cons, h, ih]
      · simp [hp, h, ih]

/-- Reading from `d | e`. -/
private theorem get_merge (d e : PyDict K) (n : String) : PyDict.get? (PyDict.merge d e) n = (PyDict.get? e n).or (PyDict.get? d n) := by
  unfold PyDict.merge
  rw [get_append, get_map (fun n v => (PyDict.get? e n).getD v), get_filter (fun n => (PyDict.get? d n).isNone)]
  cases PyDict.get? d n <;> cases PyDict.get? e n <;> simp

private theorem get_fields (fs : List String) (d : PyDict K) (n : String) :
    PyDict.get? (fs.filterMap (fun m => (PyDict.get? d m).map (fun v => (m, v)))) n = if n ∈ fs then PyDict.get? d n else none := by
  induction fs with
  | nil => rfl
  | cons f fs ih =>
    rw [List.filterMap_cons]
    cases hf : PyDict.get? d f with
    | none =>
      simp only [Option.map_none, ih]
      by_cases h : n = f
      · subst h; simp [hf]
      · simp [h]
    | some v =>
      simp only [Option.map_some]
      rw [get_cons, ih]
      by_cases h : f = n
      · subst h; simp [hf]
      · simp [h, Ne.symm h]

private theorem get_isSome (d : PyDict K) (n : String) : (PyDict.get? d n).isSome = true ↔ n ∈ d.map (·.1) := by
  induction d with
  | nil => simp [PyDict.get?]
  | cons x d ih =>
    rw [get_cons]
    by_cases h : x.1 = n
    · simp [h]
    · simp only [h, if_false, ih, List.map_cons, List.mem_cons]
      exact ⟨.inr, fun h' => h'.resolve_left fun e => h e.symm⟩

/-- The attributes of a compiled component are the fields of its class. -/
private theorem obj_fields (j : JaxComp K) : j.obj.dict.map (·.1) = classFields j.obj.cls := by
  unfold JaxComp.obj JaxKind.dict JaxKind.className classFields
  cases j.kind <;> rfl

/-- **C103** (attributes): after any history of a component, the attributes of the component it compiles to are its own, under the names of the
fields of its class. -/
theorem C103_attributes {c c' : Comp K} {j : JaxComp K} (h : Reachable c) (hj : jaxComponent c = (.ok j, c')) : Readings c.attrs j.obj.attr := by
  have hC : CompilesTo c.attrs j := jaxComponent_spec (cacheOK_reachable h) hj
  obtain ⟨m, d, g, f, mi, k⟩ := hC
  obtain ⟨jd, jm, jg, jf, jmi, jk⟩ := j
  dsimp only at m d g f mi k
  subst d
  subst f
  subst mi
  generalize c.attrs = a at *
  cases hk : a.kind <;> cases jk <;> rw [hk] at k <;> simp only [KindOf] at k
  all_goals
    refine ⟨rfl, ⟨_, m, rfl⟩, ⟨_, g, rfl⟩, rfl, rfl, ?_, ?_, ?_, ?_⟩
    all_goals
      rw [hk]
      simp only [Kind.taskA?, Option.some.injEq, reduceCtorEq, false_implies, implies_true]
  · obtain ⟨k1, rfl, rfl⟩ := k
    rintro _ rfl
    exact ⟨⟨_, k1, rfl⟩, rfl⟩
  · obtain ⟨k1, rfl, rfl⟩ := k
    rfl
  · obtain ⟨k1, rfl, k2, k3⟩ := k
    rintro _ rfl
    exact ⟨⟨_, k1, rfl⟩, rfl⟩
  · obtain ⟨k1, rfl, rfl, rfl⟩ := k
    exact ⟨rfl, rfl⟩
  · obtain ⟨k1, rfl, rfl, rfl, rfl⟩ := k
    rintro _ rfl
    exact ⟨⟨_, k1, rfl⟩, rfl⟩
  · obtain ⟨k1, rfl, rfl, rfl, rfl⟩ := k
    exact ⟨rfl, rfl⟩
  · obtain ⟨k1, rfl, rfl, rfl, rfl⟩ := k
    rfl
  · obtain ⟨k1, rfl, rfl, rfl, rfl⟩ := k
    rintro _ rfl
    exact ⟨⟨_, k1, rfl⟩, rfl⟩
  · obtain ⟨k1, rfl, rfl, rfl, rfl⟩ := k
    exact ⟨rfl, rfl⟩
  · obtain ⟨k1, rfl, rfl, rfl, rfl⟩ := k
    rfl
  · obtain ⟨rfl, rfl, rfl, rfl⟩ := k
    rfl
  · obtain ⟨rfl, rfl, rfl, rfl⟩ := k
    exact ⟨rfl, rfl, rfl⟩
  · obtain ⟨rfl, rfl, rfl, rfl, rfl, rfl, -⟩ := k
    rfl
  · obtain ⟨rfl, rfl, rfl, rfl, rfl, rfl, -⟩ := k
    exact ⟨rfl, rfl⟩
  · obtain ⟨rfl, rfl, rfl, rfl, rfl, rfl, -⟩ := k
    exact ⟨rfl, rfl, rfl⟩
  · obtain ⟨rfl, k1, rfl, rfl⟩ := k
    rfl
  · obtain ⟨rfl, k1, rfl, rfl⟩ := k
    exact ⟨⟨_, k1, rfl⟩, rfl, rfl⟩
  · obtain ⟨rfl, rfl, k1⟩ := k
    exact ⟨rfl, rfl, _, k1, rfl⟩

/-- **C103** (copying): copying a compiled component with new values for some of its fields gives a component of the same class with these values
and otherwise the same attributes; a name that is no field of the class raises. -/
theorem C103_copy (j : JaxComp K) (kwargs : PyDict K) :
    ((∀ x ∈ kwargs, x.1 ∈ classFields j.obj.cls) → ∃ o, j.obj.copyAndSet kwargs = .ok o ∧ o.cls = j.obj.cls ∧
      ∀ name, o.attr name = (PyDict.get? kwargs name).or (j.obj.attr name)) ∧
    (∀ x ∈ kwargs, x.1 ∉ classFields j.obj.cls → j.obj.copyAndSet kwargs = .error .typeError) := by
  have hf := obj_fields j
  have key : ∀ n, n ∈ (PyDict.merge j.obj.dict kwargs).map (·.1) ↔ n ∈ classFields j.obj.cls ∨ n ∈ kwargs.map (·.1) := by
    intro n
    rw [← get_isSome, get_merge, Option.isSome_or, Bool.or_eq_true, get_isSome, get_isSome, hf, or_comm]
  unfold JaxObj.copyAndSet newJaxObj
  constructor
  · intro h
    rw [if_pos]
    · refine ⟨_, rfl, rfl, fun name => ?_⟩
      unfold JaxObj.attr
      dsimp only
      rw [get_fields, get_merge]
      split
      · rfl
      · rename_i hn
        have h1 : PyDict.get? kwargs name = none := by
          by_contra hne
          have := (get_isSome kwargs name).1 (Option.isSome_iff_ne_none.2 hne)
          obtain ⟨x, hx, rfl⟩ := List.mem_map.1 this
          exact hn (h x hx)
        have h2 : PyDict.get? j.obj.dict name = none := by
          by_contra hne
          have := (get_isSome j.obj.dict name).1 (Option.isSome_iff_ne_none.2 hne)
          rw [hf] at this
          exact hn this
        rw [h1, h2]
        rfl
    · rw [Bool.and_eq_true, List.all_eq_true, List.all_eq_true]
      constructor
      · intro x hx
        have := (key x.1).1 (List.mem_map_of_mem hx)
        rcases this with h' | h'
        · simpa using h'
        · obtain ⟨y, hy, e⟩ := List.mem_map.1 h'
          have := h y hy
          rw [e] at this
          simpa using this
      · intro n hn
        rw [get_isSome, key]
        exact .inl hn
  · intro x hx hn
    rw [if_neg]
    rw [Bool.and_eq_true, List.all_eq_true]
    rintro ⟨h, -⟩
    obtain ⟨y, hy, e⟩ := List.mem_map.1 ((key x.1).2 (.inr (List.mem_map_of_mem hx)))
    have := h y hy
    rw [e] at this
    exact hn (by simpa using this)

theorem compile_inv {a : Attrs K} {j : JaxComp K} (h : compileResult a = .ok j) :
    a.model = some j.model ∧ vectorGain a = .ok j.vectorGain ∧ buildKind a = .ok j.kind ∧ j.dim = a.dim ∧ j.gainFn = a.gainFn ∧
      j.maskIdxs = if a.mask.isSome then a.maskIdxs else List.range a.dim.toNat := by
  unfold compileResult jaxComponent at h
  revert h
  show (match a.model with | none => _ | some m => _ : Except Err (JaxComp K) × Comp K).1 = _ → _
  cases hm : a.model with
  | none => intro h; cases h
  | some m =>
    dsimp only
    split
    · intro h; cases h
    · rw [if_pos (show (Comp.fresh a).modified = true from rfl)]
      have hb := buildComponent_fst m (Comp.fresh a)
      cases hbb : buildComponent m (Comp.fresh a) with
      | mk r c =>
        rw [hbb] at hb
        cases r with
        | error e => intro h; cases h
        | ok j' =>
          intro h
          cases h
          have hb' := hb.symm
          obtain ⟨g, hg, hb'⟩ := Except.bind_eq_ok hb'
          obtain ⟨u, hu, hb'⟩ := Except.bind_eq_ok hb'
          obtain ⟨k, hk, hb'⟩ := Except.bind_eq_ok hb'
          cases hb'
          exact ⟨rfl, hg, hk, rfl, rfl, rfl⟩

/-- `k'` differs from `k` in class-specific attributes only as the compiled fields `jk` and `jk'` do. -/
private def Built (a : Attrs K) : Kind K → JaxKind K → Prop
  | .comTask t x, jk => ∃ w, matrixCost a.dim t.cost = .ok w ∧ jk = .comTask w t.lmDamping x
  | .jointTask t _ x qi, jk => ∃ w y i, matrixCost a.dim t.cost = .ok w ∧ x = some y ∧ qi = some i ∧ jk = .jointTask w t.lmDamping y i
  | .positionTask t o x, jk => ∃ w, matrixCost a.dim t.cost = .ok w ∧ jk = .positionTask w t.lmDamping o.objId o.objType x
  | .frameTask t o x, jk => ∃ w, matrixCost a.dim t.cost = .ok w ∧ jk = .frameTask w t.lmDamping o.objId o.objType x
  | .jointBarrier s _ lo hi qi, jk => ∃ l h i, lo = some l ∧ hi = some h ∧ qi = some i ∧ jk = .jointBarrier s l h i
  | .positionBarrier s o lo hi _ li, jk => jk = .positionBarrier s o.objId o.objType lo hi li
  | .selfCollision s d _ _ nc ps, jk => ∃ n : Nat, ∃ p, a.dim = n ∧ ps = some p ∧ jk = .selfCollision s (Arr.onesMul n (Arr.scalar d)) p nc
  | .modelEquality ac h w, jk => ∃ y, softConstraintCost a.dim w = .ok y ∧ jk = .modelEquality ac h y

private theorem built {a : Attrs K} {jk : JaxKind K} (h : buildKind a = .ok jk) : Built a a.kind jk := by
  unfold buildKind at h
  unfold Built
  cases hk : a.kind with
  | comTask t x =>
    rw [hk] at h
    obtain ⟨w, hw, h⟩ := Except.bind_eq_ok h
    cases h
    exact ⟨w, hw, rfl⟩
  | jointTask t fm x qi =>
    rw [hk] at h
    obtain ⟨w, hw, h⟩ := Except.bind_eq_ok h
    cases x with
    | none => cases h
    | some y =>
      cases qi with
      | none => cases h
      | some i => cases h; exact ⟨w, y, i, hw, rfl, rfl, rfl⟩
  | positionTask t o x =>
    rw [hk] at h
    obtain ⟨w, hw, h⟩ := Except.bind_eq_ok h
    cases h
    exact ⟨w, hw, rfl⟩
  | frameTask t o x =>
    rw [hk] at h
    obtain ⟨w, hw, h⟩ := Except.bind_eq_ok h
    cases h
    exact ⟨w, hw, rfl⟩
  | jointBarrier s fm lo hi qi =>
    rw [hk] at h
    cases lo with
    | none => cases h
    | some l =>
      cases hi with
      | none => cases h
      | some u =>
        cases qi with
        | none => cases h
        | some i => cases h; exact ⟨l, u, i, rfl, rfl, rfl, rfl⟩
  | positionBarrier s o lo hi lt li =>
    rw [hk] at h
    dsimp only at h
    split at h
    · cases h
    · cases h; rfl
  | selfCollision s d b e nc ps =>
    rw [hk] at h
    obtain ⟨dd, hd, h⟩ := Except.bind_eq_ok h
    obtain ⟨n, hn, h⟩ := Except.bind_eq_ok h
    have h1 : dd = a.dim := by
      unfold getDim at hd
      split at hd <;> cases hd
      rfl
    have h2 : dd = n := by
      unfold sizeOf at hn
      split at hn
      · cases hn
      · cases hn
        omega
    cases ps with
    | none => cases h
    | some p => cases h; exact ⟨n, p, by rw [← h1, h2], rfl, rfl⟩
  | modelEquality ac hd w =>
    rw [hk] at h
    obtain ⟨y, hy, h⟩ := Except.bind_eq_ok h
    cases h
    exact ⟨y, hy, rfl⟩

private theorem change_kind {a : Attrs K} {k : Kind K} {j j' : JaxComp K} (h : compileResult a = .ok j)
    (h' : compileResult { a with kind := k } = .ok j') : Built a a.kind j.kind ∧ Built a k j'.kind ∧ j' = { j with kind := j'.kind } := by
  obtain ⟨h1, h2, h3, h4, h5, h6⟩ := compile_inv h
  obtain ⟨g1, g2, g3, g4, g5, g6⟩ := compile_inv h'
  refine ⟨built h3, built g3, ?_⟩
  have e1 : j'.model = j.model := Option.some.inj (g1.symm.trans h1)
  have e2 : j'.vectorGain = j.vectorGain := by
    have := vectorGain_congr (a := { a with kind := k }) (b := a) rfl rfl
    rw [this, h2] at g2
    exact (Except.ok.inj g2).symm
  cases j'
  cases j
  simp only at h4 h5 h6 g4 g5 g6 e1 e2 ⊢
  rw [e1, e2, h4, h5, h6, g4, g5, g6]

theorem change_gain {a : Attrs K} {x : Arr K} {j j' : JaxComp K} (h : compileResult a = .ok j)
    (h' : compileResult { a with gain := x } = .ok j') : GainOf a.dim x j'.vectorGain ∧ j' = { j with vectorGain := j'.vectorGain } := by
  obtain ⟨h1, h2, h3, h4, h5, h6⟩ := compile_inv h
  obtain ⟨g1, g2, g3, g4, g5, g6⟩ := compile_inv h'
  refine ⟨vectorGain_spec g2, ?_⟩
  have e1 : j'.model = j.model := Option.some.inj (g1.symm.trans h1)
  have e2 : j'.kind = j.kind := by
    have := buildKind_congr (a := { a with gain := x }) (b := a) rfl rfl
    rw [this, h3] at g3
    exact (Except.ok.inj g3).symm
  cases j'
  cases j
  simp only at h4 h5 h6 g4 g5 g6 e1 e2 ⊢
  rw [e1, e2, h4, h5, h6, g4, g5, g6]

private theorem copy_nothing (j : JaxComp K) : j.obj.copyAndSet [] = .ok j.obj := by
  obtain ⟨d, m, g, f, mi, k⟩ := j
  cases k <;> rfl

/-- Every way to change one field of a compiled component. -/
private theorem copy_gain (j : JaxComp K) (y : Arr K) :
    j.obj.copyAndSet [("vector_gain", .arr y)] = .ok ({ j with vectorGain := y } : JaxComp K).obj := by
  obtain ⟨d, m, g, f, mi, k⟩ := j
  cases k <;> rfl

private theorem frame_of_array (x : Arr K) : FrameOf (.array x) (frameOfArray x) := by
  refine ⟨rfl, fun at_ => ⟨fun i hi => ?_, fun i hi => ?_⟩⟩
  · simp [frameOfArray, hi]
  · simp [frameOfArray]

/-- **C103** (setters): after any history of a component, an accepted setter call followed by compiling gives the object that `copy_and_set` makes
of the previously compiled one with the fields that the setter is about; every other field is the same. -/
theorem C103_setter {c c' : Comp K} {op : CompOp K} {j j' : JaxComp K} (h : Reachable c) (hop : ∀ m, op ≠ .updateModel m)
    (hj : (jaxComponent c).1 = .ok j) (hr : op.run c = (.ok (), c')) (hj' : (jaxComponent c').1 = .ok j') :
    ∃ l, Changes c.attrs op l ∧ j.obj.copyAndSet l = .ok j'.obj := by
  have hc := cacheOK_reachable h
  have hc' : CacheOK c' := by
    have := cacheOK_run op c hc
    rw [hr] at this
    exact this
  rw [jaxComponent_fst hc] at hj
  rw [jaxComponent_fst hc'] at hj'
  have same : MaskFill c.attrs c'.attrs → j.obj.copyAndSet [] = .ok j'.obj := by
    intro hm
    rw [compileResult_congr hm, hj] at hj'
    rw [copy_nothing, Except.ok.inj hj']
  cases op with
  | updateModel m => exact absurd rfl (hop m)
  | readMask =>
    refine ⟨[], rfl, same ?_⟩
    have := maskFill_ensureMask c
    rw [show ensureMask c = _ from hr] at this
    exact this
  | compile =>
    refine ⟨[], rfl, same ?_⟩
    have := maskFill_jaxComponent c
    rw [show (jaxComponent c).2 = c' from congrArg Prod.snd hr] at this
    exact this
  | updateGain g =>
    simp only [CompOp.run, updateGain] at hr
    split at hr <;> cases hr
    obtain ⟨h1, h2⟩ := change_gain hj hj'
    refine ⟨_, ⟨_, h1, rfl⟩, ?_⟩
    rw [copy_gain, ← h2]
  | updateCost w =>
    simp only [CompOp.run, updateCost] at hr
    cases hk : c.attrs.kind <;> rw [hk] at hr <;> simp only [Kind.taskA?] at hr
    all_goals try cases hr
    all_goals
      split at hr <;> cases hr
      obtain ⟨h1, h2, h3⟩ := change_kind hj hj'
      rw [hk] at h1
      obtain ⟨d, m, g, f, mi, k⟩ := j
      obtain ⟨d', m', g', f', mi', k'⟩ := j'
      simp only [Built, Kind.setTaskA] at h1 h2 h3
    · obtain ⟨_, -, rfl⟩ := h1
      obtain ⟨y, hy, rfl⟩ := h2
      cases h3
      exact ⟨_, ⟨y, matrixCost_spec hy, rfl⟩, rfl⟩
    · obtain ⟨_, _, _, -, rfl, rfl, rfl⟩ := h1
      obtain ⟨y, _, _, hy, e1, e2, rfl⟩ := h2
      cases h3
      cases e1
      cases e2
      exact ⟨_, ⟨y, matrixCost_spec hy, rfl⟩, rfl⟩
    · obtain ⟨_, -, rfl⟩ := h1
      obtain ⟨y, hy, rfl⟩ := h2
      cases h3
      exact ⟨_, ⟨y, matrixCost_spec hy, rfl⟩, rfl⟩
    · obtain ⟨_, -, rfl⟩ := h1
      obtain ⟨y, hy, rfl⟩ := h2
      cases h3
      exact ⟨_, ⟨y, matrixCost_spec hy, rfl⟩, rfl⟩
  | setLmDamping x =>
    simp only [CompOp.run, setLmDamping] at hr
    cases hk : c.attrs.kind <;> rw [hk] at hr <;> simp only [Kind.taskA?] at hr
    all_goals cases hr
    all_goals
      obtain ⟨h1, h2, h3⟩ := change_kind hj hj'
      rw [hk] at h1
      obtain ⟨d, m, g, f, mi, k⟩ := j
      obtain ⟨d', m', g', f', mi', k'⟩ := j'
      simp only [Built, Kind.setTaskA] at h1 h2 h3
    · obtain ⟨_, e1, rfl⟩ := h1
      obtain ⟨y, hy, rfl⟩ := h2
      rw [e1] at hy
      cases hy
      cases h3
      exact ⟨_, rfl, rfl⟩
    · obtain ⟨_, _, _, e1, rfl, rfl, rfl⟩ := h1
      obtain ⟨y, _, _, hy, e2, e3, rfl⟩ := h2
      rw [e1] at hy
      cases hy
      cases h3
      cases e2
      cases e3
      exact ⟨_, rfl, rfl⟩
    · obtain ⟨_, e1, rfl⟩ := h1
      obtain ⟨y, hy, rfl⟩ := h2
      rw [e1] at hy
      cases hy
      cases h3
      exact ⟨_, rfl, rfl⟩
    · obtain ⟨_, e1, rfl⟩ := h1
      obtain ⟨y, hy, rfl⟩ := h2
      rw [e1] at hy
      cases hy
      cases h3
      exact ⟨_, rfl, rfl⟩
  | setSafeDisplacementGain x =>
    simp only [CompOp.run, setSafeDisplacementGain] at hr
    cases hk : c.attrs.kind <;> rw [hk] at hr <;> simp [Kind.isBarrier, Kind.setSdg] at hr
    all_goals
      subst hr
      obtain ⟨h1, h2, h3⟩ := change_kind hj hj'
      rw [hk] at h1
      obtain ⟨d, m, g, f, mi, k⟩ := j
      obtain ⟨d', m', g', f', mi', k'⟩ := j'
      simp only [Built] at h1 h2 h3
    · obtain ⟨_, _, _, rfl, rfl, rfl, rfl⟩ := h1
      obtain ⟨_, _, _, e1, e2, e3, rfl⟩ := h2
      cases e1
      cases e2
      cases e3
      cases h3
      exact ⟨_, rfl, rfl⟩
    · subst h1
      subst h2
      cases h3
      exact ⟨_, rfl, rfl⟩
    · obtain ⟨n, _, e1, rfl, rfl⟩ := h1
      obtain ⟨n', _, e2, e3, rfl⟩ := h2
      cases e3
      have : n = n' := by omega
      subst this
      cases h3
      exact ⟨_, rfl, rfl⟩
  | updateTarget x =>
    simp only [CompOp.run, updateTarget] at hr
    cases hk : c.attrs.kind with
    | comTask t y =>
      have : c' = c.set { c.attrs with kind := .comTask t x } := by
        rw [hk] at hr
        dsimp only at hr
        split at hr
        · cases hr
        · split at hr <;> cases hr
          rfl
      subst this
      obtain ⟨h1, h2, h3⟩ := change_kind hj hj'
      rw [hk] at h1
      obtain ⟨d, m, g, f, mi, k⟩ := j
      obtain ⟨d', m', g', f', mi', k'⟩ := j'
      simp only [Built] at h1 h2 h3
      obtain ⟨_, e1, rfl⟩ := h1
      obtain ⟨y, hy, rfl⟩ := h2
      rw [e1] at hy
      cases hy
      cases h3
      exact ⟨_, by simp only [Changes, hk]; rfl, rfl⟩
    | positionTask t o y =>
      have : c' = c.set { c.attrs with kind := .positionTask t o x } := by
        rw [hk] at hr
        dsimp only at hr
        split at hr
        · cases hr
        · split at hr <;> cases hr
          rfl
      subst this
      obtain ⟨h1, h2, h3⟩ := change_kind hj hj'
      rw [hk] at h1
      obtain ⟨d, m, g, f, mi, k⟩ := j
      obtain ⟨d', m', g', f', mi', k'⟩ := j'
      simp only [Built] at h1 h2 h3
      obtain ⟨_, e1, rfl⟩ := h1
      obtain ⟨y, hy, rfl⟩ := h2
      rw [e1] at hy
      cases hy
      cases h3
      exact ⟨_, by simp only [Changes, hk]; rfl, rfl⟩
    | jointTask t fm y qi =>
      have : c' = c.set { c.attrs with kind := .jointTask t fm (some x) qi } := by
        rw [hk] at hr
        dsimp only at hr
        split at hr
        · cases hr
          rfl
        · split at hr
          · cases hr
          · split at hr <;> cases hr
            rfl
      subst this
      obtain ⟨h1, h2, h3⟩ := change_kind hj hj'
      rw [hk] at h1
      obtain ⟨d, m, g, f, mi, k⟩ := j
      obtain ⟨d', m', g', f', mi', k'⟩ := j'
      simp only [Built] at h1 h2 h3
      obtain ⟨_, _, _, e1, rfl, rfl, rfl⟩ := h1
      obtain ⟨y, _, _, hy, e2, e3, rfl⟩ := h2
      rw [e1] at hy
      cases hy
      cases h3
      cases e2
      cases e3
      exact ⟨_, by simp only [Changes, hk]; rfl, rfl⟩
    | _ => rw [hk] at hr; cases hr
  | updateTargetFrame x =>
    simp only [CompOp.run, updateTargetFrame] at hr
    cases hk : c.attrs.kind with
    | frameTask t o y =>
      obtain ⟨z, hz, rfl⟩ : ∃ z, FrameOf x z ∧ c' = c.set { c.attrs with kind := .frameTask t o z } := by
        rw [hk] at hr
        cases x with
        | se3 f => cases hr; exact ⟨f, rfl, rfl⟩
        | array x =>
          dsimp only at hr
          split at hr
          · cases hr
          · split at hr <;> cases hr
            exact ⟨_, frame_of_array x, rfl⟩
      obtain ⟨h1, h2, h3⟩ := change_kind hj hj'
      rw [hk] at h1
      obtain ⟨d, m, g, f, mi, k⟩ := j
      obtain ⟨d', m', g', f', mi', k'⟩ := j'
      simp only [Built] at h1 h2 h3
      obtain ⟨_, e1, rfl⟩ := h1
      obtain ⟨y, hy, rfl⟩ := h2
      rw [e1] at hy
      cases hy
      cases h3
      exact ⟨_, ⟨z, hz, rfl⟩, rfl⟩
    | _ => rw [hk] at hr; cases hr
  | updateQLimit upper x =>
    simp only [CompOp.run, updateQLimit] at hr
    cases hk : c.attrs.kind with
    | jointBarrier s fm lo hi qi =>
      have : c' = c.set { c.attrs with kind := .jointBarrier s fm (if upper then lo else some x) (if upper then some x else hi) qi } := by
        rw [hk] at hr
        dsimp only at hr
        split at hr
        · cases hr
        · split at hr
          · cases hr
          · split at hr
            · cases hr
            · split at hr
              · rename_i hu; cases hr; simp [hu]
              · rename_i hu; cases hr; simp [hu]
      subst this
      obtain ⟨h1, h2, h3⟩ := change_kind hj hj'
      rw [hk] at h1
      obtain ⟨d, m, g, f, mi, k⟩ := j
      obtain ⟨d', m', g', f', mi', k'⟩ := j'
      simp only [Built] at h1 h2 h3
      obtain ⟨_, _, _, rfl, rfl, rfl, rfl⟩ := h1
      obtain ⟨_, _, _, e1, e2, e3, rfl⟩ := h2
      cases h3
      cases e3
      refine ⟨_, rfl, ?_⟩
      cases upper
      · cases e1; cases e2; rfl
      · cases e1; cases e2; rfl
    | _ => rw [hk] at hr; cases hr
  | updatePLimit upper x =>
    simp only [CompOp.run, updatePLimit] at hr
    cases hk : c.attrs.kind with
    | positionBarrier s o lo hi lt li =>
      rw [hk] at hr
      dsimp only at hr
      by_cases hinc : lt = .both ∨ lt = (if upper then .max else .min)
      · have hi' : (if upper then lt.includesMax else lt.includesMin) = true := by
          cases upper <;> cases lt <;> simp_all [LimitType.includesMax, LimitType.includesMin]
        rw [hi'] at hr
        obtain ⟨y, hy, rfl⟩ : ∃ y, (x.shape = [] ∧ y.shape = [c.attrs.maskIdxs.length] ∧ (∀ i < c.attrs.maskIdxs.length, y.get [i] = x.get []) ∨
            x.shape ≠ [] ∧ y = x) ∧
            c' = c.set { c.attrs with kind := .positionBarrier s o (if upper then lo else y) (if upper then y else hi) lt li } := by
          unfold newPositionBound at hr
          cases hl : x.shape.getLast? with
          | none =>
            rw [hl] at hr
            refine ⟨Arr.onesMul c.attrs.maskIdxs.length x, .inl ⟨List.getLast?_eq_none_iff.1 hl, rfl, fun i hi => one_mul _⟩, ?_⟩
            cases upper <;> cases hr <;> rfl
          | some n =>
            rw [hl] at hr
            refine ⟨x, .inr ⟨(fun e => by rw [e] at hl; cases hl), rfl⟩, ?_⟩
            dsimp only at hr
            by_cases hn : n ≠ c.attrs.maskIdxs.length
            · rw [if_pos hn] at hr; cases hr
            · rw [if_neg hn] at hr
              cases upper <;> cases hr <;> rfl
        obtain ⟨h1, h2, h3⟩ := change_kind hj hj'
        rw [hk] at h1
        obtain ⟨d, m, g, f, mi, k⟩ := j
        obtain ⟨d', m', g', f', mi', k'⟩ := j'
        simp only [Built] at h1 h2 h3
        subst h1
        subst h2
        cases h3
        refine ⟨[(if upper then "p_max" else "p_min", .arr y)], ?_, ?_⟩
        · simp only [Changes, hk, if_pos hinc]
          exact ⟨y, hy, rfl⟩
        · cases upper <;> rfl
      · have hi' : (if upper then lt.includesMax else lt.includesMin) = false := by
          cases upper <;> cases lt <;> simp_all [LimitType.includesMax, LimitType.includesMin]
        rw [hi'] at hr
        have : c' = c := by
          unfold newPositionBound at hr
          cases hl : x.shape.getLast? with
          | none => rw [hl] at hr; cases hr; rfl
          | some n =>
            rw [hl] at hr
            dsimp only at hr
            by_cases hn : n ≠ c.attrs.maskIdxs.length
            · rw [if_pos hn] at hr; cases hr
            · rw [if_neg hn] at hr; cases hr; rfl
        subst this
        refine ⟨[], ?_, same (.refl _)⟩
        simp only [Changes, hk, if_neg hinc]
    | _ => rw [hk] at hr; cases hr
  | setActive x =>
    simp only [CompOp.run, setActive] at hr
    cases hk : c.attrs.kind with
    | modelEquality ac hd w =>
      rw [hk] at hr
      cases hr
      obtain ⟨h1, h2, h3⟩ := change_kind hj hj'
      rw [hk] at h1
      obtain ⟨d, m, g, f, mi, k⟩ := j
      obtain ⟨d', m', g', f', mi', k'⟩ := j'
      simp only [Built] at h1 h2 h3
      obtain ⟨_, e1, rfl⟩ := h1
      obtain ⟨_, e2, rfl⟩ := h2
      rw [e1] at e2
      cases e2
      cases h3
      exact ⟨_, rfl, rfl⟩
    | _ => rw [hk] at hr; cases hr
  | setHard x =>
    simp only [CompOp.run, setHard] at hr
    cases hk : c.attrs.kind with
    | modelEquality ac hd w =>
      rw [hk] at hr
      cases hr
      obtain ⟨h1, h2, h3⟩ := change_kind hj hj'
      rw [hk] at h1
      obtain ⟨d, m, g, f, mi, k⟩ := j
      obtain ⟨d', m', g', f', mi', k'⟩ := j'
      simp only [Built] at h1 h2 h3
      obtain ⟨_, e1, rfl⟩ := h1
      obtain ⟨_, e2, rfl⟩ := h2
      rw [e1] at e2
      cases e2
      cases h3
      exact ⟨_, rfl, rfl⟩
    | _ => rw [hk] at hr; cases hr
  | setDMin x =>
    simp only [CompOp.run, setDMin] at hr
    cases hk : c.attrs.kind with
    | selfCollision s d b e nc ps =>
      rw [hk] at hr
      cases hr
      obtain ⟨h1, h2, h3⟩ := change_kind hj hj'
      rw [hk] at h1
      obtain ⟨d, m, g, f, mi, k⟩ := j
      obtain ⟨d', m', g', f', mi', k'⟩ := j'
      simp only [Built] at h1 h2 h3
      obtain ⟨n, _, e1, rfl, rfl⟩ := h1
      obtain ⟨n', _, e2, e3, rfl⟩ := h2
      cases e3
      cases h3
      exact ⟨_, ⟨_, ⟨n', e2, rfl, .inl ⟨rfl, fun i hi => one_mul _⟩⟩, rfl⟩, rfl⟩
    | _ => rw [hk] at hr; cases hr
  | setNClosest x =>
    simp only [CompOp.run, setNClosest] at hr
    cases hk : c.attrs.kind with
    | selfCollision s d b e nc ps =>
      rw [hk] at hr
      cases hr
      obtain ⟨h1, h2, h3⟩ := change_kind hj hj'
      rw [hk] at h1
      obtain ⟨d, m, g, f, mi, k⟩ := j
      obtain ⟨d', m', g', f', mi', k'⟩ := j'
      simp only [Built] at h1 h2 h3
      obtain ⟨n, _, e1, rfl, rfl⟩ := h1
      obtain ⟨n', _, e2, e3, rfl⟩ := h2
      cases e3
      have : n = n' := by omega
      subst this
      cases h3
      exact ⟨_, rfl, rfl⟩
    | _ => rw [hk] at hr; cases hr
  | setCollisionBodies x =>
    simp only [CompOp.run, setCollisionBodies] at hr
    cases hk : c.attrs.kind with
    | selfCollision s d b e nc ps =>
      rw [hk] at hr
      cases hr
      obtain ⟨h1, h2, h3⟩ := change_kind hj hj'
      rw [hk] at h1
      obtain ⟨d, m, g, f, mi, k⟩ := j
      obtain ⟨d', m', g', f', mi', k'⟩ := j'
      simp only [Built] at h1 h2 h3
      obtain ⟨n, _, e1, rfl, rfl⟩ := h1
      obtain ⟨n', _, e2, e3, rfl⟩ := h2
      cases e3
      have : n = n' := by omega
      subst this
      cases h3
      exact ⟨_, rfl, rfl⟩
    | _ => rw [hk] at hr; cases hr

/-! ### Instances -/

/-- A center-of-mass task with a model, compiled once. -/
private def exHistory : List (CompOp ℚ) := [.updateModel Ex.model, .compile]

/-- A compiled center-of-mass task, before and after a new gain. -/
example : ∃ (c c' : Comp ℚ) (j j' : JaxComp ℚ), Reachable c ∧ (jaxComponent c).1 = .ok j ∧
    (CompOp.updateGain (Ex.scalar 7)).run c = (.ok (), c') ∧ (jaxComponent c').1 = .ok j' ∧
    ∃ y, j.obj.copyAndSet [("vector_gain", .arr y)] = .ok j'.obj := by
  obtain ⟨c0, h0⟩ : ∃ c0, (NewComp.comTask Ex.taskArgs).run = .ok c0 := ⟨_, rfl⟩
  have hr : Reachable (runOps c0 exHistory) := ⟨_, c0, exHistory, h0, rfl⟩
  cases h0
  refine ⟨_, _, _, _, hr, rfl, rfl, rfl, ?_⟩
  obtain ⟨l, ⟨y, -, rfl⟩, h2⟩ := C103_setter (op := .updateGain (Ex.scalar 7)) hr (fun _ e => by cases e) rfl rfl rfl
  exact ⟨y, h2⟩

/-- A misspelt field raises. -/
example (j : JaxComp ℚ) : j.obj.copyAndSet [("gain", .num 7)] = .error .typeError :=
  (C103_copy j _).2 _ (List.mem_singleton_self _) (by
    show "gain" ∉ classFields j.kind.className
    cases j.kind <;> simp [classFields, JaxKind.className])

/-- Reading attributes of the component compiled after the example history. -/
example : ∃ (c c' : Comp ℚ) (j : JaxComp ℚ), Reachable c ∧ jaxComponent c = (.ok j, c') ∧ Readings c.attrs j.obj.attr ∧
    j.obj.attr "dim" = some (.int c.attrs.dim) := by
  obtain ⟨c0, h0⟩ : ∃ c0, (NewComp.comTask Ex.taskArgs).run = .ok c0 := ⟨_, rfl⟩
  have hr : Reachable (runOps c0 exHistory) := ⟨_, c0, exHistory, h0, rfl⟩
  cases h0
  exact ⟨_, _, _, hr, rfl, C103_attributes hr rfl, (C103_attributes hr rfl).dim⟩

end Mjinx.Props
