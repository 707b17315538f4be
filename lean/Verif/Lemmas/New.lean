import Verif.Lemmas.World

/-! # What the constructors produce -/

set_option linter.unusedSectionVars false

namespace Mjinx
variable {K : Type} [Field K] [LinearOrder K]

theorem initAttrs_ok {nm : String} {g : Arr K} {gf : Option (K → K)} {mk : Option (Arr Int)}
    {k : Kind K} {a : Attrs K} (h : initAttrs nm g gf mk k = .ok a) :
    g.ndim ≤ 1 ∧ ∃ m idxs, initMask mk = .ok (m, idxs) ∧
      a = { name := nm, model := none, gain := g, gainFn := gf.getD id, dim := -1, mask := m,
            maskIdxs := idxs, kind := k } := by
  unfold initAttrs at h
  split at h
  · cases h
  · rename_i hg
    split at h
    · cases h
    · rename_i m idxs hm
      cases h
      exact ⟨not_lt.1 hg, m, idxs, hm, rfl⟩

theorem initMask_none : initMask none = .ok (none, []) := rfl

theorem initMask_ok {mk : Option (Arr Int)} {m : Option (List Int)} {idxs : List Nat}
    (h : initMask mk = .ok (m, idxs)) :
    (mk = none ∧ m = none ∧ idxs = []) ∨
    (∃ a n, mk = some a ∧ a.shape = [n] ∧ m = some ((List.range n).map (fun i => a.get [i])) ∧
      idxs = nonzeroIdxs ((List.range n).map (fun i => a.get [i]))) := by
  unfold initMask at h
  split at h
  · cases h; exact Or.inl ⟨rfl, rfl, rfl⟩
  · rename_i a
    split at h
    · rename_i n hs
      cases h; exact Or.inr ⟨a, n, rfl, hs, rfl, rfl⟩
    · cases h

theorem initTaskA_ok {cost : Arr K} {lm : K} {t : TaskA K} (h : initTaskA cost lm = .ok t) :
    0 ≤ lm ∧ cost.ndim ≤ 2 ∧ t = { cost, lmDamping := lm } := by
  unfold initTaskA at h
  split at h
  · cases h
  · rename_i h1
    split at h
    · cases h
    · rename_i h2
      cases h
      exact ⟨not_lt.1 h1, not_lt.1 h2, rfl⟩

theorem newComTask_ok {a : TaskArgs K} {c : Comp K} (h : newComTask a = .ok c) :
    ∃ t at0, checkComMask a.mask = .ok () ∧ initTaskA a.cost a.lm = .ok t ∧
      initAttrs a.name a.gain a.gainFn a.mask (.comTask t (Arr.zeros 0)) = .ok at0 ∧
      c = Comp.fresh { at0 with
            dim := ((if a.mask.isNone then 3 else at0.maskIdxs.length : Nat) : Int)
            kind := .comTask t (Arr.zeros (if a.mask.isNone then 3 else at0.maskIdxs.length)) } := by
  unfold newComTask at h
  obtain ⟨u, h0, h⟩ := Except.bind_eq_ok h
  obtain ⟨t, h1, h⟩ := Except.bind_eq_ok h
  obtain ⟨at0, h2, h⟩ := Except.bind_eq_ok h
  cases h
  exact ⟨t, at0, h0, h1, h2, rfl⟩

theorem newJointTask_ok {a : TaskArgs K} {fm : Option (List Int)} {c : Comp K}
    (h : newJointTask a fm = .ok c) :
    ∃ t at0, initTaskA a.cost a.lm = .ok t ∧
      initAttrs a.name a.gain a.gainFn none (.jointTask t fm none none) = .ok at0 ∧
      c = Comp.fresh at0 := by
  unfold newJointTask at h
  obtain ⟨t, h1, h⟩ := Except.bind_eq_ok h
  obtain ⟨at0, h2, h⟩ := Except.bind_eq_ok h
  cases h
  exact ⟨t, at0, h1, h2, rfl⟩

theorem newPositionTask_ok {a : TaskArgs K} {on : String} {ot : ObjType} {c : Comp K}
    (h : newPositionTask a on ot = .ok c) :
    ∃ t at0, initTaskA a.cost a.lm = .ok t ∧
      initAttrs a.name a.gain a.gainFn a.mask (.positionTask t ⟨on, ot, -1⟩ (Arr.zeros 0)) = .ok at0 ∧
      c = Comp.fresh { at0 with
            dim := ((if a.mask.isNone then 3 else at0.maskIdxs.length : Nat) : Int)
            kind := .positionTask t ⟨on, ot, -1⟩
              (Arr.zeros (if a.mask.isNone then 3 else at0.maskIdxs.length)) } := by
  unfold newPositionTask at h
  obtain ⟨t, h1, h⟩ := Except.bind_eq_ok h
  obtain ⟨at0, h2, h⟩ := Except.bind_eq_ok h
  cases h
  exact ⟨t, at0, h1, h2, rfl⟩

theorem newFrameTask_ok {a : TaskArgs K} {on : String} {ot : ObjType} {c : Comp K}
    (h : newFrameTask a on ot = .ok c) :
    ∃ t at0, initTaskA a.cost a.lm = .ok t ∧
      initAttrs a.name a.gain a.gainFn a.mask (.frameTask t ⟨on, ot, -1⟩ se3Identity) = .ok at0 ∧
      c = Comp.fresh { at0 with
            dim := ((if a.mask.isNone then 6 else at0.maskIdxs.length : Nat) : Int) } := by
  unfold newFrameTask at h
  obtain ⟨t, h1, h⟩ := Except.bind_eq_ok h
  obtain ⟨at0, h2, h⟩ := Except.bind_eq_ok h
  cases h
  exact ⟨t, at0, h1, h2, rfl⟩

theorem newJointBarrier_ok {a : BarrierArgs K} {lo hi : Option (Arr K)} {fm : Option (List Int)}
    {c : Comp K} (h : newJointBarrier a lo hi fm = .ok c) :
    ∃ at0, initAttrs a.name a.gain a.gainFn none (.jointBarrier a.sdg fm lo hi none) = .ok at0 ∧
      c = Comp.fresh at0 := by
  unfold newJointBarrier at h
  obtain ⟨at0, h2, h⟩ := Except.bind_eq_ok h
  cases h
  exact ⟨at0, h2, rfl⟩

theorem newPositionBarrier_ok {a : BarrierArgs K} {on : String} {ot : ObjType}
    {pMin pMax : Option (Arr K)} {s : String} {mask : Option (Arr Int)} {c : Comp K}
    (h : newPositionBarrier a on ot pMin pMax s mask = .ok c) :
    ∃ at0 lt lo hi,
      initAttrs a.name a.gain a.gainFn (some (mask.getD (Arr.ofList [1, 1, 1])))
        (.positionBarrier a.sdg ⟨on, ot, -1⟩ (Arr.zeros 0) (Arr.zeros 0) .both []) = .ok at0 ∧
      limitTypeArg s = .ok lt ∧
      initialBound lt.includesMin at0.maskIdxs.length pMin = .ok lo ∧
      initialBound lt.includesMax at0.maskIdxs.length pMax = .ok hi ∧
      c = Comp.fresh { at0 with
            dim := (limitIdxsOf lt at0.maskIdxs.length).length
            kind := .positionBarrier a.sdg ⟨on, ot, -1⟩ lo hi lt (limitIdxsOf lt at0.maskIdxs.length) } := by
  unfold newPositionBarrier at h
  obtain ⟨at0, h1, h⟩ := Except.bind_eq_ok h
  obtain ⟨lt, h2, h⟩ := Except.bind_eq_ok h
  obtain ⟨lo, h3, h⟩ := Except.bind_eq_ok h
  obtain ⟨hi, h4, h⟩ := Except.bind_eq_ok h
  cases h
  exact ⟨at0, lt, lo, hi, h1, h2, h3, h4, rfl⟩

theorem newSelfCollision_ok {a : BarrierArgs K} {d : K} {bodies : List CollisionBody}
    {ex : List (CollisionBody × CollisionBody)} {n : Int} {c : Comp K}
    (h : newSelfCollision a d bodies ex n = .ok c) :
    ∃ at0, initAttrs a.name a.gain a.gainFn none (.selfCollision a.sdg d bodies ex n none) = .ok at0 ∧
      c = Comp.fresh at0 := by
  unfold newSelfCollision at h
  obtain ⟨at0, h2, h⟩ := Except.bind_eq_ok h
  cases h
  exact ⟨at0, h2, rfl⟩

theorem newModelEquality_ok {nm : String} {g : Arr K} {hard : Bool} {s : Option (Arr K)} {c : Comp K}
    (h : newModelEquality nm g hard s = .ok c) :
    ∃ at0, initAttrs nm g none none (.modelEquality true hard s) = .ok at0 ∧ c = Comp.fresh at0 := by
  unfold newModelEquality at h
  obtain ⟨at0, h2, h⟩ := Except.bind_eq_ok h
  cases h
  exact ⟨at0, h2, rfl⟩

theorem model_none_of_new {n : NewComp K} {c : Comp K} (hn : n.run = .ok c) :
    c.attrs.model = none := by
  cases n <;> simp only [NewComp.run] at hn
  case comTask =>
    obtain ⟨_, _, _, _, h, rfl⟩ := newComTask_ok hn
    obtain ⟨_, _, _, _, rfl⟩ := initAttrs_ok h; rfl
  case jointTask =>
    obtain ⟨_, _, _, h, rfl⟩ := newJointTask_ok hn
    obtain ⟨_, _, _, _, rfl⟩ := initAttrs_ok h; rfl
  case positionTask =>
    obtain ⟨_, _, _, h, rfl⟩ := newPositionTask_ok hn
    obtain ⟨_, _, _, _, rfl⟩ := initAttrs_ok h; rfl
  case frameTask =>
    obtain ⟨_, _, _, h, rfl⟩ := newFrameTask_ok hn
    obtain ⟨_, _, _, _, rfl⟩ := initAttrs_ok h; rfl
  case jointBarrier =>
    obtain ⟨_, h, rfl⟩ := newJointBarrier_ok hn
    obtain ⟨_, _, _, _, rfl⟩ := initAttrs_ok h; rfl
  case positionBarrier =>
    obtain ⟨_, _, _, _, h, _, _, _, rfl⟩ := newPositionBarrier_ok hn
    obtain ⟨_, _, _, _, rfl⟩ := initAttrs_ok h; rfl
  case selfCollision =>
    obtain ⟨_, h, rfl⟩ := newSelfCollision_ok hn
    obtain ⟨_, _, _, _, rfl⟩ := initAttrs_ok h; rfl
  case modelEquality =>
    obtain ⟨_, h, rfl⟩ := newModelEquality_ok hn
    obtain ⟨_, _, _, _, rfl⟩ := initAttrs_ok h; rfl

end Mjinx
