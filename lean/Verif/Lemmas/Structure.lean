import Verif.Spec.Structure
import Verif.Model.GlobalIK

/-!
# Sizes and exceptions do not depend on values
-/

namespace Mjinx.Structure
open Mjinx Mjinx.Spec
set_option linter.unusedSectionVars false

/-- `EndAlike`, with a relation between the results. -/
def Alike {α β : Type} (r : α → β → Prop) (x : Except Err α) (y : Except Err β) : Prop :=
  (∃ a b, x = .ok a ∧ y = .ok b ∧ r a b) ∨ (∃ e, x = .error e ∧ y = .error e) ∨ x = .error .nonFinite ∨ y = .error .nonFinite

section
variable {α β γ δ : Type} {r : α → β → Prop} {s : γ → δ → Prop}

theorem Alike.ok {a : α} {b : β} (h : r a b) : Alike r (.ok a) (.ok b) := .inl ⟨a, b, rfl, rfl, h⟩

theorem Alike.error (e : Err) : Alike r (.error e) (.error e) := .inr (.inl ⟨e, rfl, rfl⟩)

theorem Alike.bind {x : Except Err α} {y : Except Err β} {f : α → Except Err γ} {g : β → Except Err δ} (h : Alike r x y)
    (hf : ∀ a b, x = .ok a → y = .ok b → r a b → Alike s (f a) (g b)) : Alike s (x >>= f) (y >>= g) := by
  rcases h with ⟨a, b, rfl, rfl, h⟩ | ⟨e, rfl, rfl⟩ | rfl | rfl
  · exact hf a b rfl rfl h
  · exact .error e
  · exact .inr (.inr (.inl rfl))
  · exact .inr (.inr (.inr rfl))

theorem Alike.map {x : Except Err α} {y : Except Err β} {f : α → γ} {g : β → δ} (h : Alike r x y) (hf : ∀ a b, r a b → s (f a) (g b)) :
    Alike s (x.map f) (y.map g) := by
  rcases h with ⟨a, b, rfl, rfl, h⟩ | ⟨e, rfl, rfl⟩ | rfl | rfl
  · exact .ok (hf a b h)
  · exact .error e
  · exact .inr (.inr (.inl rfl))
  · exact .inr (.inr (.inr rfl))

theorem Alike.mono {r' : α → β → Prop} {x : Except Err α} {y : Except Err β} (h : Alike r x y) (hr : ∀ a b, r a b → r' a b) : Alike r' x y := by
  rcases h with ⟨a, b, rfl, rfl, h⟩ | h | h | h
  · exact .ok (hr a b h)
  · exact .inr (.inl h)
  · exact .inr (.inr (.inl h))
  · exact .inr (.inr (.inr h))

theorem Alike.same (x : Except Err α) : Alike (· = ·) x x := by
  rcases x with e | a
  · exact .error e
  · exact .ok rfl

theorem Alike.endAlike {x : Except Err α} {y : Except Err β} (h : Alike r x y) : EndAlike x y := by
  rcases h with ⟨a, b, h1, h2, -⟩ | h | h | h
  · exact .inl ⟨a, b, h1, h2⟩
  · exact .inr (.inl h)
  · exact .inr (.inr (.inl h))
  · exact .inr (.inr (.inr h))

theorem Alike.mapM {f : α → Except Err γ} {g : β → Except Err δ} : ∀ {xs : List α} {ys : List β},
    List.Forall₂ (fun a b => Alike s (f a) (g b)) xs ys → Alike (List.Forall₂ s) (xs.mapM f) (ys.mapM g)
  | _, _, .nil => .ok .nil
  | _, _, .cons h t => by
    rw [List.mapM_cons, List.mapM_cons]
    refine h.bind fun a b _ _ hab => ?_
    exact (Alike.mapM t).bind fun as bs _ _ hs => .ok (.cons hab hs)

theorem Alike.foldlM {f : γ → α → Except Err γ} {g : δ → β → Except Err δ} : ∀ {xs : List α} {ys : List β} {c : γ} {d : δ},
    s c d → List.Forall₂ (fun a b => ∀ c d, s c d → Alike s (f c a) (g d b)) xs ys → Alike s (xs.foldlM f c) (ys.foldlM g d)
  | _, _, _, _, h0, .nil => .ok h0
  | _, _, _, _, h0, .cons h t => by
    rw [List.foldlM_cons, List.foldlM_cons]
    exact (h _ _ h0).bind fun c d _ _ hcd => Alike.foldlM hcd t

end

/-- Equal lengths; equal numbers of rows and columns. -/
def VL {K L : Type} (a : Vec K) (b : Vec L) : Prop := a.len = b.len
def ML {K L : Type} (a : Mat K) (b : Mat L) : Prop := a.rows = b.rows ∧ a.cols = b.cols

section
variable {K : Type} [Field K] [LinearOrder K]

theorem alike_jnpGet {α β : Type} {l : List α} {l' : List β} (h : l.length = l'.length) (i i' : Int) :
    Alike (fun _ _ => True) (jnpGet l i) (jnpGet l' i') := by
  rcases l with _ | ⟨x, l⟩
  · have : l' = [] := List.length_eq_zero_iff.mp h.symm
    subst this
    exact .inr (.inl ⟨.indexError, by simp [jnpGet], by simp [jnpGet]⟩)
  · rcases l' with _ | ⟨y, l'⟩
    · simp at h
    · have e1 : ∀ (γ : Type) (z : γ) (k : List γ) (n : Int), ∃ a, jnpGet (z :: k) n = .ok a := by
        intro γ z k n
        simp only [jnpGet]
        rw [List.getElem?_eq_getElem (by simp only [List.length_cons]; omega)]
        exact ⟨_, rfl⟩
      obtain ⟨a, ha⟩ := e1 _ x l i
      obtain ⟨b, hb⟩ := e1 _ y l' i'
      exact .inl ⟨a, b, ha, hb, trivial⟩

theorem alike_operand {a b : Arr K} (h : a.shape = b.shape) : Alike VL a.operand b.operand := by
  unfold Arr.operand
  rw [← h]
  split
  · exact .ok rfl
  · exact .ok rfl
  · exact .error _

theorem alike_toVec {a b : Arr K} (h : a.shape = b.shape) : Alike VL a.toVec b.toVec := by
  unfold Arr.toVec
  rw [← h]
  split
  · exact .ok rfl
  · exact .error _

theorem alike_toMat {a b : Arr K} (h : a.shape = b.shape) : Alike ML a.toMat b.toMat := by
  unfold Arr.toMat
  rw [← h]
  split
  · exact .ok ⟨rfl, rfl⟩
  · exact .error _

theorem alike_zip {f g : K → K → K} {a b a' b' : Vec K} (ha : VL a a') (hb : VL b b') : Alike VL (Vec.zip f a b) (Vec.zip g a' b') := by
  unfold VL at ha hb
  unfold Vec.zip
  rw [ha, hb]
  split_ifs
  · exact .ok rfl
  · exact .ok rfl
  · exact .ok rfl
  · exact .error _

theorem alike_objPos {d d' : MjData K} (h : SameSizes d d') (t : ObjType) (i : Int) : Alike (fun _ _ => True) (objPos d t i) (objPos d' t i) := by
  unfold objPos
  split
  · exact alike_jnpGet h.geomXpos i i
  · exact alike_jnpGet h.siteXpos i i
  · exact alike_jnpGet h.xpos i i

theorem alike_objMat {d d' : MjData K} (h : SameSizes d d') (t : ObjType) (i : Int) : Alike (fun _ _ => True) (objMat d t i) (objMat d' t i) := by
  unfold objMat
  split
  · exact alike_jnpGet h.geomXmat i i
  · exact alike_jnpGet h.siteXmat i i
  · exact alike_jnpGet h.xmat i i

theorem alike_objFrame {env : Env K} {d d' : MjData K} (h : SameSizes d d') (t : ObjType) (i : Int) :
    Alike (fun _ _ => True) (objFrame env d t i) (objFrame env d' t i) :=
  (alike_objMat h t i).bind fun _ _ _ _ _ => (alike_objPos h t i).bind fun _ _ _ _ _ => .ok trivial

theorem alike_bounds {x x' lo lo' hi hi' : Vec K} (hx : VL x x') (hl : VL lo lo') (hh : VL hi hi') :
    Alike VL (boundsValue x lo hi) (boundsValue x' lo' hi') :=
  (alike_zip hx hl).bind fun _ _ _ _ h => (alike_zip hh hx).bind fun _ _ _ _ h' => .ok (congrArg₂ (· + ·) h h')

/-! ## Contacts -/

/-- Forget what the collision functions report. -/
def blank {C : Type} (f : CollisionFuncs C) : CollisionFuncs Unit := ⟨f.known, f.ncon, fun _ _ _ => ()⟩

theorem runGroup_blank {C : Type} (f : CollisionFuncs C) (kg : FunctionKey × List (Int × Int)) :
    runGroup (blank f) kg = (runGroup f kg).map (fun c => (⟨c.geom, ()⟩ : Contact Unit)) := by
  have e : (kg.2.flatMap fun g => (List.range (f.ncon kg.1.type1 kg.1.type2)).map ((blank f).contact kg.1 g)) =
      (kg.2.flatMap fun g => (List.range (f.ncon kg.1.type1 kg.1.type2)).map (f.contact kg.1 g)).map (fun _ => ()) := by
    rw [List.map_flatMap]
    congr 1
    funext g
    rw [List.map_map]
    rfl
  unfold runGroup
  show List.zipWith _ _ (kg.2.flatMap fun g => (List.range (f.ncon kg.1.type1 kg.1.type2)).map ((blank f).contact kg.1 g)) = _
  rw [e, List.map_zipWith, List.zipWith_map_right]
  rfl

theorem dictAppend_map {κ β γ : Type} [DecidableEq κ] (h : β → γ) (k : κ) (x : β) : ∀ d : List (κ × List β),
    dictAppend (d.map fun p => (p.1, p.2.map h)) k (h x) = (dictAppend d k x).map fun p => (p.1, p.2.map h)
  | [] => rfl
  | (k', xs) :: d => by
    simp only [List.map_cons, dictAppend]
    split_ifs
    · simp
    · simp [dictAppend_map h k x d]

theorem condimGroups_map {C D : Type} (h : List (Contact C) → List (Contact D)) (gs : List (FunctionKey × List (Contact C))) :
    condimGroups (gs.map fun g => (g.1, h g.2)) = (condimGroups gs).map fun p => (p.1, p.2.map h) := by
  unfold condimGroups
  suffices H : ∀ acc : List (Nat × List (List (Contact C))),
      (gs.map fun g => (g.1, h g.2)).foldl (fun acc kg => dictAppend acc kg.1.condim kg.2) (acc.map fun p => (p.1, p.2.map h)) =
        (gs.foldl (fun acc kg => dictAppend acc kg.1.condim kg.2) acc).map fun p => (p.1, p.2.map h) from H []
  induction gs with
  | nil => intro acc; rfl
  | cons g gs ih =>
    intro acc
    simp only [List.map_cons, List.foldl_cons]
    rw [dictAppend_map, ih]

theorem collisionPairs_blank {C : Type} (f : CollisionFuncs C) (m : MjModel K) (pairs : List (Int × Int)) :
    computeCollisionPairs (blank f) m pairs = (computeCollisionPairs f m pairs).map (List.map fun c => (⟨c.geom, ()⟩ : Contact Unit)) := by
  unfold computeCollisionPairs
  rcases geomGroups m pairs with e | gs
  · rfl
  simp only [bind, Except.bind]
  show (if (gs.any fun kg => !f.known kg.1.type1 kg.1.type2) = true then _ else _) = _
  by_cases hk : (gs.any fun kg => !f.known kg.1.type1 kg.1.type2) = true
  · rw [if_pos hk, if_pos hk]
    rfl
  · rw [if_neg hk, if_neg hk]
    simp only [pure, Except.pure, Except.map]
    congr 1
    have e : (gs.map fun kg => (kg.1, runGroup (blank f) kg)) =
        (gs.map fun kg => (kg.1, runGroup f kg)).map fun g => (g.1, g.2.map fun c => (⟨c.geom, ()⟩ : Contact Unit)) := by
      rw [List.map_map]
      exact List.map_congr_left fun kg _ => by rw [runGroup_blank]; rfl
    show (((condimGroups (gs.map fun kg => (kg.1, runGroup (blank f) kg))).mergeSort fun a b => a.1 ≤ b.1).flatMap fun kl => kl.2).flatten = _
    rw [e, condimGroups_map (List.map fun c => (⟨c.geom, ()⟩ : Contact Unit)), ← List.map_mergeSort (r := fun a b => decide (a.1 ≤ b.1)) (by intros; rfl)]
    generalize (condimGroups (gs.map fun kg => (kg.1, runGroup f kg))).mergeSort (fun a b => decide (a.1 ≤ b.1)) = l
    rw [List.flatMap_map, List.map_flatten]
    congr 1
    rw [List.map_flatMap]

theorem alike_contacts {C : Type} {f f' : CollisionFuncs C} (h : ∀ t1 t2, f.known t1 t2 = f'.known t1 t2 ∧ f.ncon t1 t2 = f'.ncon t1 t2)
    (m : MjModel K) (pairs : List (Int × Int)) :
    Alike (fun a b => a.length = b.length) (computeCollisionPairs f m pairs) (computeCollisionPairs f' m pairs) := by
  have e : blank f = blank f' := by
    unfold blank
    congr 1
    · funext a b; exact (h a b).1
    · funext a b; exact (h a b).2
  have h1 := collisionPairs_blank f m pairs
  rw [e, collisionPairs_blank f' m pairs] at h1
  rcases hx : computeCollisionPairs f m pairs with e1 | cs <;> rcases hy : computeCollisionPairs f' m pairs with e2 | cs' <;>
    simp only [hx, hy, Except.map] at h1
  · simp only [Except.error.injEq] at h1
    subst h1
    exact .error _
  · exact absurd h1 (by simp)
  · exact absurd h1 (by simp)
  · exact .ok (by simpa using (congrArg List.length (Except.ok.inj h1)).symm)

theorem alike_closest {xs ys : List K} (h : xs.length = ys.length) (k : Int) :
    Alike (fun a b => a.length = b.length ∧ (∀ i ∈ a, i < xs.length) ∧ ∀ i ∈ b, i < ys.length) (closest xs k) (closest ys k) := by
  have hl : ∀ zs : List K, (ascOrder zs).Perm (List.range zs.length) := fun zs => List.mergeSort_perm _ _
  unfold closest
  rw [← h]
  split_ifs
  · exact .error _
  · refine .ok ⟨?_, fun i hi => ?_, fun i hi => ?_⟩
    · rw [List.length_take, List.length_take, (hl xs).length_eq, (hl ys).length_eq, List.length_range, List.length_range, h]
    · exact List.mem_range.mp ((hl xs).mem_iff.mp (List.mem_of_mem_take hi))
    · rw [h]
      exact List.mem_range.mp ((hl ys).mem_iff.mp (List.mem_of_mem_take hi))

/-! ## Values -/

variable {env : Env K} {j j' : JaxComp K} {d d' : MjData K}

theorem alike_selfCollisionValue {m : MjModel K} (hf : FixedSizes env m) {a b : Vec K} (h : VL a b) (pairs : List (Int × Int)) (n : Int) :
    Alike VL (selfCollisionValue env m d a pairs n) (selfCollisionValue env m d' b pairs n) := by
  refine (alike_contacts (hf.contacts d d') m pairs).bind fun cs cs' _ _ hcs => ?_
  refine (alike_closest (by simpa using hcs) n).bind fun i i' _ _ hi => ?_
  exact alike_zip hi.1 h

theorem alike_value (hf : FixedSizes env j.model) (h : SameStructure j j') (hd : SameSizes d d') : Alike VL (evalValue env j d) (evalValue env j' d') := by
  obtain ⟨hm, -, hk, -, hs⟩ := h
  unfold evalValue
  cases e : j.kind <;> cases e' : j'.kind <;> simp only [e, e', SameFields] at hs <;> simp only [← hm, ← hk]
  · refine (alike_operand hs.2).bind fun _ _ _ _ h1 => ?_
    refine (Alike.same _).bind fun r r' _ _ h2 => ?_
    exact (alike_jnpGet hd.subtreeCom _ _).bind fun _ _ _ _ _ => alike_zip rfl h1
  · exact (alike_operand hs.2.1).bind fun _ _ _ _ h1 => alike_zip hs.2.2 h1
  · obtain ⟨-, rfl, rfl, ht⟩ := hs
    refine (alike_operand ht).bind fun _ _ _ _ h1 => ?_
    exact (alike_objPos hd _ _).bind fun _ _ _ _ _ => alike_zip rfl h1
  · obtain ⟨-, rfl, rfl, ht⟩ := hs
    refine (alike_toVec ht).bind fun a b _ _ h1 => ?_
    have : Alike (fun _ _ => True) (se3OfVec a) (se3OfVec b) := by
      unfold VL at h1
      unfold se3OfVec
      rw [h1]
      split_ifs
      · exact .ok trivial
      · exact .error _
    refine this.bind fun _ _ _ _ _ => ?_
    exact (alike_objFrame hd _ _).bind fun _ _ _ _ _ => .ok rfl
  · refine (alike_operand hs.1).bind fun _ _ _ _ h1 => ?_
    exact (alike_operand hs.2.1).bind fun _ _ _ _ h2 => alike_bounds hs.2.2 h1 h2
  · obtain ⟨rfl, rfl, hl, hh, rfl⟩ := hs
    refine (alike_operand hl).bind fun _ _ _ _ h1 => ?_
    refine (alike_operand hh).bind fun _ _ _ _ h2 => ?_
    refine (alike_objPos hd _ _).bind fun p p' _ _ _ => ?_
    have hp : VL ((vec3 p).gather j.maskIdxs) ((vec3 p').gather j.maskIdxs) := rfl
    exact (alike_bounds hp h1 h2).bind fun b b' _ _ _ => .ok (show VL (b.gather _) (b'.gather _) from rfl)
  · obtain ⟨ht, rfl, rfl⟩ := hs
    exact (alike_operand ht).bind fun _ _ _ _ h1 => alike_selfCollisionValue hf h1 _ _
  · exact .ok rfl

/-! ## Jacobians -/

theorem setBlock_dims {A B : Mat K} (h : ML A B) (r c n k : Nat) (f g : Nat → Nat → K) : ML (setBlock A r c n k f) (setBlock B r c n k g) := h

theorem jacLoop_dims (q q' : Nat → K) : ∀ (l : List (JntType × Nat)) (r c : Nat) {A B : Mat K}, ML A B → ML (jacDq2vLoop q l r c A) (jacDq2vLoop q' l r c B)
  | [], _, _, _, _, h => h
  | (.free, _) :: l, _, _, _, _, h => jacLoop_dims q q' l _ _ (setBlock_dims (setBlock_dims h _ _ _ _ _ _) _ _ _ _ _ _)
  | (.ball, _) :: l, _, _, _, _, h => jacLoop_dims q q' l _ _ (setBlock_dims h _ _ _ _ _ _)
  | (.hinge, _) :: l, _, _, _, _, h => jacLoop_dims q q' l _ _ (setBlock_dims h _ _ _ _ _ _)
  | (.slide, _) :: l, _, _, _, _, h => jacLoop_dims q q' l _ _ (setBlock_dims h _ _ _ _ _ _)

theorem alike_mul {A A' B B' : Mat K} (h : ML A A') (h' : ML B B') : Alike ML (A.mul B) (A'.mul B') := by
  obtain ⟨h1, h2⟩ := h
  obtain ⟨h3, h4⟩ := h'
  unfold Mat.mul
  rw [h2, h3]
  split_ifs
  · exact .ok ⟨h1, h4⟩
  · exact .error _

theorem treeSum_length {α : Type} [Add α] [Zero α] (parent : List Nat) : ∀ (n : Nat) (x : List α), (bodyTreeSum parent n x).length = x.length
  | 0, _ => rfl
  | n + 1, x => by rw [bodyTreeSum, treeSum_length parent n]; simp

theorem coms_length (m : MjModel K) {xs ys : List (V3 K)} (h : xs.length = ys.length) : (subtreeComs m xs).length = (subtreeComs m ys).length := by
  simp [subtreeComs, treeSum_length, h]

theorem comUpdate_sizes {m : MjModel K} (hf : FixedSizes env m) {q q' : Vec K} (h : q.len = q'.len) : SameSizes (comUpdate env m q) (comUpdate env m q') := by
  have hk := hf.kinematics q q' h
  exact { hk with subtreeCom := coms_length m hk.xipos }

theorem alike_auto (hf : FixedSizes env j.model) (h : SameStructure j j') (hd : d.qpos.len = d'.qpos.len) (com : Bool) :
    Alike ML (autoJacobian env j d com) (autoJacobian env j' d' com) := by
  have hu : SameSizes (if com then comUpdate env j.model d.qpos else env.kinematics j.model d.qpos)
      (if com then comUpdate env j'.model d'.qpos else env.kinematics j'.model d'.qpos) := by
    rw [← h.model]
    split_ifs
    · exact comUpdate_sizes hf hd
    · exact hf.kinematics _ _ hd
  unfold autoJacobian
  refine (alike_value hf h hu).bind fun v v' hv hv' hvv => ?_
  simp only [← h.model] at hv' ⊢
  set J := env.jacrev (fun q => ((evalValue env j (if com then comUpdate env j.model q else env.kinematics j.model q)).toOption).getD (Vec.zero 0)) d.qpos with hJ
  set J' := env.jacrev (fun q => ((evalValue env j' (if com then comUpdate env j.model q else env.kinematics j.model q)).toOption).getD (Vec.zero 0)) d'.qpos with hJ'
  have hJJ : ML J J' := by
    refine ⟨?_, ?_⟩
    · rw [hJ, hJ', (hf.jacrev _ _).1, (hf.jacrev _ _).1]
      simp only [hv, hv', Except.toOption, Option.getD_some]
      exact hvv
    · rw [hJ, hJ', (hf.jacrev _ _).2, (hf.jacrev _ _).2, hd]
  split_ifs
  · exact alike_mul hJJ (jacLoop_dims _ _ _ _ _ ⟨rfl, rfl⟩)
  · exact .ok hJJ

theorem alike_selection (n nv : Nat) (idxs : List Nat) : Alike (· = ·) (selectionMatrix (K := K) n nv idxs) (selectionMatrix n nv idxs) := Alike.same _

theorem alike_frameLocal (m : MjModel K) (hd : SameSizes d d') (i : Int) (t : ObjType) :
    Alike (fun a b => a.length = b.length) (frameJacobianLocal m d i t) (frameJacobianLocal m d' i t) := by
  refine (Alike.same _).bind fun b b' _ _ hb => ?_
  subst hb
  refine (alike_objPos hd t i).bind fun _ _ _ _ _ => ?_
  refine (alike_objMat hd t i).bind fun _ _ _ _ _ => ?_
  refine (alike_jnpGet rfl _ _).bind fun _ _ _ _ _ => ?_
  refine (alike_jnpGet hd.subtreeCom _ _).bind fun _ _ _ _ _ => .ok ?_
  simp [hd.cdof]

theorem npGet_ok {α : Type} {l : List α} {i : Nat} (h : i < l.length) : ∃ x, npGet l (i : Int) = .ok x := by
  refine ⟨l[i], ?_⟩
  have h0 : ¬ ((i : Int) < 0) := by omega
  simp only [npGet, h0, if_false, Int.toNat_natCast, List.getElem?_eq_getElem h]

theorem alike_pointJacobian (m : MjModel K) (hd : SameSizes d d') (p p' : V3 K) (b b' : Int) :
    Alike (fun _ _ => True) (pointJacobian m d p b) (pointJacobian m d' p' b') := by
  refine (alike_jnpGet rfl _ _).bind fun _ _ _ _ _ => ?_
  exact (alike_jnpGet hd.subtreeCom _ _).bind fun _ _ _ _ _ => .ok trivial

theorem alike_collisionRow (m : MjModel K) (hd : SameSizes d d') {cs cs' : List (Contact (ContactVal K))} {bodies : List (Nat × Nat)}
    (hb : bodies.length ≠ 0) {i i' : Nat} (hi : i < cs.length) (hi' : i' < cs'.length) :
    Alike (fun _ _ => True) (selfCollisionRow m d cs bodies i) (selfCollisionRow m d' cs' bodies i') := by
  obtain ⟨c, hc⟩ := npGet_ok hi
  obtain ⟨c', hc'⟩ := npGet_ok hi'
  obtain ⟨b, hb1⟩ := npGet_ok (l := bodies) (i := min i (bodies.length - 1)) (by omega)
  obtain ⟨b', hb2⟩ := npGet_ok (l := bodies) (i := min i' (bodies.length - 1)) (by omega)
  unfold selfCollisionRow
  rw [hc, hc', hb1, hb2]
  refine (alike_pointJacobian m hd _ _ _ _).bind fun _ _ _ _ _ => ?_
  exact (alike_pointJacobian m hd _ _ _ _).bind fun _ _ _ _ _ => .ok trivial

theorem forall₂_of_length {α β : Type} {r : α → β → Prop} : ∀ {xs : List α} {ys : List β}, xs.length = ys.length → (∀ x ∈ xs, ∀ y ∈ ys, r x y) →
    List.Forall₂ r xs ys
  | [], [], _, _ => .nil
  | [], _ :: _, h, _ => by simp at h
  | _ :: _, [], h, _ => by simp at h
  | x :: xs, y :: ys, h, hr => .cons (hr x (by simp) y (by simp))
    (forall₂_of_length (by simpa using h) fun a ha b hb => hr a (by simp [ha]) b (by simp [hb]))

theorem alike_selfCollisionJacobian {m : MjModel K} (hf : FixedSizes env m) (hd : SameSizes d d') (pairs : List (Int × Int)) (n : Int) :
    Alike ML (selfCollisionJacobian env m d pairs n) (selfCollisionJacobian env m d' pairs n) := by
  refine (alike_contacts (hf.contacts d d') m pairs).bind fun cs cs' _ _ hcs => ?_
  refine (alike_closest (by simpa using hcs) n).bind fun i i' _ _ hi => ?_
  refine (Alike.same _).bind fun b b' _ _ hb => ?_
  subst hb
  split_ifs with h0
  · exact .error _
  · refine (Alike.mapM (s := fun _ _ => True) (forall₂_of_length hi.1 fun a ha c hc => ?_)).bind fun rs rs' _ _ hr => .ok ⟨?_, hd.cdof⟩
    · exact alike_collisionRow m hd h0 (by simpa using hi.2.1 a ha) (by simpa using hi.2.2 c hc)
    · exact hr.length_eq

theorem alike_jacobian (hf : FixedSizes env j.model) (h : SameStructure j j') (hd : SameSizes d d') : Alike ML (evalJacobian env j d) (evalJacobian env j' d') := by
  have h0 := h
  obtain ⟨hm, hdim, hk, -, hs⟩ := h
  unfold evalJacobian
  cases e : j.kind <;> cases e' : j'.kind <;> simp only [e, e', SameFields] at hs <;> simp only [← hm, ← hk, ← hdim]
  · exact alike_auto hf h0 hd.qpos _
  · exact (Alike.same _).mono fun a b hab => by subst hab; exact ⟨rfl, rfl⟩
  · exact alike_auto hf h0 hd.qpos _
  · obtain ⟨-, rfl, rfl, ht⟩ := hs
    refine (alike_toVec ht).bind fun a b _ _ h1 => ?_
    have : Alike (fun _ _ => True) (se3OfVec a) (se3OfVec b) := by
      unfold VL at h1
      unfold se3OfVec
      rw [h1]
      split_ifs
      · exact .ok trivial
      · exact .error _
    refine this.bind fun _ _ _ _ _ => ?_
    refine (alike_objFrame hd _ _).bind fun _ _ _ _ _ => ?_
    refine (alike_frameLocal _ hd _ _).bind fun l l' _ _ hr => ?_
    have h6 : ∀ A B : Matrix (Fin 6) (Fin 6) K, ML (mat6 A).neg (mat6 B).neg := fun _ _ => ⟨rfl, rfl⟩
    have hl : ML (rowsMat l) (rowsMat l') := ⟨rfl, hr⟩
    exact (alike_mul (h6 _ _) hl).bind fun A B _ _ hJ => .ok (show ML (A.gatherRows _) (B.gatherRows _) from ⟨rfl, hJ.2⟩)
  · exact (Alike.same _).mono fun a b hab => by subst hab; exact ⟨rfl, rfl⟩
  · exact alike_auto hf h0 hd.qpos _
  · obtain ⟨-, rfl, rfl⟩ := hs
    exact alike_selfCollisionJacobian hf hd _ _
  · exact .ok ⟨rfl, rfl⟩

/-! ## Building the quadratic program -/

/-- What the solver reads, with equal sizes. -/
def EL (e e' : Evaluated K) : Prop := ML e.jac e'.jac ∧ VL e.value e'.value ∧ VL e.gain e'.gain

/-- The same class, with equal sizes. -/
def CL : SolverComp K → SolverComp K → Prop
  | .task e W _, .task e' W' _ => EL e e' ∧ ML W W'
  | .barrier e _ s, .barrier e' _ s' => EL e e' ∧ VL s s'
  | .constraint e _ h W, .constraint e' _ h' W' => EL e e' ∧ h = h' ∧ ML W W'
  | _, _ => False

theorem alike_solverComp (hf : FixedSizes env j.model) (h : SameStructure j j') (hd : SameSizes d d') :
    Alike CL (solverComp env d j) (solverComp env d' j') := by
  have he : Alike EL (evaluate env j d) (evaluate env j' d') := by
    refine (alike_jacobian hf h hd).bind fun _ _ _ _ h1 => ?_
    refine (alike_value hf h hd).bind fun _ _ _ _ h2 => ?_
    exact (alike_toVec h.gain).bind fun _ _ _ _ h3 => .ok ⟨h1, h2, h3⟩
  refine he.bind fun e e' _ _ hee => ?_
  obtain ⟨hm, -, -, -, hs⟩ := h
  unfold wrapComp
  cases e1 : j.kind <;> cases e2 : j'.kind <;> simp only [e1, e2, SameFields] at hs <;> simp only [← hm]
  · exact (alike_toMat hs.1).map fun a b hab => ⟨hee, hab⟩
  · exact (alike_toMat hs.1).map fun a b hab => ⟨hee, hab⟩
  · exact (alike_toMat hs.1).map fun a b hab => ⟨hee, hab⟩
  · exact (alike_toMat hs.1).map fun a b hab => ⟨hee, hab⟩
  · exact .ok ⟨hee, rfl⟩
  · exact .ok ⟨hee, rfl⟩
  · exact .ok ⟨hee, rfl⟩
  · exact (alike_toMat hs.2).map fun a b hab => ⟨hee, hs.1, hab⟩

theorem alike_mulVec {A A' : Mat K} {v v' : Vec K} (h : ML A A') (h' : VL v v') : Alike VL (A.mulVec v) (A'.mulVec v') := by
  unfold VL at h'
  unfold Mat.mulVec
  rw [h.2, h']
  split_ifs
  · exact .ok h.1
  · exact .error _

theorem alike_vecMul {A A' : Mat K} {v v' : Vec K} (h : ML A A') (h' : VL v v') : Alike VL (Mat.vecMul v A) (Mat.vecMul v' A') := by
  unfold VL at h'
  unfold Mat.vecMul
  rw [h.1, h']
  split_ifs
  · exact .ok h.2
  · exact .error _

theorem alike_dot {a a' b b' : Vec K} (h : VL a a') (h' : VL b b') : Alike (fun _ _ => True) (a.dot b) (a'.dot b') := by
  unfold VL at h h'
  unfold Vec.dot
  rw [h, h']
  split_ifs
  · exact .ok trivial
  · exact .error _

theorem alike_add {A A' B B' : Mat K} (h : ML A A') (h' : ML B B') : Alike ML (A.add B) (A'.add B') := by
  unfold Mat.add
  rw [h.1, h.2, h'.1, h'.2]
  refine (Alike.same _).bind fun r r' _ _ hr => ?_
  exact (Alike.same _).bind fun c c' _ _ hc => .ok ⟨hr, hc⟩

theorem ML.transpose {A A' : Mat K} (h : ML A A') : ML A.transpose A'.transpose := ⟨h.2, h.1⟩

theorem alike_minusGain {e e' : Evaluated K} (h : EL e e') : Alike VL (minusGainError e) (minusGainError e') :=
  alike_zip h.2.2 (by exact h.2.1)

theorem alike_task (nv : Nat) {e e' : Evaluated K} (h : EL e e') {W W' : Mat K} (hW : ML W W') (lm lm' : K) :
    Alike (fun a b => ML a.1 b.1 ∧ VL a.2 b.2) (processTask nv e W lm) (processTask nv e' W' lm') := by
  refine (alike_minusGain h).bind fun _ _ _ _ h1 => ?_
  refine (alike_mul hW h.1).bind fun _ _ _ _ h2 => ?_
  refine (alike_mulVec hW h1).bind fun _ _ _ _ h3 => ?_
  refine (alike_dot h3 h3).bind fun _ _ _ _ _ => ?_
  refine (alike_mul (ML.transpose h2) h2).bind fun _ _ _ _ h4 => ?_
  have hI : ∀ x y : K, ML (Mat.smul x (Mat.eye nv)) (Mat.smul y (Mat.eye nv)) := fun _ _ => ⟨rfl, rfl⟩
  refine (alike_add h4 (hI _ _)).bind fun _ _ _ _ h5 => ?_
  exact (alike_vecMul h2 (v := Vec.neg _) (v' := Vec.neg _) h3).bind fun _ _ _ _ h6 => .ok ⟨h5, h6⟩

theorem alike_soft {e e' : Evaluated K} (h : EL e e') {W W' : Mat K} (hW : ML W W') :
    Alike (fun a b => ML a.1 b.1 ∧ VL a.2 b.2) (processSoft e W) (processSoft e' W') := by
  refine (alike_minusGain h).bind fun _ _ _ _ h1 => ?_
  refine (alike_mul hW h.1).bind fun _ _ _ _ h2 => ?_
  refine (alike_mulVec hW h1).bind fun _ _ _ _ h3 => ?_
  refine (alike_mul (ML.transpose h2) h2).bind fun _ _ _ _ h4 => ?_
  exact (alike_vecMul h2 (v := Vec.neg _) (v' := Vec.neg _) h3).bind fun _ _ _ _ h6 => .ok ⟨h4, h6⟩

theorem alike_hard {e e' : Evaluated K} (h : EL e e') :
    Alike (fun a b => ML a.1 b.1 ∧ VL a.2 b.2) (processHard e) (processHard e') :=
  (alike_minusGain h).bind fun _ _ _ _ h1 => .ok ⟨h.1, h1⟩

theorem alike_barrier (nv : Nat) {e e' : Evaluated K} (h : EL e e') {s s' : Vec K} (hs : VL s s') (g g' : K) :
    Alike (fun a b => ML a.1 b.1 ∧ VL a.2.1 b.2.1 ∧ ML a.2.2.1 b.2.2.1 ∧ VL a.2.2.2 b.2.2.2) (processBarrier nv e g s) (processBarrier nv e' g' s') := by
  have hv : VL (e.value.map e.gainFn) (e'.value.map e'.gainFn) := h.2.1
  unfold processBarrier
  by_cases h1 : e.jac.normSq = 0
  · simp only [h1, if_true]
    exact .inr (.inr (.inl rfl))
  by_cases h2 : e'.jac.normSq = 0
  · simp only [h2, if_true]
    exact .inr (.inr (.inr rfl))
  simp only [h1, h2, if_false]
  show Alike _ (Vec.zip _ _ _ >>= fun x => Except.ok _) (Vec.zip _ _ _ >>= fun x => Except.ok _)
  refine (alike_zip h.2.2 hv).bind fun x y _ _ h3 => .ok ?_
  exact ⟨(show ML (Mat.smul _ (Mat.eye nv)) (Mat.smul _ (Mat.eye nv)) from ⟨rfl, rfl⟩), hs, h.1, h3⟩

/-- Running totals of equal sizes. -/
structure AL (a b : QPAcc K) : Prop where
  H : ML a.H b.H
  c : VL a.c b.c
  Gs : List.Forall₂ ML a.Gs b.Gs
  hs : List.Forall₂ VL a.hs b.hs
  As : List.Forall₂ ML a.As b.As
  bs : List.Forall₂ VL a.bs b.bs

theorem forall₂_snoc {α β : Type} {r : α → β → Prop} {xs : List α} {ys : List β} (h : List.Forall₂ r xs ys) {x : α} {y : β} (hx : r x y) :
    List.Forall₂ r (xs ++ [x]) (ys ++ [y]) := by
  induction h with
  | nil => exact .cons hx .nil
  | cons h1 _ ih => exact .cons h1 ih

theorem alike_step (nv : Nat) {c c' : SolverComp K} (h : CL c c') {a b : QPAcc K} (ha : AL a b) : Alike AL (qpStep nv a c) (qpStep nv b c') := by
  cases c <;> cases c' <;> simp only [CL] at h
  · refine (alike_task nv h.1 h.2 _ _).bind fun _ _ _ _ h1 => ?_
    refine (alike_add ha.H h1.1).bind fun _ _ _ _ h2 => ?_
    exact (alike_zip ha.c h1.2).bind fun _ _ _ _ h3 => .ok { ha with H := h2, c := h3 }
  · refine (alike_barrier nv h.1 h.2 _ _).bind fun _ _ _ _ h1 => ?_
    refine (alike_add ha.H h1.1).bind fun _ _ _ _ h2 => ?_
    exact (alike_zip ha.c h1.2.1).bind fun _ _ _ _ h3 =>
      .ok { ha with H := h2, c := h3, Gs := forall₂_snoc ha.Gs h1.2.2.1, hs := forall₂_snoc ha.hs h1.2.2.2 }
  · obtain ⟨he, hh, hW⟩ := h
    unfold qpStep
    simp only [hh]
    split_ifs
    · exact (alike_hard he).bind fun _ _ _ _ h1 => .ok { ha with As := forall₂_snoc ha.As h1.1, bs := forall₂_snoc ha.bs h1.2 }
    · refine (alike_soft he hW).bind fun _ _ _ _ h1 => ?_
      refine (alike_add ha.H h1.1).bind fun _ _ _ _ h2 => ?_
      exact (alike_zip ha.c h1.2).bind fun _ _ _ _ h3 => .ok { ha with H := h2, c := h3 }

theorem alike_vstack {A A' B B' : Mat K} (h : ML A A') (h' : ML B B') : Alike ML (Mat.vstack A B) (Mat.vstack A' B') := by
  unfold Mat.vstack
  rw [h.2, h'.2]
  split_ifs
  · exact .ok ⟨congrArg₂ (· + ·) h.1 h'.1, rfl⟩
  · exact .error _

theorem alike_vstackList : ∀ {As Bs : List (Mat K)}, List.Forall₂ ML As Bs → Alike ML (Mat.vstackList As) (Mat.vstackList Bs)
  | _, _, .nil => .error _
  | _, _, .cons h .nil => .ok h
  | _, _, .cons h (.cons h' t) => (alike_vstackList (.cons h' t)).bind fun _ _ _ _ hR => alike_vstack h hR

theorem concat_length : ∀ {xs ys : List (Vec K)}, List.Forall₂ VL xs ys → (Vec.concat xs).len = (Vec.concat ys).len
  | _, _, .nil => rfl
  | _, _, .cons h t => congrArg₂ (· + ·) h (concat_length t)

/-- Quadratic programs of the same sizes. -/
structure QL (x y : QP K) : Prop where
  P : ML x.P y.P
  c : VL x.c y.c
  A : Option.Rel ML x.A y.A
  b : Option.Rel VL x.b y.b
  G : ML x.G y.G
  h : VL x.h y.h

theorem alike_finish {a b : QPAcc K} (h : AL a b) : Alike QL (qpFinish a) (qpFinish b) := by
  have hb : Option.Rel VL (if a.bs.length ≠ 0 then some (Vec.concat a.bs) else none) (if b.bs.length ≠ 0 then some (Vec.concat b.bs) else none) := by
    rw [h.bs.length_eq]
    split_ifs
    · exact .some (concat_length h.bs)
    · exact .none
  unfold qpFinish
  by_cases h0 : a.As.length ≠ 0
  · have h1 : b.As.length ≠ 0 := h.As.length_eq ▸ h0
    simp only [if_pos h0, if_pos h1]
    refine ((alike_vstackList h.As).map (s := Option.Rel ML) fun _ _ hab => .some hab).bind fun _ _ _ _ h2 => ?_
    exact (alike_vstackList h.Gs).bind fun _ _ _ _ h3 => .ok ⟨h.H, h.c, h2, hb, h3, concat_length h.hs⟩
  · have h1 : ¬ b.As.length ≠ 0 := h.As.length_eq ▸ h0
    simp only [if_neg h0, if_neg h1]
    exact (alike_vstackList h.Gs).bind fun _ _ _ _ h3 => .ok ⟨h.H, h.c, .none, hb, h3, concat_length h.hs⟩

theorem alike_qp {J J' : JaxProblem K} (hJ : SameProblem J J') (hf : ∀ nj ∈ J.comps, FixedSizes env nj.2.model) (hd : SameSizes d d') (ms : MjModel K) :
    Alike QL (problemQP env ms J d) (problemQP env ms J' d') := by
  refine (alike_toVec hJ.vMin).bind fun _ _ _ _ h1 => ?_
  refine (alike_toVec hJ.vMax).bind fun _ _ _ _ h2 => ?_
  have hc : ∀ {l l' : List (String × JaxComp K)}, List.Forall₂ (fun a b => a.1 = b.1 ∧ SameStructure a.2 b.2) l l' →
      (∀ nj ∈ l, FixedSizes env nj.2.model) →
      List.Forall₂ (fun a b => Alike CL (solverComp env d a) (solverComp env d' b)) (l.map Prod.snd) (l'.map Prod.snd) := by
    intro l l' h
    induction h with
    | nil => exact fun _ => .nil
    | cons h _ ih => exact fun H => .cons (alike_solverComp (H _ (by simp)) h.2 hd) (ih fun nj hnj => H nj (by simp [hnj]))
  refine (Alike.mapM (hc hJ.comps hf)).bind fun cs cs' _ _ hcs => ?_
  unfold computeQP
  rw [hJ.model]
  refine (Alike.foldlM (s := AL) ?_ ?_).bind fun _ _ _ _ h => alike_finish h
  · exact ⟨⟨rfl, rfl⟩, rfl, .cons ⟨rfl, rfl⟩ (.cons ⟨rfl, rfl⟩ .nil), .cons h1 (.cons h2 .nil), .nil, .nil⟩
  · exact List.Forall₂.imp (fun a b hab c d hcd => alike_step _ hab hcd) hcs

end
end Mjinx.Structure
