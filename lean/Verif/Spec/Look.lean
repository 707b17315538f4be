import Verif.Spec.Visualize

/-! What a user expects to see of the markers after a history of calls, without ids, slots and dictionaries. -/

namespace Mjinx.Vis
variable {K : Type} [Field K]

/-- How a marker looks. -/
structure Look (K : Type) where
  type : Nat
  size : List K
  pos : List K
  rot : Arr K
  rgba : List K

/-- The calls of `add_markers` that are accepted: at least as many names as markers (exactly as many if there are several), and
colours of the same length. -/
def Accepted (a : MarkerArgs K) : Prop :=
  0 ≤ a.n ∧ (match a.name with
    | .one _ => a.n ≤ 1
    | .many l => (1 < a.n → (l.length : Int) = a.n) ∧ (a.n = 1 → l ≠ [])) ∧
  (1 ≤ a.n → a.colorBegin.length = (a.colorEnd.getD a.colorBegin).length)

/-- The share of `color_begin` in the colour of marker `i` of `n` (the code mixes in the order C64 complains about). -/
def share (n i : Nat) : K := if n = 1 then 0 else (i : K) / ((n : K) - 1)

/-- Marker `i` of a call of `add_markers`: a number as size means this size in all three directions, the marker stands upright
at the origin. -/
def newLook (a : MarkerArgs K) (i : Nat) : Look K where
  type := a.type
  size := match a.size with
    | .inl s => [s, s, s]
    | .inr l => l
  pos := [0, 0, 0]
  rot := ⟨[4], fun ix => if ix = [0] then 1 else 0⟩
  rgba := List.zipWith (fun b e => share a.n.toNat i * b + (1 - share a.n.toNat i) * e) a.colorBegin (a.colorEnd.getD a.colorBegin) ++
    [a.alpha]

open Classical in
/-- What one call does to the look of the marker `name`: adding markers under this name makes the last of them the marker,
writing the position or orientation changes these, everything else has no effect. -/
noncomputable def lookStep (name : String) (l : Option (Look K)) : Op K → Option (Look K)
  | .add a =>
    if Accepted a then
      match (List.range a.n.toNat).reverse.find? (fun i => (givenNames a).getD i "" == name) with
      | some i => some (newLook a i)
      | none => l
    else l
  | .setPos n p => if n = name then l.map (fun x => { x with pos := p }) else l
  | .setRot n r => if n = name then l.map (fun x => { x with rot := r }) else l
  | .update _ _ => l

/-- The look of the marker `name` after a history. -/
noncomputable def lookOf (name : String) (ops : List (Op K)) : Option (Look K) := ops.foldl (lookStep name) none

open Classical in
/-- The names of the markers added by accepted calls, in order. -/
noncomputable def acceptedNames (ops : List (Op K)) : List String :=
  ops.flatMap (fun op => match op with
    | .add a => if Accepted a then givenNames a else []
    | _ => [])

/-- What is drawn shows the marker `l`. -/
def Shows (d : Drawn K) (l : Look K) : Prop :=
  d.type = l.type ∧ d.size = l.size ∧ d.pos = l.pos ∧ d.rgba = l.rgba ∧ MatrixOf l.rot d.mat

/-- The arrays have the sizes MuJoCo expects. -/
def Look.Fits (l : Look K) : Prop :=
  l.size.length = 3 ∧ l.pos.length = 3 ∧ l.rgba.length = 4 ∧ (l.rot.shape = [4] ∨ ∃ r c, l.rot.shape = [r, c] ∧ r * c = 9)

end Mjinx.Vis
