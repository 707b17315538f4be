import Verif.Model.MjModel

/-!
# Collision pairs

`mjinx/configuration/_collision.py` and the pair generation of
`mjinx/components/barriers/_self_collision_barrier.py`.
-/

namespace Mjinx
variable {K : Type}

/-- `mjinx/configuration/_collision.py:15-23` `sorted_pair` -/
def sortedPair (x y : Int) : Int × Int := (min x y, max x y)

/-- `mjinx/typing.py` `CollisionBody = int | str`; `other` stands for any other Python object. -/
inductive CollisionBody where
  | id (i : Int)
  | name (s : String)
  | other
deriving DecidableEq, Repr

/-- `_self_collision_barrier.py:202-219` `body2id`: integers are returned unchecked, unknown names give
-1 (that is what `name2id` returns), anything else is a `ValueError`. -/
def body2id (m : MjModel K) : CollisionBody → Except Err Int
  | .id i => .ok i
  | .name s => .ok (m.name2id .body s)
  | .other => .error .valueError

/-- `_self_collision_barrier.py:166-193` `validate_body_pair` -/
def validateBodyPair (m : MjModel K) (b1 b2 : Int) : Except Err Bool := do
  let weld1 ← npGet m.bodyWeldid b1
  let weld2 ← npGet m.bodyWeldid b2
  let parent1 ← npGet m.bodyParentid weld1
  let parent2 ← npGet m.bodyParentid weld2
  let parentWeld1 ← npGet m.bodyWeldid parent1
  let parentWeld2 ← npGet m.bodyWeldid parent2
  let isParentChild := (weld1 == parentWeld2) || (weld2 == parentWeld1)
  let isWelded := weld1 == weld2
  return !(isParentChild || isWelded)

/-- `_self_collision_barrier.py:195-200` `validate_geom_pair` (truthiness of the returned integer). -/
def validateGeomPair (m : MjModel K) (g1 g2 : Int) : Except Err Bool := do
  let ct1 ← npGet m.geomContype g1
  let ca2 ← npGet m.geomConaffinity g2
  if ct1 &&& ca2 ≠ 0 then return true
  let ct2 ← npGet m.geomContype g2
  let ca1 ← npGet m.geomConaffinity g1
  return ct2 &&& ca1 ≠ 0

/-- The pairs `(l[i], l[k])` with `i < k`, in the order of the two nested loops
`_self_collision_barrier.py:238-241`. -/
def pairsOf {α : Type} : List α → List (α × α)
  | [] => []
  | x :: xs => xs.map (fun y => (x, y)) ++ pairsOf xs

/-- `set.add`, as insertion at the end unless present.  Simplification: a Python set iterates in hash
order; the model keeps insertion order.  Statements about pair sets are about membership; C115 shows where the order matters. -/
def setAdd {α : Type} [DecidableEq α] (s : List α) (x : α) : List α :=
  if x ∈ s then s else s ++ [x]

/-- `range(start, start + n)` -/
def intRange (start : Int) (n : Nat) : List Int := (List.range n).map (fun (k : Nat) => start + (k : Int))

/-- The body of the two inner loops, `_self_collision_barrier.py:257-260`, for one pair of geoms. -/
def addGeomPair (m : MjModel K) (acc : List (Int × Int)) (g : Int × Int) :
    Except Err (List (Int × Int)) := do
  let ok ← validateGeomPair m g.1 g.2
  if ok then return setAdd acc (sortedPair g.1 g.2) else return acc

/-- The body of the two outer loops, `_self_collision_barrier.py:240-260`, for one pair of bodies. -/
def addBodyPair (m : MjModel K) (excluded : List (Int × Int)) (acc : List (Int × Int))
    (bb : CollisionBody × CollisionBody) : Except Err (List (Int × Int)) := do
  let b1 ← body2id m bb.1
  let b2 ← body2id m bb.2
  if b1 = b2 then return acc
  if sortedPair b1 b2 ∈ excluded then return acc
  let valid ← validateBodyPair m b1 b2
  if !valid then return acc
  let start1 ← npGet m.bodyGeomadr b1
  let num1 ← npGet m.bodyGeomnum b1
  let start2 ← npGet m.bodyGeomadr b2
  let num2 ← npGet m.bodyGeomnum b2
  ((intRange start1 num1).flatMap fun g1 => (intRange start2 num2).map fun g2 => (g1, g2)).foldlM
    (addGeomPair m) acc

/-- `_self_collision_barrier.py:221-262` `_generate_collision_pairs` -/
def generatePairs (m : MjModel K) (bodies : List CollisionBody) (excluded : List (Int × Int)) :
    Except Err (List (Int × Int)) :=
  (pairsOf bodies).foldlM (addBodyPair m excluded) []

/-- `_self_collision_barrier.py:274-280`: the set of excluded body pairs. -/
def excludeSet (m : MjModel K) (raw : List (CollisionBody × CollisionBody)) :
    Except Err (List (Int × Int)) :=
  raw.foldlM (fun acc bb => do
    let b1 ← body2id m bb.1
    let b2 ← body2id m bb.2
    return setAdd acc (sortedPair b1 b2)) []

/-- `mujoco.mjx._src.collision_types.FunctionKey(types, data_ids, condim)` -/
structure FunctionKey where
  type1 : Nat
  type2 : Nat
  data1 : Int
  data2 : Int
  condim : Nat
deriving DecidableEq, Repr

/-- `_collision.py:46-58`: the (possibly flipped) pair and its function key. -/
def pairKey (m : MjModel K) (g : Int × Int) : Except Err (FunctionKey × (Int × Int)) := do
  let t1 ← npGet m.geomType g.1
  let t2 ← npGet m.geomType g.2
  let g' := if t1 > t2 then (g.2, g.1) else g
  let ta ← npGet m.geomType g'.1
  let tb ← npGet m.geomType g'.2
  let d1 ← npGet m.geomDataid g'.1
  let d2 ← npGet m.geomDataid g'.2
  let p1 ← npGet m.geomPriority g'.1
  let p2 ← npGet m.geomPriority g'.2
  let c1 ← npGet m.geomCondim g'.1
  let c2 ← npGet m.geomCondim g'.2
  let condim := if p1 > p2 then c1 else if p1 < p2 then c2 else max c1 c2
  return (⟨ta, tb, d1, d2, condim⟩, g')

/-- `dict.setdefault(key, []).append(x)` on an insertion-ordered dictionary. -/
def dictAppend {κ β : Type} [DecidableEq κ] : List (κ × List β) → κ → β → List (κ × List β)
  | [], k, x => [(k, [x])]
  | (k', xs) :: rest, k, x =>
    if k' = k then (k', xs ++ [x]) :: rest else (k', xs) :: dictAppend rest k x

/-- `_collision.py:26-78` `geom_groups` -/
def geomGroups (m : MjModel K) (pairs : List (Int × Int)) :
    Except Err (List (FunctionKey × List (Int × Int))) :=
  pairs.foldlM (fun acc g => do
    let kg ← pairKey m g
    return dictAppend acc kg.1 kg.2) []

/-- `jnp.repeat(x, r, axis=0)` -/
def repeatEach {α : Type} (r : Nat) (xs : List α) : List α := xs.flatMap (fun x => List.replicate r x)

/-- One contact as returned by `compute_collision_pairs`: the geom pair, and an opaque payload
(distance, point, frame) computed by the collision function. -/
structure Contact (C : Type) where
  geom : Int × Int
  val : C

/-- The mjx collision functions `_COLLISION_FUNC[types]`: whether there is a function for a pair of geom types; its
`ncon types` contacts per geom pair; the `k`-th contact of a pair under a key.  External; the result for a whole group is the concatenation of
the results of its pairs. -/
structure CollisionFuncs (C : Type) where
  known : Nat → Nat → Bool
  ncon : Nat → Nat → Nat
  contact : FunctionKey → Int × Int → Nat → C

/-- `_collision.py:116-128` for one group: run the collision function, repeat the geom pairs. -/
def runGroup {C : Type} (f : CollisionFuncs C) (kg : FunctionKey × List (Int × Int)) :
    List (Contact C) :=
  let n := f.ncon kg.1.type1 kg.1.type2
  let vals := kg.2.flatMap (fun g => (List.range n).map (f.contact kg.1 g))
  let geoms := if 1 < n then repeatEach n kg.2 else kg.2
  List.zipWith Contact.mk geoms vals

/-- `_collision.py:131-133`: collect the groups by condim. -/
def condimGroups {C : Type} (gs : List (FunctionKey × List (Contact C))) :
    List (Nat × List (List (Contact C))) :=
  gs.foldl (fun acc kg => dictAppend acc kg.1.condim kg.2) []

/-- `_collision.py:81-138` `compute_collision_pairs`: contacts, grouped by function key and then by
increasing condim. -/
def computeCollisionPairs {C : Type} (f : CollisionFuncs C) (m : MjModel K)
    (pairs : List (Int × Int)) : Except Err (List (Contact C)) := do
  let groups ← geomGroups m pairs
  -- `_COLLISION_FUNC[key.types]` (`:115`)
  if groups.any (fun kg => !f.known kg.1.type1 kg.1.type2) then throw .keyError
  let ran := groups.map (fun kg => (kg.1, runGroup f kg))
  let byCondim := (condimGroups ran).mergeSort (fun a b => a.1 ≤ b.1)
  return (byCondim.flatMap (fun kl => kl.2)).flatten

end Mjinx
