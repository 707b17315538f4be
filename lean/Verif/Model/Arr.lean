import Mathlib.Algebra.BigOperators.Ring.Finset
import Mathlib.Algebra.Order.Field.Basic

/-!
# Arrays and errors

Python exceptions are values of `Err`.  A `jax.numpy`/`numpy` array is a shape and a function from
multi-indices to entries (`Arr`).  The solver code works with one- and two-dimensional arrays only;
those are `Vec` and `Mat` (length/shape plus entry function).  Entries outside the shape are never
read by any operation below whose shape check succeeds.
-/

namespace Mjinx

/-- The exception classes raised by mjinx itself or by the jax/numpy calls it makes.
`shapeMismatch` stands for the `TypeError`/`ValueError` of jax on incompatible shapes.  `nonFinite` is
not an exception: it marks the places where the code goes on with `inf`/`nan` entries. -/
inductive Err where
  | valueError
  | indexError
  | keyError
  | typeError
  | attributeError
  | notImplementedError
  | shapeMismatch
  | nonFinite
deriving DecidableEq, Repr

/-- An n-dimensional array (`jnp.ndarray`). -/
structure Arr (α : Type) where
  shape : List Nat
  get : List Nat → α

namespace Arr
variable {α : Type}

/-- `a.ndim` -/
def ndim (a : Arr α) : Nat := a.shape.length

/-- `a.shape[-1]`; `IndexError` for a 0-dimensional array. -/
def lastDim (a : Arr α) : Except Err Nat :=
  match a.shape.getLast? with
  | some n => .ok n
  | none => .error .indexError

/-- `len(a)`; `TypeError` for a 0-dimensional array. -/
def len (a : Arr α) : Except Err Nat :=
  match a.shape with
  | n :: _ => .ok n
  | [] => .error .typeError

/-- `jnp.array(x)` for a number. -/
def scalar (x : α) : Arr α := ⟨[], fun _ => x⟩

/-- `jnp.array(xs)` for a flat sequence of numbers. -/
def ofList [Inhabited α] (xs : List α) : Arr α :=
  ⟨[xs.length], fun idx => (xs[idx.headD 0]?).getD default⟩

/-- Same, for entries with a zero. -/
def ofList0 [Zero α] (xs : List α) : Arr α := ⟨[xs.length], fun idx => (xs[idx.headD 0]?).getD 0⟩

/-- `jnp.array(rows)` for a rectangular sequence of rows with `c` columns. -/
def ofRows [Inhabited α] (c : Nat) (rows : List (List α)) : Arr α :=
  ⟨[rows.length, c], fun idx => (((rows[idx.headD 0]?).getD [])[(idx.drop 1).headD 0]?).getD default⟩

/-- `jnp.zeros(n)` -/
def zeros [Zero α] (n : Nat) : Arr α := ⟨[n], fun _ => 0⟩

/-- `jnp.ones(n) * s` for a 0-dimensional `s`. -/
def onesMul [One α] [Mul α] (n : Nat) (s : Arr α) : Arr α := ⟨[n], fun _ => 1 * s.get []⟩

/-- `jnp.eye(n) * s` for a 0-dimensional `s`. -/
def eyeMul [Zero α] [One α] [Mul α] (n : Nat) (s : Arr α) : Arr α :=
  ⟨[n, n], fun idx => (if idx.headD 0 = (idx.drop 1).headD 0 then 1 else 0) * s.get []⟩

/-- `jnp.diag(v)` for a vector `v` of length `n`. -/
def diag [Zero α] (n : Nat) (v : Arr α) : Arr α :=
  ⟨[n, n], fun idx => if idx.headD 0 = (idx.drop 1).headD 0 then v.get [idx.headD 0] else 0⟩

end Arr

/-- A one-dimensional array of length `len`. -/
structure Vec (K : Type) where
  len : Nat
  get : Nat → K

/-- A two-dimensional array with `rows` rows and `cols` columns. -/
structure Mat (K : Type) where
  rows : Nat
  cols : Nat
  get : Nat → Nat → K

namespace Arr
variable {α : Type}

/-- View a 1-dimensional array as `Vec`. -/
def toVec (a : Arr α) : Except Err (Vec α) :=
  match a.shape with
  | [n] => .ok ⟨n, fun i => a.get [i]⟩
  | _ => .error .shapeMismatch

/-- View a 2-dimensional array as `Mat`. -/
def toMat (a : Arr α) : Except Err (Mat α) :=
  match a.shape with
  | [r, c] => .ok ⟨r, c, fun i j => a.get [i, j]⟩
  | _ => .error .shapeMismatch

end Arr

namespace Vec
variable {K : Type}

def ofList [Inhabited K] (xs : List K) : Vec K := ⟨xs.length, fun i => (xs[i]?).getD default⟩

def toList (v : Vec K) : List K := (List.range v.len).map v.get

def toArr (v : Vec K) : Arr K := ⟨[v.len], fun idx => v.get (idx.headD 0)⟩

/-- Elementwise binary operation with numpy broadcasting of length-1 vectors. -/
def zip (f : K → K → K) (a b : Vec K) : Except Err (Vec K) :=
  if a.len = b.len then .ok ⟨a.len, fun i => f (a.get i) (b.get i)⟩
  else if a.len = 1 then .ok ⟨b.len, fun i => f (a.get 0) (b.get i)⟩
  else if b.len = 1 then .ok ⟨a.len, fun i => f (a.get i) (b.get 0)⟩
  else .error .shapeMismatch

/-- `jax.vmap(f)(v)` for an elementwise `f`. -/
def map (f : K → K) (v : Vec K) : Vec K := ⟨v.len, fun i => f (v.get i)⟩

def zero [Zero K] (n : Nat) : Vec K := ⟨n, fun _ => 0⟩

/-- `jnp.concatenate([a, b])` -/
def append (a b : Vec K) : Vec K :=
  ⟨a.len + b.len, fun i => if i < a.len then a.get i else b.get (i - a.len)⟩

/-- `jnp.concatenate(list)` (of a nonempty list; the empty case is never reached by the callers). -/
def concat [Zero K] : List (Vec K) → Vec K
  | [] => zero 0
  | a :: as => append a (concat as)

/-- Integer gather `v[idxs,]`: jax clamps out-of-range (nonnegative) indices to the last entry. -/
def gather (v : Vec K) (idxs : List Nat) : Vec K :=
  ⟨idxs.length, fun i => v.get (min ((idxs[i]?).getD 0) (v.len - 1))⟩

section
variable [Field K]

/-- `jnp.dot(a, b)` -/
def dot (a b : Vec K) : Except Err K :=
  if a.len = b.len then .ok (∑ i ∈ Finset.range a.len, a.get i * b.get i) else .error .shapeMismatch

def smul (k : K) (v : Vec K) : Vec K := ⟨v.len, fun i => k * v.get i⟩

def neg (v : Vec K) : Vec K := ⟨v.len, fun i => - v.get i⟩

/-- `a + b` -/
def add (a b : Vec K) : Except Err (Vec K) := zip (· + ·) a b
end
end Vec

/-- numpy broadcasting of one axis: equal lengths, or one of them is 1. -/
def bdim (a b : Nat) : Except Err Nat :=
  if a = b then .ok a else if a = 1 then .ok b else if b = 1 then .ok a else .error .shapeMismatch

/-- The index read from an axis of length `a` that is broadcast to length `n`. -/
def bidx (a n i : Nat) : Nat := if a = n then i else 0

namespace Mat
variable {K : Type}

/-- `A.T` -/
def transpose (A : Mat K) : Mat K := ⟨A.cols, A.rows, fun i j => A.get j i⟩

/-- `jnp.vstack([A, B])` -/
def vstack (A B : Mat K) : Except Err (Mat K) :=
  if A.cols = B.cols then
    .ok ⟨A.rows + B.rows, A.cols, fun i j => if i < A.rows then A.get i j else B.get (i - A.rows) j⟩
  else .error .shapeMismatch

/-- `jnp.vstack(list)` of a nonempty list; the empty list is an error as in numpy. -/
def vstackList : List (Mat K) → Except Err (Mat K)
  | [] => .error .valueError
  | [A] => .ok A
  | A :: B :: Bs => do
    let R ← vstackList (B :: Bs)
    vstack A R

/-- Row gather `A[idxs, :]` with clamping. -/
def gatherRows (A : Mat K) (idxs : List Nat) : Mat K :=
  ⟨idxs.length, A.cols, fun i j => A.get (min ((idxs[i]?).getD 0) (A.rows - 1)) j⟩

section
variable [Field K]

/-- `jnp.zeros((n, m))` -/
def zero (n m : Nat) : Mat K := ⟨n, m, fun _ _ => 0⟩

/-- `jnp.eye(n)` -/
def eye (n : Nat) : Mat K := ⟨n, n, fun i j => if i = j then 1 else 0⟩

def smul (k : K) (A : Mat K) : Mat K := ⟨A.rows, A.cols, fun i j => k * A.get i j⟩

def neg (A : Mat K) : Mat K := ⟨A.rows, A.cols, fun i j => - A.get i j⟩

/-- `A + B` -/
def add (A B : Mat K) : Except Err (Mat K) := do
  let r ← bdim A.rows B.rows
  let c ← bdim A.cols B.cols
  return ⟨r, c, fun i j => A.get (bidx A.rows r i) (bidx A.cols c j) + B.get (bidx B.rows r i) (bidx B.cols c j)⟩

/-- `A @ B` -/
def mul (A B : Mat K) : Except Err (Mat K) :=
  if A.cols = B.rows then
    .ok ⟨A.rows, B.cols, fun i j => ∑ k ∈ Finset.range A.cols, A.get i k * B.get k j⟩
  else .error .shapeMismatch

/-- `A @ v` -/
def mulVec (A : Mat K) (v : Vec K) : Except Err (Vec K) :=
  if A.cols = v.len then
    .ok ⟨A.rows, fun i => ∑ k ∈ Finset.range A.cols, A.get i k * v.get k⟩
  else .error .shapeMismatch

/-- `v @ A` -/
def vecMul (v : Vec K) (A : Mat K) : Except Err (Vec K) :=
  if v.len = A.rows then
    .ok ⟨A.cols, fun j => ∑ k ∈ Finset.range A.rows, v.get k * A.get k j⟩
  else .error .shapeMismatch

/-- `jnp.linalg.norm(A) ** 2` (Frobenius norm squared; over a field the square root cancels). -/
def normSq (A : Mat K) : K :=
  ∑ i ∈ Finset.range A.rows, ∑ j ∈ Finset.range A.cols, A.get i j * A.get i j
end
end Mat

/-- numpy indexing `l[i]` with an integer: negative indices count from the end. -/
def npGet {α : Type} (l : List α) (i : Int) : Except Err α :=
  let j := if i < 0 then i + l.length else i
  if j < 0 then .error .indexError
  else match l[j.toNat]? with
    | some x => .ok x
    | none => .error .indexError

/-- jax indexing `x[i]` with an integer: negative indices count from the end, and an index that is still out
of range is moved to the nearest end of the array instead of raising.  An empty array has no element. -/
def jnpGet {α : Type} (l : List α) (i : Int) : Except Err α :=
  let j := if i < 0 then i + l.length else i
  match l[min j.toNat (l.length - 1)]? with
    | some x => .ok x
    | none => .error .indexError

end Mjinx
