import Verif.Model.Visualize
import Mathlib.LinearAlgebra.CrossProduct

/-! Histories of a visualizer and small definitions used in the statements about it. -/

namespace Mjinx.Vis

section
variable {K : Type} [Field K]

/-- The calls a user makes on a visualizer. -/
inductive Op (K : Type) where
  | add (a : MarkerArgs K)
  | setPos (name : String) (p : List K)
  | setRot (name : String) (r : Arr K)
  | update (q : List K) (g : Nat)

/-- The visualizer after one call (whether or not it raised). -/
def step (v : State K) : Op K → State K
  | .add a => (addMarkers a v).2
  | .setPos n p => ((setMarker n (fun m => { m with pos := p }) v).toOption).getD v
  | .setRot n r => ((setMarker n (fun m => { m with rot := r }) v).toOption).getD v
  | .update q g =>
    match update q g v with
    | .ok v' => v'
    | .error _ => updateRaised q g v

def run (v : State K) (ops : List (Op K)) : State K := ops.foldl step v

/-- The names given in one successful `add_markers` call. -/
def givenNames (a : MarkerArgs K) : List String :=
  (List.range a.n.toNat).map (fun (i : Nat) => match a.name with | .one s => s | .many l => l.getD i "")

/-- The names of all markers added by the successful calls, in order. -/
def addedNames (v : State K) : List (Op K) → List String
  | [] => []
  | .add a :: ops =>
    (match (addMarkers a v).1 with | .ok () => givenNames a | .error _ => []) ++ addedNames (step v (.add a)) ops
  | op :: ops => addedNames (step v op) ops

/-- The history without the updates that raised. -/
def withoutRaised (v : State K) : List (Op K) → List (Op K)
  | [] => []
  | .update q g :: ops =>
    match update q g v with
    | .ok _ => .update q g :: withoutRaised (step v (.update q g)) ops
    | .error _ => withoutRaised (step v (.update q g)) ops
  | op :: ops => op :: withoutRaised (step v op) ops

/-- The ids of the present markers. -/
def ids (v : State K) : List Nat := v.markers.map (fun x => x.2.id)

/-- The vector `u` turned by the quaternion with real part `w` and vector part `n` (Rodrigues' formula). -/
def turned (w : K) (n u : Fin 3 → K) : Fin 3 → K :=
  u + (2 * w) • crossProduct n u + (2 : K) • crossProduct n (crossProduct n u)

/-- The nine numbers `l` are, row by row, the matrix of the orientation `rot`: of the quaternion `(w, x, y, z)` if `rot` has
four entries, `rot` itself if it is two-dimensional. -/
def MatrixOf (rot : Arr K) (l : List K) : Prop :=
  l.length = 9 ∧
    ((rot.shape = [4] ∧ ∀ (u : Fin 3 → K) (i : Fin 3), l.getD (3 * i.val) 0 * u 0 + l.getD (3 * i.val + 1) 0 * u 1 + l.getD (3 * i.val + 2) 0 * u 2 =
        turned (rot.get [0]) ![rot.get [1], rot.get [2], rot.get [3]] u i) ∨
      ∃ r c, rot.shape = [r, c] ∧ r * c = 9 ∧ ∀ i < r, ∀ j < c, l[c * i + j]? = some (rot.get [i, j]))

/-- The arrays of the marker have the sizes MuJoCo expects, and it is drawn as `d`: with its type, size, position, colour and
orientation. -/
def Drawable (m : Marker K) (d : Drawn K) : Prop :=
  m.size.length = 3 ∧ m.pos.length = 3 ∧ m.rgba.length = 4 ∧ d.type = m.type ∧ d.size = m.size ∧ d.pos = m.pos ∧ d.rgba = m.rgba ∧
    MatrixOf m.rot d.mat

end
end Mjinx.Vis

namespace Mjinx.Vis

mutual
/-- All tags of an XML tree, in document order. -/
def tagsNode : Xml → List String
  | .node _ t _ cs => t :: tagsList cs
def tagsList : List Xml → List String
  | [] => []
  | c :: cs => tagsNode c ++ tagsList cs
end

mutual
/-- All elements of an XML tree, in document order. -/
def elementsNode : Xml → List Xml
  | .node i t a cs => .node i t a cs :: elements cs
def elements : List Xml → List Xml
  | [] => []
  | c :: cs => elementsNode c ++ elements cs
end

/-- The mesh or texture `x` refers to the file `s`. -/
def RefersTo (x : Xml) (s : String) : Prop := (x.tag = "mesh" ∨ x.tag = "texture") ∧ s ≠ "" ∧ ("file", s) ∈ x.attrs

/-- Attributes have distinct names, as in every XML document. -/
def DistinctAttrs (cs : List Xml) : Prop := ∀ x ∈ elements cs, (x.attrs.map Prod.fst).Nodup

/-- `y` is `x`, except that the file of a mesh or texture is renamed by `f`; children are not looked at, only counted. -/
def SameExceptFile (f : String → String) (x y : Xml) : Prop :=
  y.id = x.id ∧ y.tag = x.tag ∧ y.children.length = x.children.length ∧
    y.attrs = x.attrs.map (fun kv => if (x.tag = "mesh" ∨ x.tag = "texture") ∧ kv.1 = "file" ∧ kv.2 ≠ "" then (kv.1, f kv.2) else kv)

/-- The children of the flattened `worldbody`: what was not a body, then what was directly inside the bodies. -/
def flattened (cs : List Xml) : List Xml :=
  cs.filter (fun c => c.tag != "body") ++ (cs.filter (fun c => c.tag == "body")).flatMap Xml.children

/-- The elements involved are different objects. -/
def DistinctIds (cs : List Xml) : Prop := ((cs ++ cs.flatMap Xml.children).map Xml.id).Nodup

end Mjinx.Vis
