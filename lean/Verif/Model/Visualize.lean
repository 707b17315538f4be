import Verif.Model.Lie

/-!
# `mjinx/visualize.py`

Modelled: marker rotation, markers and scene slots, drawing, the edits of the MJCF model (lights, cameras,
colours, geometry groups), the flattening of the XML tree and the restoration of asset names.
Not modelled: parsing and printing XML, dm_control's attachment rules beyond name prefixes, rendering and
video encoding.
-/

namespace Mjinx.Vis
open scoped Quaternion Matrix

/-! ### Markers -/

section
variable {K : Type} [Field K]

/-- `visualize.py:65-71`: the matrix of a quaternion. -/
def quatMatrix (w x y z : K) : M3 K :=
  !![1 - 2 * y ^ 2 - 2 * z ^ 2, 2 * x * y - 2 * w * z, 2 * x * z + 2 * w * y;
     2 * x * y + 2 * w * z, 1 - 2 * x ^ 2 - 2 * z ^ 2, 2 * y * z - 2 * w * x;
     2 * x * z - 2 * w * y, 2 * y * z + 2 * w * x, 1 - 2 * x ^ 2 - 2 * y ^ 2]

/-- `.ravel()` of a two-dimensional array: row after row. -/
def ravel2 (r c : Nat) (f : Nat → Nat → K) : List K :=
  (List.range r).flatMap (fun (i : Nat) => (List.range c).map (fun (j : Nat) => f i j))

/-- A 3×3 matrix as entry function. -/
def m3Entry (A : M3 K) (i j : Nat) : K := if h : i < 3 ∧ j < 3 then A ⟨i, h.1⟩ ⟨j, h.2⟩ else 0

/-- `visualize.py:43-79` `MarkerData.rot_matrix` -/
def rotMatrix (rot : Arr K) : Except Err (List K) :=
  match rot.shape with
  | [n] =>
    if n ≠ 4 then .error .valueError
    else .ok (ravel2 3 3 (m3Entry (quatMatrix (rot.get [0]) (rot.get [1]) (rot.get [2]) (rot.get [3]))))
  | [r, c] => .ok (ravel2 r c (fun i j => rot.get [i, j]))
  | _ => .error .valueError

/-- `visualize.py:21-41` `MarkerData` (its `name` is the key in the dictionary). -/
structure Marker (K : Type) where
  id : Nat
  type : Nat
  size : List K
  pos : List K
  rot : Arr K
  rgba : List K

/-- What `mjv_initGeom` writes into a slot of a scene. -/
structure Drawn (K : Type) where
  type : Nat
  size : List K
  pos : List K
  mat : List K
  rgba : List K
deriving DecidableEq

/-- A slot of a scene: unused, a geometry of the model (by number), or a marker. -/
inductive Slot (K : Type) where
  | empty
  | model (k : Nat)
  | marker (d : Drawn K)
deriving DecidableEq

/-- `mj.MjvScene` (external): `geoms` has `maxgeom` slots, the first `ngeom` are shown. -/
structure Scene (K : Type) where
  ngeom : Int
  geoms : List (Slot K)

/-- The state of a `BatchVisualizer` that concerns markers and drawing (`visualize.py:110-137`): the scenes
of the passive viewer and of the renderer, if present, and the recorded frames (shown slots). -/
structure State (K : Type) where
  nMarkers : Nat
  markers : List (String × Marker K)
  viewer : Option (Scene K)
  renderer : Option (Scene K)
  frames : List (List (Slot K))
  qpos : List K
  nq : Nat

/-- `dict[key] = value`: replace in place, or append. -/
def dictSet {α : Type} (d : List (String × α)) (k : String) (v : α) : List (String × α) :=
  if d.any (fun x => x.1 == k) then d.map (fun x => if x.1 == k then (k, v) else x) else d ++ [(k, v)]

/-- The names argument: one string or a sequence. -/
inductive Names where
  | one (s : String)
  | many (l : List String)

/-- `np.linspace(0, 1, n)[i]` -/
def linspace (n i : Nat) : K := if n ≤ 1 then 0 else (i : K) / ((n - 1 : Nat) : K)

/-- `c * a + (1 - c) * b` for colours; different lengths do not broadcast. -/
def mix (c : K) (a b : List K) : Except Err (List K) :=
  if a.length = b.length then .ok (List.zipWith (fun x y => c * x + (1 - c) * y) a b) else .error .valueError

/-- The arguments of `add_markers`; a float `size` is given as `Sum.inl`. -/
structure MarkerArgs (K : Type) where
  name : Names
  size : K ⊕ List K
  alpha : K
  colorBegin : List K
  colorEnd : Option (List K)
  type : Nat
  n : Int

/-- `visualize.py:335`: `name if isinstance(name, str) else name[i]`. -/
def nameAt (nm : Names) (i : Nat) : Except Err String :=
  match nm with
  | .one s => .ok s
  | .many l => npGet l (i : Int)

/-- `visualize.py:331`: `size if isinstance(size, np.ndarray) else np.ones(3) * size`. -/
def sizeArray (size : K ⊕ List K) : List K :=
  match size with
  | .inl s => [1 * s, 1 * s, 1 * s]
  | .inr l => l

/-- `visualize.py:336-344`: one new marker. -/
def newMarker (a : MarkerArgs K) (base n i : Nat) : Except Err (Marker K) := do
  let color ← mix (linspace n i) a.colorBegin (a.colorEnd.getD a.colorBegin)
  return { id := base + i, type := a.type, size := sizeArray a.size, pos := [0, 0, 0], rot := ⟨[4], fun ix => if ix = [0] then 1 else 0⟩,
           rgba := color ++ [a.alpha] }

/-- `visualize.py:333-344`: the loop, from index `i` on; markers written before an exception stay. -/
def addLoop (a : MarkerArgs K) (base n : Nat) :
    List Nat → List (String × Marker K) → Except Err Unit × List (String × Marker K)
  | [], d => (.ok (), d)
  | i :: is, d =>
    match nameAt a.name i with
    | .error e => (.error e, d)
    | .ok s =>
      match newMarker a base n i with
      | .error e => (.error e, d)
      | .ok m => addLoop a base n is (dictSet d s m)

/-- `user_scn.ngeom += n` -/
def Scene.grow (s : Scene K) (n : Nat) : Scene K := { s with ngeom := s.ngeom + n }

/-- `visualize.py:325-326`: the check of the names. -/
def namesOk (nm : Names) (n : Int) : Bool :=
  match nm with
  | .one _ => n ≤ 1
  | .many l => n ≤ 1 || (l.length : Int) == n

/-- `visualize.py:304-349` `add_markers`; `np.linspace` refuses a negative count. -/
def addMarkers (a : MarkerArgs K) (v : State K) : Except Err Unit × State K :=
  if namesOk a.name a.n then
    if a.n < 0 then (.error .valueError, v)
    else
      match addLoop a v.nMarkers a.n.toNat (List.range a.n.toNat) v.markers with
      | (.error e, d) => (.error e, { v with markers := d })
      | (.ok (), d) =>
        (.ok (), { v with markers := d, nMarkers := v.nMarkers + a.n.toNat, viewer := v.viewer.map (·.grow a.n.toNat),
                          renderer := v.renderer.map (·.grow a.n.toNat) })
  else (.error .valueError, v)

/-- `mj.mjv_initGeom` (external): checks the sizes of its arguments. -/
def initGeom (m : Marker K) : Except Err (Drawn K) := do
  let mat ← rotMatrix m.rot
  if m.size.length = 3 ∧ m.pos.length = 3 ∧ mat.length = 9 ∧ m.rgba.length = 4 then
    return { type := m.type, size := m.size, pos := m.pos, mat := mat, rgba := m.rgba }
  else .error .typeError

/-- The position in `scene.geoms` (`visualize.py:396`). -/
def slotIndex (s : Scene K) (nMarkers : Nat) (m : Marker K) : Int := s.ngeom - nMarkers + m.id

/-- Python index into a sequence of `n` entries. -/
def pyIndex (n : Nat) (i : Int) : Except Err Nat :=
  let j := if i < 0 then i + n else i
  if 0 ≤ j ∧ j < n then .ok j.toNat else .error .indexError

/-- `visualize.py:394-402`: write one marker. -/
def drawOne (nMarkers : Nat) (s : Scene K) (m : Marker K) : Except Err (Scene K) := do
  let k ← pyIndex s.geoms.length (slotIndex s nMarkers m)
  let d ← initGeom m
  return { s with geoms := s.geoms.set k (.marker d) }

/-- `visualize.py:387-402` `_draw_markers` -/
def drawMarkers (nMarkers : Nat) (ms : List (Marker K)) (s : Scene K) : Except Err (Scene K) :=
  ms.foldlM (drawOne nMarkers) s

/-- `mj.Renderer.update_scene` (external): the scene shows exactly the `g` visible geometries of the model, or as many as there is room for. -/
def updateScene (g : Nat) (s : Scene K) : Scene K :=
  let k := min g s.geoms.length
  { ngeom := k, geoms := (List.range k).map (fun (k : Nat) => .model k) ++ s.geoms.drop k }

/-- The shown part of a scene. -/
def Scene.shown (s : Scene K) : List (Slot K) := s.geoms.take s.ngeom.toNat

/-- `visualize.py:371-373`: the viewer part of `update`. -/
def updateViewer (v : State K) : Except Err (State K) :=
  match v.viewer with
  | none => .ok v
  | some s => do
    let s' ← drawMarkers v.nMarkers (v.markers.map Prod.snd) s
    return { v with viewer := some s' }

/-- `visualize.py:375-385`: the recording part of `update`. -/
def updateRenderer (g : Nat) (v : State K) : Except Err (State K) :=
  match v.renderer with
  | none => .ok v
  | some s => do
    let s' ← drawMarkers v.nMarkers (v.markers.map Prod.snd) (updateScene g s)
    return { v with renderer := some s', frames := v.frames ++ [s'.shown] }

/-- `self.mj_data.qpos = q_raveled` (`visualize.py:369`): numpy assignment, one number is broadcast. -/
def assignQpos (nq : Nat) (q : List K) : Except Err (List K) :=
  if q.length = nq then .ok q else if q.length = 1 then .ok (List.replicate nq (q.headD 0)) else .error .valueError

/-- `visualize.py:360-385` `update`, if it does not raise.  `q` is the raveled array; `g` is the number of model geometries that
MuJoCo puts into the scene. -/
def update (q : List K) (g : Nat) (v : State K) : Except Err (State K) := do
  let qp ← assignQpos v.nq q
  let v1 ← updateViewer { v with qpos := qp }
  updateRenderer g v1

/-- `visualize.py:394-402`: the scene when the loop over the markers ends or raises. -/
def drawnUntil (nMarkers : Nat) : List (Marker K) → Scene K → Scene K
  | [], s => s
  | m :: ms, s =>
    match drawOne nMarkers s m with
    | .error _ => s
    | .ok s' => drawnUntil nMarkers ms s'

/-- `visualize.py:360-385` `update`, if it raises: what it has changed until then.  The markers before the one that cannot be drawn stay drawn; no
frame is recorded. -/
def updateRaised (q : List K) (g : Nat) (v : State K) : State K :=
  match assignQpos v.nq q with
  | .error _ => v
  | .ok qp =>
    match updateViewer { v with qpos := qp } with
    | .error _ => { v with qpos := qp, viewer := v.viewer.map (drawnUntil v.nMarkers (v.markers.map Prod.snd)) }
    | .ok v1 => { v1 with renderer := v1.renderer.map (fun s => drawnUntil v1.nMarkers (v1.markers.map Prod.snd) (updateScene g s)) }

/-- The user's write `vis.marker_data[name].pos = p`. -/
def setMarker (name : String) (f : Marker K → Marker K) (v : State K) : Except Err (State K) :=
  if v.markers.any (fun x => x.1 == name) then
    .ok { v with markers := v.markers.map (fun x => if x.1 == name then (x.1, f x.2) else x) }
  else .error .valueError

/-- A freshly constructed visualizer: `viewer` slots of the passive viewer, `renderer` slots of the renderer. -/
def State.init (viewer renderer : Option Nat) (nq : Nat) : State K where
  nMarkers := 0
  markers := []
  viewer := viewer.map (fun n => ⟨0, List.replicate n .empty⟩)
  renderer := renderer.map (fun n => ⟨0, List.replicate n .empty⟩)
  frames := []
  qpos := List.replicate nq 0
  nq := nq

/-! ### Editing the MJCF model -/

/-- What `_generate_mj_model` reads of a default class. -/
structure VClass (K : Type) where
  group : Option Int
  rgba : Option (List K)

/-- What `_generate_mj_model` reads and writes of a geometry; `dclass` is the number of its default class. -/
structure VGeom (K : Type) where
  name : String
  group : Option Int
  dclass : Option Nat
  rgba : Option (List K)
  contype : Option Int
  conaffinity : Option Int

/-- What `_generate_mj_model` reads of an MJCF model. -/
structure Mjcf (K : Type) where
  lights : List String
  cameras : List String
  materials : List (Option (List K))
  classes : List (VClass K)
  geoms : List (VGeom K)

/-- `visualize.py:351-358` `get_prefix` -/
def getPrefix (i : Nat) : String := "manip" ++ toString i

/-- Names of an attached model (external: dm_control puts the model's name and a slash in front). -/
def prefixed (i : Nat) (s : String) : String := getPrefix i ++ "/" ++ s

/-- `visualize.py:244-248`: all but the first model lose lights and cameras. -/
def stripped (i : Nat) (m : Mjcf K) : Mjcf K := if 0 < i then { m with lights := [], cameras := [] } else m

/-- One attached model: prefixed names; its classes start at `off` in the combined model. -/
def attached (i off : Nat) (m : Mjcf K) : Mjcf K :=
  { stripped i m with
    lights := (stripped i m).lights.map (prefixed i), cameras := (stripped i m).cameras.map (prefixed i),
    geoms := m.geoms.map (fun g => { g with name := prefixed i g.name, dclass := g.dclass.map (· + off) }) }

/-- `visualize.py:237-251`: attach `n` copies. -/
def attachAll (m : Mjcf K) : Nat → Mjcf K
  | 0 => ⟨[], [], [], [], []⟩
  | n + 1 =>
    let a := attachAll m n
    let b := attached n a.classes.length m
    ⟨a.lights ++ b.lights, a.cameras ++ b.cameras, a.materials ++ b.materials, a.classes ++ b.classes, a.geoms ++ b.geoms⟩

/-- `rgba[3] *= alpha` -/
def scaleAlpha (alpha : K) (c : List K) : List K := c.modify 3 (· * alpha)

/-- `visualize.py:254-258` -/
def editMaterial (alpha : K) : Option (List K) → Option (List K)
  | some c => some (scaleAlpha alpha c)
  | none => some [1, 1, 1, alpha]

/-- The default class of a geometry. -/
def classOf (cls : List (VClass K)) (g : VGeom K) : Option (VClass K) := g.dclass.bind (fun (d : Nat) => cls[d]?)

/-- `visualize.py:266-269`: own group, else that of the class. -/
def groupOf (cls : List (VClass K)) (g : VGeom K) : Option Int :=
  match g.group with
  | some x => some x
  | none => (classOf cls g).bind VClass.group

/-- `visualize.py:273`: whether the geometry is removed. -/
def dropped (cls : List (VClass K)) (grp : Int) (g : VGeom K) : Bool :=
  match groupOf cls g with
  | none => false
  | some x => x != grp

/-- `visualize.py:277-283`: a kept geometry. -/
def editGeom (alpha : K) (g : VGeom K) : VGeom K :=
  { g with contype := some 0, conaffinity := some 0, rgba := g.rgba.map (scaleAlpha alpha) }

/-- `visualize.py:284-285`: the write to the class. -/
def editClass (alpha : K) (cls : List (VClass K)) (g : VGeom K) : List (VClass K) :=
  match g.rgba with
  | some _ => cls
  | none =>
    match g.dclass with
    | none => cls
    | some d => cls.modify d (fun c => { c with rgba := c.rgba.map (scaleAlpha alpha) })

/-- `visualize.py:261-285`: the loop over the geometries. -/
def editGeoms (alpha : K) (grp : Int) : List (VClass K) → List (VGeom K) → List (VClass K) × List (VGeom K)
  | cls, [] => (cls, [])
  | cls, g :: gs =>
    if dropped cls grp g then editGeoms alpha grp cls gs
    else
      let r := editGeoms alpha grp (editClass alpha cls g) gs
      (r.1, editGeom alpha g :: r.2)

/-- `visualize.py:224-295`: the edited model before flattening. -/
def editModel (alpha : K) (grp : Int) (n : Nat) (m : Mjcf K) : Mjcf K :=
  let a := attachAll m n
  let r := editGeoms alpha grp a.classes a.geoms
  { a with materials := a.materials.map (editMaterial alpha), classes := r.1, geoms := r.2 }

end

/-! ### The XML tree -/

/-- An XML element with its identity (Python object identity), tag, attributes and children. -/
inductive Xml where
  | node (id : Nat) (tag : String) (attrs : List (String × String)) (children : List Xml)

namespace Xml
def id : Xml → Nat | node i _ _ _ => i
def tag : Xml → String | node _ t _ _ => t
def attrs : Xml → List (String × String) | node _ _ a _ => a
def children : Xml → List Xml | node _ _ _ cs => cs
end Xml

/-- `visualize.py:178-184`: the loop over (a snapshot of) the children of `worldbody`; the second argument
is the current list of children.  `remove` takes out the element itself (identity); it is always
present, so the `ValueError` of `remove` cannot occur. -/
def flattenLoop : List Xml → List Xml → List Xml
  | [], cur => cur
  | c :: cs, cur =>
    if c.tag = "body" then flattenLoop cs ((cur ++ c.children).eraseP (fun x => x.id == c.id)) else flattenLoop cs cur

/-- `visualize.py:176-184` -/
def flattenBodies (cs : List Xml) : List Xml := flattenLoop cs cs

mutual
/-- `root.find(".//worldbody")` and the change of that element: the first in document order. -/
def updateNode (f : List Xml → List Xml) : Xml → Option Xml
  | .node i t a cs => if t = "worldbody" then some (.node i t a (f cs)) else (updateList f cs).map (.node i t a)
def updateList (f : List Xml → List Xml) : List Xml → Option (List Xml)
  | [] => none
  | c :: cs =>
    match updateNode f c with
    | some c' => some (c' :: cs)
    | none => (updateList f cs).map (c :: ·)
end

/-- `visualize.py:171-184` on the root's children. -/
def flattenDoc (cs : List Xml) : List Xml := (updateList flattenBodies cs).getD cs

/-- `s.rfind(c)` for one character: the last position, or -1. -/
def rfind (s : List Char) (c : Char) : Int :=
  match s.reverse.findIdx? (· == c) with
  | some i => (s.length : Int) - 1 - i
  | none => -1

/-- Python's slice bound: negative counts from the end, clipped. -/
def sliceBound (n : Nat) (i : Int) : Nat := (if i < 0 then i + n else min i n).toNat

/-- `visualize.py:193` -/
def stripHash (s : String) : String :=
  let l := s.toList
  String.ofList (l.take (sliceBound l.length (rfind l '-')) ++ l.drop (sliceBound l.length (rfind l '.')))

/-- A directory as listed by `os.walk`: the files with their contents. -/
abbrev Dir := List (String × List Nat)

/-- `visualize.py:139-152` `__find_asset` and reading the file. -/
def findAsset (dirs : List Dir) (name : String) : Except Err (List Nat) :=
  match dirs.find? (fun d => d.any (fun f => f.1 == name)) with
  | some d => match d.find? (fun f => f.1 == name) with
    | some f => .ok f.2
    | none => .error .valueError
  | none => .error .valueError

/-- `mesh.get("file")`, if present and not empty (`visualize.py:190-191`). -/
def fileOf (a : List (String × String)) : Option String :=
  match a.find? (fun x => x.1 == "file") with
  | some x => if x.2 = "" then none else some x.2
  | none => none

mutual
/-- `root.findall(".//tag")` and the file attributes, in document order. -/
def filesNode (tag : String) : Xml → List String
  | .node _ t a cs => (if t = tag then (fileOf a).toList else []) ++ filesList tag cs
def filesList (tag : String) : List Xml → List String
  | [] => []
  | c :: cs => filesNode tag c ++ filesList tag cs
end

/-- Replace the file attribute. -/
def setFile (a : List (String × String)) : List (String × String) :=
  match fileOf a with
  | none => a
  | some s => a.map (fun x => if x.1 == "file" then (x.1, stripHash s) else x)

mutual
/-- `mesh.set("file", new_file_attr)` for all meshes and textures. -/
def renameNode : Xml → Xml
  | .node i t a cs => .node i t (if t = "mesh" ∨ t = "texture" then setFile a else a) (renameList cs)
def renameList : List Xml → List Xml
  | [] => []
  | c :: cs => renameNode c :: renameList cs
end

/-- `visualize.py:189-197`: collect the assets. -/
def collectAssets (dirs : List Dir) : List String → List (String × List Nat) → Except Err (List (String × List Nat))
  | [], acc => .ok acc
  | s :: ss, acc =>
    match findAsset dirs (stripHash s) with
    | .error e => .error e
    | .ok b => collectAssets dirs ss (dictSet acc (stripHash s) b)

/-- `visualize.py:154-203` `remove_high_level_body_tags`, on the children of the root. -/
def removeHighLevelBodyTags (dirs : List Dir) (cs : List Xml) : Except Err (List Xml × List (String × List Nat)) :=
  let cs1 := flattenDoc cs
  match collectAssets dirs (filesList "mesh" cs1 ++ filesList "texture" cs1) [] with
  | .error e => .error e
  | .ok assets => .ok (renameList cs1, assets)

end Mjinx.Vis
