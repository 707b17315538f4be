import Verif.Spec.Visualize

/-!
# Saving videos and closing the visualizer (`mjinx/visualize.py:404-433`)
-/

namespace Mjinx.Vis
variable {K : Type} [Field K]

/-- What a call raises: an exception of the model, or the `RuntimeError` of a closed renderer. -/
inductive SErr where
  | of (e : Err)
  | runtimeError
deriving DecidableEq

/-- A visualizer with its file name (`visualize.py:127-131`), the files written so far (name, frames per second, frames) and the number of
warnings.  `closed`: `close` has deleted `self.frames` and closed the renderer. -/
structure Session (K : Type) where
  vis : State K
  filename : String
  closed : Bool
  files : List (String × K × List (List (Slot K)))
  warnings : Nat

/-- `visualize.py:104-137`: a new visualizer. -/
def Session.init (viewer renderer : Option Nat) (nq : Nat) (filename : String) : Session K :=
  ⟨State.init viewer renderer nq, filename, false, [], 0⟩

/-- `visualize.py:413-417`: the file name, or the time when there is none (`clock` is what `strftime` returns). -/
def videoName (filename clock : String) : String := if filename.length ≠ 0 then filename ++ ".mp4" else clock ++ ".mp4"

/-- `visualize.py:404-423` `save_video`.  `mediapy.write_video` (external) looks at the first frame, so an empty list is refused; it
replaces a file of the same name. -/
def saveVideo (clock : String) (fps : K) (s : Session K) : Except SErr Unit × Session K :=
  if s.vis.renderer.isSome then
    if s.closed then (.error (.of .attributeError), s)
    else if s.vis.frames.isEmpty then (.error (.of .indexError), s)
    else (.ok (), { s with files := dictSet s.files (videoName s.filename clock) (fps, s.vis.frames) })
  else (.ok (), { s with warnings := s.warnings + 1 })

/-- `visualize.py:425-433` `close`: a second `del self.frames` raises. -/
def close (s : Session K) : Except SErr Unit × Session K :=
  if s.vis.renderer.isSome then
    if s.closed then (.error (.of .attributeError), s)
    else (.ok (), { s with closed := true, vis := { s.vis with frames := [] } })
  else (.ok (), s)

/-- `visualize.py:360-385` `update`: after `close` the renderer refuses `update_scene`, when `qpos` and the markers of the viewer have been
written. -/
def updateS (q : List K) (g : Nat) (s : Session K) : Except SErr Unit × Session K :=
  if s.closed then
    match assignQpos s.vis.nq q with
    | .error e => (.error (.of e), s)
    | .ok qp =>
      match updateViewer { s.vis with qpos := qp } with
      | .error e => (.error (.of e), { s with vis := updateRaised q g s.vis })
      | .ok v => (.error .runtimeError, { s with vis := v })
  else
    match update q g s.vis with
    | .error e => (.error (.of e), { s with vis := updateRaised q g s.vis })
    | .ok v => (.ok (), { s with vis := v })

end Mjinx.Vis
