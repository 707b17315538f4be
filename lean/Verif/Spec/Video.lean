import Verif.Model.Video

/-! Histories of a visualizer with videos. -/

namespace Mjinx.Vis
variable {K : Type} [Field K]

/-- The calls a user makes. -/
inductive SOp (K : Type) where
  | vis (op : Op K)
  | save (clock : String) (fps : K)
  | close

/-- One call: whether it raised, and the visualizer afterwards.  (Whether a marker call raised is not of interest here.) -/
def stepS (s : Session K) : SOp K → Except SErr Unit × Session K
  | .vis (.update q g) => updateS q g s
  | .vis op => (.ok (), { s with vis := step s.vis op })
  | .save clock fps => saveVideo clock fps s
  | .close => Vis.close s

def runS (s : Session K) (ops : List (SOp K)) : Session K := ops.foldl (fun s op => (stepS s op).2) s

/-- The calls other than `save_video` and `close`. -/
def drawing (ops : List (SOp K)) : List (Op K) :=
  ops.filterMap fun
    | .vis op => some op
    | _ => none

/-- The pictures the renderer shows right after each successful update, in order. -/
def pictures (v : State K) : List (Op K) → List (List (Slot K))
  | [] => []
  | .update q g :: ops =>
    match update q g v with
    | .ok v' => v'.renderer.toList.map Scene.shown ++ pictures v' ops
    | .error _ => pictures (updateRaised q g v) ops
  | op :: ops => pictures (step v op) ops

/-- The file with this name. -/
def fileNamed (files : List (String × K × List (List (Slot K)))) (name : String) : Option (K × List (List (Slot K))) :=
  (files.find? (fun x => x.1 == name)).map Prod.snd

end Mjinx.Vis
