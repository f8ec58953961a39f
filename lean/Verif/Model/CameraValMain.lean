import Verif.Model.CameraReport

/-!
# Model of the camera validation program

`/repo/incremental_calibration_examples/incremental_calibration_examples_camera/src/camera/validateCamera.cpp` (line numbers
without file name refer to it).  Reading the bag and the configuration, the window on the screen and the progress display are
left out.  The images of the bag come with what the detector finds in them.
-/

namespace Verif
namespace CamVal

open CamReport

/-- An image message: identity of the image, time stamp and what the detector finds.
Read at `validateCamera.cpp` 73-75. -/
structure Frame where
  id : Nat
  stamp : Int
  found : Option Image

/-- `cv::imwrite` (external) may throw; for an empty image the behaviour depends on the version of the library.
Called at `validateCamera.cpp` 89. -/
structure Env where
  isPos : Matrix (Fin 2) (Fin 2) ℝ → Bool
  imwrite : Option Nat → Option Exc

/-- `resultImage` after `getLastImage`, 77-78: the image of the last observation, `CameraValidator.cpp` 140-143, 221; without
one it stays empty. -/
def resultImage (v : Val) : Option Nat := v.obs.getLast?.map Image.id

/-- body of the loop, 72-92; a file is its time stamp and the image it shows. -/
noncomputable def step (env : Env) (vis save : Bool) (v : Val) (f : Frame) : Res Val (List (Int × Option Nat)) :=
  let v' := (v.addImage env.isPos f.found).1
  if vis then
    if save then
      match env.imwrite (resultImage v') with
      | some ex => .throw ex v'
      | none => .ok [(f.stamp, resultImage v')] v'
    else .ok [] v'
  else .ok [] v'

/-- the loop, 69-93. -/
noncomputable def loop (env : Env) (vis save : Bool) : List Frame → List (Int × Option Nat) → Val → Res Val (List (Int × Option Nat))
  | [], files, v => .ok files v
  | f :: fs, files, v => (step env vis save v f).bind fun w v' => loop env vis save fs (files ++ w) v'

/-- what is printed and written at the end, 96-120; `q` is the chi-square quantile. -/
structure Report where
  mean : Option Vec2
  std : Option Vec2
  maxX : ℝ
  maxY : ℝ
  outliers : Nat
  errorsFile : List Vec2
  md2File : List ℝ

/-- the whole program, 35-123. -/
noncomputable def program (env : Env) (vis save out : Bool) (q : ℝ) (size : Nat) (sigma2 : ℝ) (fs : List Frame) :
    Res Val (List (Int × Option Nat) × Report) :=
  (loop env vis save fs [] (Val.init size sigma2)).bind fun files v =>
    .ok (files, ⟨v.mean, v.std, v.maxX, v.maxY, v.numOutliers q, if out then v.errors else [], if out then v.md2 else []⟩) v

end CamVal
end Verif
