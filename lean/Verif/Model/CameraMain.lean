import Verif.Model.CameraReport

/-!
# Model of the camera calibration program

`/repo/incremental_calibration_examples/incremental_calibration_examples_camera/src/camera/calibrateCamera.cpp` (`MC`).  The
images of the bag come with what the detector finds in them and what the optimizer does if one of them completes a batch.
Exceptions are not caught by the program: `throw` ends it.  Reading the bag and the configuration, console output other than
the values that must be computed for it, and the names of the files are left out.
-/

namespace Verif
namespace CamMain

open Camera CamReport

variable {V F M : Type _}

/-- An image of the bag.  Read at `calibrateCamera.cpp` 81-85. -/
structure Frame (V F M : Type _) where
  geo : Bool
  found : Option (Obs V)
  oracle : OptInput V → OptCall V F M
  buildOk : Bool

/-- initialising the geometry, MC 65-73: images are tried until one succeeds. -/
def initLoop : List (Frame V F M) → Cam V F M → Res (Cam V F M) Unit
  | [], s => .ok () s
  | f :: fs, s => (s.initGeometry f.geo).bind fun r s' => if r then .ok () s' else initLoop fs s'

/-- the images written for a frame, MC 87-99: `getLastCheckerboardImage` is the last detected one (CC 289-292, 456), which is
this one if the number of used observations changed. -/
def savedBy (save : Bool) (s s' : Cam V F M) (f : Frame V F M) : List Nat :=
  if save then
    if s'.estObs.length ≠ s.estObs.length then
      match f.found with
      | some o => [o.id]
      | none => []
    else []
  else []

/-- processing the bag, MC 78-101; returns the images written (`saveEstimatorImages`). -/
def imageLoop (D : Dbl F) (m0 : M) (save : Bool) : List (Frame V F M) → List Nat → Cam V F M → Res (Cam V F M) (List Nat)
  | [], saved, s => .ok saved s
  | f :: fs, saved, s =>
    (s.addImage D m0 f.oracle f.buildOk f.found).bind fun _ s' => imageLoop D m0 save fs (saved ++ savedBy save s s' f) s'

/-- the part of the program that changes the calibrator, MC 65-102. -/
def calibrate (D : Dbl F) (m0 : M) (save : Bool) (frames : List (Frame V F M)) (last : OptInput V → OptCall V F M) (lastOk : Bool)
    (s : Cam V F M) : Res (Cam V F M) (List Nat) :=
  (initLoop frames s).bind fun _ s1 =>
  (imageLoop D m0 save frames [] s1).bind fun saved s2 =>
  (s2.processBatch D m0 last lastOk).bind fun _ s3 => .ok saved s3

/-- a call without effect on the calibrator.  `calibrateCamera.cpp` 86-110 (`getLastCheckerboardImage`). -/
def look {α : Type _} (s : Cam V F M) (r : Res Unit α) : Res (Cam V F M) α :=
  match r with
  | .ok a _ => .ok a s
  | .throw e _ => .throw e s
  | .ub => .ub
  | .diverge => .diverge

/-- the whole program, MC 45-166: the images written and the standard deviations in the result file. -/
noncomputable def program (D : Dbl F) (m0 : M) (save : Bool) (frames : List (Frame V F M)) (last : OptInput V → OptCall V F M)
    (lastOk : Bool) (diag : M → List ℝ) (omni : Bool) (np nd : Nat) (isPos : Matrix (Fin 2) (Fin 2) ℝ → Bool) (q : ℝ)
    (err : Heap V → ETId → Vec2) (md2 : Heap V → ETId → ℝ) (s : Cam V F M) : Res (Cam V F M) (List Nat × Statistics × List ℝ × List ℝ) :=
  (calibrate D m0 save frames last lastOk s).bind fun saved s3 =>
  (look s3 (projectionVariance s3.w diag np)).bind fun _ s3 =>
  (look s3 (distortionVariance s3.w diag nd)).bind fun _ s3 =>
  (look s3 (getStatistics isPos q s3.w (err s3.w.heap) (md2 s3.w.heap))).bind fun st s3 =>
  (look s3 (writeSigmas s3.w diag omni np nd)).bind fun sg s3 => .ok (saved, st, sg.1, sg.2) s3

end CamMain
end Verif
