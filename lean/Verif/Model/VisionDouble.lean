import Verif.Model.Vision
import Verif.Model.DoubleNormal

/-!
# The vision data association with disparities in double arithmetic

`VA` is `/repo/incremental_calibration_vision/src/vision/VisionDataAssociation.cpp`.
-/

namespace Verif
namespace Vision
open Dbl

/-- `computeDisparity`, `VA` 109-118: the norm of the difference of two image points, every operation rounded; `sqrtD` is the function of the C
library.  Simplifications: key points are points of the plane; overflow and underflow of doubles are not modelled. -/
noncomputable def disparityD (sqrtD : ℚ → ℚ) (a b : ℚ × ℚ) : ℚ :=
  sqrtD (fl53 (fl53 (fl53 (a.1 - b.1) * fl53 (a.1 - b.1)) + fl53 (fl53 (a.2 - b.2) * fl53 (a.2 - b.2))))

/-- what the collaborators produce for one image, as `Img`, but the tracks with the image points of both key points (in the previous and in the
new frame).  `VA` 37-60, 206-208. -/
structure PixImg where
  frame : Option FramePtr
  cams : Nat
  tracked : FramePtr → Nat → List (Nat × Nat × (ℚ × ℚ) × (ℚ × ℚ))
  overlap : Nat → Nat → List (Nat × Nat)

/-- the image points of all tracks, `VA` 44-57. -/
def PixImg.points (im : PixImg) (p : FramePtr) : List ((ℚ × ℚ) × (ℚ × ℚ)) :=
  (List.range im.cams).flatMap fun i => (im.tracked p i).map fun q => q.2.2

/-- the disparities of the tracks, `VA` 64-69. -/
noncomputable def PixImg.toImg (sqrtD : ℚ → ℚ) (im : PixImg) : Img where
  frame := im.frame
  cams := im.cams
  tracked := fun p i => (im.tracked p i).map fun q => (q.1, q.2.1, disparityD sqrtD q.2.2.1 q.2.2.2)
  overlap := im.overlap

/-- `addImage`, `VA` 33-107, with disparities in double arithmetic. -/
noncomputable def addImageD (sqrtD : ℚ → ℚ) (s : State) (im : PixImg) : Res State Unit := addImage s (im.toImg sqrtD)

end Vision
end Verif
