import Verif.Model.Prelude
import Mathlib.Data.List.Sort
import Mathlib.Data.Rat.Defs

/-!
# Model of the vision data association

`VA` is `/repo/incremental_calibration_vision/src/vision/VisionDataAssociation.cpp`.  The image pipeline, the descriptor
tracker and the epipolar matcher are collaborators: their results for a call are given with the image (`Img`).
-/

namespace Verif
namespace Vision

/-- A multi frame, by address.  `VisionDataAssociation.cpp` 37. -/
abbrev FramePtr := Nat

/-- A key point match: for both sides the multi frame identifier (`none`: the identifier of a multi frame on which `setId` was
never called), the camera and the key point index (`aslam::KeypointIdentifierMatch`).
`VisionDataAssociation.cpp` 39, 207. -/
structure Match where
  frameA : Option Nat
  camA : Nat
  kpA : Nat
  frameB : Option Nat
  camB : Nat
  kpB : Nat
  deriving DecidableEq, Repr

/-- What the collaborators produce for one image: the completed multi frame, if any; its number of cameras; for each camera
the key point pairs found by the tracker with their disparity; for each camera pair those found by the epipolar matcher.
They may depend on the previous frame.  Produced at `VisionDataAssociation.cpp` 37-60, 206-208. -/
structure Img where
  frame : Option FramePtr
  cams : Nat
  tracked : FramePtr → Nat → List (Nat × Nat × ℚ)
  overlap : Nat → Nat → List (Nat × Nat)

/-- Members, `VisionDataAssociation.hpp` 59-78, and the identifiers carried by the frames on the heap.  `issued` is a history
variable: the identifiers handed out by `setId` with the frame that got them, oldest first. -/
structure State where
  next : Nat
  prev : Option FramePtr
  frames : List (Nat × FramePtr)
  found : List Match
  ids : FramePtr → Option Nat
  disparityThreshold : ℚ
  tracksThreshold : Int
  issued : List (Nat × FramePtr)

/-- Constructor, `VA` 9-24.  The two thresholds are not initialised: they are whatever the memory holds. -/
def init (memDisparity : ℚ) (memTracks : Int) : State := ⟨0, none, [], [], fun _ => none, memDisparity, memTracks, []⟩

/-- `reset`, `VA` 120-129. -/
def reset (s : State) : State := { s with frames := [], found := [], prev := none }

/-- `doOfovMatching`, `VA` 180-214: the matches appended for the camera pairs `i < j`. -/
def ofovMatches (fid : Option Nat) (im : Img) : List Match :=
  (List.range im.cams).flatMap fun i => ((List.range im.cams).drop (i + 1)).flatMap fun j =>
    (im.overlap i j).map fun q => ⟨fid, i, q.1, fid, j, q.2⟩

/-- the tracker's matches over all cameras with their disparities, `VA` 44-57 and 63-69. -/
def trackAll (s : State) (p : FramePtr) (im : Img) : List (Match × ℚ) :=
  (List.range im.cams).flatMap fun i => (im.tracked p i).map fun q => (⟨s.ids p, i, q.1, some s.next, i, q.2.1⟩, q.2.2)

/-- the value at index `k` after `partial_sort` of the first `k + 1` elements, `VA` 71-76; `none` if there is none
(undefined behaviour). -/
def kthSmallest (l : List ℚ) (k : Nat) : Option ℚ := (l.insertionSort (· ≤ ·))[k]?

/-- `addImage`, `VA` 33-107. -/
def addImage (s : State) (im : Img) : Res State Unit :=
  match im.frame, s.prev with
  | some f, some p =>
    let m := trackAll s p im
    if (m.length : Int) > s.tracksThreshold then
      match kthSmallest (m.map Prod.snd) (m.length / 2) with
      | none => .ub
      | some median =>
        if median > s.disparityThreshold then
          let ids' := fun q => if q = f then some s.next else s.ids q
          .ok () { s with
            next := s.next + 1
            ids := ids'
            frames := AL.set s.next f s.frames
            prev := some f
            found := s.found ++ m.map Prod.fst ++ ofovMatches (some s.next) im
            issued := s.issued ++ [(s.next, f)] }
        else .ok () s
    else .ok () { s with prev := some f }
  | some f, none => .ok () { s with prev := some f }
  | none, _ => .ok () s

/-- A public call.  `VisionDataAssociation.cpp` 33, 120. -/
inductive Op where
  | add (im : Img)
  | reset

/-- A call.  (Model glue: dispatches to the functions modelled above; no lines of its own.) -/
def step (s : State) : Op → Res State Unit
  | .add im => addImage s im
  | .reset => .ok () (reset s)

/-- The frame completed by a call.  (Model glue, not in the code: no lines.) -/
def Op.frame? : Op → Option FramePtr
  | .add im => im.frame
  | .reset => none

end Vision
end Verif
