import Verif.Model.CameraReport
import Verif.Spec.Camera
import Verif.Spec.Stats

/-! Vocabulary for the reports of camera validator and calibrator. -/

namespace Verif
namespace CamReport

/-- The reprojection errors of an image: predicted minus observed, for each corner for which both exist, in order. -/
def imageErrors (size : Nat) (im : Image) : List Vec2 :=
  (List.range size).filterMap fun i =>
    match im.observed i, im.predicted i with
    | some o, some p => some (p - o)
    | _, _ => none

/-- `m` is the largest absolute value of the numbers, zero if there are none. -/
def IsMaxAbs (m : ℝ) (l : List ℝ) : Prop := (∀ x ∈ l, |x| ≤ m) ∧ (l = [] ∧ m = 0 ∨ ∃ x ∈ l, m = |x|)

/-- Calls on a validator. -/
inductive VOp where
  | image (found : Option Image)
  | setSigma2 (v : ℝ)

/-- A call and what it returns. -/
noncomputable def VOp.run (isPos : Matrix (Fin 2) (Fin 2) ℝ → Bool) (s : Val) : VOp → Val
  | .image f => (s.addImage isPos f).1
  | .setSigma2 v => { s with sigma2 := v }

/-- the detected images among the calls. -/
def detected (ops : List VOp) : List Image := ops.filterMap fun op => match op with | .image f => f | _ => none

/-- the detected images with the variance in force when they were added. -/
def weighted : ℝ → List VOp → List (ℝ × Image)
  | _, [] => []
  | v, .image (some im) :: ops => (v, im) :: weighted v ops
  | v, .image none :: ops => weighted v ops
  | _, .setSigma2 v :: ops => weighted v ops

end CamReport
end Verif
