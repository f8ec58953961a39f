import Mathlib.Analysis.SpecialFunctions.Trigonometric.Deriv
import Mathlib.Analysis.SpecialFunctions.Trigonometric.Arctan
import Mathlib.Analysis.SpecialFunctions.Sqrt

/-! Specification vocabulary of the 2D laser example. -/

namespace Verif
namespace LrfSpec

/-- the sine wave path at time `t`: first coordinate. -/
noncomputable def pathX (f t : ℝ) : ℝ := 2 * Real.pi * f * t
/-- the sine wave path at time `t`: second coordinate. -/
noncomputable def pathY (A f t : ℝ) : ℝ := A * Real.sin (2 * Real.pi * f * t)

/-- speed along the path: the length of the derivative of the position. -/
noncomputable def speed (A f t : ℝ) : ℝ := Real.sqrt ((deriv (pathX f) t) ^ 2 + (deriv (pathY A f) t) ^ 2)

/-- direction of travel: the angle of the derivative of the position (which points forward). -/
noncomputable def heading (A f t : ℝ) : ℝ := Real.arctan (deriv (pathY A f) t / deriv (pathX f) t)

/-- pose `i` is the first of the first `n` poses from which landmark `j` has a positive range. -/
def FirstSeen (r : List (List ℝ)) (n j i : Nat) : Prop :=
  i < n ∧ (∃ row ∈ r[i]?, ∃ v ∈ row[j]?, 0 < v) ∧ ∀ i' < i, ∀ row ∈ r[i']?, ∀ v ∈ row[j]?, v ≤ 0

end LrfSpec
end Verif
