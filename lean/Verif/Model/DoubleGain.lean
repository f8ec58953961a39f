import Verif.Model.Estimator
import Verif.Model.Grid

/-!
# The double operations of the estimator, rounded
-/

namespace Verif

/-- `0.5 * (a - b)`, `>`, `>=` and `0.0` on doubles, each operation rounded to the nearest double.  The operations at
`/repo/incremental_calibration/src/core/IncrementalEstimator.cpp` 394-399.  Simplification: no overflow, underflow, infinities or NaN. -/
def dblRounded : Dbl ℚ where
  zero := 0
  halfDiff a b := fl53 (1 / 2 * fl53 (a - b))
  gt a b := decide (b < a)
  ge a b := decide (b ≤ a)

end Verif
