import Verif.Model.Prelude
import Verif.Model.Grid

/-!
# The sum of the logs of a diagonal, in double arithmetic
-/

namespace Verif

/-- the loop of `computeSumLogDiagR`, `/repo/incremental_calibration/include/aslam/calibration/algorithms/matrixOperations.tpp` 35-39:
`k` iterations from row and column `i`, the addition rounded to the nearest double.  `log2D` is `std::log2`.  `R i i` outside the matrix
(`rows`) is undefined behaviour.  Simplification: no infinities, NaN or underflow. -/
def sumLogLoopD (log2D : ℚ → ℚ) (R : Nat → Nat → ℚ) (rows : Nat) : Nat → Nat → ℚ → Res Unit ℚ
  | 0, _, s => .ok s ()
  | k + 1, i, s =>
    if i < rows then
      if |R i i| > 1 / 2 ^ 52 then sumLogLoopD log2D R rows k (i + 1) (fl53 (s + log2D |R i i|))
      else sumLogLoopD log2D R rows k (i + 1) s
    else .ub

/-- `checkColumnIndices` and `computeSumLogDiagR`, `matrixOperations.tpp` 17-41, with double arithmetic. -/
def computeSumLogDiagRD (log2D : ℚ → ℚ) (R : Nat → Nat → ℚ) (rows cols b e : Nat) : Res Unit ℚ :=
  if b ≥ e then .throw .outOfBound ()
  else if e ≥ cols then .throw .outOfBound ()
  else sumLogLoopD log2D R rows (e + 1 - b) b 0

end Verif
