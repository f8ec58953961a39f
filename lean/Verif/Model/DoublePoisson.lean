import Verif.Model.Grid

/-!
# `samplePoisson` in double arithmetic with gradual underflow

`RZ` is `/repo/incremental_calibration/include/aslam/calibration/statistics/Randomizer.tpp`.
-/

namespace Verif
namespace Dbl

/-- rounding of a number that is not negative to double precision with gradual underflow (IEEE 754), as done by each operation of RZ
139-152.  Simplification: no overflow (no number above one occurs). -/
def fl64 (x : ℚ) : ℚ := if (2:ℚ) ^ (-1022 : Int) ≤ x then fl53 x else (roundEven (x * (2:ℚ) ^ (1074 : Int)) : ℚ) * (2:ℚ) ^ (-1074 : Int)

/-- the variable `p` after `j` rounds, RZ 142-149. -/
def prodD (rand : ℕ → ℕ) (n : ℕ) : ℕ → ℚ
  | 0 => 1
  | j + 1 => fl64 (prodD rand n j * fl64 ((rand (n + j) : ℚ) / 2147483647))

open Classical in
/-- `samplePoisson(mean)`, RZ 135-151: the body is executed `m + 1` times, the smallest number for which `p` is at most `l`.  `expD` is
the function `exp` of the C library; `rand` are the raw random numbers, `n` the number of those used. -/
noncomputable def poissonD (expD : ℚ → ℚ) (rand : ℕ → ℕ) (mean : ℚ) (n : ℕ) : Res ℕ ℕ :=
  if mean ≤ 0 then .throw .badArgument n
  else if h : ∃ m, ¬ prodD rand n (m + 1) > expD (-mean) then .ok (Nat.find h) (n + Nat.find h + 1)
  else .diverge

end Dbl
end Verif
