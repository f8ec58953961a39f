import Verif.Model.NormalDouble

/-!
# The distribution function of `NormalDistribution<1>` in double arithmetic

Simplification: roundings without overflow and underflow (`fl53`).
-/

namespace Verif
namespace Dbl

/-- `cdf`, `/repo/incremental_calibration/src/statistics/NormalDistribution1v.cpp` 120-122; `erfD` and `sqrtD` are the functions of the C
library. -/
def Norm1.cdf (sqrtD erfD : ℚ → ℚ) (s : Norm1) (x : ℚ) : ℚ :=
  fl53 (1 / 2 * fl53 (1 + erfD (fl53 (fl53 (x - s.mean) / sqrtD (fl53 (2 * s.variance))))))

end Dbl
end Verif
