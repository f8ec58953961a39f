import Verif.Model.NormalDouble

/-!
# The Kullback-Leibler divergence of `NormalDistribution<1>` in double arithmetic

Simplification: roundings without overflow and underflow (`fl53`).
-/

namespace Verif
namespace Dbl

/-- `KLDivergence`, `/repo/incremental_calibration/src/statistics/NormalDistribution1v.cpp` 130-135; `logD` is the function of the C library. -/
def Norm1.kl (logD : ℚ → ℚ) (s o : Norm1) : ℚ :=
  fl53 (1 / 2 * fl53 (fl53 (fl53 (logD (fl53 (o.variance * s.precision)) + fl53 (o.precision * s.variance)) - 1) +
    fl53 (fl53 (fl53 (s.mean - o.mean) * o.precision) * fl53 (s.mean - o.mean))))

end Dbl
end Verif
