import Verif.Model.Stats

/-!
# `EstimatorML<NormalDistribution<1>>::addPoints` with responsibilities, in double arithmetic

`/repo/incremental_calibration/src/statistics/EstimatorMLNormal1v.cpp`; `fl` is the rounding after each operation.
-/

namespace Verif
namespace MLE1
variable {K : Type} [Field K] [LinearOrder K]

/-- the loop for the mean, `EstimatorMLNormal1v.cpp` 124-126. -/
def wsumD (fl : K → K) : List K → List K → K → K
  | p :: ps, w :: ws, acc => wsumD fl ps ws (fl (acc + fl (w * p)))
  | _, _, acc => acc

/-- the loop for the variance, `EstimatorMLNormal1v.cpp` 129-132. -/
def wsqD (fl : K → K) (m : K) : List K → List K → K → K
  | p :: ps, w :: ws, acc => wsqD fl m ps ws (fl (acc + fl (fl (w * fl (p - m)) * fl (p - m))))
  | _, _, acc => acc

/-- `addPoints(itStart, itEnd, responsibilities)`, `EstimatorMLNormal1v.cpp` 119-142.  `total` is `responsibilities.sum()`, whose order
of summation is up to the linear algebra library.  With a total of zero the mean and the variance are not finite, and NaN passes the
test in `setVariance`.  Simplification: overflow and underflow of doubles are not modelled. -/
def addPointsWD (fl : K → K) (total : K) (s : MLE1 K) (ps ws : List K) : MLE1 K :=
  if ws.length ≠ ps.length then s
  else if total = 0 then { s with mean := none, var := none, valid := true }
  else
    let mean := fl (wsumD fl ps ws 0 / total)
    commit s mean (fl (wsqD fl mean ps ws 0 / total))

end MLE1
end Verif
