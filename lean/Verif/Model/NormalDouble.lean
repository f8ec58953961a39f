import Verif.Model.Grid

/-!
# The density of `NormalDistribution<1>` in double arithmetic

`N1` is `/repo/incremental_calibration/src/statistics/NormalDistribution1v.cpp`.  Simplification: roundings without overflow and underflow
(`fl53`); the standard deviation, which the density does not use, is left out.
-/

namespace Verif
namespace Dbl

/-- `M_PI`, the double next to π (C library, no lines of its own). -/
def piD : ℚ := 884279719003555 / 2 ^ 48

/-- the members of `NormalDistribution<1>` the density depends on, `NormalDistribution1v.h` 108-117. -/
structure Norm1 where
  mean : ℚ
  variance : ℚ
  precision : ℚ
  normalizer : ℚ

/-- a call of a setter, N1 74-92. -/
inductive Norm1Op where
  | setMean (m : ℚ)
  | setVariance (v : ℚ)

/-- the members `setVariance` computes for an accepted variance, N1 88-91. -/
def Norm1.withVariance (logD : ℚ → ℚ) (m v : ℚ) : Norm1 :=
  { mean := m, variance := v, precision := fl53 (1 / v), normalizer := fl53 (1 / 2 * logD (fl53 (fl53 (2 * piD) * v))) }

/-- a setter: `setMean`, N1 74-76, and `setVariance`, N1 82-92, which refuses variances that are not positive. -/
def Norm1.step (logD : ℚ → ℚ) (s : Norm1) : Norm1Op → Res Norm1 Unit
  | .setMean m => .ok () { s with mean := m }
  | .setVariance v => if v ≤ 0 then .throw .badArgument s else .ok () (withVariance logD s.mean v)

/-- the constructor, N1 18-21: the mean, then `setVariance`. -/
def Norm1.ctor (logD : ℚ → ℚ) (m v : ℚ) : Res Unit Norm1 := if v ≤ 0 then .throw .badArgument () else .ok (withVariance logD m v) ()

/-- a history of calls; the object survives refused ones.  (Model glue, no lines of its own.) -/
def Norm1.run (logD : ℚ → ℚ) (s : Norm1) : List Norm1Op → Norm1
  | [] => s
  | op :: ops => run logD (match s.step logD op with | .ok _ s' => s' | .throw _ s' => s' | _ => s) ops

/-- `mahalanobisDistance`, N1 137-140. -/
def Norm1.mahalanobis (s : Norm1) (x : ℚ) : ℚ := fl53 (fl53 (fl53 (x - s.mean) * s.precision) * fl53 (x - s.mean))

/-- `logpdf`, N1 116-118. -/
def Norm1.logpdf (s : Norm1) (x : ℚ) : ℚ := fl53 (fl53 (-(1 / 2) * s.mahalanobis x) - s.normalizer)

/-- `pdf`, N1 112-114. -/
def Norm1.pdf (expD : ℚ → ℚ) (s : Norm1) (x : ℚ) : ℚ := expD (s.logpdf x)

end Dbl
end Verif
