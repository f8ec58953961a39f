import Verif.Model.DoubleLoops

/-!
# `sampleCategorical` in double arithmetic

`RZ` is `/repo/incremental_calibration/include/aslam/calibration/statistics/Randomizer.tpp`; `fl` is the rounding after each operation.
-/

namespace Verif
namespace Dbl

/-- the loop of `sampleCategorical` over the probabilities from index `i` on, RZ 127-131. -/
def catLoop (fl : ℚ → ℚ) (u : ℚ) : List ℚ → ℚ → Nat → Nat
  | [], _, i => i - 1
  | p :: ps, sum, i => if u > sum then catLoop fl u ps (fl (sum + p)) (i + 1) else i - 1

/-- `sampleCategorical(probabilities)` as a function of `random()`, RZ 115-133.  `total` is `probabilities.sum()`, whose order of
summation is up to the linear algebra library.  Simplification: `1e-12` is taken exactly. -/
def sampleCategorical (fl : ℚ → ℚ) (total : ℚ) (probs : List ℚ) (r : Nat) : Res Unit Nat :=
  if |fl (total - 1)| > 1 / 1000000000000 ∨ probs.any (fun p => decide (p < 0)) then .throw .badArgument ()
  else match probs with
    | [] => .ub
    | p0 :: ps => .ok (catLoop fl (fl (r / 2147483647)) ps p0 1) ()

end Dbl
end Verif
