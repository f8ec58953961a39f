import Verif.Model.Prelude
import Mathlib.Analysis.SpecialFunctions.Gamma.Basic

/-!
# Model of the multivariate log-gamma function

`/repo/incremental_calibration/include/aslam/calibration/functions/LogGammaFunction.tpp` (line numbers without file name refer
to it).  Exact real arithmetic except for the integer product of 71, which wraps.
-/

namespace Verif
namespace LogGamma

open Classical in
/-- `lgamma` of the C library: the logarithm of the absolute value of Γ; infinite (`none`) at the poles `0, -1, -2, …`. -/
noncomputable def lgamma (x : ℝ) : Option ℝ :=
  if ∃ n : ℕ, x = -(n : ℝ) then none else some (Real.log |Real.Gamma x|)

/-- the loop 68-70, from index `i`, `k` iterations; a sum with an infinite term is infinite. -/
noncomputable def sumLoop (a : ℝ) : ℕ → ℕ → Option ℝ → Option ℝ
  | 0, _, sum => sum
  | k + 1, i, sum => sumLoop a k (i + 1) (sum.bind fun s => (lgamma (a - 0.5 * i)).map fun g => s + g)

/-- `mDim * (mDim - 1)` in 64 bit unsigned arithmetic, 71. -/
def pairs (d : ℕ) : ℕ := (d * ((d + 18446744073709551615) % 18446744073709551616)) % 18446744073709551616

/-- `getValue`, 66-72. -/
noncomputable def getValue (d : ℕ) (a : ℝ) : Option ℝ :=
  (sumLoop a d 0 (some 0)).map fun s => s + (pairs d : ℝ) * 0.25 * Real.log Real.pi

end LogGamma
end Verif
