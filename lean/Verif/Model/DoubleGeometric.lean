import Verif.Model.DoublePoisson

/-!
# `sampleGeometric` and `sampleExponential` in double arithmetic

`RZ` is `/repo/incremental_calibration/include/aslam/calibration/statistics/Randomizer.tpp`.  Simplification: roundings without overflow and
underflow (`fl53`); infinities appear only as described.
-/

namespace Verif
namespace Dbl

open Classical in
/-- the loop for `u`, RZ 159-163 and 174-178: the first uniform draw that is not zero and the number of raw numbers used by then. -/
noncomputable def firstU (rand : ℕ → ℕ) (n : ℕ) : Option (ℚ × ℕ) :=
  if h : ∃ i, fl53 ((rand (n + i) : ℚ) / 2147483647) ≠ 0
  then some (fl53 ((rand (n + Nat.find h) : ℚ) / 2147483647), n + Nat.find h + 1) else none

/-- `sampleExponential(rate)`, RZ 153-165.  `logD` is the function `log` of the C library. -/
noncomputable def exponentialD (logD : ℚ → ℚ) (rand : ℕ → ℕ) (rate : ℚ) (n : ℕ) : Res ℕ ℚ :=
  if rate ≤ 0 then .throw .badArgument n
  else match firstU rand n with
    | none => .diverge
    | some (u, n') => .ok (fl53 (-logD u / rate)) n'

/-- `sampleGeometric(probability)`, RZ 167-180.  If `1 - probability` is zero its logarithm is minus infinity and the quotient a zero.
If that logarithm is zero the quotient is minus infinity or NaN, and its conversion to `size_t` undefined, as is the conversion of a
number of `2^64` or more. -/
noncomputable def geometricD (logD : ℚ → ℚ) (rand : ℕ → ℕ) (p : ℚ) (n : ℕ) : Res ℕ ℕ :=
  if p ≤ 0 ∨ p > 1 then .throw .badArgument n
  else match firstU rand n with
    | none => .diverge
    | some (u, n') =>
      if fl53 (1 - p) = 0 then .ok 0 n'
      else if logD (fl53 (1 - p)) = 0 then .ub
      else if ⌊fl53 (logD u / logD (fl53 (1 - p)))⌋ < 0 ∨ 2 ^ 64 ≤ ⌊fl53 (logD u / logD (fl53 (1 - p)))⌋ then .ub
      else .ok ⌊fl53 (logD u / logD (fl53 (1 - p)))⌋.toNat n'

end Dbl
end Verif
