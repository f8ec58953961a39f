import Verif.Model.DoubleGamma
import Verif.Model.Sampling

/-!
# `sampleNormal` in double arithmetic

`RZ` is `/repo/incremental_calibration/include/aslam/calibration/statistics/Randomizer.tpp`.  Simplification: roundings without overflow and
underflow (`fl53`).
-/

namespace Verif
namespace Dbl

/-- `u` and `v` of a round from a raw number, RZ 105-106. -/
noncomputable def normalU (r : ℕ) : ℚ := fl53 (fl53 (2 * unitD r) - 1)

/-- `s` of a round from its two raw numbers, RZ 107. -/
noncomputable def normalS (r r' : ℕ) : ℚ := fl53 (fl53 (normalU r * normalU r) + fl53 (normalU r' * normalU r'))

/-- `sampleNormal(mean, variance)` for `double`, RZ 97-113; `logD` and `sqrtD` are the functions of the C library.  `none` is an infinity or
NaN: a logarithm of a number that is not positive, or a root of a negative one. -/
noncomputable def normalD (logD sqrtD : ℚ → ℚ) (rand : ℕ → ℕ) (mean variance : ℚ) (n : ℕ) : Res ℕ (Option ℚ) :=
  if variance ≤ 0 then .throw .badArgument n
  else match Sampling.firstRound 2 (fun i => ¬ (normalS (rand i) (rand (i + 1)) ≥ 1 ∨ normalS (rand i) (rand (i + 1)) = 0)) n with
    | none => .diverge
    | some i =>
      let u := normalU (rand i)
      let s := normalS (rand i) (rand (i + 1))
      if s ≤ 0 then .ok none (i + 2)
      else if fl53 (fl53 (-2 * logD s) / s) < 0 then .ok none (i + 2)
      else .ok (some (fl53 (mean + fl53 (fl53 (sqrtD variance * u) * sqrtD (fl53 (fl53 (-2 * logD s) / s)))))) (i + 2)

end Dbl
end Verif
