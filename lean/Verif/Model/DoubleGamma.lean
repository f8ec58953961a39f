import Verif.Model.DoubleGeometric

/-!
# `sampleGamma` in double arithmetic

`RZ` is `/repo/incremental_calibration/include/aslam/calibration/statistics/Randomizer.tpp`.  Simplification: roundings without overflow and
underflow (`fl53`); infinities appear only as described.
-/

namespace Verif
namespace Dbl

/-- the functions `log`, `pow` and `exp` of the C library, called at RZ 163, 204-212. -/
structure CMath where
  log : ℚ → ℚ
  pow : ℚ → ℚ → ℚ
  exp : ℚ → ℚ

/-- the loop of the integral part, RZ 195-197. -/
noncomputable def expSumD (logD : ℚ → ℚ) (rand : ℕ → ℕ) : ℕ → ℚ → ℕ → Res ℕ ℚ
  | 0, y, n => .ok y n
  | k + 1, y, n => (exponentialD logD rand 1 n).bind fun x n' => expSumD logD rand k (fl53 (y + x)) n'

/-- `M_E`, RZ 198: the double next to `2.7182818284590452354`. -/
noncomputable def mE : ℚ := fl53 (27182818284590452354 / 10 ^ 19)

/-- `b`, RZ 198; `f` is `fractionalPart`. -/
noncomputable def gammaB (f : ℚ) : ℚ := fl53 (fl53 (mE + f) / mE)

/-- a uniform draw from a raw number, RZ 202, 205, 212 and 93-94 (`sampleUniform` with the bounds 0 and 1). -/
def unitD (r : ℕ) : ℚ := fl53 ((r : ℚ) / 2147483647)

/-- `z` of one round with the raw number `r`, RZ 202-204 and 211; `none` is the infinity `-log(0)`. -/
noncomputable def gammaZD (C : CMath) (f : ℚ) (r : ℕ) : Option ℚ :=
  let p := fl53 (gammaB f * unitD r)
  if p > 1 then
    (if fl53 (fl53 (gammaB f - p) / f) = 0 then none else some (-C.log (fl53 (fl53 (gammaB f - p) / f))))
  else some (C.pow p (fl53 (1 / f)))

/-- the test of that round with the second raw number `r'`, RZ 205 and 212.  The exponent `f - 1` is negative, so the power of the infinity is
zero and the power of zero is infinity. -/
noncomputable def gammaAcceptD (C : CMath) (f : ℚ) (r r' : ℕ) : Prop :=
  if fl53 (gammaB f * unitD r) > 1 then
    match gammaZD C f r with
    | none => ¬ unitD r' > 0
    | some z => z = 0 ∨ ¬ unitD r' > C.pow z (fl53 (f - 1))
  else
    match gammaZD C f r with
    | none => False
    | some z => ¬ unitD r' > C.exp (-z)

open Classical in
/-- the rejection loop, RZ 201-217: `z` of the first round that is accepted. -/
noncomputable def gammaLoop (C : CMath) (f : ℚ) (rand : ℕ → ℕ) (n : ℕ) : Res ℕ (Option ℚ) :=
  if h : ∃ j, gammaAcceptD C f (rand (n + 2 * j)) (rand (n + 2 * j + 1))
  then .ok (gammaZD C f (rand (n + 2 * Nat.find h))) (n + 2 * Nat.find h + 2) else .diverge

/-- `sampleGamma(shape, invScale)`, RZ 183-219; `none` is the infinity.  The conversion of `floor(shape)` to `size_t` is undefined from `2^64`. -/
noncomputable def gammaD (C : CMath) (rand : ℕ → ℕ) (shape invScale : ℚ) (n : ℕ) : Res ℕ (Option ℚ) :=
  if shape ≤ 0 then .throw .badArgument n
  else if invScale ≤ 0 then .throw .badArgument n
  else if 2 ^ 64 ≤ ⌊shape⌋ then .ub
  else (expSumD C.log rand ⌊shape⌋.toNat 0 n).bind fun y n' =>
    let f := fl53 (shape - ⌊shape⌋.toNat)
    if |f| > 1 / 2 ^ 52 then
      (gammaLoop C f rand n').bind fun z n'' => .ok (z.map fun z => fl53 (fl53 (y + z) / invScale)) n''
    else .ok (some (fl53 (fl53 (y + 0) / invScale))) n'

end Dbl
end Verif
