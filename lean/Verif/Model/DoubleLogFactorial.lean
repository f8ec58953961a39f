import Verif.Model.Grid

/-!
# `LogFactorialFunction` and `LogGammaFunction<size_t>` in double arithmetic

Simplification: roundings without overflow and underflow (`fl53`).
-/

namespace Verif
namespace Dbl

/-- the loop of `LogFactorialFunction::getValue`, `/repo/incremental_calibration/src/functions/LogFactorialFunction.cpp` 30-31: `k` further
rounds from `x`; `logD` is the function of the C library, its argument a `size_t` converted to `double`. -/
def logFactLoop (logD : ℚ → ℚ) : ℕ → ℕ → ℚ → ℚ
  | 0, _, v => v
  | k + 1, x, v => logFactLoop logD k (x + 1) (fl53 (v + logD (fl53 ((x + 1 : ℕ) : ℚ))))

/-- `LogFactorialFunction::getValue`, `LogFactorialFunction.cpp` 27-36: `x` from 1 to below the argument. -/
def logFactorialD (logD : ℚ → ℚ) (n : ℕ) : ℚ := if n ≠ 0 then logFactLoop logD (n - 1) 1 0 else 0

/-- `LogGammaFunction<size_t>::getValue`, `/repo/incremental_calibration/src/functions/LogGammaFunction.cpp` 31-39: zero is rejected. -/
def logGammaD (logD : ℚ → ℚ) (n : ℕ) : Res Unit ℚ := if n ≠ 0 then .ok (logFactorialD logD (n - 1)) () else .throw .badArgument ()

end Dbl
end Verif
