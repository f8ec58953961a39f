import Verif.Model.Grid

/-!
# Time differences in seconds, in double arithmetic

`sm::timing::nsecToSec` is not in the repository.  It divides the number of nanoseconds by `1e9` or multiplies it with `1e-9`, in double arithmetic; both are modelled.
-/

namespace Verif

/-- `nsecToSec` by division, called at `/repo/incremental_calibration_examples/incremental_calibration_examples_time_delay/src/algo/Calibrator.cpp` 241: the conversion to double and
the division are rounded to the nearest double. -/
def secDiv (d : Int) : ℚ := fl53 (fl53 d / 10 ^ 9)

/-- `nsecToSec` by multiplication with the double nearest to `1e-9`, called at the same place (`time_delay/src/algo/Calibrator.cpp` 241). -/
def secMul (d : Int) : ℚ := fl53 (fl53 d * fl53 (1 / 10 ^ 9))

/-- A window duration of `n` nanoseconds written in seconds and read from a configuration, `time_delay/src/algo/CalibratorOptions.cpp` 35: the nearest double. -/
def windowOf (n : Int) : ℚ := fl53 (n / 10 ^ 9)

end Verif
