import Verif.Model.Grid
import Verif.Model.Car
import Verif.Model.TimeDelay
import Verif.Model.Egomotion

/-!
# The number of spline segments in double arithmetic
-/

namespace Verif
namespace Dbl

/-- `elapsedTime` of `d` nanoseconds, `CarCalibrator.cpp` 441-442, time delay `Calibrator.cpp` 326-327, egomotion
`Calibrator.cpp` 181-182, `simulationEngine.cpp` 180-182: the difference of the time stamps becomes a double, the quotient is
rounded. -/
def elapsedTime (d : Int) : ℚ := fl53 (fl53 d / 1000000000)

/-- `measPerSec`, `CarCalibrator.cpp` 443, time delay `Calibrator.cpp` 328, egomotion `Calibrator.cpp` 183; not for a zero
`elapsedTime`. -/
def measPerSec (n : Nat) (d : Int) : Int := CarCal.roundQ (fl53 (fl53 n / elapsedTime d))

/-- `std::ceil(splineKnotsPerSecond * elapsedTime)`, `CarCalibrator.cpp` 446, time delay `Calibrator.cpp` 331, egomotion
`Calibrator.cpp` 186. -/
def knotsFor (knots : Int) (d : Int) : Int := ⌈fl53 (fl53 knots * elapsedTime d)⌉

/-- `numSegments` for `n` poses over `d` nanoseconds, `CarCalibrator.cpp` 441-448, time delay `Calibrator.cpp` 326-333; `none`
is undefined behaviour (the rate or the number of segments does not fit an `int`). -/
def segments (knots : Int) (n : Nat) (d : Int) : Option Int :=
  if elapsedTime d = 0 then none
  else
    match CarCal.toInt32 (measPerSec n d) with
    | none => none
    | some rate => if rate > knots then CarCal.toInt32 (knotsFor knots d) else some (n : Int)

/-- the same for the egomotion example, `Calibrator.cpp` 181-188 and `simulationEngine.cpp` 180-189: the rate is a `long`.  For
a positive `elapsedTime`. -/
def segmentsLong (knots : Int) (n : Nat) (d : Int) : Option Int :=
  if measPerSec n d > knots then Ego.toInt32 (knotsFor knots d) else some (n : Int)

end Dbl
end Verif
