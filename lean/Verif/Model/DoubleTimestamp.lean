import Verif.Model.Grid
import Verif.Model.Small

/-!
# Timestamps in double arithmetic

`TS` is `/repo/incremental_calibration/src/base/Timestamp.cpp`.
-/

namespace Verif
namespace Dbl

/-- `Timestamp::now`, TS 64-68, when `gettimeofday` reports `sec` seconds and `usec` microseconds. -/
def nowD (sec usec : Int) : ℚ := fl53 (fl53 sec + fl53 (fl53 usec / 1000000))

/-- conversion of a double to a signed 64 bit integer, TS 83 and 96-98; out of range it is undefined behaviour. -/
def toInt64 (x : ℚ) : Option Int :=
  if -9223372036854775808 ≤ truncQ x ∧ truncQ x ≤ 9223372036854775807 then some (truncQ x) else none

/-- `Timestamp::operator timespec`, TS 94-99; `none` is undefined behaviour. -/
def timespecD (s : ℚ) : Option (Int × Int) :=
  match toInt64 s with
  | none => none
  | some sec =>
    match toInt64 (fl53 (fl53 (s - fl53 sec) * 1000000000)) with
    | none => none
    | some nsec => some (sec, nsec)

/-- `operator +=` and `operator + (double)`, TS 149-152 and 159-161; `Timestamp` operands are converted by their value. -/
def plusD (s d : ℚ) : ℚ := fl53 (s + d)

/-- `operator -=` and `operator -`, TS 154-157 and 167-173. -/
def minusD (s d : ℚ) : ℚ := fl53 (s - d)

end Dbl
end Verif
