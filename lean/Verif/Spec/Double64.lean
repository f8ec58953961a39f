import Mathlib.Data.Real.Basic

/-!
# Double precision numbers with gradual underflow
-/

namespace Verif.Spec

/-- a double precision number: 53 bits, multiples of `2^-1074` (overflow is not considered). -/
def IsDouble64 (y : ℚ) : Prop := ∃ m e : Int, |m| ≤ 2 ^ 53 ∧ -1074 ≤ e ∧ y = m * (2:ℚ) ^ e

/-- `y` is a double precision number, and none is nearer to `x`. -/
def Nearest64 (x : ℝ) (y : ℚ) : Prop := IsDouble64 y ∧ ∀ z, IsDouble64 z → |(y : ℝ) - x| ≤ |(z : ℝ) - x|

end Verif.Spec
