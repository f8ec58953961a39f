import Mathlib.Data.Rat.Floor
import Mathlib.Tactic.Linarith

/-!
# Specification: double precision numbers

A number of 53 binary digits.  The exponent is not bounded: overflow, underflow, infinities and NaN are not part of it.
-/

namespace Verif

/-- `x` has at most 53 significant binary digits. -/
def IsDouble (x : ℚ) : Prop := ∃ m e : Int, |m| ≤ 2 ^ 53 ∧ x = m * (2:ℚ) ^ e

/-- `y` is a double, and no double is closer to `x`. -/
def NearestDouble (x y : ℚ) : Prop := IsDouble y ∧ ∀ z, IsDouble z → |y - x| ≤ |z - x|

example : IsDouble (3 / 8) := ⟨3, -3, by norm_num, by norm_num⟩

end Verif
