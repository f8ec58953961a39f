import Mathlib.Data.Rat.Floor
import Mathlib.Tactic.Linarith

/-! What rounding to the nearest integer means. -/

namespace Verif

/-- `r` is the integer nearest to `x`; of two integers at distance one half, the one farther from zero. -/
def NearestAway (x : ℚ) (r : Int) : Prop := |x - r| ≤ 1 / 2 ∧ (|x - r| = 1 / 2 → |x| < |(r : ℚ)|)

/-- fits an `int`. -/
def FitsInt32 (x : Int) : Prop := -2147483648 ≤ x ∧ x ≤ 2147483647

/-- The range of a 64 bit integer. -/
def FitsInt64 (x : Int) : Prop := -9223372036854775808 ≤ x ∧ x ≤ 9223372036854775807

example : NearestAway (5 / 2) 3 ∧ NearestAway (-5 / 2) (-3) ∧ ¬ NearestAway (-5 / 2) (-2) := by
  refine ⟨?_, ?_, ?_⟩ <;> norm_num [NearestAway, abs_of_pos, abs_of_neg]

end Verif
