import Mathlib.Data.Rat.Defs
import Mathlib.Data.List.Perm.Basic

/-!
# Sums in an unspecified order
-/

namespace Verif.Spec

/-- an order in which numbers are added up: the sum of two sums. -/
inductive SumTree where
  | leaf (x : ℚ)
  | node (l r : SumTree)

/-- the sum, every addition followed by the rounding `fl`. -/
def SumTree.eval (fl : ℚ → ℚ) : SumTree → ℚ
  | leaf x => x
  | node l r => fl (l.eval fl + r.eval fl)

/-- the numbers added up. -/
def SumTree.terms : SumTree → List ℚ
  | leaf x => [x]
  | node l r => l.terms ++ r.terms

/-- `y` is the result of adding up the numbers `xs` in some order, with rounding. -/
def IsSumOf (fl : ℚ → ℚ) (xs : List ℚ) (y : ℚ) : Prop :=
  (xs = [] ∧ y = 0) ∨ ∃ t : SumTree, t.terms.Perm xs ∧ y = t.eval fl

end Verif.Spec
