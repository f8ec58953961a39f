import Mathlib.Algebra.Field.Basic
import Mathlib.Algebra.BigOperators.Group.List.Basic
import Mathlib.Algebra.BigOperators.Group.Finset.Basic
import Mathlib.Data.Real.Basic
import Mathlib.Data.Matrix.Basic

/-! Specification vocabulary: mean and population variance of a list of numbers, of a weighted list, of a list of
vectors.  Written from the textbook definitions, independent of the model. -/

namespace Verif.Spec
variable {K : Type} [Field K]

/-- arithmetic mean. -/
def mean (xs : List K) : K := xs.sum / (xs.length : K)

/-- population variance: mean squared distance from the mean. -/
def variance (xs : List K) : K := (xs.map fun x => (x - mean xs) ^ 2).sum / (xs.length : K)

/-- weighted mean of (point, weight) pairs. -/
def wmean (xs : List (K × K)) : K := (xs.map fun x => x.2 * x.1).sum / (xs.map Prod.snd).sum

/-- weighted variance of (point, weight) pairs. -/
def wvariance (xs : List (K × K)) : K :=
  (xs.map fun x => x.2 * (x.1 - wmean xs) ^ 2).sum / (xs.map Prod.snd).sum

/-- component `i` of a list of vectors. -/
def comp {K : Type} {d : Nat} (i : Fin d) (xs : List (Fin d → K)) : List K := xs.map fun x => x i

/-- population covariance matrix. -/
def covariance {d : Nat} (xs : List (Fin d → K)) : Matrix (Fin d) (Fin d) K := fun i j =>
  (xs.map fun x => (x i - mean (comp i xs)) * (x j - mean (comp j xs))).sum / (xs.length : K)

end Verif.Spec
