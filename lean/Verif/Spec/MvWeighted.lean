import Verif.Spec.Stats

/-! # Weighted mean vector and covariance matrix -/

namespace Verif.Spec
variable {d : Nat}

/-- component `i` of weighted vectors. -/
def wcomp (i : Fin d) (xs : List ((Fin d → ℝ) × ℝ)) : List (ℝ × ℝ) := xs.map fun x => (x.1 i, x.2)

/-- weighted covariance matrix of (vector, weight) pairs. -/
noncomputable def wcovariance (xs : List ((Fin d → ℝ) × ℝ)) : Matrix (Fin d) (Fin d) ℝ := fun i j =>
  (xs.map fun x => x.2 * ((x.1 i - wmean (wcomp i xs)) * (x.1 j - wmean (wcomp j xs)))).sum / (xs.map Prod.snd).sum

/-- every vector as often as its weight says. -/
def repeated (xs : List ((Fin d → ℝ) × ℕ)) : List (Fin d → ℝ) := xs.flatMap fun x => List.replicate x.2 x.1

end Verif.Spec
