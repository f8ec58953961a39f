import Verif.Model.Stats
import Mathlib.Data.Rat.Defs
import Mathlib.Algebra.Order.Ring.Rat
import Mathlib.Algebra.Field.Rat

/-!
# `EstimatorML<NormalDistribution<M>>` in double arithmetic

`/repo/incremental_calibration/include/aslam/calibration/statistics/EstimatorMLNormalMv.tpp`: as `MLEd` in `Verif.Model.Stats`, with every
floating point operation followed by the rounding `fl`.
-/

namespace Verif

/-- inner loop of `OuterProduct::compute`, every product rounded, `OuterProduct.tpp` 23-26. -/
def outerInnerF (fl : ℚ → ℚ) {d : Nat} (v : Fin d → ℚ) (i : Fin d) (A : Fin d → Fin d → ℚ) (j : Fin d) : Fin d → Fin d → ℚ :=
  if i ≤ j then
    let A1 : Fin d → Fin d → ℚ := fun a b => if a = i ∧ b = j then fl (v i * v j) else A a b
    fun a b => if a = j ∧ b = i then A1 i j else A1 a b
  else A

/-- `OuterProduct::compute(v)`, every product rounded, `OuterProduct.tpp` 19-28. -/
def outerProductF (fl : ℚ → ℚ) {d : Nat} (v : Fin d → ℚ) : Matrix (Fin d) (Fin d) ℚ :=
  Matrix.of ((List.finRange d).foldl (fun (A : Fin d → Fin d → ℚ) i => (List.finRange d).foldl (outerInnerF fl v i) A)
    (fun _ _ => 0))

/-- The estimator, `EstimatorMLNormalMv.h` 104-112; `cov` and `mean` are those of its distribution, `llt` the matrix whose Cholesky factor
is stored as `mTransformation` (`none`: not finite). -/
structure MLEdF (d : Nat) where
  mean : Fin d → ℚ
  cov : Matrix (Fin d) (Fin d) ℚ
  llt : Option (Matrix (Fin d) (Fin d) ℚ)
  n : Nat
  valid : Bool
  sum : Fin d → ℚ
  sq : Matrix (Fin d) (Fin d) ℚ

namespace MLEdF
variable {d : Nat}

/-- `setMean(m); setCovariance(c)` inside the `try` block, `EstimatorMLNormalMv.tpp` 109-119, `NormalDistributionMv.tpp` 87-119: symmetry
test, then `mTransformation` is replaced, then positivity and the sign of the diagonal are tested.  `isPos` stands for
`Eigen::LDLT(c).isPositive()`, which is itself computed in doubles: nothing is assumed of it. -/
def commit (isPos : Matrix (Fin d) (Fin d) ℚ → Bool) (s : MLEdF d) (m : Fin d → ℚ) (c : Matrix (Fin d) (Fin d) ℚ) : MLEdF d :=
  if c.transpose ≠ c then { s with mean := m, valid := false }
  else if isPos c = false then { s with mean := m, llt := some c, valid := false }
  else if ∃ i, c i i < 0 then { s with mean := m, llt := some c, valid := false }
  else { s with mean := m, llt := some c, cov := c, valid := true }

/-- `addPoint`, `EstimatorMLNormalMv.tpp` 99-120, every floating point operation followed by the rounding `fl`; the product
`mNumPoints * mNumPoints` is one of `size_t`.  If it wraps to zero, the diagonal of the covariance is minus infinity where the sum is not
zero and NaN elsewhere: it is refused, by the symmetry test if there is a NaN, else after the Cholesky factor of the matrix has been stored.
Simplifications: overflow and underflow of doubles are not modelled; division of a matrix by a number divides every entry (Eigen 3.2). -/
def addPoint (fl : ℚ → ℚ) (isPos : Matrix (Fin d) (Fin d) ℚ → Bool) (s : MLEdF d) (p : Fin d → ℚ) : MLEdF d :=
  let sum0 : Fin d → ℚ := if s.n = 0 then 0 else s.sum
  let sq0 : Matrix (Fin d) (Fin d) ℚ := if s.n = 0 then 0 else s.sq
  let n := s.n + 1
  let S : Fin d → ℚ := fun i => fl (sum0 i + p i)
  let Q : Matrix (Fin d) (Fin d) ℚ := fun i j => fl (sq0 i j + outerProductF fl p i j)
  let s1 : MLEdF d := { s with n := n, sum := S, sq := Q }
  let mean : Fin d → ℚ := fun i => fl (S i / (n : ℚ))
  if MLE1.sqN n = 0 ∧ 0 < d then
    { s1 with mean := mean, llt := if ∃ i, S i = 0 then s1.llt else none, valid := false }
  else
    commit isPos s1 mean fun i j =>
      fl (fl (fl (Q i j / (n : ℚ)) - fl (fl (outerProductF fl S i j * 2) / (MLE1.sqN n : ℚ))) + outerProductF fl mean i j)

/-- `reset`, `EstimatorMLNormalMv.tpp` 93-97: the sums are kept (and zeroed by the next `addPoint`). -/
def reset (s : MLEdF d) : MLEdF d := { s with n := 0, valid := false }

/-- calls that change the estimator, `EstimatorMLNormalMv.h` 73-101.  Simplification: of a call with responsibilities
(`EstimatorMLNormalMv.tpp` 134-160) only the effect is modelled, with arbitrary results: it replaces the distribution and the validity
and leaves the number of points and the sums. -/
inductive Op (d : Nat) where
  | points (ps : List (Fin d → ℚ))
  | weighted (m : Fin d → ℚ) (c : Matrix (Fin d) (Fin d) ℚ) (l : Option (Matrix (Fin d) (Fin d) ℚ)) (valid : Bool)
  | reset

/-- effect of a call, `EstimatorMLNormalMv.tpp` 93-160. -/
def Op.run (fl : ℚ → ℚ) (isPos : Matrix (Fin d) (Fin d) ℚ → Bool) (s : MLEdF d) : Op d → MLEdF d
  | .points ps => ps.foldl (addPoint fl isPos) s
  | .weighted m c l v => { s with mean := m, cov := c, llt := l, valid := v }
  | .reset => s.reset

/-- the estimator after a history of calls, `EstimatorMLNormalMv.tpp` 93-160. -/
def after (fl : ℚ → ℚ) (isPos : Matrix (Fin d) (Fin d) ℚ → Bool) (s : MLEdF d) (h : List (Op d)) : MLEdF d :=
  h.foldl (Op.run fl isPos) s

/-- a new estimator, `EstimatorMLNormalMv.tpp` 13-19: no points; the sums are not initialised. -/
def New (s : MLEdF d) : Prop := s.n = 0 ∧ s.valid = false

end MLEdF
end Verif
