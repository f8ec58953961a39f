import Verif.Model.Sampling
import Mathlib.LinearAlgebra.Matrix.NonsingularInverse
import Mathlib.LinearAlgebra.Matrix.Trace

/-!
# Model of the multivariate normal distribution

`/repo/incremental_calibration/include/aslam/calibration/statistics/NormalDistributionMv.tpp` (line numbers without file name
refer to it), for a fixed dimension.  Exact real arithmetic; a quantity that is not finite is `none`.
-/

namespace Verif

/-- Members, `NormalDistributionMv.h` 120-133; `llt` is the triangular factor stored in `mTransformation`. -/
structure NormalV (d : Nat) where
  mean : Fin d → ℝ
  cov : Matrix (Fin d) (Fin d) ℝ
  prec : Option (Matrix (Fin d) (Fin d) ℝ)
  det : ℝ
  norm : Option ℝ
  llt : Matrix (Fin d) (Fin d) ℝ

namespace NormalV
open Matrix
variable {d : Nat}

/-- Eigen's decompositions (external): the factor computed by `LLT`, and `LDLT(..).isPositive()`.
Called at `NormalDistributionMv.tpp` 104-105. -/
structure Eig (d : Nat) where
  llt : Matrix (Fin d) (Fin d) ℝ → Matrix (Fin d) (Fin d) ℝ
  isPositive : Matrix (Fin d) (Fin d) ℝ → Bool

/-- `setMean`, 86-89. -/
def setMean (s : NormalV d) (m : Fin d → ℝ) : NormalV d := { s with mean := m }

/-- the assignments 114-118; the inverse of a singular matrix and the logarithm of zero are not finite. -/
noncomputable def withCov (s : NormalV d) (C : Matrix (Fin d) (Fin d) ℝ) : NormalV d :=
  { s with
    prec := if C.det = 0 then none else some C⁻¹
    det := C.det
    norm := if C.det = 0 then none else some (0.5 * d * Real.log (2 * Real.pi) + 0.5 * Real.log C.det)
    cov := C }

open Classical in
/-- `setCovariance`, 97-119. -/
noncomputable def setCovariance (env : Eig d) (s : NormalV d) (C : Matrix (Fin d) (Fin d) ℝ) : Res (NormalV d) Unit :=
  if C.transpose ≠ C then .throw .badArgument s
  else
    let s1 := { s with llt := env.llt C }
    if env.isPositive C = false then .throw .badArgument s1
    else if ∃ i, C i i < 0 then .throw .badArgument s1
    else .ok () (s1.withCov C)

/-- the constructors, 18-30; `raw` is the uninitialised memory.  An exception leaves no object. -/
noncomputable def ctor (env : Eig d) (raw : NormalV d) (m : Fin d → ℝ) (C : Matrix (Fin d) (Fin d) ℝ) : Res (NormalV d) Unit :=
  setCovariance env { raw with mean := m } C

/-- `mahalanobisDistance`, 179-184. -/
def mahalanobis (s : NormalV d) (x : Fin d → ℝ) : Option ℝ :=
  s.prec.map fun P => (x - s.mean) ⬝ᵥ P *ᵥ (x - s.mean)

/-- `logpdf`, 154-158. -/
noncomputable def logpdf (s : NormalV d) (x : Fin d → ℝ) : Option ℝ :=
  (s.mahalanobis x).bind fun q => s.norm.map fun n => -0.5 * q - n

/-- `pdf`, 149-152. -/
noncomputable def pdf (s : NormalV d) (x : Fin d → ℝ) : Option ℝ := (s.logpdf x).map Real.exp

/-- `KLDivergence`, 170-177; not finite if one of the determinants is zero or the other precision is not finite. -/
noncomputable def kl (s o : NormalV d) : Option ℝ :=
  if s.det = 0 ∨ o.det = 0 then none
  else o.prec.map fun P => 0.5 * (Real.log (o.det / s.det) + (P * s.cov).trace - d +
    (s.mean - o.mean) ⬝ᵥ P *ᵥ (s.mean - o.mean))

/-- `getMode`, 186-190. -/
def getMode (s : NormalV d) : Fin d → ℝ := s.mean

/-- `getSample`, 160-168. -/
noncomputable def getSample (rand : Nat → Nat) (s : NormalV d) (n : Nat) : Res Nat (Fin d → ℝ) :=
  Sampling.normalMv rand s.mean s.llt n

end NormalV
end Verif
