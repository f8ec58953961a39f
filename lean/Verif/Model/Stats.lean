import Verif.Model.Prelude
import Verif.Model.Grid
import Mathlib.LinearAlgebra.Matrix.Notation
import Mathlib.Data.Real.Basic
import Mathlib.LinearAlgebra.Matrix.NonsingularInverse
import Mathlib.Analysis.SpecialFunctions.Log.Basic
import Mathlib.Analysis.SpecialFunctions.Sqrt
import Mathlib.Analysis.SpecialFunctions.Gamma.Basic
import Mathlib.MeasureTheory.Integral.IntervalIntegral.Basic

/-!
# Model of the statistics classes: maximum likelihood estimators, normal, uniform, Gamma and chi-square distributions

`/repo/incremental_calibration/src/statistics/*.cpp` and
`/repo/incremental_calibration/include/aslam/calibration/statistics/*.tpp`.
-/

namespace Verif

/-! ## `EstimatorML<NormalDistribution<1>>` -/

/-- The estimator with its distribution, `EstimatorMLNormal1v.h` 108-122.  Simplifications: of the distribution only
mean and variance are kept (the other members are functions of them, see `Normal1`); `none` stands for a value that
is not finite (NaN or infinite mean, NaN variance). -/
structure MLE1 (K : Type) where
  mean : Option K
  var : Option K
  n : Nat
  valid : Bool
  sum : K
  sq : K
  deriving DecidableEq, Repr

namespace MLE1
variable {K : Type} [Field K] [LinearOrder K]

/-- constructor, `EstimatorMLNormal1v.cpp` 14-20 and the default normal distribution `NormalDistribution1v.h` (mean 0,
variance 1). -/
def init : MLE1 K := ⟨some 0, some 1, 0, false, 0, 0⟩

/-- `setMean(m); setVariance(v)` inside the `try` block, `EstimatorMLNormal1v.cpp` 95-105 and 134-141,
`NormalDistribution1v.cpp` 82-92: a variance that is not positive throws before it is stored, the exception is
swallowed and the estimator marked invalid. -/
def commit (s : MLE1 K) (m : K) (v : K) : MLE1 K :=
  if v ≤ 0 then { s with mean := some m, valid := false }
  else { s with mean := some m, var := some v, valid := true }

/-- `mNumPoints * mNumPoints` in `size_t`, `EstimatorMLNormal1v.cpp` 100. -/
def sqN (n : Nat) : Nat := n * n % 18446744073709551616

/-- `addPoint`, `EstimatorMLNormal1v.cpp` 91-106, every floating point operation followed by the rounding `fl`.
If the `size_t` product wraps to zero the quotient in line 92 is infinite (variance minus infinity: invalid) or
NaN (which passes the test in `setVariance`).  Simplification: overflow of doubles is not modelled. -/
def addPoint (fl : K → K) (s : MLE1 K) (p : K) : MLE1 K :=
  let n := s.n + 1
  let S := fl (s.sum + p)
  let Q := fl (s.sq + fl (p * p))
  let s1 : MLE1 K := { s with n := n, sum := S, sq := Q }
  let mean := fl (S / (n : K))
  if sqN n = 0 then
    if S = 0 then { s1 with mean := some mean, var := none, valid := true }
    else { s1 with mean := some mean, valid := false }
  else
    commit s1 mean
      (fl (fl (fl (Q / (n : K)) - fl (fl (fl (S * S) * 2) / (sqN n : K))) + fl (mean * mean)))

/-- `addPoints(itStart, itEnd)`, `EstimatorMLNormal1v.cpp` 108-117. -/
def addPoints (fl : K → K) (s : MLE1 K) (ps : List K) : MLE1 K := ps.foldl (addPoint fl) s

/-- `reset`, `EstimatorMLNormal1v.cpp` 84-89: the distribution is kept. -/
def reset (s : MLE1 K) : MLE1 K := { s with n := 0, valid := false, sum := 0, sq := 0 }

/-- weighted mean numerator, `EstimatorMLNormal1v.cpp` 124-126 (exact arithmetic). -/
def wsum : List K → List K → K → K
  | p :: ps, w :: ws, acc => wsum ps ws (acc + w * p)
  | _, _, acc => acc

/-- weighted variance numerator, `EstimatorMLNormal1v.cpp` 129-132 (exact arithmetic). -/
def wsq (m : K) : List K → List K → K → K
  | p :: ps, w :: ws, acc => wsq m ps ws (acc + w * (p - m) * (p - m))
  | _, _, acc => acc

/-- `addPoints(itStart, itEnd, responsibilities)`, `EstimatorMLNormal1v.cpp` 119-142 (exact arithmetic).  With
weights of sum zero both the mean and the variance are not finite, and NaN passes the test in `setVariance`. -/
def addPointsW (s : MLE1 K) (ps ws : List K) : MLE1 K :=
  if ws.length ≠ ps.length then s
  else if ws.sum = 0 then { s with mean := none, var := none, valid := true }
  else
    let mean := wsum ps ws 0 / ws.sum
    commit s mean (wsq mean ps ws 0 / ws.sum)

end MLE1

/-! ## `EstimatorML<NormalDistribution<M>>` and `OuterProduct` -/

/-- inner loop of `OuterProduct::compute`, `OuterProduct.tpp` (`for j = i ..`): entries `(i,j)` and `(j,i)`.
Lines 23-26. -/
def outerInner {K : Type} [Mul K] {d : Nat} (v : Fin d → K) (i : Fin d) (A : Fin d → Fin d → K) (j : Fin d) :
    Fin d → Fin d → K :=
  if i ≤ j then
    let A1 : Fin d → Fin d → K := fun a b => if a = i ∧ b = j then v i * v j else A a b
    fun a b => if a = j ∧ b = i then A1 i j else A1 a b
  else A

/-- `OuterProduct::compute(v)`, `utils/OuterProduct.tpp`: two nested loops over the upper triangle.  Lines 19-28. -/
def outerProduct {K : Type} [Mul K] [Zero K] {d : Nat} (v : Fin d → K) : Matrix (Fin d) (Fin d) K :=
  Matrix.of ((List.finRange d).foldl (fun (A : Fin d → Fin d → K) i => (List.finRange d).foldl (outerInner v i) A)
    (fun _ _ => 0))

/-- The multivariate estimator, `EstimatorMLNormalMv.h`; `cov` and `mean` are those of its distribution, `llt` the
matrix whose Cholesky factor is stored as `mTransformation`.  Lines 104-112. -/
structure MLEd (d : Nat) where
  mean : Fin d → ℝ
  cov : Matrix (Fin d) (Fin d) ℝ
  llt : Matrix (Fin d) (Fin d) ℝ
  n : Nat
  valid : Bool
  sum : Fin d → ℝ
  sq : Matrix (Fin d) (Fin d) ℝ

namespace MLEd
variable {d : Nat}

open Classical in
/-- `setMean(m); setCovariance(c)` inside the `try` block, `EstimatorMLNormalMv.tpp` 109-119,
`NormalDistributionMv.tpp` 87-119: symmetry test, then `mTransformation` is replaced, then positivity
(`isPos` stands for `Eigen::LDLT(c).isPositive()`) and sign of the diagonal are tested. -/
noncomputable def commit (isPos : Matrix (Fin d) (Fin d) ℝ → Bool) (s : MLEd d) (m : Fin d → ℝ)
    (c : Matrix (Fin d) (Fin d) ℝ) : MLEd d :=
  if c.transpose ≠ c then { s with mean := m, valid := false }
  else if isPos c = false then { s with mean := m, llt := c, valid := false }
  else if ∃ i, c i i < 0 then { s with mean := m, llt := c, valid := false }
  else { s with mean := m, llt := c, cov := c, valid := true }

/-- `addPoint`, `EstimatorMLNormalMv.tpp` 99-120 (exact arithmetic; fewer than `2^32` points). -/
noncomputable def addPoint (isPos : Matrix (Fin d) (Fin d) ℝ → Bool) (s : MLEd d) (p : Fin d → ℝ) : MLEd d :=
  let sum0 : Fin d → ℝ := if s.n = 0 then 0 else s.sum
  let sq0 : Matrix (Fin d) (Fin d) ℝ := if s.n = 0 then 0 else s.sq
  let n := s.n + 1
  let S := sum0 + p
  let Q := sq0 + outerProduct p
  let mean : Fin d → ℝ := fun i => S i / (n : ℝ)
  commit isPos { s with n := n, sum := S, sq := Q } mean
    (fun i j => Q i j / (n : ℝ) - outerProduct S i j * 2 / ((n : ℝ) * n) + outerProduct mean i j)

/-- `reset`, `EstimatorMLNormalMv.tpp` 93-97: the sums are kept (and zeroed by the next `addPoint`). -/
def reset (s : MLEd d) : MLEd d := { s with n := 0, valid := false }

end MLEd

/-! ## `NormalDistribution<1>` -/

/-- members, `NormalDistribution1v.h`. -/
structure Normal1 where
  mean : ℝ
  var : ℝ
  prec : ℝ
  std : ℝ
  norm : ℝ

namespace Normal1

/-- the assignments in `setVariance`, `NormalDistribution1v.cpp` 88-91. -/
noncomputable def withVar (s : Normal1) (v : ℝ) : Normal1 :=
  { s with var := v, prec := 1 / v, std := √v, norm := 0.5 * Real.log (2 * Real.pi * v) }

/-- `setVariance`, `NormalDistribution1v.cpp` 82-92. -/
noncomputable def setVariance (s : Normal1) (v : ℝ) : Res Normal1 Unit :=
  if v ≤ 0 then .throw .badArgument s else .ok () (s.withVar v)

/-- `setMean`, `NormalDistribution1v.cpp` 74-76. -/
def setMean (s : Normal1) (m : ℝ) : Normal1 := { s with mean := m }

/-- constructor, `NormalDistribution1v.cpp` 17-27; `raw` stands for the uninitialised members, which `setVariance`
overwrites (on a throw no object exists). -/
noncomputable def ctor (raw : Normal1) (m v : ℝ) : Res Unit Normal1 :=
  if v ≤ 0 then .throw .badArgument () else .ok ((raw.setMean m).withVar v) ()

/-- `mahalanobisDistance`, `NormalDistribution1v.cpp` 137-140. -/
def mahalanobis (s : Normal1) (x : ℝ) : ℝ := (x - s.mean) * s.prec * (x - s.mean)

/-- `logpdf`, `NormalDistribution1v.cpp` 115-117. -/
noncomputable def logpdf (s : Normal1) (x : ℝ) : ℝ := -0.5 * s.mahalanobis x - s.norm

/-- `pdf`, `NormalDistribution1v.cpp` 111-113. -/
noncomputable def pdf (s : Normal1) (x : ℝ) : ℝ := Real.exp (s.logpdf x)

/-- the C library function `erf`.  Called at `NormalDistribution1v.cpp` 121. -/
noncomputable def erf (x : ℝ) : ℝ := 2 / √Real.pi * ∫ t in (0:ℝ)..x, Real.exp (-t ^ 2)

/-- `cdf`, `NormalDistribution1v.cpp` 119-121. -/
noncomputable def cdf (s : Normal1) (x : ℝ) : ℝ := 0.5 * (1 + erf ((x - s.mean) / √(2 * s.var)))

/-- `KLDivergence`, `NormalDistribution1v.cpp` 130-135. -/
noncomputable def kl (s o : Normal1) : ℝ :=
  0.5 * (Real.log (o.var * s.prec) + o.prec * s.var - 1 + (s.mean - o.mean) * o.prec * (s.mean - o.mean))

end Normal1

/-! ## `UniformDistribution` -/

/-- members, `UniformDistribution1v.h`, for a real type (`K = ℝ`) or an integer type (`K = ℤ`). -/
structure Uniform1 (K : Type) where
  mn : K
  mx : K
  area : K

namespace Uniform1

/-- `setSupport` for real types, `UniformDistribution1v.tpp` 72-85, 161-166. -/
noncomputable def setSupport (s : Uniform1 ℝ) (a b : ℝ) : Res (Uniform1 ℝ) Unit :=
  if a ≥ b then .throw .badArgument s else .ok () ⟨a, b, b - a⟩

/-- `setMinSupport`, `UniformDistribution1v.tpp` 88-92. -/
noncomputable def setMinSupport (s : Uniform1 ℝ) (a : ℝ) : Res (Uniform1 ℝ) Unit := s.setSupport a s.mx

/-- `setMaxSupport`, `UniformDistribution1v.tpp` 100-104. -/
noncomputable def setMaxSupport (s : Uniform1 ℝ) (b : ℝ) : Res (Uniform1 ℝ) Unit := s.setSupport s.mn b

open Classical in
/-- `pdf` for real types, `UniformDistribution1v.tpp` 117-123. -/
noncomputable def pdf (s : Uniform1 ℝ) (x : ℝ) : ℝ := if x ≥ s.mn ∧ x ≤ s.mx then 1 / s.area else 0

/-- `getMean` and `getMedian`, `UniformDistribution1v.tpp` 136-146. -/
noncomputable def getMean (s : Uniform1 ℝ) : ℝ := 0.5 * (s.mx - s.mn)

/-- `getVariance` for real types, `UniformDistribution1v.tpp` 155-159, 175-182. -/
noncomputable def getVariance (s : Uniform1 ℝ) : ℝ := ((s.mx - s.mn) * (s.mx - s.mn)) / 12

/-- `setSupport` for `int`, `UniformDistribution1v.tpp` 72-85, 168-173: overflow of the area is undefined. -/
def setSupportI (s : Uniform1 Int) (a b : Int) : Res (Uniform1 Int) Unit :=
  if a ≥ b then .throw .badArgument s
  else if fitsInt (b - a + 1) then .ok () ⟨a, b, b - a + 1⟩ else .ub

/-- `pmf` for integer types, `UniformDistribution1v.tpp` 117-128. -/
def pmf (s : Uniform1 Int) (x : Int) : ℚ := if x ≥ s.mn ∧ x ≤ s.mx then 1 / (s.area : ℚ) else 0

/-- `getMean` for integer types, `UniformDistribution1v.tpp` 136-140. -/
def getMeanI (s : Uniform1 Int) : ℚ := 1 / 2 * ((s.mx - s.mn : Int) : ℚ)

/-- `getVariance` for integer types, `UniformDistribution1v.tpp` 155-159, 184-191. -/
def getVarianceI (s : Uniform1 Int) : ℚ :=
  (((s.mx - s.mn + 1 : Int) : ℚ) * ((s.mx - s.mn + 1 : Int) : ℚ) - 1) / 12

end Uniform1

/-- members, `UniformDistributionMv.h`, real type.  Lines 151-155. -/
structure Uniformd (d : Nat) where
  mn : Fin d → ℝ
  mx : Fin d → ℝ
  area : ℝ

namespace Uniformd
variable {d : Nat}

/-- `getSupportArea` loop, `UniformDistributionMv.tpp` 166-175. -/
def areaLoop : List ℝ → List ℝ → ℝ → ℝ
  | a :: as, b :: bs, acc => areaLoop as bs (acc * (b - a))
  | _, _, acc => acc

open Classical in
/-- `setSupport`, `UniformDistributionMv.tpp` 72-86. -/
noncomputable def setSupport (s : Uniformd d) (a b : Fin d → ℝ) : Res (Uniformd d) Unit :=
  if ∃ i, a i ≥ b i then .throw .badArgument s
  else .ok () ⟨a, b, areaLoop (List.ofFn a) (List.ofFn b) 1⟩

open Classical in
/-- `pdf`, `UniformDistributionMv.tpp` 118-125. -/
noncomputable def pdf (s : Uniformd d) (x : Fin d → ℝ) : ℝ :=
  if (∀ i, x i ≤ s.mx i) ∧ (∀ i, x i ≥ s.mn i) then 1 / s.area else 0

/-- `getMean`, `UniformDistributionMv.tpp` 141-145. -/
noncomputable def getMean (s : Uniformd d) : Fin d → ℝ := fun i => 0.5 * (s.mx i - s.mn i)

/-- `getCovariance`, `UniformDistributionMv.tpp` 160-164, 188-200: the whole area, squared, on the diagonal. -/
noncomputable def getCovariance (s : Uniformd d) : Matrix (Fin d) (Fin d) ℝ :=
  (s.area * s.area / 12) • (1 : Matrix (Fin d) (Fin d) ℝ)

end Uniformd

/-! ## `GammaDistribution<double>`, `ChiSquareDistribution` -/

/-- members, `GammaDistribution.h`.  Lines 107-111. -/
structure GammaD where
  shape : ℝ
  invScale : ℝ
  norm : ℝ

namespace GammaD

/-- `computeNormalizer`, `GammaDistribution.tpp` 107-111. -/
noncomputable def normalizer (shape invScale : ℝ) : ℝ :=
  Real.log (Real.Gamma shape) - shape * Real.log invScale

/-- `setShape`, `GammaDistribution.tpp` 76-84. -/
noncomputable def setShape (s : GammaD) (a : ℝ) : Res GammaD Unit :=
  if a ≤ 0 then .throw .badArgument s else .ok () ⟨a, s.invScale, normalizer a s.invScale⟩

/-- `setInvScale`, `GammaDistribution.tpp` 91-100. -/
noncomputable def setInvScale (s : GammaD) (r : ℝ) : Res GammaD Unit :=
  if r ≤ 0 then .throw .badArgument s else .ok () ⟨s.shape, r, normalizer s.shape r⟩

/-- constructor, `GammaDistribution.tpp` 22-26.  `raw` stands for the uninitialised members (`setShape` computes a
normaliser from the uninitialised scale; it is overwritten by `setInvScale`). -/
noncomputable def ctor (raw : GammaD) (a r : ℝ) : Res GammaD Unit :=
  (raw.setShape a).bind fun _ s => s.setInvScale r

/-- `logpdf`, `GammaDistribution.tpp` 126-132, for a value whose logarithm is finite, or value zero and shape one. -/
noncomputable def logpdf (s : GammaD) (x : ℝ) : ℝ :=
  if x = 0 ∧ s.shape = 1 then -s.norm else (s.shape - 1) * Real.log x - x * s.invScale - s.norm

/-- `pdf`, `GammaDistribution.tpp` 118-124; `none` stands for infinity.  At zero `log` is minus infinity, which gives
density zero for a shape above one and infinity for a shape below one. -/
noncomputable def pdf (s : GammaD) (x : ℝ) : Option ℝ :=
  if x < 0 then some 0
  else if x = 0 ∧ s.shape ≠ 1 then (if 1 < s.shape then some 0 else none)
  else some (Real.exp (s.logpdf x))

/-- `getMean`, `GammaDistribution.tpp` 161-164. -/
noncomputable def getMean (s : GammaD) : ℝ := s.shape / s.invScale

/-- `getMode`, `GammaDistribution.tpp` 166-173. -/
noncomputable def getMode (s : GammaD) : Res Unit ℝ :=
  if s.shape ≥ 1 then .ok ((s.shape - 1) / s.invScale) () else .throw .invalidOperation ()

/-- `getVariance`, `GammaDistribution.tpp` 175-179. -/
noncomputable def getVariance (s : GammaD) : ℝ := s.shape / (s.invScale * s.invScale)

/-- the digamma function (`boost::math::digamma`, `DigammaFunction.tpp`): derivative of `log Gamma`.  Lines 27-30. -/
noncomputable def digamma (x : ℝ) : ℝ := deriv Real.Gamma x / Real.Gamma x

/-- `KLDivergence`, `GammaDistribution.tpp` 181-192. -/
noncomputable def kl (s o : GammaD) : ℝ :=
  (s.shape - 1) * digamma s.shape - (o.shape - 1) * digamma o.shape - Real.log (Real.Gamma s.shape) +
    Real.log (Real.Gamma o.shape) + o.shape * (Real.log s.invScale - Real.log o.invScale) +
    s.shape * (1 / s.invScale - 1 / o.invScale) * o.invScale

/-- `ChiSquareDistribution` constructor, `ChiSquareDistribution.cpp` 15-17. -/
noncomputable def chiSquare (raw : GammaD) (degrees : ℝ) : Res GammaD Unit := ctor raw (0.5 * degrees) 0.5

/-- `ChiSquareDistribution::setDegrees`, `ChiSquareDistribution.cpp` 56-58. -/
noncomputable def setDegrees (s : GammaD) (degrees : ℝ) : Res GammaD Unit := s.setShape (degrees * 0.5)

/-- `ChiSquareDistribution::getDegrees`, `ChiSquareDistribution.cpp` 60-62. -/
noncomputable def getDegrees (s : GammaD) : ℝ := s.shape * 2

end GammaD
end Verif
