import Verif.Model.Stats
import Mathlib.MeasureTheory.Integral.IntervalIntegral.Basic

/-! # Incomplete gamma functions, cumulative distribution and quantile of `GammaDistribution`, chi-square median

Models `src/functions/IncompleteGammaPFunction.cpp`, `src/functions/IncompleteGammaQFunction.cpp`, the functions `cdf` and
`invcdf` of `GammaDistribution.tpp` and `getMedian` of `ChiSquareDistribution.cpp`.  The numerical library calls
(`boost::math::gamma_p`, `gamma_q`, `quantile`) are represented by the real functions they approximate, in exact
arithmetic; their default error policy throws, which is the exception `external`. -/

namespace Verif
namespace GammaCdf
open MeasureTheory

/-- integral of `t^(a-1) e^(-t)` over a set (the integral in the documentation of `boost::math::gamma_p`). -/
noncomputable def incomplete (a : ℝ) (S : Set ℝ) : ℝ := ∫ t in S, t ^ (a - 1) * Real.exp (-t)

/-- `IncompleteGammaPFunction`/`IncompleteGammaQFunction`: the member `mAlpha`, `IncompleteGammaPFunction.h` 82,
`IncompleteGammaQFunction.h` 82.  The two classes have the same member and accessors. -/
structure IncGamma where
  alpha : ℝ

namespace IncGamma

/-- constructor, `IncompleteGammaPFunction.cpp` 17-19 and `IncompleteGammaQFunction.cpp` 17-19: no check of the
argument. -/
def ctor (alpha : ℝ) : IncGamma := ⟨alpha⟩

/-- `setAlpha`, `IncompleteGammaPFunction.cpp` 67-69 and `IncompleteGammaQFunction.cpp` 67-69: no check of the argument. -/
def setAlpha (_f : IncGamma) (alpha : ℝ) : IncGamma := ⟨alpha⟩

/-- `getAlpha`, `IncompleteGammaPFunction.cpp` 63-65. -/
def getAlpha (f : IncGamma) : ℝ := f.alpha

/-- `IncompleteGammaPFunction::getValue`, `IncompleteGammaPFunction.cpp` 58-61: `boost::math::gamma_p(mAlpha, argument)`;
the library raises a domain error for `alpha <= 0` or a negative argument. -/
noncomputable def valueP (f : IncGamma) (x : ℝ) : Res Unit ℝ :=
  if f.alpha ≤ 0 ∨ x < 0 then .throw .external ()
  else .ok (incomplete f.alpha (Set.Ioc 0 x) / Real.Gamma f.alpha) ()

/-- `IncompleteGammaQFunction::getValue`, `IncompleteGammaQFunction.cpp` 58-61: `boost::math::gamma_q(mAlpha, argument)`. -/
noncomputable def valueQ (f : IncGamma) (x : ℝ) : Res Unit ℝ :=
  if f.alpha ≤ 0 ∨ x < 0 then .throw .external ()
  else .ok (incomplete f.alpha (Set.Ioi x) / Real.Gamma f.alpha) ()

end IncGamma

/-- `boost::math::quantile(gamma_distribution<>(shape, scale), p)`: `scale` times the inverse of `gamma_p(shape, ·)`; an
overflow error at `p = 1`, a domain error for `p` outside `[0, 1]` or parameters that are not positive.  The inverse is
the least `x` at which the regularised integral reaches `p`. -/
noncomputable def boostQuantile (shape scale p : ℝ) : Res Unit ℝ :=
  if shape ≤ 0 ∨ scale ≤ 0 ∨ p < 0 ∨ 1 ≤ p then .throw .external ()
  else .ok (sInf {x : ℝ | 0 ≤ x ∧ p ≤ incomplete shape (Set.Ioc 0 x) / Real.Gamma shape} * scale) ()

end GammaCdf

namespace GammaD

/-- `cdf`, `GammaDistribution.tpp` 134-141: the function object is built from the shape; zero up to the value zero. -/
noncomputable def cdf (s : GammaD) (value : ℝ) : Res Unit ℝ :=
  if value ≤ 0 then .ok 0 ()
  else (GammaCdf.IncGamma.ctor s.shape).valueP (value * s.invScale)

/-- `invcdf`, `GammaDistribution.tpp` 143-152. -/
noncomputable def invcdf (s : GammaD) (p : ℝ) : Res Unit ℝ :=
  if p < 0 ∨ p > 1 then .throw .badArgument ()
  else GammaCdf.boostQuantile s.shape (1.0 / s.invScale) p

/-- `ChiSquareDistribution::getMedian`, `ChiSquareDistribution.cpp` 64-66. -/
noncomputable def getMedian (s : GammaD) : ℝ := s.getDegrees * (1.0 - 2.0 / (9 * s.getDegrees)) ^ 3

end GammaD
end Verif
