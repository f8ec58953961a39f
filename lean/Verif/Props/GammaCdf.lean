import Verif.Lemmas.GammaCdf
import Verif.Lemmas.GammaKl
import Verif.Props.Gamma
import Mathlib.Analysis.SpecialFunctions.Log.Deriv
import Mathlib.Analysis.Complex.ExponentialBounds

/-! Property C112: incomplete gamma functions, cumulative distribution, quantile, chi-square median and divergence of the
gamma distribution.  The specification is Mathlib's gamma distribution (`ProbabilityTheory.gammaMeasure`) and Mathlib's
Kullback-Leibler divergence (`InformationTheory.klDiv`). -/

namespace Verif
namespace GammaCdf
open MeasureTheory ProbabilityTheory Set Real

/-- **C112**: the two incomplete gamma function objects keep any parameter they are given; a value exists exactly for a
positive parameter and an argument that is not negative, otherwise both calls throw; the two values are the probabilities
that a gamma variable of that shape is at most, or more than, the argument, and add up to one. -/
theorem C112_incomplete (f : IncGamma) (x b : ℝ) :
    (f.setAlpha b).getAlpha = b ∧ (IncGamma.ctor b).getAlpha = b ∧
    (f.getAlpha ≤ 0 ∨ x < 0 → f.valueP x = .throw .external () ∧ f.valueQ x = .throw .external ()) ∧
    (0 < f.getAlpha → 0 ≤ x → ∃ p q, f.valueP x = .ok p () ∧ f.valueQ x = .ok q () ∧ p + q = 1 ∧ 0 ≤ p ∧ p < 1 ∧
      p = (gammaMeasure f.getAlpha 1).real (Iic x) ∧ q = (gammaMeasure f.getAlpha 1).real (Ioi x)) := by
  refine ⟨rfl, rfl, fun h => ⟨if_pos h, if_pos h⟩, fun ha hx => ?_⟩
  have ha' : 0 < f.alpha := ha
  have hn : ¬ (f.alpha ≤ 0 ∨ x < 0) := by push Not; exact ⟨ha', hx⟩
  have hG := Gamma_pos_of_pos ha'
  have hs : incomplete f.alpha (Ioc 0 x) / Gamma f.alpha + incomplete f.alpha (Ioi x) / Gamma f.alpha = 1 := by
    rw [← add_div, incomplete_split ha' hx, div_self hG.ne']
  have hprob := isProbabilityMeasure_gammaMeasure ha' one_pos
  have hP : incomplete f.alpha (Ioc 0 x) / Gamma f.alpha = (gammaMeasure f.alpha 1).real (Iic x) :=
    (gammaMeasure_one_Iic ha' hx).symm
  refine ⟨_, _, if_neg hn, if_neg hn, hs, ?_, P_lt_one ha' hx, hP, ?_⟩
  · rw [hP]; exact measureReal_nonneg
  · have h1 := probReal_compl_eq_one_sub (μ := gammaMeasure f.alpha 1) (measurableSet_Iic (a := x))
    rw [compl_Iic, ← hP] at h1
    rw [IncGamma.getAlpha, h1]
    linarith

/-- the parameter two and the argument one meet the hypotheses, minus one does not. -/
example : (∃ p q, (IncGamma.ctor 2).valueP 1 = .ok p () ∧ (IncGamma.ctor 2).valueQ 1 = .ok q () ∧ p + q = 1) ∧
    (IncGamma.ctor 2).valueP (-1) = .throw .external () ∧ (IncGamma.ctor (-1)).valueP 1 = .throw .external () := by
  refine ⟨?_, ((C112_incomplete (.ctor 2) (-1) 0).2.2.1 (.inr (by norm_num))).1,
    ((C112_incomplete (.ctor (-1)) 1 0).2.2.1 (.inl (by simp [IncGamma.ctor, IncGamma.getAlpha]))).1⟩
  obtain ⟨p, q, h1, h2, h3, -⟩ := (C112_incomplete (.ctor 2) 1 0).2.2.2 two_pos zero_le_one
  exact ⟨p, q, h1, h2, h3⟩

end GammaCdf

namespace GammaD
open MeasureTheory ProbabilityTheory Set Real GammaCdf

theorem cdf_value {s : GammaD} (h : Reach s) (x : ℝ) :
    s.cdf x = .ok ((gammaMeasure s.shape s.invScale).real (Iic x)) () := by
  obtain ⟨h1, h2, -⟩ := reach_cons h
  unfold cdf
  split_ifs with hx
  · rw [gammaMeasure_Iic_neg h1 h2 hx]
  · have hx' := not_le.1 hx
    rw [IncGamma.valueP, if_neg, gammaMeasure_Iic h1 h2 hx'.le]
    · rfl
    · push Not; exact ⟨h1, by positivity⟩

/-- **C112**: `cdf` of any distribution object in any history never fails and is the probability of values up to the
argument: the measure of Mathlib's gamma distribution with the reported shape and inverse scale, and the integral of the
object's own `pdf`.  It is zero up to zero, below one, and strictly increasing above zero. -/
theorem C112_cdf {s : GammaD} (h : Reach s) (x : ℝ) : ∃ c, s.cdf x = .ok c () ∧
    c = (gammaMeasure s.shape s.invScale).real (Iic x) ∧ c = (∫ y in Iic x, (s.pdf y).getD 0) ∧
    (x ≤ 0 → c = 0) ∧ c < 1 ∧ ∀ y c', 0 ≤ x → x < y → s.cdf y = .ok c' () → c < c' := by
  obtain ⟨h1, h2, -⟩ := reach_cons h
  have hprob := isProbabilityMeasure_gammaMeasure h1 h2
  refine ⟨_, cdf_value h x, rfl, ?_, fun hx => gammaMeasure_Iic_neg h1 h2 hx, ?_, ?_⟩
  · rw [← cdf_eq_real, cdf_gammaMeasure_eq_integral h1 h2]
    refine setIntegral_congr_ae measurableSet_Iic ?_
    have h0 : ∀ᵐ x : ℝ, x ≠ 0 := by rw [ae_iff]; simp
    filter_upwards [h0] with t ht _
    rw [(C57_pdf h).1 t ht]; rfl
  · rcases le_total x 0 with hx | hx
    · rw [gammaMeasure_Iic_neg h1 h2 hx]; exact one_pos
    · rw [gammaMeasure_Iic h1 h2 hx]; exact P_lt_one h1 (by positivity)
  · intro y c' hx hxy hc
    rw [cdf_value h, Res.ok.injEq] at hc
    rw [← hc.1, gammaMeasure_Iic h1 h2 hx, gammaMeasure_Iic h1 h2 (hx.trans hxy.le)]
    exact P_strictMonoOn h1 (mem_Ici.2 (by positivity)) (mem_Ici.2 (by have := hx.trans hxy.le; positivity))
      (mul_lt_mul_of_pos_right hxy h2)

/-- **C112**: `invcdf` rejects exactly the numbers outside `[0, 1]` as bad arguments; for one the library throws, although
the documented domain contains it; for every other probability the result is the one value that is not negative and has
that cumulative probability, and it undoes `cdf`. -/
theorem C112_invcdf {s : GammaD} (h : Reach s) (p : ℝ) :
    (s.invcdf p = .throw .badArgument () ↔ p < 0 ∨ 1 < p) ∧ (p = 1 → s.invcdf p = .throw .external ()) ∧
    (0 ≤ p → p < 1 → ∃ x, s.invcdf p = .ok x () ∧ 0 ≤ x ∧ s.cdf x = .ok p () ∧
      ∀ y, 0 ≤ y → s.cdf y = .ok p () → y = x) ∧
    ∀ x c, 0 ≤ x → s.cdf x = .ok c () → s.invcdf c = .ok x () := by
  obtain ⟨h1, h2, -⟩ := reach_cons h
  have hsc : (0:ℝ) < 1.0 / s.invScale := by norm_num; exact h2
  have hprob := isProbabilityMeasure_gammaMeasure h1 h2
  have key : ∀ x, 0 ≤ x → s.invcdf (P s.shape (x * s.invScale)) = .ok x () := by
    intro x hx
    have hx' : 0 ≤ x * s.invScale := by positivity
    have hp1 := P_lt_one h1 hx'
    have hp0 : 0 ≤ P s.shape (x * s.invScale) := by rw [← gammaMeasure_Iic h1 h2 hx]; exact measureReal_nonneg
    unfold invcdf boostQuantile
    rw [if_neg (by push Not; exact ⟨hp0, hp1.le⟩), if_neg (by push Not; exact ⟨h1, hsc, hp0, hp1⟩), quantile_eq h1 hx']
    norm_num
    field_simp
  have key2 : ∀ x, 0 ≤ x → s.cdf x = .ok (P s.shape (x * s.invScale)) () := fun x hx => by
    rw [cdf_value h, gammaMeasure_Iic h1 h2 hx]
  refine ⟨⟨fun hh => ?_, fun hh => if_pos hh⟩, ?_, ?_, ?_⟩
  · by_contra hc
    rw [invcdf, if_neg hc, boostQuantile] at hh
    split_ifs at hh
    simp at hh
  · rintro rfl
    rw [invcdf, if_neg (by norm_num), boostQuantile, if_pos (by simp)]
  · intro p0 p1
    obtain ⟨z, hz, hzp⟩ := P_surj h1 p0 p1
    have hz' : 0 ≤ z / s.invScale := by positivity
    have e : z / s.invScale * s.invScale = z := div_mul_cancel₀ _ h2.ne'
    refine ⟨z / s.invScale, ?_, hz', ?_, ?_⟩
    · rw [← key _ hz', e, hzp]
    · rw [key2 _ hz', e, hzp]
    · intro y hy hyp
      rw [key2 y hy, Res.ok.injEq] at hyp
      have := (P_strictMonoOn h1).injOn (mem_Ici.2 (by positivity)) (mem_Ici.2 hz) (hyp.1.trans hzp.symm)
      rw [← this]; field_simp
  · intro x c hx hc
    rw [key2 x hx, Res.ok.injEq] at hc
    rw [← hc.1, key x hx]

theorem ctor_ok (raw : GammaD) {a r : ℝ} (ha : 0 < a) (hr : 0 < r) : ctor raw a r = .ok () ⟨a, r, normalizer a r⟩ := by
  unfold ctor setShape
  rw [if_neg (not_le.2 ha)]
  simp only [Res.bind, setInvScale]
  rw [if_neg (not_le.2 hr)]

/-- a reachable object: shape three, then the inverse scale changed to two. -/
theorem reach_example : Reach ⟨3, 2, normalizer 3 2⟩ := by
  have h0 : Reach ⟨3, 1, normalizer 3 1⟩ := .init (ctor_ok ⟨0, 0, 0⟩ three_pos one_pos)
  refine .step (.invScale 2) h0 ?_
  simp only [Op.run, setInvScale]
  rw [if_neg (by norm_num)]
  rfl

example : ∃ x, (⟨3, 2, normalizer 3 2⟩ : GammaD).invcdf (1 / 4) = .ok x () ∧
    (⟨3, 2, normalizer 3 2⟩ : GammaD).cdf x = .ok (1 / 4) () := by
  obtain ⟨x, h1, -, h2, -⟩ := (C112_invcdf reach_example (1 / 4)).2.2.1 (by norm_num) (by norm_num)
  exact ⟨x, h1, h2⟩

/-- **C112** (what holds of `ChiSquareDistribution::getMedian`): for more than 2/9 degrees of freedom the value reported as
the median is positive and below the mean.  Missing: it is not the median, see `C112_median_not_median`. -/
theorem C112_median_partial {s : GammaD} (hd : 2 / 9 < s.getDegrees) :
    0 < s.getMedian ∧ s.getMedian < s.getDegrees := by
  have h0 : 0 < s.getDegrees := by linarith
  have e : 2.0 / (9 * s.getDegrees) < 1 := by
    rw [div_lt_one (by positivity)]; norm_num; linarith
  have e0 : 0 < 2.0 / (9 * s.getDegrees) := by norm_num; exact h0
  have ht : 0 < 1.0 - 2.0 / (9 * s.getDegrees) := by norm_num at e ⊢; exact e
  have ht1 : 1.0 - 2.0 / (9 * s.getDegrees) < 1 := by norm_num at e0 ⊢; exact e0
  have : (1.0 - 2.0 / (9 * s.getDegrees)) ^ 3 < 1 := pow_lt_one₀ ht.le ht1 (by norm_num)
  unfold getMedian
  exact ⟨by positivity, by nlinarith⟩

/-- **C112** is false of the median: the value reported as the median has cumulative probability one half neither for two
degrees of freedom (where it is too large) nor for any number of degrees up to 2/9 (where it is not positive and has
cumulative probability zero). -/
theorem C112_median_not_median :
    (∀ raw s : GammaD, chiSquare raw 2 = .ok () s → ∃ c, s.cdf s.getMedian = .ok c () ∧ 1 / 2 < c) ∧
    (∀ raw s : GammaD, ∀ d : ℝ, d ≤ 2 / 9 → chiSquare raw d = .ok () s → s.getMedian ≤ 0 ∧ s.cdf s.getMedian = .ok 0 ()) := by
  constructor
  · intro raw s hs
    have hr : Reach s := .initChi hs
    obtain ⟨hcons, ha, hr'⟩ := ctor_cons (show ctor raw (0.5 * 2) 0.5 = .ok () s from hs)
    have ha1 : s.shape = 1 := by rw [ha]; norm_num
    have hd : s.getDegrees = 2 := by rw [getDegrees, ha1]; norm_num
    have hm : s.getMedian = 1024 / 729 := by rw [getMedian, hd]; norm_num
    refine ⟨_, cdf_value hr _, ?_⟩
    rw [hm, gammaMeasure_Iic hcons.1 hcons.2.1 (by norm_num), ha1, hr']
    have hP : P 1 (1024 / 729 * 0.5) = 1 - exp (-(512 / 729)) := by
      rw [P, Real.Gamma_one, div_one, incomplete]
      have : ∀ x : ℝ, 0 ≤ x → (∫ t in Ioc 0 x, t ^ ((1:ℝ) - 1) * exp (-t)) = 1 - exp (-x) := by
        intro x hx
        have e := incomplete_split (a := 1) one_pos hx
        have e2 : incomplete 1 (Ioi x) = exp (-x) := by
          rw [incomplete, ← integral_exp_neg_Ioi]
          refine setIntegral_congr_fun measurableSet_Ioi fun t _ => ?_
          simp
        rw [e2, Real.Gamma_one, incomplete] at e
        linarith
      rw [this _ (by norm_num)]
      norm_num
    rw [hP]
    have h1 : exp (-(512 / 729)) < 1 / 2 := by
      rw [← Real.lt_log_iff_exp_lt (by norm_num), one_div, Real.log_inv]
      have := Real.log_two_lt_d9
      linarith
    linarith
  · intro raw s d hd hs
    have hr : Reach s := .initChi hs
    obtain ⟨hcons, ha, hr'⟩ := ctor_cons (show ctor raw (0.5 * d) 0.5 = .ok () s from hs)
    have hdd : s.getDegrees = d := by rw [getDegrees, ha]; ring
    have hpos : 0 < d := by
      have := hcons.1; rw [ha] at this; linarith
    have hm : s.getMedian ≤ 0 := by
      rw [getMedian, hdd]
      have e : 1 ≤ 2.0 / (9 * d) := by rw [le_div_iff₀ (by positivity)]; norm_num; linarith
      have : (1.0 - 2.0 / (9 * d)) ^ 3 ≤ 0 := by
        have h1 : 1.0 - 2.0 / (9 * d) ≤ 0 := by
          have : (1.0 : ℝ) = 1 := by norm_num
          rw [this]; linarith
        exact Odd.pow_nonpos (by decide) h1
      exact mul_nonpos_of_nonneg_of_nonpos hpos.le this
    refine ⟨hm, ?_⟩
    rw [cdf, if_pos hm]

example : ∃ s, chiSquare ⟨0, 0, 0⟩ 2 = .ok () s ∧ Reach s ∧ 2 / 9 < s.getDegrees := by
  have h : chiSquare ⟨0, 0, 0⟩ 2 = .ok () ⟨0.5 * 2, 0.5, normalizer (0.5 * 2) 0.5⟩ :=
    ctor_ok _ (by norm_num) (by norm_num)
  exact ⟨_, h, .initChi h, by norm_num [getDegrees]⟩

example : ∃ s, chiSquare ⟨0, 0, 0⟩ (1 / 9) = .ok () s := ⟨_, ctor_ok _ (by norm_num) (by norm_num)⟩

/-- **C112** (what holds of `KLDivergence`): the true divergence between the two distributions is finite, and the returned
number differs from it by exactly `(b - 1) (ψ(a) - ψ(b))`, with `a`, `b` the two shapes and `ψ` the digamma function. -/
theorem C112_kl_partial {s o : GammaD} (hs : Reach s) (ho : Reach o) :
    InformationTheory.klDiv (gammaMeasure s.shape s.invScale) (gammaMeasure o.shape o.invScale) ≠ ⊤ ∧
    s.kl o = (InformationTheory.klDiv (gammaMeasure s.shape s.invScale) (gammaMeasure o.shape o.invScale)).toReal +
      (o.shape - 1) * (deriv Gamma s.shape / Gamma s.shape - deriv Gamma o.shape / Gamma o.shape) := by
  obtain ⟨a1, r1, -⟩ := reach_cons hs
  obtain ⟨b1, q1, -⟩ := reach_cons ho
  obtain ⟨h1, h2⟩ := GammaKl.klDiv_gamma a1 r1 b1 q1
  refine ⟨h1, ?_⟩
  rw [h2, kl, digamma, digamma]
  norm_num
  field_simp
  ring

/-- **C112** is false of `KLDivergence` in general: it is the Kullback-Leibler divergence of the two distributions exactly
when the other shape is one or the shapes are equal, whatever the scales. -/
theorem C112_kl_right_iff {s o : GammaD} (hs : Reach s) (ho : Reach o) :
    s.kl o = (InformationTheory.klDiv (gammaMeasure s.shape s.invScale) (gammaMeasure o.shape o.invScale)).toReal ↔
      o.shape = 1 ∨ s.shape = o.shape := by
  obtain ⟨a1, -, -⟩ := reach_cons hs
  obtain ⟨b1, -, -⟩ := reach_cons ho
  rw [(C112_kl_partial hs ho).2, add_eq_left, mul_eq_zero, sub_eq_zero, sub_eq_zero]
  refine or_congr Iff.rfl ⟨fun h => GammaKl.digamma_strictMonoOn.injOn (mem_Ioi.2 a1) (mem_Ioi.2 b1) h, fun h => by rw [h]⟩

/-- both sides occur: shapes three and one, and shapes three and two. -/
example : ∃ s o o' : GammaD, Reach s ∧ Reach o ∧ Reach o' ∧ o.shape = 1 ∧ o'.shape ≠ 1 ∧ s.shape ≠ o'.shape :=
  ⟨_, _, _, reach_example, .init (ctor_ok ⟨0, 0, 0⟩ one_pos two_pos), .init (ctor_ok ⟨0, 0, 0⟩ two_pos two_pos), rfl,
    by norm_num, by norm_num⟩

end GammaD
end Verif
