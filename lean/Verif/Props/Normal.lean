import Verif.Lemmas.Stats
import Mathlib.Probability.Distributions.Gaussian.Real
import Mathlib.Analysis.SpecialFunctions.Gaussian.GaussianIntegral
import Mathlib.MeasureTheory.Integral.IntegralEqImproper
import Mathlib.MeasureTheory.Integral.IntervalIntegral.FundThmCalculus

/-! Property C56: the univariate normal distribution. -/

namespace Verif
namespace Normal1
open MeasureTheory ProbabilityTheory Filter Topology

/-- calls that change the distribution. -/
inductive Op where
  | setMean (m : ℝ)
  | setVariance (v : ℝ)

/-- effect of a call. -/
noncomputable def Op.run (s : Normal1) : Op → Res Normal1 Unit
  | .setMean m => .ok () (s.setMean m)
  | .setVariance v => s.setVariance v

/-- objects that exist after a construction and any history of calls, throwing or not. -/
inductive Reach : Normal1 → Prop
  | init {raw s : Normal1} {m v : ℝ} : ctor raw m v = .ok s () → Reach s
  | step {s s' : Normal1} (o : Op) : Reach s → (o.run s).state? = some s' → Reach s'

/-- the members belong together. -/
def Cons (s : Normal1) : Prop :=
  0 < s.var ∧ s.prec = 1 / s.var ∧ s.std = √s.var ∧ s.norm = 0.5 * Real.log (2 * Real.pi * s.var)

theorem reach_cons {s : Normal1} (h : Reach s) : Cons s := by
  induction h with
  | @init raw s m v h =>
    unfold ctor at h
    split_ifs at h with hv
    simp only [Res.ok.injEq, and_true] at h
    subst h
    exact ⟨not_le.1 hv, rfl, rfl, rfl⟩
  | @step s s' o _ hr ih =>
    cases o with
    | setMean m =>
      simp only [Op.run, Res.state?, Option.some.injEq] at hr
      subst hr; exact ih
    | setVariance v =>
      simp only [Op.run, setVariance] at hr
      split_ifs at hr with hv
      · simp only [Res.state?, Option.some.injEq] at hr; subst hr; exact ih
      · simp only [Res.state?, Option.some.injEq] at hr; subst hr
        exact ⟨not_le.1 hv, rfl, rfl, rfl⟩

/-- **C56**: after any history the getters are consistent: positive variance, precision its inverse, standard
deviation its positive square root. -/
theorem C56_members_consistent {s : Normal1} (h : Reach s) :
    0 < s.var ∧ s.prec * s.var = 1 ∧ 0 < s.std ∧ s.std ^ 2 = s.var := by
  obtain ⟨h1, h2, h3, -⟩ := reach_cons h
  refine ⟨h1, ?_, ?_, ?_⟩
  · rw [h2]; field_simp
  · rw [h3]; exact Real.sqrt_pos.2 h1
  · rw [h3]; exact Real.sq_sqrt h1.le

/-- **C56**: `setVariance` is rejected exactly for non-positive values and then changes nothing; otherwise the getters
return the new variance and the old mean, and `setMean` changes the mean only. -/
theorem C56_setters (s : Normal1) (m v : ℝ) :
    (v ≤ 0 → s.setVariance v = .throw .badArgument s) ∧
    (0 < v → ∃ s', s.setVariance v = .ok () s' ∧ s'.var = v ∧ s'.mean = s.mean) ∧
    (s.setMean m).mean = m ∧ (s.setMean m).var = s.var := by
  refine ⟨fun h => by rw [setVariance, if_pos h], fun h => ⟨s.withVar v, by rw [setVariance, if_neg (not_le.2 h)], rfl, rfl⟩,
    rfl, rfl⟩

/-- the variance as a non-negative real. -/
noncomputable def vnn (s : Normal1) : NNReal := s.var.toNNReal

theorem pdf_eq {s : Normal1} (h : Cons s) (x : ℝ) : s.pdf x = gaussianPDFReal s.mean s.vnn x := by
  obtain ⟨h1, h2, h3, h4⟩ := h
  have hp : 0 < 2 * Real.pi * s.var := by positivity
  unfold pdf logpdf mahalanobis gaussianPDFReal vnn
  rw [Real.coe_toNNReal _ h1.le, h2, h4, sub_eq_add_neg, add_comm, Real.exp_add]
  congr 1
  · rw [Real.exp_neg, Real.sqrt_eq_rpow, Real.rpow_def_of_pos hp]
    norm_num [mul_comm]
  · congr 1
    field_simp
    norm_num
    ring

/-- **C56**: `pdf` is the density of the normal distribution with the reported mean and variance (Mathlib's
`gaussianPDFReal`), positive everywhere and of integral one; `logpdf` is its logarithm. -/
theorem C56_pdf {s : Normal1} (h : Reach s) :
    (∀ x, s.pdf x = gaussianPDFReal s.mean s.vnn x) ∧ (∀ x, 0 < s.pdf x) ∧ (∫ x, s.pdf x) = 1 ∧
    (∀ x, s.logpdf x = Real.log (s.pdf x)) := by
  have hc := reach_cons h
  have hv : s.vnn ≠ 0 := by
    have := hc.1
    simp only [vnn, ne_eq, Real.toNNReal_eq_zero, not_le]; exact this
  refine ⟨pdf_eq hc, fun x => Real.exp_pos _, ?_, fun x => by rw [pdf, Real.log_exp]⟩
  simp only [pdf_eq hc]
  exact integral_gaussianPDFReal_eq_one _ hv

theorem hasDerivAt_erf (x : ℝ) : HasDerivAt erf (2 / √Real.pi * Real.exp (-x ^ 2)) x := by
  unfold erf
  have hc : Continuous fun t : ℝ => Real.exp (-t ^ 2) := by fun_prop
  exact (intervalIntegral.integral_hasDerivAt_right (hc.intervalIntegrable _ _)
    (hc.stronglyMeasurableAtFilter _ _) hc.continuousAt).const_mul _

theorem erf_neg (x : ℝ) : erf (-x) = -erf x := by
  unfold erf
  have := intervalIntegral.integral_comp_neg (f := fun t : ℝ => Real.exp (-t ^ 2)) (a := 0) (b := x)
  simp only [neg_zero, neg_sq] at this
  rw [intervalIntegral.integral_symm, ← this]
  ring

theorem tendsto_erf : Tendsto erf atTop (𝓝 1) := by
  have hi : IntegrableOn (fun t : ℝ => Real.exp (-t ^ 2)) (Set.Ioi 0) := by
    have := (integrable_exp_neg_mul_sq (b := 1) one_pos).integrableOn (s := Set.Ioi 0)
    simpa using this
  have h := intervalIntegral_tendsto_integral_Ioi 0 hi tendsto_id
  have hv : (∫ t in Set.Ioi (0:ℝ), Real.exp (-t ^ 2)) = √Real.pi / 2 := by
    have := integral_gaussian_Ioi 1
    simpa using this
  rw [hv] at h
  have h2 := h.const_mul (2 / √Real.pi)
  have hp : √Real.pi ≠ 0 := by positivity
  have : 2 / √Real.pi * (√Real.pi / 2) = 1 := by field_simp
  rw [this] at h2
  exact h2

/-- **C56**: `cdf(x)` is the probability of values not above `x`, i.e. the integral of `pdf` up to `x`. -/
theorem C56_cdf {s : Normal1} (h : Reach s) (x : ℝ) :
    s.cdf x = ∫ t in Set.Iic x, s.pdf t := by
  have hc := reach_cons h
  obtain ⟨h1, h2, h3, h4⟩ := hc
  have hs : 0 < √(2 * s.var) := by positivity
  have hd : ∀ y, HasDerivAt s.cdf (s.pdf y) y := by
    intro y
    have a : HasDerivAt (fun y => (y - s.mean) / √(2 * s.var)) (1 / √(2 * s.var)) y :=
      ((hasDerivAt_id y).sub_const _).div_const _
    have b := (((hasDerivAt_erf _).comp y a).const_add 1).const_mul (0.5:ℝ)
    refine b.congr_deriv ?_
    rw [pdf_eq ⟨h1, h2, h3, h4⟩, gaussianPDFReal, vnn, Real.coe_toNNReal _ h1.le]
    have e1 : √(2 * Real.pi * s.var) = √Real.pi * √(2 * s.var) := by
      rw [← Real.sqrt_mul Real.pi_pos.le]; ring_nf
    have e2 : ((y - s.mean) / √(2 * s.var)) ^ 2 = (y - s.mean) ^ 2 / (2 * s.var) := by
      rw [div_pow, Real.sq_sqrt (by positivity)]
    rw [e1, e2, neg_div]
    have hp : √Real.pi ≠ 0 := by positivity
    field_simp
    norm_num
  have hi : Integrable s.pdf := by
    have := integrable_gaussianPDFReal s.mean s.vnn
    refine this.congr (Eventually.of_forall fun y => (pdf_eq ⟨h1, h2, h3, h4⟩ y).symm)
  have hl : Tendsto s.cdf atBot (𝓝 0) := by
    have a : Tendsto (fun y : ℝ => -((y - s.mean) / √(2 * s.var))) atBot atTop := by
      have : (fun y : ℝ => -((y - s.mean) / √(2 * s.var))) = fun y => (-y + s.mean) * (1 / √(2 * s.var)) := by
        funext y; ring
      rw [this]
      exact (tendsto_atTop_add_const_right _ _ tendsto_neg_atBot_atTop).atTop_mul_const (by positivity)
    have b := ((tendsto_erf.comp a).const_sub 1).const_mul (0.5:ℝ)
    have e : (0.5:ℝ) * (1 - 1) = 0 := by norm_num
    rw [e] at b
    refine b.congr fun y => ?_
    simp only [Function.comp, erf_neg, sub_neg_eq_add, cdf]
  have := integral_Iic_of_hasDerivAt_of_tendsto' (a := x) (fun y _ => hd y) hi.integrableOn hl
  rw [this, sub_zero]

/-- **C56**: the reported mean (also median and mode) is the mean and the median of the density, its variance the
variance, and its mode the maximum. -/
theorem C56_moments {s : Normal1} (h : Reach s) :
    (∫ x, x * s.pdf x) = s.mean ∧ (∫ x, (x - s.mean) ^ 2 * s.pdf x) = s.var ∧ s.cdf s.mean = 1 / 2 ∧
    (∀ x, s.pdf x ≤ s.pdf s.mean) := by
  have hc := reach_cons h
  have hv : s.vnn ≠ 0 := by
    have := hc.1
    simp only [vnn, ne_eq, Real.toNNReal_eq_zero, not_le]; exact this
  have hvv : (s.vnn : ℝ) = s.var := Real.coe_toNNReal _ hc.1.le
  refine ⟨?_, ?_, ?_, ?_⟩
  · have := integral_gaussianReal_eq_integral_smul (μ := s.mean) (f := fun x : ℝ => x) hv
    rw [integral_id_gaussianReal] at this
    rw [this]
    exact integral_congr_ae (Eventually.of_forall fun x => by simp [pdf_eq hc, mul_comm])
  · have := integral_gaussianReal_eq_integral_smul (μ := s.mean) (f := fun x : ℝ => (x - s.mean) ^ 2) hv
    have hvar := variance_fun_id_gaussianReal (μ := s.mean) (v := s.vnn)
    rw [variance_eq_integral measurable_id'.aemeasurable] at hvar
    simp only [integral_id_gaussianReal] at hvar
    rw [← hvv, ← hvar, this]
    exact integral_congr_ae (Eventually.of_forall fun x => by simp [pdf_eq hc, mul_comm])
  · simp [cdf, erf]; norm_num
  · intro x
    unfold pdf
    apply Real.exp_le_exp.2
    unfold logpdf mahalanobis
    have hp : 0 < s.prec := by rw [hc.2.1]; exact one_div_pos.2 hc.1
    nlinarith [mul_nonneg (sq_nonneg (x - s.mean)) hp.le]

/-- **C56**: `KLDivergence` is the Kullback-Leibler divergence of the two densities, never negative, and zero exactly
if mean and variance agree. -/
theorem C56_kl {s o : Normal1} (hs : Reach s) (ho : Reach o) :
    s.kl o = (∫ x, s.pdf x * (Real.log (s.pdf x) - Real.log (o.pdf x))) ∧ 0 ≤ s.kl o ∧
    (s.kl o = 0 ↔ s.mean = o.mean ∧ s.var = o.var) := by
  have hc := reach_cons hs
  have hd := reach_cons ho
  obtain ⟨h1, h2, h3, h4⟩ := hc
  obtain ⟨g1, g2, g3, g4⟩ := hd
  have hkl : s.kl o = 0.5 * ((s.var / o.var - 1 - Real.log (s.var / o.var)) + (s.mean - o.mean) ^ 2 / o.var) := by
    unfold kl
    rw [h2, g2]
    have : o.var * (1 / s.var) = (s.var / o.var)⁻¹ := by field_simp
    rw [this, Real.log_inv]
    ring
  have hr : 0 < s.var / o.var := by positivity
  have hlog := Real.log_le_sub_one_of_pos hr
  have hsq : 0 ≤ (s.mean - o.mean) ^ 2 / o.var := by positivity
  refine ⟨?_, ?_, ?_⟩
  · have hv : s.vnn ≠ 0 := by
      simp only [vnn, ne_eq, Real.toNNReal_eq_zero, not_le]; exact h1
    have hvv : (s.vnn : ℝ) = s.var := Real.coe_toNNReal _ h1.le
    set μ := gaussianReal s.mean s.vnn
    have hmean : ∫ x, x ∂μ = s.mean := integral_id_gaussianReal
    have hvar : ∫ x, (x - s.mean) ^ 2 ∂μ = s.var := by
      have hvar := variance_fun_id_gaussianReal (μ := s.mean) (v := s.vnn)
      rw [variance_eq_integral measurable_id'.aemeasurable] at hvar
      simp only [integral_id_gaussianReal] at hvar
      rw [← hvv, ← hvar]
    have i1 : Integrable (fun x : ℝ => x) μ := (memLp_id_gaussianReal 1).integrable (by norm_num)
    have i2 : Integrable (fun x : ℝ => (x - s.mean) ^ 2) μ := by
      have := ((memLp_id_gaussianReal (μ := s.mean) (v := s.vnn) 2).sub (memLp_const s.mean)).integrable_sq
      simpa using this
    have hint : (∫ x, s.pdf x * (Real.log (s.pdf x) - Real.log (o.pdf x))) =
        ∫ x, (s.logpdf x - o.logpdf x) ∂μ := by
      rw [integral_gaussianReal_eq_integral_smul hv]
      refine integral_congr_ae (Eventually.of_forall fun x => ?_)
      simp only [smul_eq_mul]
      rw [← pdf_eq ⟨h1, h2, h3, h4⟩, pdf, pdf, Real.log_exp, Real.log_exp]
    have hpt : ∀ x : ℝ, s.logpdf x - o.logpdf x =
        (0.5 * o.prec - 0.5 * s.prec) * (x - s.mean) ^ 2 + (o.prec * (s.mean - o.mean)) * (x - s.mean) +
          (0.5 * o.prec * (s.mean - o.mean) ^ 2 - s.norm + o.norm) := by
      intro x; unfold logpdf mahalanobis; ring
    rw [hint]
    simp only [hpt]
    have j1 : Integrable (fun x : ℝ => (0.5 * o.prec - 0.5 * s.prec) * (x - s.mean) ^ 2) μ := i2.const_mul _
    have j2 : Integrable (fun x : ℝ => (o.prec * (s.mean - o.mean)) * (x - s.mean)) μ :=
      (i1.sub (integrable_const _)).const_mul _
    have j12 : Integrable (fun x : ℝ => (0.5 * o.prec - 0.5 * s.prec) * (x - s.mean) ^ 2 +
      (o.prec * (s.mean - o.mean)) * (x - s.mean)) μ := j1.add j2
    rw [integral_add j12 (integrable_const _), integral_add j1 j2, integral_const_mul, integral_const_mul, hvar,
      integral_sub i1 (integrable_const _), hmean]
    simp only [integral_const, probReal_univ, one_smul, sub_self, mul_zero, add_zero]
    rw [hkl, h4, g4, h2, g2, Real.log_div h1.ne' g1.ne', Real.log_mul (by positivity) h1.ne',
      Real.log_mul (by positivity) g1.ne']
    field_simp
    ring
  · rw [hkl]; nlinarith
  · rw [hkl]
    constructor
    · intro h0
      have e1 : (s.mean - o.mean) ^ 2 / o.var = 0 := by nlinarith
      have e2 : s.var / o.var - 1 - Real.log (s.var / o.var) = 0 := by nlinarith
      constructor
      · rcases div_eq_zero_iff.1 e1 with h | h
        · have := pow_eq_zero_iff (two_ne_zero) |>.1 h; linarith
        · exact absurd h g1.ne'
      · by_contra hne
        have : s.var / o.var ≠ 1 := by
          intro h; exact hne ((div_eq_one_iff_eq g1.ne').1 h)
        have := Real.log_lt_sub_one_of_pos hr this
        linarith
    · rintro ⟨a, b⟩
      rw [a, b, div_self g1.ne']; simp

/-- non-vacuity: a reachable distribution, also after a rejected call. -/
example : ∃ s, Reach s ∧ s.mean = 3 ∧ s.var = 4 := by
  have h0 : ctor ⟨0, 0, 0, 0, 0⟩ 3 4 = .ok ((⟨0, 0, 0, 0, 0⟩ : Normal1).setMean 3 |>.withVar 4) () := by
    rw [ctor, if_neg (by norm_num)]
  have h1 := Reach.init h0
  refine ⟨_, .step (.setVariance (-1)) h1 (s' := (⟨0, 0, 0, 0, 0⟩ : Normal1).setMean 3 |>.withVar 4) ?_, rfl, rfl⟩
  simp only [Op.run]
  rw [setVariance, if_pos (by norm_num)]; rfl

end Normal1
end Verif
