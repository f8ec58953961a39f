import Verif.Model.Stats
import Verif.Lemmas.IdealGamma
import Mathlib.InformationTheory.KullbackLeibler.Basic
import Mathlib.Analysis.SpecialFunctions.Gamma.Deriv
import Mathlib.Analysis.Complex.RealDeriv

/-! # Expected logarithm and Kullback-Leibler divergence of gamma distributions -/

namespace Verif
namespace GammaKl
open MeasureTheory ProbabilityTheory Set Real

theorem log_kernel_integrable {a : ℝ} (ha : 0 < a) :
    IntegrableOn (fun t : ℝ => t ^ (a - 1) * (log t * exp (-t))) (Ioi 0) := by
  have hs : (0:ℝ) < (a : ℂ).re := by simpa using ha
  have h := (mellin_hasDerivAt_of_isBigO_rpow (E := ℂ) (f := fun x : ℝ => ((exp (-x) : ℝ) : ℂ)) (a := (a:ℂ).re + 1) (b := 0)
    (s := (a:ℂ)) ?_ ?_ (lt_add_one _) ?_ hs).1
  · unfold MellinConvergent at h
    refine IntegrableOn.congr_fun (show IntegrableOn _ (Ioi 0) _ from h.re) ?_ measurableSet_Ioi
    intro t ht
    have e : (t:ℂ) ^ ((a:ℂ) - 1) = ((t ^ (a - 1) : ℝ) : ℂ) := by
      rw [Complex.ofReal_cpow (le_of_lt ht)]; push_cast; rfl
    simp only [e, smul_eq_mul, Complex.real_smul]
    rw [← Complex.ofReal_mul, ← Complex.ofReal_mul]
    exact Complex.ofReal_re _
  · refine (Continuous.continuousOn ?_).locallyIntegrableOn measurableSet_Ioi
    exact Complex.continuous_ofReal.comp (Real.continuous_exp.comp continuous_neg)
  · rw [← Asymptotics.isBigO_norm_left]
    simp_rw [Complex.norm_real, Asymptotics.isBigO_norm_left]
    simpa only [neg_one_mul] using (isLittleO_exp_neg_mul_rpow_atTop zero_lt_one _).isBigO
  · simp_rw [neg_zero, rpow_zero]
    refine Asymptotics.isBigO_const_of_tendsto (?_ : Filter.Tendsto _ _ (nhds (1 : ℂ))) one_ne_zero
    rw [(by simp : (1 : ℂ) = Real.exp (-0))]
    exact (Complex.continuous_ofReal.comp (Real.continuous_exp.comp continuous_neg)).continuousWithinAt

theorem deriv_Gamma_integral {a : ℝ} (ha : 0 < a) :
    deriv Gamma a = ∫ t in Ioi (0:ℝ), t ^ (a - 1) * (log t * exp (-t)) := by
  have hs : (0:ℝ) < (a : ℂ).re := by simpa using ha
  have h := Complex.hasDerivAt_GammaIntegral hs
  have hG : HasDerivAt Complex.Gamma
      (∫ t : ℝ in Ioi 0, (t:ℂ) ^ ((a:ℂ) - 1) * (Real.log t * Real.exp (-t))) (a:ℂ) := by
    refine h.congr_of_eventuallyEq ?_
    have : IsOpen {s : ℂ | 0 < s.re} := Complex.continuous_re.isOpen_preimage _ isOpen_Ioi
    filter_upwards [this.mem_nhds hs] with z hz using Complex.Gamma_eq_integral hz
  have e : (∫ t : ℝ in Ioi 0, (t:ℂ) ^ ((a:ℂ) - 1) * (Real.log t * Real.exp (-t))) =
      ((∫ t in Ioi (0:ℝ), t ^ (a - 1) * (log t * exp (-t)) : ℝ) : ℂ) := by
    rw [← integral_complex_ofReal]
    refine setIntegral_congr_fun measurableSet_Ioi fun t ht => ?_
    have e : (t:ℂ) ^ ((a:ℂ) - 1) = ((t ^ (a - 1) : ℝ) : ℂ) := by
      rw [Complex.ofReal_cpow (le_of_lt ht)]; push_cast; rfl
    simp only [e]
    push_cast; rfl
  rw [e] at hG
  have := hG.real_of_complex
  rw [Complex.ofReal_re] at this
  exact this.deriv

theorem measurable_pdf (a r : ℝ) : Measurable (gammaPDF a r) := (measurable_gammaPDFReal a r).ennreal_ofReal

theorem integral_gammaMeasure_one {a : ℝ} (ha : 0 < a) (F : ℝ → ℝ) :
    ∫ x, F x ∂(gammaMeasure a 1) = (∫ t in Ioi (0:ℝ), t ^ (a - 1) * (F t * exp (-t))) / Gamma a := by
  rw [gammaMeasure, integral_withDensity_eq_integral_toReal_smul (measurable_pdf a 1)
    (Filter.Eventually.of_forall fun x => ENNReal.ofReal_lt_top), ← integral_div, ← integral_indicator measurableSet_Ioi]
  refine integral_congr_ae ?_
  have h0 : ∀ᵐ x : ℝ, x ≠ 0 := by rw [ae_iff]; simp
  filter_upwards [h0] with t ht
  by_cases h2 : 0 < t
  · rw [indicator_of_mem (mem_Ioi.2 h2), gammaPDF, ENNReal.toReal_ofReal (gammaPDFReal_nonneg ha one_pos _), gammaPDFReal,
      if_pos h2.le, one_rpow, one_mul, smul_eq_mul]; ring
  · rw [indicator_of_notMem (s := Ioi 0) fun hh => h2 hh, gammaPDF_of_neg (lt_of_le_of_ne (not_lt.1 h2) ht)]
    simp

theorem integrable_gammaMeasure_one {a : ℝ} (ha : 0 < a) (F : ℝ → ℝ)
    (h : IntegrableOn (fun t : ℝ => t ^ (a - 1) * (F t * exp (-t))) (Ioi 0)) : Integrable F (gammaMeasure a 1) := by
  rw [gammaMeasure, integrable_withDensity_iff_integrable_smul' (measurable_pdf a 1)
    (Filter.Eventually.of_forall fun x => ENNReal.ofReal_lt_top)]
  refine ((h.integrable_indicator measurableSet_Ioi).div_const (Gamma a)).congr ?_
  have h0 : ∀ᵐ x : ℝ, x ≠ 0 := by rw [ae_iff]; simp
  filter_upwards [h0] with t ht
  by_cases h2 : 0 < t
  · rw [indicator_of_mem (mem_Ioi.2 h2), gammaPDF, ENNReal.toReal_ofReal (gammaPDFReal_nonneg ha one_pos _), gammaPDFReal,
      if_pos h2.le, one_rpow, one_mul, smul_eq_mul]; ring
  · rw [indicator_of_notMem (s := Ioi 0) fun hh => h2 hh, gammaPDF_of_neg (lt_of_le_of_ne (not_lt.1 h2) ht)]
    simp

theorem gamma_ae_pos {a r : ℝ} : ∀ᵐ x ∂(gammaMeasure a r), 0 < x := by
  rw [gammaMeasure, ae_withDensity_iff (measurable_pdf a r)]
  have h0 : ∀ᵐ x : ℝ, x ≠ 0 := by rw [ae_iff]; simp
  filter_upwards [h0] with t ht hp
  by_contra hc
  exact hp (gammaPDF_of_neg (lt_of_le_of_ne (not_lt.1 hc) ht))

/-- the expected logarithm. -/
theorem expect_log {a r : ℝ} (ha : 0 < a) (hr : 0 < r) :
    Integrable log (gammaMeasure a r) ∧ ∫ x, log x ∂(gammaMeasure a r) = GammaD.digamma a - log r := by
  have hp1 := isProbabilityMeasure_gammaMeasure ha one_pos
  have hi := integrable_gammaMeasure_one ha log (log_kernel_integrable ha)
  have hv : ∫ x, log x ∂(gammaMeasure a 1) = GammaD.digamma a := by
    rw [integral_gammaMeasure_one ha, ← deriv_Gamma_integral ha, GammaD.digamma]
  have hae : (fun x => log (x / r)) =ᵐ[gammaMeasure a 1] fun x => log x - log r := by
    filter_upwards [gamma_ae_pos (a := a) (r := 1)] with x hx
    exact log_div hx.ne' hr.ne'
  rw [← Ideal.map_div_gammaMeasure ha hr]
  constructor
  · rw [integrable_map_measure measurable_log.aestronglyMeasurable (by fun_prop)]
    exact (hi.sub (integrable_const _)).congr hae.symm
  · rw [integral_map (by fun_prop) measurable_log.aestronglyMeasurable, integral_congr_ae hae,
      integral_sub hi (integrable_const _), hv]
    simp

theorem expect_id {a r : ℝ} (ha : 0 < a) (hr : 0 < r) :
    Integrable (fun x : ℝ => x) (gammaMeasure a r) ∧ ∫ x, x ∂(gammaMeasure a r) = a / r := by
  have hp1 := isProbabilityMeasure_gammaMeasure ha one_pos
  have hG := Gamma_pos_of_pos ha
  have e : EqOn (fun t : ℝ => exp (-t) * t ^ (a + 1 - 1)) (fun t : ℝ => t ^ (a - 1) * (t * exp (-t))) (Ioi 0) := by
    intro t ht
    simp only
    rw [show a + 1 - 1 = (a - 1) + 1 by ring, rpow_add (mem_Ioi.1 ht), rpow_one]; ring
  have hi := integrable_gammaMeasure_one ha (fun x => x)
    ((GammaIntegral_convergent (by linarith : 0 < a + 1)).congr_fun e measurableSet_Ioi)
  have hv : ∫ x, x ∂(gammaMeasure a 1) = a := by
    rw [integral_gammaMeasure_one ha, ← setIntegral_congr_fun measurableSet_Ioi e, ← Gamma_eq_integral (by linarith),
      Gamma_add_one ha.ne']
    field_simp
  rw [← Ideal.map_div_gammaMeasure ha hr]
  constructor
  · rw [integrable_map_measure (by fun_prop) (by fun_prop)]
    exact hi.div_const r
  · rw [integral_map (by fun_prop) (by fun_prop), integral_div, hv]

/-- logarithm of the density ratio on the support. -/
theorem withDensity_ratio {a r b q : ℝ} (hb : 0 < b) (hq : 0 < q) :
    gammaMeasure a r = (gammaMeasure b q).withDensity fun x => gammaPDF a r x / gammaPDF b q x := by
  change _ = (gammaMeasure b q).withDensity (gammaPDF a r / gammaPDF b q)
  rw [gammaMeasure, gammaMeasure, ← withDensity_mul _ (measurable_pdf b q) ((measurable_pdf a r).div (measurable_pdf b q))]
  refine withDensity_congr_ae ?_
  have h0 : ∀ᵐ x : ℝ, x ≠ 0 := by rw [ae_iff]; simp
  filter_upwards [h0] with t ht
  rw [Pi.mul_apply, Pi.div_apply]
  rcases lt_or_gt_of_ne ht with hl | hg
  · rw [gammaPDF_of_neg hl, gammaPDF_of_neg hl, zero_mul]
  · rw [ENNReal.mul_div_cancel]
    · exact (ENNReal.ofReal_pos.2 (gammaPDFReal_pos hb hq hg)).ne'
    · exact ENNReal.ofReal_ne_top

theorem gamma_ac {a r b q : ℝ} (hb : 0 < b) (hq : 0 < q) : gammaMeasure a r ≪ gammaMeasure b q := by
  rw [withDensity_ratio (a := a) (r := r) hb hq]
  exact withDensity_absolutelyContinuous _ _

theorem log_pdf {a r x : ℝ} (ha : 0 < a) (hr : 0 < r) (hx : 0 < x) :
    log (gammaPDFReal a r x) = a * log r - log (Gamma a) + (a - 1) * log x - r * x := by
  have hG := Gamma_pos_of_pos ha
  have h1 := rpow_pos_of_pos hr a
  have h2 := rpow_pos_of_pos hx (a - 1)
  rw [gammaPDFReal, if_pos hx.le, log_mul (by positivity) (exp_pos _).ne', log_mul (by positivity) h2.ne',
    log_div h1.ne' hG.ne', log_rpow hr, log_rpow hx, log_exp]
  ring

theorem llr_eq {a r b q : ℝ} (ha : 0 < a) (hr : 0 < r) (hb : 0 < b) (hq : 0 < q) :
    llr (gammaMeasure a r) (gammaMeasure b q) =ᵐ[gammaMeasure a r] fun x =>
      (a * log r - log (Gamma a) - (b * log q - log (Gamma b))) + (a - b) * log x + (q - r) * x := by
  have hpb := isProbabilityMeasure_gammaMeasure hb hq
  have h1 : (gammaMeasure a r).rnDeriv (gammaMeasure b q) =ᵐ[gammaMeasure b q] fun x => gammaPDF a r x / gammaPDF b q x := by
    have := Measure.rnDeriv_withDensity (gammaMeasure b q) ((measurable_pdf a r).div (measurable_pdf b q))
    rw [withDensity_ratio (a := a) (r := r) hb hq]
    exact this
  filter_upwards [(gamma_ac (a := a) (r := r) hb hq).ae_le h1, gamma_ae_pos (a := a) (r := r)] with x hx hpos
  have ha' := gammaPDFReal_pos ha hr hpos
  have hb' := gammaPDFReal_pos hb hq hpos
  rw [llr, hx, ENNReal.toReal_div, gammaPDF, gammaPDF, ENNReal.toReal_ofReal ha'.le, ENNReal.toReal_ofReal hb'.le,
    log_div ha'.ne' hb'.ne', log_pdf ha hr hpos, log_pdf hb hq hpos]
  ring

/-- the Kullback-Leibler divergence of two gamma distributions. -/
theorem klDiv_gamma {a r b q : ℝ} (ha : 0 < a) (hr : 0 < r) (hb : 0 < b) (hq : 0 < q) :
    InformationTheory.klDiv (gammaMeasure a r) (gammaMeasure b q) ≠ ⊤ ∧
    (InformationTheory.klDiv (gammaMeasure a r) (gammaMeasure b q)).toReal =
      (a - b) * GammaD.digamma a - log (Gamma a) + log (Gamma b) + b * (log r - log q) + a * (q - r) / r := by
  have hpa := isProbabilityMeasure_gammaMeasure ha hr
  have hpb := isProbabilityMeasure_gammaMeasure hb hq
  have hl := llr_eq ha hr hb hq
  obtain ⟨li, lv⟩ := expect_log ha hr
  obtain ⟨xi, xv⟩ := expect_id ha hr
  have i1 : Integrable (fun x : ℝ => (a * log r - log (Gamma a) - (b * log q - log (Gamma b))) + (a - b) * log x)
      (gammaMeasure a r) := (integrable_const _).add (li.const_mul _)
  have hint : Integrable (fun x : ℝ => (a * log r - log (Gamma a) - (b * log q - log (Gamma b))) + (a - b) * log x +
      (q - r) * x) (gammaMeasure a r) := i1.add (xi.const_mul _)
  refine ⟨InformationTheory.klDiv_ne_top (gamma_ac hb hq) (hint.congr hl.symm), ?_⟩
  rw [InformationTheory.toReal_klDiv_of_measure_eq (gamma_ac hb hq) (by simp), integral_congr_ae hl,
    integral_add i1 (xi.const_mul _), integral_add (integrable_const _) (li.const_mul _), integral_const_mul,
    integral_const_mul, lv, xv]
  simp only [integral_const, probReal_univ, one_smul]
  ring

/-- the digamma function is strictly increasing. -/
theorem digamma_strictMonoOn : StrictMonoOn GammaD.digamma (Ioi 0) := by
  intro a ha b hb hab
  rw [mem_Ioi] at ha hb
  have hpa := isProbabilityMeasure_gammaMeasure ha one_pos
  have hpb := isProbabilityMeasure_gammaMeasure hb one_pos
  have hne : gammaMeasure a 1 ≠ gammaMeasure b 1 := by
    intro h
    have h1 := (expect_id ha one_pos).2
    rw [h, (expect_id hb one_pos).2] at h1
    linarith
  have h1 := klDiv_gamma ha one_pos hb one_pos
  have h2 := klDiv_gamma hb one_pos ha one_pos
  have p1 : 0 < (InformationTheory.klDiv (gammaMeasure a 1) (gammaMeasure b 1)).toReal :=
    ENNReal.toReal_pos (fun h => hne (InformationTheory.klDiv_eq_zero_iff.1 h)) h1.1
  have p2 : 0 ≤ (InformationTheory.klDiv (gammaMeasure b 1) (gammaMeasure a 1)).toReal := ENNReal.toReal_nonneg
  rw [h1.2] at p1
  rw [h2.2] at p2
  simp only [sub_self, mul_zero, zero_div, add_zero] at p1 p2
  nlinarith

end GammaKl
end Verif
