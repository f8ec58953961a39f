import Verif.Model.GammaCdf
import Verif.Lemmas.IdealGamma
import Mathlib.Probability.CDF

/-! # The regularised incomplete gamma function -/

namespace Verif
namespace GammaCdf
open MeasureTheory ProbabilityTheory Set Real

/-- the regularised lower incomplete gamma function. -/
noncomputable def P (a x : ℝ) : ℝ := incomplete a (Ioc 0 x) / Gamma a

theorem integrableOn_kernel {a : ℝ} (ha : 0 < a) : IntegrableOn (fun t : ℝ => t ^ (a - 1) * exp (-t)) (Ioi 0) := by
  refine (GammaIntegral_convergent ha).congr_fun (fun t _ => ?_) measurableSet_Ioi
  exact mul_comm _ _

theorem incomplete_all {a : ℝ} (ha : 0 < a) : incomplete a (Ioi 0) = Gamma a := by
  rw [incomplete, Gamma_eq_integral ha]
  refine setIntegral_congr_fun measurableSet_Ioi fun t _ => ?_
  exact mul_comm _ _

theorem incomplete_split {a x : ℝ} (ha : 0 < a) (hx : 0 ≤ x) :
    incomplete a (Ioc 0 x) + incomplete a (Ioi x) = Gamma a := by
  rw [← incomplete_all ha, incomplete, incomplete, incomplete, ← Ioc_union_Ioi_eq_Ioi hx,
    setIntegral_union (Ioc_disjoint_Ioi le_rfl) measurableSet_Ioi]
  · exact (integrableOn_kernel ha).mono_set Ioc_subset_Ioi_self
  · exact (integrableOn_kernel ha).mono_set (Ioi_subset_Ioi hx)

theorem incomplete_diff {a x y : ℝ} (ha : 0 < a) (hx : 0 ≤ x) (hxy : x ≤ y) :
    incomplete a (Ioc 0 y) = incomplete a (Ioc 0 x) + incomplete a (Ioc x y) := by
  rw [incomplete, incomplete, incomplete, ← Ioc_union_Ioc_eq_Ioc hx hxy,
    setIntegral_union (Ioc_disjoint_Ioc_of_le le_rfl) measurableSet_Ioc]
  · exact (integrableOn_kernel ha).mono_set Ioc_subset_Ioi_self
  · exact (integrableOn_kernel ha).mono_set fun t ht => lt_of_le_of_lt hx ht.1

theorem incomplete_pos {a x y : ℝ} (ha : 0 < a) (hx : 0 ≤ x) (hxy : x < y) : 0 < incomplete a (Ioc x y) := by
  have hint : IntegrableOn (fun t : ℝ => t ^ (a - 1) * exp (-t)) (Ioc x y) :=
    (integrableOn_kernel ha).mono_set fun t ht => lt_of_le_of_lt hx ht.1
  rw [incomplete, setIntegral_pos_iff_support_of_nonneg_ae _ hint]
  · have : Ioc x y ⊆ Function.support (fun t : ℝ => t ^ (a - 1) * exp (-t)) := fun t ht =>
      (mul_pos (rpow_pos_of_pos (lt_of_le_of_lt hx ht.1) _) (exp_pos _)).ne'
    rw [inter_eq_self_of_subset_right this, Real.volume_Ioc]
    simpa using hxy
  · filter_upwards [ae_restrict_mem measurableSet_Ioc] with t ht
    exact (mul_pos (rpow_pos_of_pos (lt_of_le_of_lt hx ht.1) _) (exp_pos _)).le

theorem P_zero (a : ℝ) : P a 0 = 0 := by simp [P, incomplete]

theorem P_strictMonoOn {a : ℝ} (ha : 0 < a) : StrictMonoOn (P a) (Ici 0) := by
  intro x hx y _ hxy
  have hG := Gamma_pos_of_pos ha
  rw [P, P, div_lt_div_iff_of_pos_right hG, incomplete_diff ha hx hxy.le]
  linarith [incomplete_pos ha (mem_Ici.1 hx) hxy]

theorem P_lt_one {a x : ℝ} (ha : 0 < a) (hx : 0 ≤ x) : P a x < 1 := by
  have hG := Gamma_pos_of_pos ha
  rw [P, div_lt_one hG, ← incomplete_split ha hx]
  have h1 : incomplete a (Ioi x) = incomplete a (Ioc x (x + 1)) + incomplete a (Ioi (x + 1)) := by
    rw [incomplete, incomplete, incomplete, ← Ioc_union_Ioi_eq_Ioi (by linarith : x ≤ x + 1),
      setIntegral_union (Ioc_disjoint_Ioi le_rfl) measurableSet_Ioi]
    · exact (integrableOn_kernel ha).mono_set fun t ht => lt_of_le_of_lt hx ht.1
    · exact (integrableOn_kernel ha).mono_set (Ioi_subset_Ioi (by linarith))
  have h2 : 0 ≤ incomplete a (Ioi (x + 1)) := by
    refine setIntegral_nonneg measurableSet_Ioi fun t ht => ?_
    exact mul_nonneg (rpow_nonneg (by have := mem_Ioi.1 ht; linarith) _) (exp_pos _).le
  linarith [incomplete_pos ha hx (by linarith : x < x + 1)]

/-- the measure of the gamma distribution with unit scale up to a value. -/
theorem gammaMeasure_one_Iic {a x : ℝ} (ha : 0 < a) (_hx : 0 ≤ x) : (gammaMeasure a 1).real (Iic x) = P a x := by
  have hG := Gamma_pos_of_pos ha
  have hprob := isProbabilityMeasure_gammaMeasure ha one_pos
  have h := cdf_gammaMeasure_eq_integral ha one_pos x
  rw [cdf_eq_real] at h
  rw [h, P, incomplete, ← integral_div]
  rw [← integral_indicator measurableSet_Iic, ← integral_indicator measurableSet_Ioc]
  refine integral_congr_ae ?_
  have h0 : ∀ᵐ x : ℝ, x ≠ 0 := by rw [ae_iff]; simp
  filter_upwards [h0] with t ht
  by_cases h1 : t ≤ x
  · rw [indicator_of_mem (mem_Iic.2 h1)]
    by_cases h2 : 0 < t
    · rw [indicator_of_mem (mem_Ioc.2 ⟨h2, h1⟩), gammaPDFReal, if_pos h2.le, one_rpow, one_mul]; ring
    · rw [indicator_of_notMem (s := Ioc 0 x) fun hh => h2 hh.1, gammaPDFReal, if_neg fun hh => h2 (lt_of_le_of_ne hh ht.symm)]
  · rw [indicator_of_notMem (s := Iic x) fun hh => h1 hh, indicator_of_notMem (s := Ioc 0 x) fun hh => h1 hh.2]

theorem gammaMeasure_Iic {a r x : ℝ} (ha : 0 < a) (hr : 0 < r) (hx : 0 ≤ x) :
    (gammaMeasure a r).real (Iic x) = P a (x * r) := by
  rw [← gammaMeasure_one_Iic ha (by positivity), ← Ideal.map_div_gammaMeasure ha hr,
    map_measureReal_apply (by fun_prop) measurableSet_Iic]
  congr 1
  ext t
  simp only [mem_preimage, mem_Iic]
  exact div_le_iff₀ hr

theorem gammaMeasure_Iic_neg {a r x : ℝ} (ha : 0 < a) (hr : 0 < r) (hx : x ≤ 0) :
    (gammaMeasure a r).real (Iic x) = 0 := by
  have hprob := isProbabilityMeasure_gammaMeasure ha hr
  have h1 : (gammaMeasure a r).real (Iic x) ≤ (gammaMeasure a r).real (Iic 0) :=
    measureReal_mono (Iic_subset_Iic.2 hx)
  rw [gammaMeasure_Iic ha hr le_rfl, zero_mul, P_zero] at h1
  exact le_antisymm h1 measureReal_nonneg

theorem P_continuousOn {a : ℝ} (ha : 0 < a) : ContinuousOn (P a) (Ici 0) := by
  have hint : IntegrableOn (fun t : ℝ => t ^ (a - 1) * exp (-t)) (Ioi 0) := integrableOn_kernel ha
  set g : ℝ → ℝ := (Ioi (0:ℝ)).indicator fun t => t ^ (a - 1) * exp (-t) with hg
  have hgi : Integrable g := hint.integrable_indicator measurableSet_Ioi
  have hc : Continuous fun x => ∫ t in (0:ℝ)..x, g t :=
    intervalIntegral.continuous_primitive (fun _ _ => hgi.intervalIntegrable) 0
  have he : ∀ x ∈ Ici (0:ℝ), P a x = (∫ t in (0:ℝ)..x, g t) / Gamma a := by
    intro x hx
    rw [P, incomplete, intervalIntegral.integral_of_le hx]
    congr 1
    refine setIntegral_congr_fun measurableSet_Ioc fun t ht => ?_
    rw [hg, indicator_of_mem (mem_Ioi.2 ht.1)]
  exact (hc.div_const _).continuousOn.congr he

theorem P_surj {a p : ℝ} (ha : 0 < a) (h0 : 0 ≤ p) (h1 : p < 1) : ∃ x, 0 ≤ x ∧ P a x = p := by
  have hprob := isProbabilityMeasure_gammaMeasure ha one_pos
  have hlim := tendsto_cdf_atTop (gammaMeasure a 1)
  obtain ⟨b, hb0, hb⟩ := ((hlim.eventually (lt_mem_nhds h1)).and (Filter.eventually_ge_atTop 0)).exists
  rw [cdf_eq_real, gammaMeasure_one_Iic ha hb] at hb0
  have hm := intermediate_value_Icc hb ((P_continuousOn ha).mono fun t ht => ht.1)
  obtain ⟨x, hx, hxp⟩ := hm ⟨by rw [P_zero]; exact h0, hb0.le⟩
  exact ⟨x, hx.1, hxp⟩

theorem quantile_eq {a x : ℝ} (ha : 0 < a) (hx : 0 ≤ x) :
    sInf {y : ℝ | 0 ≤ y ∧ P a x ≤ incomplete a (Ioc 0 y) / Gamma a} = x := by
  have : {y : ℝ | 0 ≤ y ∧ P a x ≤ incomplete a (Ioc 0 y) / Gamma a} = Ici x := by
    ext y
    simp only [mem_ofPred_eq, mem_Ici]
    constructor
    · rintro ⟨h0, h1⟩
      exact ((P_strictMonoOn ha).le_iff_le hx h0).1 h1
    · intro h
      exact ⟨hx.trans h, ((P_strictMonoOn ha).le_iff_le hx (hx.trans h)).2 h⟩
  rw [this, csInf_Ici]

end GammaCdf
end Verif
