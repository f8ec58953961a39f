import Verif.Lemmas.IdealGamma
import Verif.Lemmas.IdealNormal

/-! Lemmas: the sum of squares of independent standard normal variables has a gamma distribution. -/

namespace Verif
namespace Ideal
open MeasureTheory ProbabilityTheory Set Real

theorem lintegral_even (f : ℝ → ENNReal) (h : ∀ x, f (-x) = f x) :
    ∫⁻ x, f x = 2 * ∫⁻ x in Ioi (0:ℝ), f x := by
  have e1 : ∫⁻ x in Iio (0:ℝ), f x = ∫⁻ x in Ioi (0:ℝ), f x := by
    have := (Measure.measurePreserving_neg (volume : Measure ℝ)).setLIntegral_comp_preimage_emb
      (MeasurableEquiv.neg ℝ).measurableEmbedding f (Iio 0)
    rw [← this]
    simp [h]
  have e2 : ∫⁻ x, f x = (∫⁻ x in Iio (0:ℝ), f x) + ∫⁻ x in Ici (0:ℝ), f x := by
    rw [← lintegral_add_compl f (measurableSet_Iio (a := (0:ℝ))), compl_Iio]
  rw [e2, e1, setLIntegral_congr Ioi_ae_eq_Ici.symm, two_mul]

theorem map_sq_gaussian : (gaussianReal 0 1).map (fun x => x ^ 2) = gammaMeasure (1 / 2) (1 / 2) := by
  classical
  refine Measure.ext fun S hS => ?_
  have hm : Measurable fun x : ℝ => x ^ 2 := by fun_prop
  rw [Measure.map_apply hm hS, gaussianReal_of_var_ne_zero _ one_ne_zero, withDensity_apply _ (hm hS), gammaMeasure,
    withDensity_apply _ hS, ← lintegral_indicator (hm hS), ← lintegral_indicator hS]
  rw [lintegral_even]
  · have hneg : ∫⁻ x, S.indicator (gammaPDF (1 / 2) (1 / 2)) x = ∫⁻ x in Ioi (0:ℝ), S.indicator (gammaPDF (1 / 2) (1 / 2)) x := by
      rw [← lintegral_add_compl _ (measurableSet_Ioi (a := (0:ℝ)))]
      have : ∫⁻ x in (Ioi (0:ℝ))ᶜ, S.indicator (gammaPDF (1 / 2) (1 / 2)) x = 0 := by
        rw [compl_Ioi, ← setLIntegral_congr Iio_ae_eq_Iic]
        rw [setLIntegral_eq_zero measurableSet_Iio]
        intro x hx
        simp only [indicator_apply, Pi.zero_apply]
        split
        · exact gammaPDF_of_neg hx
        · rfl
      rw [this, add_zero]
    rw [hneg]
    have himg : (fun x : ℝ => x ^ 2) '' Ioi 0 = Ioi 0 := by
      ext y; simp only [mem_image, mem_Ioi]
      exact ⟨fun ⟨x, hx, e⟩ => e ▸ by positivity, fun hy => ⟨√y, sqrt_pos.2 hy, sq_sqrt hy.le⟩⟩
    have hinj : InjOn (fun x : ℝ => x ^ 2) (Ioi 0) := by
      intro x hx y hy h
      exact (sq_eq_sq₀ (le_of_lt hx) (le_of_lt hy)).1 h
    have hder : ∀ x ∈ Ioi (0:ℝ), HasDerivWithinAt (fun x : ℝ => x ^ 2) (2 * x) (Ioi 0) x := by
      intro x _
      have := (hasDerivAt_pow 2 x).hasDerivWithinAt (s := Ioi 0)
      simpa using this
    conv_rhs => rw [← himg]
    rw [lintegral_image_eq_lintegral_abs_deriv_mul measurableSet_Ioi hder hinj, ← lintegral_const_mul' _ _ (by simp)]
    refine setLIntegral_congr_fun measurableSet_Ioi fun x hx => ?_
    have hx' : (0:ℝ) < x := hx
    simp only [indicator_apply, mem_preimage]
    split
    · rw [gammaPDF_of_nonneg (by positivity), gaussianPDF, ← ENNReal.ofReal_mul (abs_nonneg _),
        show (2 : ENNReal) = ENNReal.ofReal 2 by simp, ← ENNReal.ofReal_mul (by norm_num)]
      congr 1
      rw [gaussianPDFReal, abs_of_pos (by positivity), Real.Gamma_one_half_eq, ← sqrt_eq_rpow]
      rw [show (1/2 - 1 : ℝ) = -(1/2) by norm_num, rpow_neg (by positivity), ← sqrt_eq_rpow, sqrt_sq hx'.le]
      have : √(2 * π * (1:NNReal)) = √2 * √π := by rw [NNReal.coe_one, mul_one, sqrt_mul (by norm_num)]
      rw [this, sqrt_div (by norm_num), sqrt_one]
      have e : -(x - 0) ^ 2 / (2 * ((1:NNReal) : ℝ)) = -(1 / 2 * x ^ 2) := by rw [NNReal.coe_one]; ring
      rw [e]
      field_simp
    · simp
  · intro x
    simp only [indicator_apply, mem_preimage, neg_sq]
    simp [gaussianPDF, gaussianPDFReal]

theorem conv_gammaMeasure_rate {a b r : ℝ} (ha : 0 < a) (hb : 0 < b) (hr : 0 < r) :
    ((gammaMeasure a r).prod (gammaMeasure b r)).map (fun p => p.1 + p.2) = gammaMeasure (a + b) r := by
  have := isProbabilityMeasure_gammaMeasure ha one_pos
  have := isProbabilityMeasure_gammaMeasure hb one_pos
  rw [← map_div_gammaMeasure ha hr, ← map_div_gammaMeasure hb hr, Measure.map_prod_map _ _ (by fun_prop) (by fun_prop),
    Measure.map_map (by fun_prop) (by fun_prop), ← map_div_gammaMeasure (add_pos ha hb) hr, ← conv_gammaMeasure ha hb,
    Measure.map_map (by fun_prop) (by fun_prop)]
  congr 1
  funext p; simp [add_div]

/-- The sum of the squares of `m + 1` independent standard normal variables. -/
theorem map_sum_sq (m : ℕ) : (Measure.pi fun _ : Fin (m + 1) => gaussianReal 0 1).map (fun x => ∑ i, x i ^ 2) =
    gammaMeasure (((m + 1 : ℕ) : ℝ) / 2) (1 / 2) := by
  have hstep : ∀ m, (Measure.pi fun _ : Fin (m + 1) => gaussianReal 0 1) =
      ((gaussianReal 0 1).prod (Measure.pi fun _ : Fin m => gaussianReal 0 1)).map
        (fun p => (Fin.cons p.1 p.2 : Fin (m + 1) → ℝ)) := by
    intro m
    have := (measurePreserving_piFinSuccAbove (fun _ : Fin (m + 1) => gaussianReal 0 1) 0).symm.map_eq
    rw [← this]
    congr 1
    funext p; simp [MeasurableEquiv.piFinSuccAbove, Fin.insertNthEquiv]
  have hcons : ∀ m, Measurable fun p : ℝ × (Fin m → ℝ) => (Fin.cons p.1 p.2 : Fin (m + 1) → ℝ) := by
    intro m
    refine measurable_pi_lambda _ fun i => ?_
    refine Fin.cases ?_ (fun j => ?_) i
    · exact measurable_fst
    · simp only [Fin.cons_succ]
      exact (measurable_pi_apply j).comp measurable_snd
  induction m with
  | zero =>
    rw [hstep, Measure.map_map (by fun_prop) (hcons 0), Measure.pi_of_empty _ (fun i => i.elim0), Measure.prod_dirac,
      Measure.map_map (by have := hcons 0; fun_prop) (by fun_prop)]
    rw [show ((0 + 1 : ℕ) : ℝ) / 2 = 1 / 2 by norm_num, ← map_sq_gaussian]
    congr 1
    funext x; simp
  | succ m ih =>
    have hp := isProbabilityMeasure_gammaMeasure (a := 1/2) (r := 1/2) (by norm_num) (by norm_num)
    have hp2 := isProbabilityMeasure_gammaMeasure (a := ((m + 1 : ℕ) : ℝ) / 2) (r := 1/2) (by positivity) (by norm_num)
    rw [hstep, Measure.map_map (by fun_prop) (hcons _)]
    have e : ((fun x : Fin (m + 1 + 1) → ℝ => ∑ i, x i ^ 2) ∘ fun p : ℝ × (Fin (m + 1) → ℝ) => (Fin.cons p.1 p.2 : Fin (m + 1 + 1) → ℝ)) =
        (fun p : ℝ × ℝ => p.1 + p.2) ∘ Prod.map (fun x => x ^ 2) (fun x : Fin (m + 1) → ℝ => ∑ i, x i ^ 2) := by
      funext p; simp [Fin.sum_univ_succ]
    rw [e, ← Measure.map_map (by fun_prop) (by fun_prop), ← Measure.map_prod_map _ _ (by fun_prop) (by fun_prop), ih, map_sq_gaussian,
      conv_gammaMeasure_rate (by norm_num) (by positivity) (by norm_num)]
    congr 1
    push_cast; ring

end Ideal
end Verif
