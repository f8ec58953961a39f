import Verif.Lemmas.IdealLaws
import Mathlib.Analysis.SpecialFunctions.PolarCoord
import Mathlib.MeasureTheory.Function.JacobianOneDim
import Mathlib.Probability.Distributions.Gaussian.Real

/-! # The polar method gives a normal distribution -/

namespace Verif
namespace Ideal

open MeasureTheory ProbabilityTheory Set Real

/-- `s` of a round in the coordinates of the square `[-1, 1]²`. -/
noncomputable def sq2 (p : ℝ × ℝ) : ℝ := p.1 * p.1 + p.2 * p.2
/-- the accepted rounds. -/
def disc : Set (ℝ × ℝ) := {p | ¬ (sq2 p ≥ 1 ∨ sq2 p = 0)}
/-- the value of an accepted round. -/
noncomputable def marsaglia (p : ℝ × ℝ) : ℝ := p.1 * √(-2 * log (sq2 p) / sq2 p)

theorem measurable_sq2 : Measurable sq2 := by unfold sq2; fun_prop
theorem measurable_marsaglia : Measurable marsaglia := by
  unfold marsaglia
  have := measurable_sq2
  fun_prop
theorem measurableSet_disc : MeasurableSet disc := by
  have : disc = (sq2 ⁻¹' Ici 1 ∪ sq2 ⁻¹' {0})ᶜ := by ext p; simp [disc]
  rw [this]
  exact ((measurable_sq2 measurableSet_Ici).union (measurable_sq2 (measurableSet_singleton _))).compl

theorem radial (c : ℝ) (F : ℝ → ENNReal) :
    ∫⁻ r in Ioo (0:ℝ) 1, ENNReal.ofReal r * F (c * √(-4 * log r)) =
      ENNReal.ofReal (1 / 2) * ∫⁻ t in Ioi (0:ℝ), ENNReal.ofReal t * (ENNReal.ofReal (exp (-(t ^ 2) / 2)) * F (t * c)) := by
  have himg : (fun t : ℝ => exp (-(t ^ 2) / 4)) '' Ioi 0 = Ioo 0 1 := by
    ext r
    simp only [mem_image, mem_Ioi, mem_Ioo]
    constructor
    · rintro ⟨t, ht, rfl⟩
      refine ⟨exp_pos _, ?_⟩
      rw [exp_lt_one_iff]; nlinarith [sq_pos_of_pos ht]
    · rintro ⟨h0, h1⟩
      have hl : log r < 0 := log_neg h0 h1
      refine ⟨√(-4 * log r), sqrt_pos.2 (by linarith), ?_⟩
      rw [sq_sqrt (by linarith)]
      rw [show -(-4 * log r) / 4 = log r by ring, exp_log h0]
  have hinj : InjOn (fun t : ℝ => exp (-(t ^ 2) / 4)) (Ioi 0) := by
    intro a ha b hb hab
    have h2 : -(a ^ 2) / 4 = -(b ^ 2) / 4 := exp_injective hab
    have h3 : a ^ 2 = b ^ 2 := by linarith
    exact (pow_left_inj₀ (le_of_lt ha) (le_of_lt hb) two_ne_zero).1 h3
  have hder : ∀ t ∈ Ioi (0:ℝ), HasDerivWithinAt (fun t : ℝ => exp (-(t ^ 2) / 4)) (exp (-(t ^ 2) / 4) * (-(2 * t) / 4)) (Ioi 0) t := by
    intro t _
    have h1 : HasDerivAt (fun t : ℝ => -(t ^ 2) / 4) (-(2 * t) / 4) t := by
      have := (hasDerivAt_pow 2 t).neg.div_const 4
      simpa using this
    exact h1.exp.hasDerivWithinAt
  rw [← himg, lintegral_image_eq_lintegral_abs_deriv_mul measurableSet_Ioi hder hinj,
    ← lintegral_const_mul' _ _ ENNReal.ofReal_ne_top]
  refine setLIntegral_congr_fun measurableSet_Ioi fun t ht => ?_
  have ht' : (0:ℝ) < t := ht
  have e1 : √(-4 * log (exp (-(t ^ 2) / 4))) = t := by
    rw [log_exp, show -4 * (-(t ^ 2) / 4) = t ^ 2 by ring, sqrt_sq ht'.le]
  rw [e1, mul_comm c t, ← mul_assoc, ← mul_assoc, ← mul_assoc, ← ENNReal.ofReal_mul (abs_nonneg _),
    ← ENNReal.ofReal_mul (by norm_num), ← ENNReal.ofReal_mul (by positivity)]
  congr 2
  rw [abs_of_nonpos (by nlinarith [exp_pos (-(t ^ 2) / 4)])]
  have : exp (-(t ^ 2) / 2) = exp (-(t ^ 2) / 4) * exp (-(t ^ 2) / 4) := by rw [← exp_add]; congr 1; ring
  rw [this]; ring

theorem polar_sq (r θ : ℝ) : sq2 (r * cos θ, r * sin θ) = r ^ 2 := by
  simp only [sq2]
  have := sin_sq_add_cos_sq θ
  linear_combination r ^ 2 * this

/-- both sides in polar coordinates. -/
theorem lintegral_polar (f : ℝ × ℝ → ENNReal) (hf : Measurable f) :
    ∫⁻ p, f p = ∫⁻ θ in Ioo (-π) π, ∫⁻ r in Ioi (0:ℝ), ENNReal.ofReal r * f (r * cos θ, r * sin θ) := by
  rw [← lintegral_comp_polarCoord_symm]
  have ht : polarCoord.target = Ioi (0 : ℝ) ×ˢ Ioo (-π) π := rfl
  rw [ht, Measure.volume_eq_prod, ← Measure.prod_restrict, lintegral_prod_symm]
  · rfl
  · refine Measurable.aemeasurable ?_
    have : Measurable fun p : ℝ × ℝ => polarCoord.symm p := by
      have e : (fun p : ℝ × ℝ => polarCoord.symm p) = fun p => (p.1 * cos p.2, p.1 * sin p.2) := rfl
      rw [e]; fun_prop
    exact (measurable_fst.ennreal_ofReal).smul (hf.comp this)

theorem gauss_factor (x : ℝ) : ENNReal.ofReal (exp (-(x ^ 2) / 2)) = ENNReal.ofReal √(2 * π) * gaussianPDF 0 1 x := by
  have h : (0:ℝ) < √(2 * π) := sqrt_pos.2 (by positivity)
  rw [gaussianPDF, ← ENNReal.ofReal_mul h.le, gaussianPDFReal]
  congr 1
  simp only [NNReal.coe_one, mul_one, sub_zero]
  rw [← mul_assoc, mul_inv_cancel₀ h.ne', one_mul]

theorem marsaglia_lintegral (F : ℝ → ENNReal) (hF : Measurable F) :
    ∫⁻ p in disc, F (marsaglia p) = ENNReal.ofReal π * ∫⁻ x, F x ∂(gaussianReal 0 1) := by
  have hG : Measurable fun p : ℝ × ℝ => ENNReal.ofReal (exp (-(sq2 p) / 2)) * F p.1 := by
    have := measurable_sq2
    fun_prop
  have h1 : ∫⁻ p in disc, F (marsaglia p) =
      ENNReal.ofReal (1 / 2) * ∫⁻ p : ℝ × ℝ, ENNReal.ofReal (exp (-(sq2 p) / 2)) * F p.1 := by
    have hM : Measurable (disc.indicator fun p => F (marsaglia p)) := (hF.comp measurable_marsaglia).indicator measurableSet_disc
    rw [← lintegral_indicator measurableSet_disc, lintegral_polar _ hM,
      lintegral_polar _ hG, ← lintegral_const_mul' _ _ ENNReal.ofReal_ne_top]
    refine lintegral_congr fun θ => ?_
    have e := radial (cos θ) F
    simp only [polar_sq]
    rw [← e, ← lintegral_indicator measurableSet_Ioi, ← lintegral_indicator measurableSet_Ioo]
    refine lintegral_congr fun r => ?_
    by_cases hr : r ∈ Ioi (0:ℝ)
    · have hr' : 0 < r := hr
      rw [indicator_of_mem hr]
      by_cases h1 : r < 1
      · have hd : (r * cos θ, r * sin θ) ∈ disc := by
          simp only [disc, mem_ofPred_eq, polar_sq]; push Not
          exact ⟨by nlinarith, by positivity⟩
        rw [indicator_of_mem (show r ∈ Ioo (0:ℝ) 1 from ⟨hr', h1⟩), indicator_of_mem hd]
        congr 2
        simp only [marsaglia, polar_sq]
        rw [log_pow, show -2 * ((2:ℕ) * log r) / r ^ 2 = (-4 * log r) / r ^ 2 by push_cast; ring,
          sqrt_div' _ (by positivity), sqrt_sq hr'.le]
        field_simp
      · have hd : (r * cos θ, r * sin θ) ∉ disc := by
          simp only [disc, mem_ofPred_eq, polar_sq]; push Not
          left; push Not at h1; nlinarith
        rw [indicator_of_notMem (fun h : r ∈ Ioo (0:ℝ) 1 => h1 h.2), indicator_of_notMem hd, mul_zero]
    · rw [indicator_of_notMem hr, indicator_of_notMem (fun h : r ∈ Ioo (0:ℝ) 1 => hr h.1)]
  rw [h1]
  have hpi : (0:ℝ) < 2 * π := by positivity
  have h2 : ∫⁻ p : ℝ × ℝ, ENNReal.ofReal (exp (-(sq2 p) / 2)) * F p.1 =
      ENNReal.ofReal (2 * π) * ∫⁻ x, F x ∂(gaussianReal 0 1) := by
    rw [Measure.volume_eq_prod, lintegral_prod _ hG.aemeasurable, gaussianReal_of_var_ne_zero _ one_ne_zero,
      lintegral_withDensity_eq_lintegral_mul _ (measurable_gaussianPDF 0 1) hF,
      ← lintegral_const_mul' _ _ ENNReal.ofReal_ne_top]
    refine lintegral_congr fun x => ?_
    have : ∀ y, ENNReal.ofReal (exp (-(sq2 (x, y)) / 2)) * F (x, y).1 =
        (ENNReal.ofReal (2 * π) * (gaussianPDF 0 1 x * F x)) * gaussianPDF 0 1 y := by
      intro y
      have e : exp (-(sq2 (x, y)) / 2) = exp (-(x ^ 2) / 2) * exp (-(y ^ 2) / 2) := by
        rw [← exp_add]; congr 1; simp only [sq2]; ring
      rw [e, ENNReal.ofReal_mul (exp_pos _).le, gauss_factor, gauss_factor]
      have e2 : ENNReal.ofReal (2 * π) = ENNReal.ofReal √(2 * π) * ENNReal.ofReal √(2 * π) := by
        rw [← ENNReal.ofReal_mul (sqrt_nonneg _), mul_self_sqrt hpi.le]
      rw [e2]; ring
    simp_rw [this]
    rw [lintegral_const_mul _ (measurable_gaussianPDF 0 1), lintegral_gaussianPDF_eq_one 0 one_ne_zero, mul_one]
    rfl
  rw [h2, ← mul_assoc, ← ENNReal.ofReal_mul (by norm_num)]
  congr 2; ring

/-- the law of one coordinate of a round. -/
noncomputable def side : Measure ℝ := unif.map polar

theorem measurable_polar : Measurable polar := by unfold polar; fun_prop

instance : IsProbabilityMeasure side := Measure.isProbabilityMeasure_map measurable_polar.aemeasurable

theorem side_eq : side = (ENNReal.ofReal 2)⁻¹ • volume.restrict (Icc (-1) 1) := by
  have h := map_affine_unif (a := -1) (b := 1) (by norm_num)
  have e : (fun x : ℝ => -1 + x * (1 - -1)) = polar := by funext x; unfold polar; ring
  rw [e] at h
  rw [side, h]; norm_num

theorem square_eq : side.prod side = (ENNReal.ofReal 4)⁻¹ • (volume : Measure (ℝ × ℝ)).restrict (Icc (-1) 1 ×ˢ Icc (-1) 1) := by
  rw [side_eq, Measure.prod_smul_left, Measure.prod_smul_right, Measure.prod_restrict, ← Measure.volume_eq_prod, smul_smul,
    ← ENNReal.mul_inv (by simp) (by simp), ← ENNReal.ofReal_mul (by norm_num)]
  norm_num

theorem disc_subset : disc ⊆ Icc (-1) 1 ×ˢ Icc (-1) 1 := by
  rintro ⟨x, y⟩ h
  simp only [disc, sq2, mem_ofPred_eq] at h
  push Not at h
  refine ⟨⟨?_, ?_⟩, ⟨?_, ?_⟩⟩ <;> simp only <;> nlinarith [h.1]

theorem square_disc : (side.prod side).restrict disc = (ENNReal.ofReal 4)⁻¹ • volume.restrict disc := by
  rw [square_eq, Measure.restrict_smul, Measure.restrict_restrict measurableSet_disc, inter_eq_left.2 disc_subset]

theorem volume_disc : volume disc = ENNReal.ofReal π := by
  have := marsaglia_lintegral (fun _ => 1) measurable_const
  simpa using this

theorem side_disc : (side.prod side) disc = (ENNReal.ofReal 4)⁻¹ * ENNReal.ofReal π := by
  have : (side.prod side) disc = ((side.prod side).restrict disc) univ := by simp
  rw [this, square_disc]
  simp [volume_disc]

theorem side_disc_ne : (side.prod side) disc ≠ 0 := by
  rw [side_disc]
  simp [pi_pos]

/-- The polar method gives the standard normal distribution. -/
theorem map_marsaglia : ((side.prod side)[|disc]).map marsaglia = gaussianReal 0 1 := by
  refine Measure.ext fun S hS => ?_
  rw [Measure.map_apply measurable_marsaglia hS, ProbabilityTheory.cond, Measure.smul_apply, square_disc, side_disc]
  have h := marsaglia_lintegral (S.indicator 1) (measurable_one.indicator hS)
  rw [lintegral_indicator_one hS] at h
  have e : ∫⁻ p in disc, S.indicator (1 : ℝ → ENNReal) (marsaglia p) = (volume.restrict disc) (marsaglia ⁻¹' S) := by
    rw [← lintegral_indicator_one (measurable_marsaglia hS)]
    rfl
  rw [e] at h
  rw [Measure.smul_apply, h, smul_eq_mul, smul_eq_mul, ← mul_assoc, ← mul_assoc]
  have hpi : ENNReal.ofReal π ≠ 0 := by simp [pi_pos]
  have h4 : (ENNReal.ofReal 4)⁻¹ ≠ 0 := by simp
  have h4' : (ENNReal.ofReal 4)⁻¹ ≠ ⊤ := by simp
  rw [mul_assoc _ (ENNReal.ofReal 4)⁻¹ _, ENNReal.inv_mul_cancel (mul_ne_zero h4 hpi)
    (ENNReal.mul_ne_top h4' ENNReal.ofReal_ne_top), one_mul]

theorem draws_side : Draws.map (fun u => ((fun u : Stream => (polar (u 0), polar (u 1))) u, rest 2 u)) =
    (side.prod side).prod Draws := by
  have e : (fun u : Stream => ((fun u : Stream => (polar (u 0), polar (u 1))) u, rest 2 u)) =
      Prod.map (Prod.map polar polar) id ∘ fun u => ((u 0, u 1), rest 2 u) := rfl
  have m0 : Measurable fun u : Stream => ((u 0, u 1), rest 2 u) :=
    ((measurable_pi_apply 0).prodMk (measurable_pi_apply 1)).prodMk (measurable_rest 2)
  have m1 : Measurable (Prod.map polar polar) := measurable_polar.prodMap measurable_polar
  rw [e, ← Measure.map_map (m1.prodMap measurable_id) m0, draws_head2, ← Measure.map_prod_map _ _ m1 measurable_id,
    ← Measure.map_prod_map _ _ measurable_polar measurable_polar, Measure.map_id]
  rfl

theorem normal_samples {mean variance : ℝ} (hv : 0 < variance) :
    Samples (normal mean variance) id (gaussianReal mean variance.toNNReal) := by
  have hB : Measurable fun u : Stream => (polar (u 0), polar (u 1)) :=
    (measurable_polar.comp (measurable_pi_apply 0)).prodMk (measurable_polar.comp (measurable_pi_apply 1))
  have hg : Measurable fun x : ℝ => mean + √variance * x := by fun_prop
  have h := rej_samples (b := 2) hB measurableSet_disc draws_side side_disc_ne
    (fun p => mean + √variance * p.1 * √(-2 * log (sq2 p) / sq2 p)) id ((fun x => mean + √variance * x) ∘ marsaglia)
    (hg.comp measurable_marsaglia)
    (Filter.Eventually.of_forall fun p _ => by simp [marsaglia, mul_assoc])
  rw [← Measure.map_map hg measurable_marsaglia, map_marsaglia] at h
  have e1 : (gaussianReal 0 1).map (fun x => mean + √variance * x) = gaussianReal mean variance.toNNReal := by
    have : (fun x : ℝ => mean + √variance * x) = (fun x => mean + x) ∘ fun x => √variance * x := rfl
    rw [this, ← Measure.map_map (by fun_prop) (by fun_prop), gaussianReal_map_const_mul, gaussianReal_map_const_add]
    congr 1
    · simp
    · ext; simp [sq_sqrt hv.le, hv.le]
  rw [e1] at h
  have e : normal mean variance = rej 2 (fun u => (polar (u 0), polar (u 1))) disc
      (fun p => mean + √variance * p.1 * √(-2 * log (sq2 p) / sq2 p)) := by
    funext u n
    unfold normal rej
    rw [if_neg (not_le.2 hv)]
    rfl
  rw [e]; exact h

end Ideal
end Verif
