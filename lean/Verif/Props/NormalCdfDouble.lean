import Verif.Model.NormalCdfDouble
import Verif.Props.NormalDouble
import Verif.Props.Normal

/-!
# The distribution function of a normal distribution computed in doubles
-/

namespace Verif
namespace Dbl
open ProbabilityTheory MeasureTheory

/-- the library's `erf` is accurate to one unit in the last place; `Normal1.erf` is the function of the C standard. -/
def ErfAccurate (erfD : ℚ → ℚ) : Prop := ∀ x : ℚ, |(erfD x : ℝ) - Normal1.erf x| ≤ |Normal1.erf x| / 2 ^ 52

theorem erfAccurate_exists : ∃ erfD, ErfAccurate erfD := by
  have h : ∀ x : ℚ, ∃ y : ℚ, |(y : ℝ) - Normal1.erf x| ≤ |Normal1.erf x| / 2 ^ 52 := by
    intro x
    by_cases hx : Normal1.erf (x : ℝ) = 0
    · exact ⟨0, by rw [hx]; simp⟩
    · have hp : 0 < |Normal1.erf (x : ℝ)| / 2 ^ 52 := by positivity
      obtain ⟨y, h1, h2⟩ := exists_rat_btwn (show Normal1.erf (x : ℝ) < Normal1.erf x + |Normal1.erf x| / 2 ^ 52 by linarith)
      exact ⟨y, by rw [abs_of_pos (by linarith)]; linarith⟩
  choose f hf using h
  exact ⟨f, hf⟩

theorem erf_mono : Monotone Normal1.erf :=
  monotone_of_deriv_nonneg (fun x => (Normal1.hasDerivAt_erf x).differentiableAt) fun x => by
    rw [(Normal1.hasDerivAt_erf x).deriv]; positivity

theorem erf_abs (x : ℝ) : |Normal1.erf x| ≤ 1 := by
  have h := fun y => erf_mono.ge_of_tendsto Normal1.tendsto_erf y
  rw [abs_le]
  have h2 := h (-x)
  rw [Normal1.erf_neg] at h2
  exact ⟨by linarith, h x⟩

/-- relative errors of the argument become absolute errors of `erf`. -/
theorem erf_rel {a z y : ℝ} (ha0 : 0 ≤ a) (ha : a ≤ 1 / 2 ^ 10) (h : RelErr a z y) : |Normal1.erf y - Normal1.erf z| ≤ a := by
  by_cases hz : z = 0
  · subst hz
    have : y = 0 := by simpa [RelErr] using h
    rw [this]; simpa using ha0
  have hz' : 0 < |z| := abs_pos.2 hz
  unfold RelErr at h
  have hder : ∀ t ∈ Set.uIcc z y, ‖2 / √Real.pi * Real.exp (-t ^ 2)‖ ≤ 1 / |z| := by
    intro t ht
    have ht1 : |z| * (1 - a) ≤ |t| := by
      have h1 := Set.abs_sub_left_of_mem_uIcc ht
      have h2 := abs_sub_abs_le_abs_sub z t
      rw [abs_sub_comm] at h2
      linarith
    have hsq : 1.77 ≤ √Real.pi := by
      apply Real.le_sqrt_of_sq_le
      have := Real.pi_gt_d2
      norm_num at *; linarith
    rw [Real.norm_of_nonneg (by positivity), le_div_iff₀ hz', Real.exp_neg, div_mul_eq_mul_div, div_mul_eq_mul_div, div_le_one (by positivity)]
    have he := Real.add_one_le_exp (t ^ 2)
    have hq : 2 * |t| ≤ t ^ 2 + 1 := by
      have := sq_nonneg (|t| - 1)
      rw [sub_sq, sq_abs] at this
      linarith
    have hi : (Real.exp (t ^ 2))⁻¹ * |z| * (2 * (1 - a)) ≤ 1 := by
      rw [mul_assoc, inv_mul_le_iff₀ (Real.exp_pos _)]
      linarith
    have hp : 0 ≤ (Real.exp (t ^ 2))⁻¹ * |z| := by positivity
    have := mul_le_mul_of_nonneg_left ha hp
    have := mul_le_mul_of_nonneg_left hsq hp
    linarith
  have key := Convex.norm_image_sub_le_of_norm_hasDerivWithin_le (f := Normal1.erf) (s := Set.uIcc z y) (C := 1 / |z|)
    (fun t _ => (Normal1.hasDerivAt_erf t).hasDerivWithinAt) hder (convex_uIcc z y) Set.left_mem_uIcc Set.right_mem_uIcc
  rw [Real.norm_eq_abs, Real.norm_eq_abs] at key
  refine key.trans ?_
  rw [div_mul_eq_mul_div, one_mul, div_le_iff₀ hz']
  exact h

theorem cdf_arg {sqrtD : ℚ → ℚ} (hsqrt : SqrtAccurate sqrtD) {v : ℚ} (hv : 0 < v) (m x : ℚ) :
    0 < sqrtD (fl53 (2 * v)) ∧ RelErr (5 / 2 ^ 53) (((x : ℝ) - m) / √(2 * v)) (fl53 (fl53 (x - m) / sqrtD (fl53 (2 * v))) : ℚ) := by
  have hV : (0:ℝ) < v := by exact_mod_cast hv
  have hf0 : 0 ≤ fl53 (2 * v) := fl53_nonneg (by linarith)
  have e1 : RelErr (1 / 2 ^ 53) (2 * (v : ℝ)) (fl53 (2 * v) : ℚ) := by
    have := relErr_fl (2 * v); push_cast at this; exact this
  have e2 := e1.sqrt (by linarith) (by exact_mod_cast hf0)
  have e3 : RelErr (1 / 2 ^ 53) √((fl53 (2 * v) : ℚ) : ℝ) (sqrtD (fl53 (2 * v)) : ℚ) := by
    have := hsqrt _ hf0
    unfold RelErr
    rw [abs_of_nonneg (Real.sqrt_nonneg _)]
    linarith
  have e4 := (e2.trans (by norm_num) e3).weaken (show _ ≤ (5 / 2 ^ 54 : ℝ) by norm_num)
  have hs : 0 < √(2 * (v : ℝ)) := by positivity
  unfold RelErr at e4
  rw [abs_of_pos hs] at e4
  generalize sqrtD (fl53 (2 * v)) = w at *
  generalize √(2 * (v : ℝ)) = s at *
  obtain ⟨a1, a2⟩ := abs_le.1 e4
  have hw : (0:ℝ) < w := by linarith
  refine ⟨by exact_mod_cast hw, ?_⟩
  have e5 : RelErr (11 / 2 ^ 55) (1 / s) (1 / (w : ℝ)) := by
    unfold RelErr
    rw [abs_of_pos (by positivity : 0 < 1 / s), div_sub_div _ _ hw.ne' hs.ne', one_mul, mul_one, abs_div, abs_of_pos (by positivity : 0 < (w:ℝ) * s),
      div_le_iff₀ (by positivity)]
    have : 11 / 2 ^ 55 * (1 / s) * ((w : ℝ) * s) = 11 / 2 ^ 55 * w := by field_simp
    rw [this, abs_sub_comm]
    linarith
  have e6 : RelErr (1 / 2 ^ 53) ((x : ℝ) - m) (fl53 (x - m) : ℚ) := by
    have := relErr_fl (x - m); push_cast at this; exact this
  have e7 := e6.mul (by norm_num) (by norm_num) e5
  have e8 : RelErr (1 / 2 ^ 53) (((fl53 (x - m) : ℚ) : ℝ) * (1 / w)) (fl53 (fl53 (x - m) / w) : ℚ) := by
    have := relErr_fl (fl53 (x - m) / w)
    push_cast at this
    rw [mul_one_div]
    exact this
  have e9 := (e7.trans (by norm_num) e8).weaken (show _ ≤ (5 / 2 ^ 53 : ℝ) by norm_num)
  rw [mul_one_div] at e9
  exact e9

/-- the integral of the density, as the expression `cdf` evaluates (C56). -/
theorem gaussian_cdf {v : ℝ} (hv : 0 < v) (m x : ℝ) :
    (∫ t in Set.Iic x, gaussianPDFReal m v.toNNReal t) = 1 / 2 * (1 + Normal1.erf ((x - m) / √(2 * v))) := by
  have hr : Normal1.Reach (Normal1.withVar ⟨m, v, 0, 0, 0⟩ v) := by
    refine Normal1.Reach.init (raw := ⟨0, v, 0, 0, 0⟩) (m := m) (v := v) ?_
    rw [Normal1.ctor, if_neg (not_le.2 hv)]
    rfl
  have h1 := Normal1.C56_cdf hr x
  have h2 := (Normal1.C56_pdf hr).1
  simp only [h2] at h1
  have e : Normal1.vnn (Normal1.withVar ⟨m, v, 0, 0, 0⟩ v) = v.toNNReal := rfl
  rw [e] at h1
  refine h1.symm.trans ?_
  show (0.5:ℝ) * (1 + Normal1.erf ((x - m) / √(2 * v))) = _
  norm_num

theorem cdf_error {sqrtD erfD : ℚ → ℚ} (hsqrt : SqrtAccurate sqrtD) (herf : ErfAccurate erfD) (logD : ℚ → ℚ) {v : ℚ} (hv : 0 < v) (m x : ℚ) :
    |((Norm1.withVariance logD m v).cdf sqrtD erfD x : ℝ) - ∫ t in Set.Iic (x : ℝ), gaussianPDFReal m (v : ℝ).toNNReal t| ≤ 1 / 2 ^ 50 := by
  rw [gaussian_cdf (by exact_mod_cast hv)]
  have h1 := erf_rel (by norm_num) (by norm_num) (cdf_arg hsqrt hv m x).2
  show |((fl53 (1 / 2 * fl53 (1 + erfD (fl53 (fl53 (x - m) / sqrtD (fl53 (2 * v)))))) : ℚ) : ℝ) - _| ≤ _
  have h2 := herf (fl53 (fl53 (x - m) / sqrtD (fl53 (2 * v))))
  have h3 := erf_abs ((fl53 (fl53 (x - m) / sqrtD (fl53 (2 * v))) : ℚ) : ℝ)
  generalize Normal1.erf ((fl53 (fl53 (x - m) / sqrtD (fl53 (2 * v))) : ℚ) : ℝ) = e at *
  generalize erfD (fl53 (fl53 (x - m) / sqrtD (fl53 (2 * v)))) = E at *
  generalize Normal1.erf (((x : ℝ) - m) / √(2 * v)) = e0 at *
  have h4 := relErr_fl (1 + E)
  have h5 := relErr_fl (1 / 2 * fl53 (1 + E))
  unfold RelErr at h4 h5
  push_cast at h4 h5
  generalize fl53 (1 / 2 * fl53 (1 + E)) = R at *
  generalize fl53 (1 + E) = F at *
  rw [abs_mul, abs_of_pos (by norm_num : (0:ℝ) < 1 / 2)] at h5
  have t1 := abs_add_le ((E : ℝ) - e) e
  rw [sub_add_cancel] at t1
  have t2 := abs_add_le (1 : ℝ) E
  rw [abs_one] at t2
  have t3 := abs_add_le ((F : ℝ) - (1 + E)) (1 + E)
  rw [sub_add_cancel] at t3
  obtain ⟨a1, a2⟩ := abs_le.1 h1
  obtain ⟨b1, b2⟩ := abs_le.1 h2
  obtain ⟨c1, c2⟩ := abs_le.1 h4
  obtain ⟨d1, d2⟩ := abs_le.1 h5
  rw [abs_le]
  constructor <;> linarith

/-- **C162**: after any history of setter calls on a distribution constructed with a positive variance the computed distribution function is at
every point the probability of smaller values under the normal distribution with the mean and the variance last accepted, up to `2^-50`. -/
theorem C162_error (logD sqrtD erfD : ℚ → ℚ) (hsqrt : SqrtAccurate sqrtD) (herf : ErfAccurate erfD) (m0 v0 : ℚ) (h0 : 0 < v0) :
    ∃ s0, Norm1.ctor logD m0 v0 = .ok s0 () ∧ ∀ (ops : List Norm1Op) (x : ℚ),
      |((Norm1.run logD s0 ops).cdf sqrtD erfD x : ℝ) -
        ∫ t in Set.Iic (x : ℝ), gaussianPDFReal (lastSet (m0, v0) ops).1 ((lastSet (m0, v0) ops).2 : ℝ).toNNReal t| ≤ 1 / 2 ^ 50 := by
  refine ⟨Norm1.withVariance logD m0 v0, by rw [Norm1.ctor, if_neg (not_le.2 h0)], fun ops x => ?_⟩
  obtain ⟨e, hv⟩ := run_eq logD ops m0 v0 h0
  rw [e]
  exact cdf_error hsqrt herf logD hv _ x

/-- **C162** (order): if the library's `erf` is monotone with values between -1 and 1, the computed distribution function is monotone with values
between 0 and 1; at the mean it is exactly one half. -/
theorem C162_order (logD sqrtD erfD : ℚ → ℚ) (hsqrt : SqrtAccurate sqrtD) (herf : ErfAccurate erfD) (m0 v0 : ℚ) (h0 : 0 < v0) (s0 : Norm1)
    (hs : Norm1.ctor logD m0 v0 = .ok s0 ()) (ops : List Norm1Op) :
    (Monotone erfD → Monotone ((Norm1.run logD s0 ops).cdf sqrtD erfD)) ∧
    ((∀ z, |erfD z| ≤ 1) → ∀ x, 0 ≤ (Norm1.run logD s0 ops).cdf sqrtD erfD x ∧ (Norm1.run logD s0 ops).cdf sqrtD erfD x ≤ 1) ∧
    (Norm1.run logD s0 ops).cdf sqrtD erfD (lastSet (m0, v0) ops).1 = 1 / 2 := by
  rw [Norm1.ctor, if_neg (not_le.2 h0)] at hs
  injection hs with hs
  subst hs
  obtain ⟨e, hv⟩ := run_eq logD ops m0 v0 h0
  rw [e]
  generalize (lastSet (m0, v0) ops).1 = m at *
  generalize (lastSet (m0, v0) ops).2 = v at *
  have hw := (cdf_arg hsqrt hv 0 0).1
  refine ⟨fun hm x y hxy => ?_, fun hb x => ?_, ?_⟩
  · show fl53 (1 / 2 * fl53 (1 + erfD (fl53 (fl53 (x - m) / sqrtD (fl53 (2 * v)))))) ≤
      fl53 (1 / 2 * fl53 (1 + erfD (fl53 (fl53 (y - m) / sqrtD (fl53 (2 * v))))))
    have h1 := fl53_mono (sub_le_sub_right hxy m)
    have h2 := hm (fl53_mono (div_le_div_of_nonneg_right h1 hw.le))
    have h3 := fl53_mono (add_le_add_right h2 1)
    exact fl53_mono (mul_le_mul_of_nonneg_left h3 (by norm_num))
  · show 0 ≤ fl53 (1 / 2 * fl53 (1 + erfD (fl53 (fl53 (x - m) / sqrtD (fl53 (2 * v)))))) ∧
      fl53 (1 / 2 * fl53 (1 + erfD (fl53 (fl53 (x - m) / sqrtD (fl53 (2 * v)))))) ≤ 1
    obtain ⟨b1, b2⟩ := abs_le.1 (hb (fl53 (fl53 (x - m) / sqrtD (fl53 (2 * v)))))
    have h1 := fl53_nonneg (show 0 ≤ 1 + erfD (fl53 (fl53 (x - m) / sqrtD (fl53 (2 * v)))) by linarith)
    have h2 := fl53_mono (show 1 + erfD (fl53 (fl53 (x - m) / sqrtD (fl53 (2 * v)))) ≤ 2 by linarith)
    rw [fl53_two] at h2
    refine ⟨fl53_nonneg (by linarith), ?_⟩
    have h3 := fl53_mono (show 1 / 2 * fl53 (1 + erfD (fl53 (fl53 (x - m) / sqrtD (fl53 (2 * v))))) ≤ 1 by linarith)
    rwa [fl53_one] at h3
  · show fl53 (1 / 2 * fl53 (1 + erfD (fl53 (fl53 (m - m) / sqrtD (fl53 (2 * v)))))) = 1 / 2
    have hz : fl53 0 = 0 := fl53_fix isDouble_zero
    have he : erfD 0 = 0 := by
      have := herf 0
      rw [Rat.cast_zero, Normal1.erf, intervalIntegral.integral_same, mul_zero, abs_zero, zero_div, sub_zero] at this
      exact_mod_cast abs_eq_zero.1 (le_antisymm this (abs_nonneg _))
    rw [sub_self, hz, zero_div, hz, he, add_zero, fl53_one, mul_one]
    have := fl53_pow (-1)
    norm_num at this
    exact this

/-- a case: mean 3 and variance 1 after a refused and two accepted calls. -/
example (logD : ℚ → ℚ) : ∃ sqrtD erfD s0, SqrtAccurate sqrtD ∧ ErfAccurate erfD ∧ Norm1.ctor logD 1 2 = .ok s0 () ∧
    (Norm1.run logD s0 [.setVariance 0, .setMean 3, .setVariance 1]).cdf sqrtD erfD 3 = 1 / 2 := by
  obtain ⟨sqrtD, h1⟩ := sqrtAccurate_exists
  obtain ⟨erfD, h2⟩ := erfAccurate_exists
  obtain ⟨s0, h3, -⟩ := C162_error logD sqrtD erfD h1 h2 1 2 (by norm_num)
  refine ⟨sqrtD, erfD, s0, h1, h2, h3, ?_⟩
  have := (C162_order logD sqrtD erfD h1 h2 1 2 (by norm_num) s0 h3 [.setVariance 0, .setMean 3, .setVariance 1]).2.2
  have e : lastSet (1, 2) [.setVariance 0, .setMean 3, .setVariance 1] = (3, 1) := by norm_num [lastSet]
  rw [e] at this
  exact this

end Dbl
end Verif
