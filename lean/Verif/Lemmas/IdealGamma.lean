import Verif.Lemmas.IdealLaws
import Mathlib.MeasureTheory.Function.JacobianOneDim
import Mathlib.MeasureTheory.Group.Convolution

/-! # The rejection method of Ahrens and Dieter and sums of gamma variables -/

namespace Verif
namespace Ideal

open MeasureTheory ProbabilityTheory Set Real

/-- the density of the gamma distribution without its constant. -/
noncomputable def dens (a x : ℝ) : ENNReal := ENNReal.ofReal (x ^ (a - 1) * exp (-x))

theorem measurable_dens (a : ℝ) : Measurable (dens a) := by
  unfold dens
  exact ((measurable_id.pow_const _).mul (measurable_id.neg.exp)).ennreal_ofReal

theorem lintegral_gammaMeasure {a : ℝ} (ha : 0 < a) (F : ℝ → ENNReal) (hF : Measurable F) :
    ENNReal.ofReal (Gamma a) * ∫⁻ x, F x ∂(gammaMeasure a 1) = ∫⁻ x in Ioi (0:ℝ), dens a x * F x := by
  have hm : Measurable (gammaPDF a 1) := (measurable_gammaPDFReal a 1).ennreal_ofReal
  have hG := Gamma_pos_of_pos ha
  rw [gammaMeasure, lintegral_withDensity_eq_lintegral_mul _ hm hF, ← lintegral_const_mul' _ _ ENNReal.ofReal_ne_top,
    ← lintegral_indicator measurableSet_Ioi]
  refine lintegral_congr_ae ?_
  have h0 : ∀ᵐ x : ℝ, x ≠ 0 := by
    rw [ae_iff]; simp
  filter_upwards [h0] with x hx0
  by_cases hx : x ∈ Ioi (0:ℝ)
  · have hx' : 0 < x := hx
    rw [indicator_of_mem hx, Pi.mul_apply, gammaPDF_of_nonneg hx'.le, ← mul_assoc, ← ENNReal.ofReal_mul hG.le, dens]
    congr 2
    simp only [one_rpow, one_mul]
    field_simp
  · have hx' : x < 0 := lt_of_le_of_ne (not_lt.1 hx) hx0
    rw [indicator_of_notMem hx, Pi.mul_apply, gammaPDF_of_neg hx']
    simp

/-! ### Scaling -/

theorem map_div_gammaMeasure {a r : ℝ} (ha : 0 < a) (hr : 0 < r) :
    (gammaMeasure a 1).map (fun x => x / r) = gammaMeasure a r := by
  have hm : Measurable fun x : ℝ => x / r := by fun_prop
  have hp1 : Measurable (gammaPDF a 1) := (measurable_gammaPDFReal a 1).ennreal_ofReal
  refine Measure.ext fun S hS => ?_
  rw [Measure.map_apply hm hS, gammaMeasure, gammaMeasure, withDensity_apply _ (hm hS), withDensity_apply _ hS,
    ← lintegral_indicator (hm hS), ← lintegral_indicator hS]
  have himg : (fun y : ℝ => r * y) '' univ = univ := by
    ext x; simp only [mem_image, mem_univ, true_and, iff_true]; exact ⟨x / r, by field_simp⟩
  have hinj : InjOn (fun y : ℝ => r * y) univ := fun x _ y _ h => mul_left_cancel₀ hr.ne' h
  have hder : ∀ y ∈ (univ : Set ℝ), HasDerivWithinAt (fun y : ℝ => r * y) r univ y := by
    intro y _
    have : HasDerivAt (fun y : ℝ => r * y) r y := by simpa using (hasDerivAt_id y).const_mul r
    exact this.hasDerivWithinAt
  have h := lintegral_image_eq_lintegral_abs_deriv_mul MeasurableSet.univ hder hinj
    (((fun x => x / r) ⁻¹' S).indicator (gammaPDF a 1))
  rw [himg, setLIntegral_univ, setLIntegral_univ] at h
  rw [h]
  refine lintegral_congr fun y => ?_
  have e1 : (r * y ∈ (fun x => x / r) ⁻¹' S) ↔ y ∈ S := by
    simp only [mem_preimage]; rw [mul_div_cancel_left₀ _ hr.ne']
  by_cases hy : y ∈ S
  · rw [indicator_of_mem hy, indicator_of_mem (e1.2 hy), abs_of_pos hr]
    by_cases h0 : 0 ≤ y
    · rw [gammaPDF_of_nonneg h0, gammaPDF_of_nonneg (by positivity), ← ENNReal.ofReal_mul hr.le]
      congr 1
      rw [one_rpow, one_mul, mul_rpow hr.le h0, rpow_sub_one hr.ne']
      field_simp
    · rw [gammaPDF_of_neg (not_le.1 h0), gammaPDF_of_neg (by nlinarith), mul_zero]
  · rw [indicator_of_notMem hy, indicator_of_notMem (fun h => hy (e1.1 h)), mul_zero]

/-! ### Sums -/

theorem beta_scale {a b s : ℝ} (hs : 0 < s) :
    ∫⁻ x in Ioo 0 s, ENNReal.ofReal (x ^ (a - 1) * (s - x) ^ (b - 1)) =
      ENNReal.ofReal (s ^ (a + b - 1)) * ∫⁻ v in Ioo (0:ℝ) 1, ENNReal.ofReal (v ^ (a - 1) * (1 - v) ^ (b - 1)) := by
  have himg : (fun v : ℝ => s * v) '' Ioo 0 1 = Ioo 0 s := by
    ext x; simp only [mem_image, mem_Ioo]
    constructor
    · rintro ⟨v, ⟨h0, h1⟩, rfl⟩; exact ⟨by positivity, by nlinarith⟩
    · rintro ⟨h0, h1⟩; exact ⟨x / s, ⟨by positivity, by rw [div_lt_one hs]; exact h1⟩, by field_simp⟩
  have hinj : InjOn (fun y : ℝ => s * y) (Ioo 0 1) := fun x _ y _ h => mul_left_cancel₀ hs.ne' h
  have hder : ∀ y ∈ Ioo (0:ℝ) 1, HasDerivWithinAt (fun y : ℝ => s * y) s (Ioo 0 1) y := by
    intro y _
    have := (hasDerivAt_id y).const_mul s
    simpa using this.hasDerivWithinAt
  rw [← himg, lintegral_image_eq_lintegral_abs_deriv_mul measurableSet_Ioo hder hinj,
    ← lintegral_const_mul' _ _ ENNReal.ofReal_ne_top]
  refine setLIntegral_congr_fun measurableSet_Ioo fun v hv => ?_
  have h1 : 0 ≤ 1 - v := by linarith [hv.2]
  rw [abs_of_pos hs, ← ENNReal.ofReal_mul hs.le, ← ENNReal.ofReal_mul (by positivity)]
  congr 1
  rw [show s - s * v = s * (1 - v) by ring, mul_rpow hs.le hv.1.le, mul_rpow hs.le h1,
    show a + b - 1 = (a - 1) + (b - 1) + 1 by ring, rpow_add hs, rpow_add hs, rpow_one]
  ring

theorem conv_lintegral {a b : ℝ} (F : ℝ → ENNReal) (hF : Measurable F) :
    ∫⁻ x in Ioi (0:ℝ), ∫⁻ y in Ioi (0:ℝ), dens a x * (dens b y * F (x + y)) =
      (∫⁻ v in Ioo (0:ℝ) 1, ENNReal.ofReal (v ^ (a - 1) * (1 - v) ^ (b - 1))) * ∫⁻ s in Ioi (0:ℝ), dens (a + b) s * F s := by
  have hda := measurable_dens a
  have hdb := measurable_dens b
  have h1 : ∀ x, ∫⁻ y in Ioi (0:ℝ), dens a x * (dens b y * F (x + y)) =
      ∫⁻ s, (Ioi x).indicator (fun s => dens a x * (dens b (s - x) * F s)) s := by
    intro x
    rw [← lintegral_indicator measurableSet_Ioi,
      ← lintegral_add_left_eq_self ((Ioi x).indicator fun s => dens a x * (dens b (s - x) * F s)) x]
    refine lintegral_congr fun y => ?_
    by_cases hy : y ∈ Ioi (0:ℝ)
    · rw [indicator_of_mem hy, indicator_of_mem (show x + y ∈ Ioi x by simpa using hy), add_sub_cancel_left]
    · rw [indicator_of_notMem hy, indicator_of_notMem (show x + y ∉ Ioi x by simpa using hy)]
  simp_rw [h1]
  have hjoint : Measurable (Function.uncurry fun x s : ℝ => (Ioi x).indicator (fun s => dens a x * (dens b (s - x) * F s)) s) := by
    have : (Function.uncurry fun x s : ℝ => (Ioi x).indicator (fun s => dens a x * (dens b (s - x) * F s)) s) =
        {p : ℝ × ℝ | p.1 < p.2}.indicator fun p => dens a p.1 * (dens b (p.2 - p.1) * F p.2) := by
      funext p; simp only [Function.uncurry, indicator, mem_Ioi, mem_ofPred_eq]
    rw [this]
    refine Measurable.indicator ?_ (measurableSet_lt measurable_fst measurable_snd)
    exact (hda.comp measurable_fst).mul ((hdb.comp (measurable_snd.sub measurable_fst)).mul (hF.comp measurable_snd))
  rw [lintegral_lintegral_swap hjoint.aemeasurable, ← lintegral_const_mul _ (by
    have := measurable_dens (a + b); fun_prop), ← lintegral_indicator measurableSet_Ioi]
  refine lintegral_congr fun s => ?_
  by_cases hs : s ∈ Ioi (0:ℝ)
  · have hs' : 0 < s := hs
    rw [indicator_of_mem hs, ← lintegral_indicator measurableSet_Ioi]
    have e : ∀ x, (Ioi (0:ℝ)).indicator (fun x => (Ioi x).indicator (fun s => dens a x * (dens b (s - x) * F s)) s) x =
        (Ioo 0 s).indicator (fun x => ENNReal.ofReal (x ^ (a - 1) * (s - x) ^ (b - 1)) * (ENNReal.ofReal (exp (-s)) * F s)) x := by
      intro x
      by_cases hx : x ∈ Ioo 0 s
      · rw [indicator_of_mem hx, indicator_of_mem (show x ∈ Ioi (0:ℝ) from hx.1), indicator_of_mem (show s ∈ Ioi x from hx.2)]
        have hsx : 0 < s - x := by linarith [hx.2]
        have hx0 : 0 < x := hx.1
        rw [dens, dens, ← mul_assoc, ← mul_assoc, ← ENNReal.ofReal_mul (by positivity), ← ENNReal.ofReal_mul (by positivity)]
        congr 2
        rw [show -s = -x + -(s - x) by ring, exp_add]
        ring
      · rw [indicator_of_notMem hx]
        by_cases h0 : x ∈ Ioi (0:ℝ)
        · rw [indicator_of_mem h0, indicator_of_notMem (fun h : s ∈ Ioi x => hx ⟨h0, h⟩)]
        · rw [indicator_of_notMem h0]
    simp_rw [e]
    rw [lintegral_indicator measurableSet_Ioo, lintegral_mul_const _ (by fun_prop), beta_scale hs', dens,
      ENNReal.ofReal_mul (by positivity)]
    ring
  · rw [indicator_of_notMem hs, ← lintegral_indicator measurableSet_Ioi]
    have : ∀ x, (Ioi (0:ℝ)).indicator (fun x => (Ioi x).indicator (fun s => dens a x * (dens b (s - x) * F s)) s) x = 0 := by
      intro x
      by_cases h0 : x ∈ Ioi (0:ℝ)
      · have h0' : 0 < x := h0
        rw [indicator_of_mem h0, indicator_of_notMem]
        intro h; have h' : x < s := h; exact hs (h0'.trans h')
      · rw [indicator_of_notMem h0]
    simp [this]

/-- The sum of two independent gamma variables of the same rate is a gamma variable. -/
theorem conv_gammaMeasure {a b : ℝ} (ha : 0 < a) (hb : 0 < b) :
    ((gammaMeasure a 1).prod (gammaMeasure b 1)).map (fun p => p.1 + p.2) = gammaMeasure (a + b) 1 := by
  have := isProbabilityMeasure_gammaMeasure ha one_pos
  have := isProbabilityMeasure_gammaMeasure hb one_pos
  have := isProbabilityMeasure_gammaMeasure (add_pos ha hb) one_pos
  have hm : Measurable fun p : ℝ × ℝ => p.1 + p.2 := by fun_prop
  have hpm : IsProbabilityMeasure (((gammaMeasure a 1).prod (gammaMeasure b 1)).map (fun p => p.1 + p.2)) :=
    Measure.isProbabilityMeasure_map hm.aemeasurable
  have hGa : ENNReal.ofReal (Gamma a) ≠ 0 := by simp [Gamma_pos_of_pos ha]
  have hGb : ENNReal.ofReal (Gamma b) ≠ 0 := by simp [Gamma_pos_of_pos hb]
  have hGab : ENNReal.ofReal (Gamma (a + b)) ≠ 0 := by simp [Gamma_pos_of_pos (add_pos ha hb)]
  obtain ⟨K, hK⟩ : ∃ K, ∀ F : ℝ → ENNReal, Measurable F →
      ∫⁻ s, F s ∂(((gammaMeasure a 1).prod (gammaMeasure b 1)).map (fun p => p.1 + p.2)) =
        K * ∫⁻ s, F s ∂(gammaMeasure (a + b) 1) := by
    refine ⟨(ENNReal.ofReal (Gamma a))⁻¹ * ((ENNReal.ofReal (Gamma b))⁻¹ *
      ((∫⁻ v in Ioo (0:ℝ) 1, ENNReal.ofReal (v ^ (a - 1) * (1 - v) ^ (b - 1))) * ENNReal.ofReal (Gamma (a + b)))), fun F hF => ?_⟩
    have hFa : Measurable fun p : ℝ × ℝ => F (p.1 + p.2) := hF.comp hm
    rw [lintegral_map hF hm, lintegral_prod _ hFa.aemeasurable]
    have hFm : Measurable fun x : ℝ => ∫⁻ y, F (x + y) ∂(gammaMeasure b 1) := (hF.comp hm).lintegral_prod_right'
    have e1 : ∫⁻ x, ∫⁻ y, F (x + y) ∂(gammaMeasure b 1) ∂(gammaMeasure a 1) =
        (ENNReal.ofReal (Gamma a))⁻¹ * ∫⁻ x in Ioi (0:ℝ), dens a x * ∫⁻ y, F (x + y) ∂(gammaMeasure b 1) := by
      rw [← lintegral_gammaMeasure ha _ hFm, ← mul_assoc, ENNReal.inv_mul_cancel hGa ENNReal.ofReal_ne_top, one_mul]
    have e2 : ∀ x : ℝ, dens a x * ∫⁻ y, F (x + y) ∂(gammaMeasure b 1) =
        (ENNReal.ofReal (Gamma b))⁻¹ * ∫⁻ y in Ioi (0:ℝ), dens a x * (dens b y * F (x + y)) := by
      intro x
      have hFx : Measurable fun y : ℝ => F (x + y) := by fun_prop
      have hp : Measurable fun y : ℝ => dens b y * F (x + y) := (measurable_dens b).mul hFx
      rw [lintegral_const_mul _ hp, ← lintegral_gammaMeasure hb _ hFx, ← mul_assoc, ← mul_assoc,
        mul_comm (_)⁻¹ (dens a x), mul_assoc (dens a x), ENNReal.inv_mul_cancel hGb ENNReal.ofReal_ne_top, mul_one]
    rw [e1]
    simp_rw [e2]
    rw [lintegral_const_mul' _ _ (ENNReal.inv_ne_top.2 hGb), conv_lintegral F hF, ← lintegral_gammaMeasure (add_pos ha hb) _ hF]
    ring
  have hK1 : K = 1 := by
    have := hK (fun _ => 1) measurable_const
    simpa using this.symm
  refine Measure.ext fun S hS => ?_
  have := hK (S.indicator 1) (measurable_one.indicator hS)
  rw [lintegral_indicator_one hS, lintegral_indicator_one hS, hK1, one_mul] at this
  exact this

/-! ### The fractional part -/

open Sampling

/-- `b` of `sampleGamma`. -/
noncomputable def adB (f : ℝ) : ℝ := (exp 1 + f) / exp 1

/-- value of a round. -/
noncomputable def zval (f q : ℝ) : ℝ := if adB f * q > 1 then -log ((adB f - adB f * q) / f) else (adB f * q) ^ (1 / f)

/-- acceptance probability of a round. -/
noncomputable def aval (f q : ℝ) : ℝ := if adB f * q > 1 then zval f q ^ (f - 1) else exp (-zval f q)

theorem measurable_zval (f : ℝ) : Measurable (zval f) := by
  unfold zval
  refine Measurable.ite (measurableSet_lt measurable_const (measurable_id.const_mul _)) ?_ ?_
  · exact ((((measurable_id.const_mul _).const_sub _).div_const _).log).neg
  · exact (measurable_id.const_mul _).pow_const _

theorem measurable_aval (f : ℝ) : Measurable (aval f) := by
  unfold aval
  refine Measurable.ite (measurableSet_lt measurable_const (measurable_id.const_mul _)) ?_ ?_
  · exact (measurable_zval f).pow_const _
  · exact (measurable_zval f).neg.exp

/-- the accepted rounds, without those of probability zero in which `z` is infinite. -/
def adAcc (f : ℝ) : Set (ℝ × ℝ) := {p | gammaAccept f p.1 p.2}

theorem adB_pos {f : ℝ} (h0 : 0 < f) : 0 < adB f := by unfold adB; positivity

theorem adB_eq (f : ℝ) : adB f = 1 + f * exp (-1) := by
  unfold adB
  rw [exp_neg]
  field_simp

theorem gammaZ_eq {f q : ℝ} (h0 : 0 < f) (hq : q ≠ 1) : gammaZ f q = some (zval f q) := by
  have hb := adB_pos h0
  unfold gammaZ zval
  change (if adB f * q > 1 then (if adB f - adB f * q = 0 then none else some _) else some _) = _
  split
  next h =>
    rw [if_neg]
    · rfl
    · intro h'
      apply hq
      have : adB f * (1 - q) = 0 := by linarith
      rcases mul_eq_zero.1 this with h'' | h''
      · exact absurd h'' hb.ne'
      · linarith
  next h => rfl

theorem gammaAccept_iff {f q x : ℝ} (h0 : 0 < f) (hq : q ≠ 1) : gammaAccept f q x ↔ x ≤ aval f q := by
  unfold gammaAccept aval
  rw [gammaZ_eq h0 hq]
  change (if adB f * q > 1 then ¬ x > zval f q ^ (f - 1) else ¬ x > exp (-zval f q)) ↔ _
  split <;> simp

theorem measurableSet_adAcc {f : ℝ} (h0 : 0 < f) : MeasurableSet (adAcc f) := by
  classical
  have hset : adAcc f = ({p : ℝ × ℝ | p.1 ≠ 1} ∩ {p | p.2 ≤ aval f p.1}) ∪ ({p | p.1 = 1} ∩ {p | gammaAccept f 1 p.2}) := by
    ext ⟨q, x⟩
    simp only [adAcc, mem_union, mem_inter_iff, mem_ofPred_eq]
    by_cases hq : q = 1
    · simp [hq]
    · simp [hq, gammaAccept_iff h0 hq]
  have h1 : MeasurableSet {p : ℝ × ℝ | p.1 = 1} := measurable_fst (measurableSet_singleton (1:ℝ))
  have h2 : MeasurableSet {x : ℝ | gammaAccept f 1 x} := by
    have hb : adB f * 1 > 1 := by rw [adB_eq]; have := exp_pos (-1); nlinarith
    have : {x : ℝ | gammaAccept f 1 x} = Iic 0 := by
      ext x
      simp only [mem_ofPred_eq, gammaAccept, gammaZ, mem_Iic]
      change (if adB f * 1 > 1 then _ else _) ↔ _
      rw [if_pos hb]
      change (match (if adB f * 1 > 1 then (if adB f - adB f * 1 = 0 then none else some _) else some _ : Option ℝ) with
        | none => ¬ x > 0 | some z => ¬ x > z ^ (f - 1)) ↔ _
      rw [if_pos hb, if_pos (by ring)]
      simp
    rw [this]; exact measurableSet_Iic
  rw [hset]
  refine MeasurableSet.union ?_ (h1.inter (measurable_snd h2))
  exact (h1.compl).inter (measurableSet_le measurable_snd ((measurable_aval f).comp measurable_fst))

/-- first branch: draws up to `1 / b`. -/
theorem branch_low {f : ℝ} (h0 : 0 < f) (F : ℝ → ENNReal) :
    ∫⁻ q in Ioc 0 (1 / adB f), ENNReal.ofReal (aval f q) * F (zval f q) =
      ENNReal.ofReal (f / adB f) * ∫⁻ z in Ioc (0:ℝ) 1, dens f z * F z := by
  have hb := adB_pos h0
  have himg : (fun z : ℝ => z ^ f / adB f) '' Ioc 0 1 = Ioc 0 (1 / adB f) := by
    ext q; simp only [mem_image, mem_Ioc]
    constructor
    · rintro ⟨z, ⟨hz0, hz1⟩, rfl⟩
      exact ⟨by positivity, by gcongr; exact rpow_le_one hz0.le hz1 h0.le⟩
    · rintro ⟨hq0, hq1⟩
      have hbq : 0 < adB f * q := by positivity
      have hbq1 : adB f * q ≤ 1 := by rw [le_div_iff₀ hb] at hq1; linarith
      refine ⟨(adB f * q) ^ (1 / f), ⟨by positivity, rpow_le_one hbq.le hbq1 (by positivity)⟩, ?_⟩
      rw [← rpow_mul hbq.le, one_div_mul_cancel h0.ne', rpow_one]
      field_simp
  have hinj : InjOn (fun z : ℝ => z ^ f / adB f) (Ioc 0 1) := by
    intro x hx y hy h
    have h2 : x ^ f = y ^ f := by
      have : x ^ f / adB f = y ^ f / adB f := h
      field_simp at this; exact this
    exact (rpow_left_inj hx.1.le hy.1.le h0.ne').1 h2
  have hder : ∀ z ∈ Ioc (0:ℝ) 1, HasDerivWithinAt (fun z : ℝ => z ^ f / adB f) (f * z ^ (f - 1) / adB f) (Ioc 0 1) z := by
    intro z hz
    exact ((hasDerivAt_rpow_const (Or.inl hz.1.ne')).div_const _).hasDerivWithinAt
  rw [← himg, lintegral_image_eq_lintegral_abs_deriv_mul measurableSet_Ioc hder hinj,
    ← lintegral_const_mul' _ _ ENNReal.ofReal_ne_top]
  refine setLIntegral_congr_fun measurableSet_Ioc fun z hz => ?_
  have hz0 : 0 < z := hz.1
  have hbz : adB f * (z ^ f / adB f) = z ^ f := by field_simp
  have hle : ¬ adB f * (z ^ f / adB f) > 1 := by rw [hbz, not_lt]; exact rpow_le_one hz0.le hz.2 h0.le
  have hzv : zval f (z ^ f / adB f) = z := by
    rw [zval, if_neg hle, hbz, ← rpow_mul hz0.le, mul_one_div_cancel h0.ne', rpow_one]
  rw [aval, if_neg hle, hzv, dens, ← mul_assoc, ← mul_assoc, ← ENNReal.ofReal_mul (abs_nonneg _),
    ← ENNReal.ofReal_mul (by positivity), abs_of_nonneg (by positivity)]
  congr 2
  ring

/-- second branch: draws above `1 / b`. -/
theorem branch_high {f : ℝ} (h0 : 0 < f) (F : ℝ → ENNReal) :
    ∫⁻ q in Ioo (1 / adB f) 1, ENNReal.ofReal (aval f q) * F (zval f q) =
      ENNReal.ofReal (f / adB f) * ∫⁻ z in Ioi (1:ℝ), dens f z * F z := by
  have hb := adB_pos h0
  have hbe := adB_eq f
  have himg : (fun z : ℝ => 1 - f * exp (-z) / adB f) '' Ioi 1 = Ioo (1 / adB f) 1 := by
    ext q; simp only [mem_image, mem_Ioi, mem_Ioo]
    constructor
    · rintro ⟨z, hz, rfl⟩
      have h1 : exp (-z) < exp (-1) := exp_lt_exp.2 (by linarith)
      have h2 := exp_pos (-z)
      constructor
      · rw [div_lt_iff₀ hb, sub_mul, div_mul_cancel₀ _ hb.ne', hbe]; nlinarith
      · have : 0 < f * exp (-z) / adB f := by positivity
        linarith
    · rintro ⟨hq0, hq1⟩
      rw [div_lt_iff₀ hb] at hq0
      have hpos : 0 < (adB f - adB f * q) / f := div_pos (by nlinarith) h0
      have hlt : (adB f - adB f * q) / f < exp (-1) := by rw [div_lt_iff₀ h0]; nlinarith [hbe]
      refine ⟨-log ((adB f - adB f * q) / f), ?_, ?_⟩
      · have := log_lt_log hpos hlt
        rw [log_exp] at this; linarith
      · rw [neg_neg, exp_log hpos]; field_simp; ring
  have hinj : InjOn (fun z : ℝ => 1 - f * exp (-z) / adB f) (Ioi 1) := by
    intro x _ y _ h
    have h1 : f * exp (-x) / adB f = f * exp (-y) / adB f := by
      have : 1 - f * exp (-x) / adB f = 1 - f * exp (-y) / adB f := h
      linarith
    have h2 : exp (-x) = exp (-y) := by field_simp at h1; exact h1
    have := exp_injective h2; linarith
  have hder : ∀ z ∈ Ioi (1:ℝ), HasDerivWithinAt (fun z : ℝ => 1 - f * exp (-z) / adB f) (f * exp (-z) / adB f) (Ioi 1) z := by
    intro z _
    have h1 : HasDerivAt (fun z : ℝ => exp (-z)) (exp (-z) * -1) z := (hasDerivAt_id z).neg.exp
    have h2 := ((h1.const_mul f).div_const (adB f)).const_sub 1
    refine (h2.congr_deriv ?_).hasDerivWithinAt
    ring
  rw [← himg, lintegral_image_eq_lintegral_abs_deriv_mul measurableSet_Ioi hder hinj,
    ← lintegral_const_mul' _ _ ENNReal.ofReal_ne_top]
  refine setLIntegral_congr_fun measurableSet_Ioi fun z hz => ?_
  have hz1 : 1 < z := hz
  have hz0 : 0 < z := by linarith
  have hbz : adB f * (1 - f * exp (-z) / adB f) = adB f - f * exp (-z) := by field_simp
  have h1 : exp (-z) < exp (-1) := exp_lt_exp.2 (by linarith)
  have hgt : adB f * (1 - f * exp (-z) / adB f) > 1 := by rw [hbz, hbe]; nlinarith
  have hzv : zval f (1 - f * exp (-z) / adB f) = z := by
    rw [zval, if_pos hgt, hbz, sub_sub_cancel, mul_div_cancel_left₀ _ h0.ne', log_exp, neg_neg]
  rw [aval, if_pos hgt, hzv, dens, ← mul_assoc, ← mul_assoc, ← ENNReal.ofReal_mul (abs_nonneg _),
    ← ENNReal.ofReal_mul (by positivity), abs_of_nonneg (by positivity)]
  congr 2
  ring

theorem aval_mem {f q : ℝ} (h0 : 0 < f) (h1 : f < 1) (hq : q ∈ Ioo (0:ℝ) 1) : aval f q ∈ Icc (0:ℝ) 1 := by
  have hb := adB_pos h0
  have hbe := adB_eq f
  unfold aval
  split
  next h =>
    have hz : 1 ≤ zval f q := by
      rw [zval, if_pos h]
      have hpos : 0 < (adB f - adB f * q) / f := div_pos (by nlinarith [hq.2]) h0
      have hlt : (adB f - adB f * q) / f < exp (-1) := by rw [div_lt_iff₀ h0]; nlinarith
      have := log_lt_log hpos hlt
      rw [log_exp] at this; linarith
    exact ⟨rpow_nonneg (by linarith) _, rpow_le_one_of_one_le_of_nonpos hz (by linarith)⟩
  next h =>
    have hz : 0 ≤ zval f q := by
      rw [zval, if_neg h]
      have : 0 < adB f * q := mul_pos hb hq.1
      positivity
    exact ⟨(exp_pos _).le, by rw [exp_le_one_iff]; linarith⟩

theorem unif_le {a : ℝ} (h : a ∈ Icc (0:ℝ) 1) : unif (Iic a) = ENNReal.ofReal a := by
  rw [unif, Measure.restrict_apply measurableSet_Iic]
  have : Iic a ∩ Icc 0 1 = Icc 0 a := by
    ext x; simp only [mem_inter_iff, mem_Iic, mem_Icc]; constructor
    · rintro ⟨h, h', _⟩; exact ⟨h', h⟩
    · rintro ⟨h', h''⟩; exact ⟨h'', h', h''.trans h.2⟩
  rw [this, Real.volume_Icc, sub_zero]

theorem ad_lintegral {f : ℝ} (h0 : 0 < f) (h1 : f < 1) (F : ℝ → ENNReal) (hF : Measurable F) :
    ∫⁻ p in adAcc f, F (zval f p.1) ∂(unif.prod unif) =
      ENNReal.ofReal (f / adB f) * (ENNReal.ofReal (Gamma f) * ∫⁻ z, F z ∂(gammaMeasure f 1)) := by
  have hb := adB_pos h0
  have hA := measurableSet_adAcc h0
  have hFz : Measurable fun p : ℝ × ℝ => F (zval f p.1) := hF.comp ((measurable_zval f).comp measurable_fst)
  have hind : Measurable ((adAcc f).indicator fun p : ℝ × ℝ => F (zval f p.1)) := hFz.indicator hA
  rw [← lintegral_indicator hA, lintegral_prod _ hind.aemeasurable, lintegral_gammaMeasure h0 F hF]
  have e1 : ∀ᵐ q ∂unif, ∫⁻ x, (adAcc f).indicator (fun p : ℝ × ℝ => F (zval f p.1)) (q, x) ∂unif =
      ENNReal.ofReal (aval f q) * F (zval f q) := by
    have hne : ∀ᵐ q ∂unif, q ≠ 1 := by
      rw [ae_iff]; simp [unif]
    filter_upwards [unif_ae, hne] with q hq hq1
    have hq' : q ∈ Ioo (0:ℝ) 1 := ⟨hq.1, lt_of_le_of_ne hq.2 hq1⟩
    have e : (fun x => (adAcc f).indicator (fun p : ℝ × ℝ => F (zval f p.1)) (q, x)) =
        (Iic (aval f q)).indicator fun _ => F (zval f q) := by
      funext x
      by_cases hx : x ≤ aval f q
      · rw [indicator_of_mem (show (q, x) ∈ adAcc f from (gammaAccept_iff h0 hq1).2 hx),
          indicator_of_mem (show x ∈ Iic (aval f q) from hx)]
      · rw [indicator_of_notMem (fun h : (q, x) ∈ adAcc f => hx ((gammaAccept_iff h0 hq1).1 h)),
          indicator_of_notMem (show x ∉ Iic (aval f q) from hx)]
    rw [e, lintegral_indicator measurableSet_Iic, setLIntegral_const, unif_le (aval_mem h0 h1 hq'), mul_comm]
  rw [lintegral_congr_ae e1]
  have e2 : ∫⁻ q, ENNReal.ofReal (aval f q) * F (zval f q) ∂unif =
      (∫⁻ q in Ioc 0 (1 / adB f), ENNReal.ofReal (aval f q) * F (zval f q)) +
        ∫⁻ q in Ioo (1 / adB f) 1, ENNReal.ofReal (aval f q) * F (zval f q) := by
    have hb1 : 1 / adB f < 1 := by
      rw [div_lt_one hb, adB_eq]; have := exp_pos (-1); nlinarith
    have hb0 : 0 < 1 / adB f := by positivity
    have hu : Ioc 0 (1 / adB f) ∪ Ioo (1 / adB f) 1 = Ioo 0 1 := Ioc_union_Ioo_eq_Ioo hb0.le hb1
    have hdis : Disjoint (Ioc 0 (1 / adB f)) (Ioo (1 / adB f) 1) := by
      rw [Set.disjoint_left]; rintro x ⟨_, h⟩ ⟨h', _⟩; linarith
    rw [← lintegral_union measurableSet_Ioo hdis, hu, unif]
    exact setLIntegral_congr Ioo_ae_eq_Icc.symm
  rw [e2, branch_low h0, branch_high h0, ← mul_add, ← lintegral_union measurableSet_Ioi, Ioc_union_Ioi_eq_Ioi zero_le_one]
  rw [Set.disjoint_left]; rintro x ⟨_, h⟩ h'; exact absurd h' (not_lt.2 h)

theorem adAcc_prob {f : ℝ} (h0 : 0 < f) (h1 : f < 1) :
    (unif.prod unif) (adAcc f) = ENNReal.ofReal (f / adB f) * ENNReal.ofReal (Gamma f) := by
  have := isProbabilityMeasure_gammaMeasure h0 one_pos
  have h := ad_lintegral h0 h1 (fun _ => 1) measurable_const
  simpa using h

theorem adAcc_ne {f : ℝ} (h0 : 0 < f) (h1 : f < 1) : (unif.prod unif) (adAcc f) ≠ 0 := by
  rw [adAcc_prob h0 h1]
  have := adB_pos h0
  have hg := Gamma_pos_of_pos h0
  have hd : 0 < f / adB f := by positivity
  simp [hd, hg]

/-- The accepted rounds give a gamma distribution. -/
theorem map_zval {f : ℝ} (h0 : 0 < f) (h1 : f < 1) :
    ((unif.prod unif)[|adAcc f]).map (fun p => zval f p.1) = gammaMeasure f 1 := by
  have hm : Measurable fun p : ℝ × ℝ => zval f p.1 := (measurable_zval f).comp measurable_fst
  refine Measure.ext fun S hS => ?_
  have h := ad_lintegral h0 h1 (S.indicator 1) (measurable_one.indicator hS)
  rw [lintegral_indicator_one hS] at h
  have e : ∫⁻ p in adAcc f, S.indicator (1 : ℝ → ENNReal) (zval f p.1) ∂(unif.prod unif) =
      ((unif.prod unif).restrict (adAcc f)) ((fun p => zval f p.1) ⁻¹' S) := by
    rw [← lintegral_indicator_one (hm hS)]
    rfl
  rw [e] at h
  rw [Measure.map_apply hm hS, ProbabilityTheory.cond, Measure.smul_apply, h, smul_eq_mul, ← mul_assoc, ← mul_assoc,
    mul_assoc _ (ENNReal.ofReal (f / adB f)), ← adAcc_prob h0 h1,
    ENNReal.inv_mul_cancel (adAcc_ne h0 h1) (measure_ne_top _ _), one_mul]

theorem draws_block2 : Draws.map (fun u => ((fun u : Stream => (u 0, u 1)) u, rest 2 u)) = (unif.prod unif).prod Draws :=
  draws_head2

theorem frac_samples {f : ℝ} (h0 : 0 < f) (h1 : f < 1) :
    Samples (rej 2 (fun u => (u 0, u 1)) (adAcc f) fun p => gammaZ f p.1) some (gammaMeasure f 1) := by
  have hB : Measurable fun u : Stream => (u 0, u 1) := (measurable_pi_apply 0).prodMk (measurable_pi_apply 1)
  have h := rej_samples (b := 2) hB (measurableSet_adAcc h0) draws_block2 (adAcc_ne h0 h1)
    (fun p => gammaZ f p.1) some (fun p => zval f p.1) ((measurable_zval f).comp measurable_fst) ?_
  · rw [map_zval h0 h1] at h; exact h
  · have hne : ∀ᵐ q ∂unif, q ≠ 1 := by
      rw [ae_iff]; simp [unif]
    have := (Measure.quasiMeasurePreserving_fst (μ := unif) (ν := unif)).ae hne
    filter_upwards [this] with p hp _
    exact gammaZ_eq h0 hp

/-! ### The integral part -/

theorem expSum_shift (u : Stream) (m : ℕ) : ∀ (y : ℝ) (n : ℕ), expSum u m y n = (expSum u m 0 n).bind fun s n' => .ok (y + s) n' := by
  induction m with
  | zero => intro y n; simp [expSum, Res.bind]
  | succ m ih =>
    intro y n
    simp only [expSum]
    cases exponential 1 u n with
    | ok x k =>
      simp only [Res.bind]
      rw [ih (y + x), ih (0 + x)]
      cases expSum u m 0 k <;> simp [Res.bind, add_assoc]
    | throw => rfl
    | ub => rfl
    | diverge => rfl

/-- law of the sum of `m` exponential variables. -/
noncomputable def erlang (m : ℕ) : Measure ℝ := if m = 0 then Measure.dirac 0 else gammaMeasure m 1

instance (m : ℕ) : IsProbabilityMeasure (erlang m) := by
  unfold erlang
  split
  · infer_instance
  next h => exact isProbabilityMeasure_gammaMeasure (by positivity) one_pos

theorem conv_erlang (m : ℕ) {a : ℝ} (ha : 0 < a) :
    ((erlang m).prod (gammaMeasure a 1)).map (fun p => p.1 + p.2) = gammaMeasure (m + a) 1 := by
  have := isProbabilityMeasure_gammaMeasure ha one_pos
  unfold erlang
  split
  next h =>
    rw [Measure.dirac_prod, Measure.map_map (by fun_prop) (by fun_prop), h]
    have : ((fun p : ℝ × ℝ => p.1 + p.2) ∘ Prod.mk 0) = id := by funext x; simp
    rw [this, Measure.map_id]; simp
  next h => exact conv_gammaMeasure (by positivity) ha

theorem conv_erlang' (m : ℕ) {a : ℝ} (ha : 0 < a) :
    ((gammaMeasure a 1).prod (erlang m)).map (fun p => p.1 + p.2) = gammaMeasure (m + a) 1 := by
  have := isProbabilityMeasure_gammaMeasure ha one_pos
  rw [← conv_erlang m ha]
  conv_rhs => rw [← Measure.prod_swap]
  rw [Measure.map_map (by fun_prop) measurable_swap]
  congr 1
  funext p; simp [add_comm]

theorem expSum_samples (m : ℕ) : Samples (fun u n => expSum u m 0 n) id (erlang m) := by
  induction m with
  | zero =>
    have h := Samples.pure (id : ℝ → ℝ) 0
    have e : erlang 0 = Measure.dirac 0 := by simp [erlang]
    rw [e]; exact h
  | succ m ih =>
    have hp := isProbabilityMeasure_expMeasure (r := 1) one_pos
    have h := (exponential_samples (rate := 1) one_pos).seq ih (fun x s => x + s) (fun p => p.1 + p.2) (by fun_prop) id
      (fun x y => rfl)
    have e : ((expMeasure 1).prod (erlang m)).map (fun p => p.1 + p.2) = erlang (m + 1) := by
      rw [expMeasure, conv_erlang' m one_pos, erlang, if_neg (by omega)]; push_cast; rfl
    rw [e] at h
    have e2 : (fun u n => expSum u (m + 1) 0 n) =
        fun u n => (exponential 1 u n).bind fun x n' => (expSum u m 0 n').bind fun s n'' => .ok (x + s) n'' := by
      funext u n
      simp only [expSum]
      congr 1
      funext x n'
      rw [expSum_shift, zero_add]
    rw [e2]; exact h

/-! ### The sampler -/

theorem gamma_samples_frac {shape invScale : ℝ} (hs : 0 < shape) (hi : 0 < invScale)
    (hf : 1 / 2 ^ 52 < shape - ⌊shape⌋) : Samples (gamma shape invScale) some (gammaMeasure shape invScale) := by
  have hfl : 0 ≤ ⌊shape⌋ := Int.floor_nonneg.2 hs.le
  have hcast : ((⌊shape⌋.toNat : ℕ) : ℝ) = ((⌊shape⌋ : ℤ) : ℝ) := by
    have : ((⌊shape⌋.toNat : ℕ) : ℤ) = ⌊shape⌋ := Int.toNat_of_nonneg hfl
    exact_mod_cast congrArg (Int.cast : ℤ → ℝ) this
  have hf0 : 0 < shape - ⌊shape⌋.toNat := by
    rw [hcast]; exact lt_trans (by positivity) hf
  have hf1 : shape - ⌊shape⌋.toNat < 1 := by
    rw [hcast]; have := Int.lt_floor_add_one shape; linarith
  have hp := isProbabilityMeasure_gammaMeasure hf0 one_pos
  have h := (expSum_samples ⌊shape⌋.toNat).seq (frac_samples hf0 hf1)
    (fun y oz => oz.map fun z => (y + z) / invScale) (fun p => (p.1 + p.2) / invScale) (by fun_prop) some (fun x y => rfl)
  have e1 : ((erlang ⌊shape⌋.toNat).prod (gammaMeasure (shape - ⌊shape⌋.toNat) 1)).map (fun p => (p.1 + p.2) / invScale) =
      gammaMeasure shape invScale := by
    have : (fun p : ℝ × ℝ => (p.1 + p.2) / invScale) = (fun x => x / invScale) ∘ fun p => p.1 + p.2 := rfl
    rw [this, ← Measure.map_map (by fun_prop) (by fun_prop), conv_erlang _ hf0]
    rw [show (⌊shape⌋.toNat : ℝ) + (shape - ⌊shape⌋.toNat) = shape by ring, map_div_gammaMeasure hs hi]
  rw [e1] at h
  have e2 : gamma shape invScale = fun u n => (expSum u ⌊shape⌋.toNat 0 n).bind fun y n' =>
      (rej 2 (fun u => (u 0, u 1)) (adAcc (shape - ⌊shape⌋.toNat)) (fun p => gammaZ (shape - ⌊shape⌋.toNat) p.1) u n').bind
        fun oz n'' => .ok (oz.map fun z => (y + z) / invScale) n'' := by
    funext u n
    unfold gamma
    rw [if_neg (not_le.2 hs), if_neg (not_le.2 hi)]
    congr 1
    funext y n'
    simp only
    rw [if_pos (by rw [abs_of_pos hf0, hcast]; exact hf)]
    unfold rej
    change (match firstRound 2 (fun i => gammaAccept (shape - ⌊shape⌋.toNat) (u i) (u (i + 1))) n' with
      | none => Res.diverge
      | some i => .ok ((gammaZ (shape - ⌊shape⌋.toNat) (u i)).map fun z => (y + z) / invScale) (i + 2)) =
      (match firstRound 2 (fun i => gammaAccept (shape - ⌊shape⌋.toNat) (u i) (u (i + 1))) n' with
      | none => Res.diverge
      | some i => .ok (gammaZ (shape - ⌊shape⌋.toNat) (u i)) (i + 2)).bind _
    cases firstRound 2 (fun i => gammaAccept (shape - ⌊shape⌋.toNat) (u i) (u (i + 1))) n' <;> rfl
  rw [e2]; exact h

theorem gamma_samples_tiny {shape invScale : ℝ} (hs : 0 < shape) (hi : 0 < invScale)
    (hf : shape - ⌊shape⌋ ≤ 1 / 2 ^ 52) :
    Samples (gamma shape invScale) some ((erlang ⌊shape⌋.toNat).map fun y => y / invScale) := by
  have hfl : 0 ≤ ⌊shape⌋ := Int.floor_nonneg.2 hs.le
  have hcast : ((⌊shape⌋.toNat : ℕ) : ℝ) = ((⌊shape⌋ : ℤ) : ℝ) := by
    have : ((⌊shape⌋.toNat : ℕ) : ℤ) = ⌊shape⌋ := Int.toNat_of_nonneg hfl
    exact_mod_cast congrArg (Int.cast : ℤ → ℝ) this
  have hf0 : 0 ≤ shape - ⌊shape⌋.toNat := by
    rw [hcast]; have := Int.floor_le shape; linarith
  have h := (expSum_samples ⌊shape⌋.toNat).map (fun y => some ((y + 0) / invScale)) (fun y => y / invScale) (by fun_prop) some
    (fun x => by simp)
  have e2 : gamma shape invScale = fun u n => (expSum u ⌊shape⌋.toNat 0 n).bind fun y n' => .ok (some ((y + 0) / invScale)) n' := by
    funext u n
    unfold gamma
    rw [if_neg (not_le.2 hs), if_neg (not_le.2 hi)]
    congr 1
    funext y n'
    simp only
    rw [if_neg (by rw [abs_of_nonneg hf0, hcast]; exact not_lt.2 hf)]
  rw [e2]; exact h

end Ideal
end Verif
