import Verif.Lemmas.IdealStream
import Mathlib.Probability.Distributions.Exponential
import Mathlib.Probability.Distributions.Geometric
import Mathlib.Probability.CDF
import Mathlib.MeasureTheory.Function.Floor

/-! # Laws of the samplers that use one draw per round -/

namespace Verif
namespace Ideal

open MeasureTheory Sampling ProbabilityTheory Set

theorem measurableSet_ne_zero : MeasurableSet {x : ℝ | x ≠ 0} := (measurableSet_singleton (0:ℝ)).compl

theorem unif_ne_zero : unif {x : ℝ | x ≠ 0} = 1 := by
  have h : unif {x : ℝ | x ≠ 0}ᶜ = 0 := by
    have : {x : ℝ | x ≠ 0}ᶜ = {0} := by ext x; simp
    rw [this]; simp [unif]
  exact (prob_compl_eq_zero_iff measurableSet_ne_zero).1 h

theorem cond_unif : unif[|{x : ℝ | x ≠ 0}] = unif := by
  refine Measure.ext fun S hS => ?_
  rw [cond_apply measurableSet_ne_zero, unif_ne_zero]
  simp only [inv_one, one_mul]
  have h : unif {x : ℝ | x ≠ 0}ᶜ = 0 := by
    rw [prob_compl_eq_zero_iff measurableSet_ne_zero, unif_ne_zero]
  rw [inter_comm]
  exact measure_inter_conull h

theorem unif_ae : ∀ᵐ x ∂unif, x ∈ Ioc (0:ℝ) 1 := by
  have h1 : ∀ᵐ x ∂unif, x ∈ Icc (0:ℝ) 1 := ae_restrict_mem measurableSet_Icc
  have h2 : ∀ᵐ x ∂unif, x ≠ 0 := by
    rw [ae_iff]
    have : unif {x : ℝ | x ≠ 0}ᶜ = 0 := by
      rw [prob_compl_eq_zero_iff measurableSet_ne_zero, unif_ne_zero]
    exact this
  filter_upwards [h1, h2] with x hx h0
  exact ⟨lt_of_le_of_ne hx.1 (Ne.symm h0), hx.2⟩

theorem unif_ge {a : ℝ} (h0 : 0 ≤ a) : unif (Ici a) = ENNReal.ofReal (1 - a) := by
  rw [unif, Measure.restrict_apply measurableSet_Ici]
  have : Ici a ∩ Icc 0 1 = Icc a 1 := by
    ext x; simp only [mem_inter_iff, mem_Ici, mem_Icc]; constructor
    · rintro ⟨h, _, h'⟩; exact ⟨h, h'⟩
    · rintro ⟨h, h'⟩; exact ⟨h, le_trans h0 h, h'⟩
  rw [this, Real.volume_Icc]

theorem unif_Ioc {a b : ℝ} (h0 : 0 ≤ a) (h1 : b ≤ 1) : unif (Ioc a b) = ENNReal.ofReal (b - a) := by
  rw [unif, Measure.restrict_apply measurableSet_Ioc]
  have : Ioc a b ∩ Icc 0 1 = Ioc a b := by
    rw [inter_eq_left]; intro x hx; exact ⟨le_trans h0 hx.1.le, le_trans hx.2 h1⟩
  rw [this, Real.volume_Ioc]

/-- `-log(u) / rate` of a uniform number is exponential. -/
theorem map_log_unif {rate : ℝ} (hr : 0 < rate) : unif.map (fun x => -Real.log x / rate) = expMeasure rate := by
  have hm : Measurable fun x : ℝ => -Real.log x / rate := by fun_prop
  have : IsProbabilityMeasure (unif.map fun x => -Real.log x / rate) := Measure.isProbabilityMeasure_map hm.aemeasurable
  have := isProbabilityMeasure_expMeasure hr
  refine Measure.eq_of_cdf _ _ ?_
  ext x
  rw [cdf_expMeasure_eq hr, cdf_eq_real, map_measureReal_apply hm measurableSet_Iic]
  by_cases hx : 0 ≤ x
  · rw [if_pos hx]
    have e : unif ((fun x => -Real.log x / rate) ⁻¹' Iic x) = unif (Ici (Real.exp (-(rate * x)))) := by
      refine measure_congr ?_
      filter_upwards [unif_ae] with u hu
      refine propext ?_
      change -Real.log u / rate ≤ x ↔ Real.exp (-(rate * x)) ≤ u
      rw [div_le_iff₀ hr, ← Real.le_log_iff_exp_le hu.1]
      constructor <;> intro h <;> linarith
    have hle : Real.exp (-(rate * x)) ≤ 1 := by rw [Real.exp_le_one_iff]; nlinarith
    rw [measureReal_def, e, unif_ge (Real.exp_pos _).le, ENNReal.toReal_ofReal (by linarith)]
  · rw [if_neg hx, measureReal_def]
    have e : unif ((fun x => -Real.log x / rate) ⁻¹' Iic x) = 0 := by
      refine measure_mono_null (t := {u | ¬ u ∈ Ioc (0:ℝ) 1}) (fun u hu hm => ?_) (ae_iff.1 unif_ae)
      have h1 : -Real.log u / rate ≤ x := hu
      have h2 := Real.log_nonpos hm.1.le hm.2
      have h3 : 0 ≤ -Real.log u / rate := div_nonneg (by linarith) hr.le
      linarith
    rw [e]; rfl

theorem draws_block1 : Draws.map (fun u => ((fun u : Stream => u 0) u, rest 1 u)) = unif.prod Draws := draws_head

theorem measurable_zero : Measurable fun u : Stream => u 0 := measurable_pi_apply 0

theorem exponential_samples {rate : ℝ} (hr : 0 < rate) : Samples (exponential rate) id (expMeasure rate) := by
  have h := rej_samples (b := 1) measurable_zero measurableSet_ne_zero draws_block1 (by rw [unif_ne_zero]; simp)
    (fun x => -Real.log x / rate) id (fun x => -Real.log x / rate) (by fun_prop) (Filter.Eventually.of_forall fun x _ => rfl)
  rw [cond_unif, map_log_unif hr] at h
  have e : exponential rate = rej 1 (fun u => u 0) {x | x ≠ 0} fun x => -Real.log x / rate := by
    funext u n
    unfold exponential rej
    rw [if_neg (not_le.2 hr)]
    rfl
  rw [e]; exact h

/-- value of the geometric sampler as a function of the draw. -/
noncomputable def geoVal (p x : ℝ) : ℕ := if p = 1 then 0 else ⌊Real.log x / Real.log (1 - p)⌋.toNat

theorem measurable_geoVal (p : ℝ) : Measurable (geoVal p) := by
  unfold geoVal
  by_cases h : p = 1
  · simp [h]
  · simp only [h, if_false]
    exact (measurable_of_countable Int.toNat).comp (Int.measurable_floor.comp (Real.measurable_log.div_const _))

theorem geoVal_ge {p x : ℝ} (h0 : 0 < p) (h1 : p ≤ 1) (hx : x ∈ Ioc (0:ℝ) 1) (m : ℕ) :
    m ≤ geoVal p x ↔ x ≤ (1 - p) ^ m := by
  unfold geoVal
  split
  next hp =>
    subst hp
    rcases Nat.eq_zero_or_pos m with rfl | hmp
    · rw [pow_zero]; exact ⟨fun _ => hx.2, fun _ => Nat.zero_le _⟩
    · simp only [sub_self, zero_pow hmp.ne']
      constructor
      · intro h; omega
      · intro h; exact absurd h (not_le.2 hx.1)
  next hp =>
    have hq : 0 < 1 - p := by
      have : p < 1 := lt_of_le_of_ne h1 hp
      linarith
    have hlog : Real.log (1 - p) < 0 := Real.log_neg hq (by linarith)
    have hnum := Real.log_nonpos hx.1.le hx.2
    have hnn : 0 ≤ Real.log x / Real.log (1 - p) := div_nonneg_of_nonpos hnum hlog.le
    have hfl := Int.floor_nonneg.2 hnn
    rw [show (m ≤ ⌊Real.log x / Real.log (1 - p)⌋.toNat) ↔
        ((m:Int) ≤ ⌊Real.log x / Real.log (1 - p)⌋) by omega, Int.le_floor, le_div_iff_of_neg hlog,
      ← Real.log_le_log_iff hx.1 (by positivity), Real.log_pow]
    simp

theorem map_geoVal {p : ℝ} (h0 : 0 < p) (h1 : p ≤ 1) :
    unif.map (geoVal p) = geometricMeasure ⟨p, h0.le, h1⟩ := by
  refine Measure.ext_of_singleton fun m => ?_
  have hne : (⟨p, h0.le, h1⟩ : unitInterval) ≠ 0 := by
    intro h; have := congrArg Subtype.val h; simp at this; linarith
  have hq : 0 ≤ 1 - p := by linarith
  rw [geometricMeasure_singleton hne, Measure.map_apply (measurable_geoVal p) (measurableSet_singleton _)]
  have e : unif (geoVal p ⁻¹' {m}) = unif (Ioc ((1 - p) ^ (m + 1)) ((1 - p) ^ m)) := by
    refine measure_congr ?_
    filter_upwards [unif_ae] with u hu
    refine propext ?_
    change geoVal p u = m ↔ (1 - p) ^ (m + 1) < u ∧ u ≤ (1 - p) ^ m
    rw [← geoVal_ge h0 h1 hu m, ← not_le, ← geoVal_ge h0 h1 hu (m + 1)]
    omega
  rw [e, unif_Ioc (by positivity) (pow_le_one₀ hq (by linarith))]
  congr 1
  simp only
  ring

theorem geometric_samples {p : ℝ} (h0 : 0 < p) (h1 : p ≤ 1) :
    Samples (geometric p) id (geometricMeasure ⟨p, h0.le, h1⟩) := by
  have h := rej_samples (b := 1) measurable_zero measurableSet_ne_zero draws_block1 (by rw [unif_ne_zero]; simp)
    (geoVal p) id (geoVal p) (measurable_geoVal p) (Filter.Eventually.of_forall fun x _ => rfl)
  rw [cond_unif, map_geoVal h0 h1] at h
  have e : geometric p = rej 1 (fun u => u 0) {x | x ≠ 0} (geoVal p) := by
    funext u n
    unfold geometric rej
    rw [if_neg (by push Not; exact ⟨h0, h1⟩)]
    rfl
  rw [e]; exact h

/-- a sampler that makes one draw. -/
theorem one_draw {α β : Type} [MeasurableSpace β] (g : ℝ → α) (emb : β → α) (g' : ℝ → β) (hg' : Measurable g')
    (hg : ∀ᵐ x ∂unif, g x = emb (g' x)) : Samples (fun u n => .ok (g (u n)) (n + 1)) emb (unif.map g') := by
  refine ⟨fun u n => ?_, fun u => g' (u 0), fun _ => 1, hg'.comp measurable_zero, measurable_const, ?_, ?_⟩
  · simp [Res.mapState, rest]
  · have h0 : Draws.map (fun u => u 0) = unif := by
      have : (fun u : Stream => u 0) = Prod.fst ∘ fun u => (u 0, rest 1 u) := rfl
      rw [this, ← Measure.map_map measurable_fst (measurable_zero.prodMk (measurable_rest 1)), draws_head]
      exact Measure.fst_prod
    rw [← h0] at hg
    filter_upwards [ae_of_ae_map measurable_zero.aemeasurable hg] with u hu
    rw [hu]
  · have : (fun u : Stream => (g' (u 0), rest 1 u)) = Prod.map g' id ∘ fun u => (u 0, rest 1 u) := rfl
    rw [this, ← Measure.map_map (hg'.prodMap measurable_id) (measurable_zero.prodMk (measurable_rest 1)), draws_head,
      ← Measure.map_prod_map _ _ hg' measurable_id, Measure.map_id]

/-- the uniform distribution on an interval has density `1 / (b - a)`. -/
theorem map_affine_unif {a b : ℝ} (h : a < b) :
    unif.map (fun x => a + x * (b - a)) = (ENNReal.ofReal (b - a))⁻¹ • volume.restrict (Icc a b) := by
  have hd : 0 < b - a := by linarith
  have hm : Measurable fun x : ℝ => a + x * (b - a) := by fun_prop
  refine Measure.ext fun S hS => ?_
  rw [Measure.map_apply hm hS, unif, Measure.restrict_apply (hm hS), Measure.smul_apply, Measure.restrict_apply hS,
    smul_eq_mul]
  have e : (fun x : ℝ => a + x * (b - a)) ⁻¹' S ∩ Icc 0 1 = (fun x : ℝ => a + x * (b - a)) ⁻¹' (S ∩ Icc a b) := by
    ext x
    simp only [mem_inter_iff, mem_preimage, mem_Icc, and_congr_right_iff]
    intro _
    constructor
    · rintro ⟨h0, h1⟩; constructor <;> nlinarith
    · rintro ⟨h0, h1⟩; constructor <;> nlinarith
  have e2 : (fun x : ℝ => a + x * (b - a)) ⁻¹' (S ∩ Icc a b) =
      (fun x => x * (b - a)) ⁻¹' ((fun x => a + x) ⁻¹' (S ∩ Icc a b)) := rfl
  rw [e, e2, Real.volume_preimage_mul_right hd.ne', measure_preimage_add, abs_of_pos (inv_pos.2 hd),
    ENNReal.ofReal_inv_of_pos hd]

theorem uniform_samples {a b : ℝ} (h : a < b) :
    Samples (uniform a b) id ((ENNReal.ofReal (b - a))⁻¹ • volume.restrict (Icc a b)) := by
  have h1 := one_draw (fun x => a + x * (b - a)) id (fun x => a + x * (b - a)) (by fun_prop)
    (Filter.Eventually.of_forall fun x => rfl)
  rw [map_affine_unif h] at h1
  have e : uniform a b = fun u n => .ok (a + u n * (b - a)) (n + 1) := by
    funext u n; unfold uniform; rw [if_neg (not_le.2 h)]
  rw [e]; exact h1

end Ideal
end Verif
