import Mathlib.MeasureTheory.Integral.Gamma
import Verif.Model.Stats
import Mathlib.Probability.Distributions.Gamma
import Mathlib.NumberTheory.Harmonic.GammaDeriv

/-! Property C57: Gamma and chi-square distributions. -/

namespace Verif
namespace GammaD
open MeasureTheory ProbabilityTheory

/-- calls that change the distribution. -/
inductive Op where
  | shape (a : ℝ)
  | invScale (r : ℝ)
  | degrees (d : ℝ)

/-- effect of a call. -/
noncomputable def Op.run (s : GammaD) : Op → Res GammaD Unit
  | .shape a => s.setShape a
  | .invScale r => s.setInvScale r
  | .degrees d => s.setDegrees d

/-- objects after a successful construction (Gamma or chi-square) and any history of calls. -/
inductive Reach : GammaD → Prop
  | init {raw s : GammaD} {a r : ℝ} : ctor raw a r = .ok () s → Reach s
  | initChi {raw s : GammaD} {d : ℝ} : chiSquare raw d = .ok () s → Reach s
  | step {s s' : GammaD} (o : Op) : Reach s → (o.run s).state? = some s' → Reach s'

/-- the members belong together. -/
def Cons (s : GammaD) : Prop :=
  0 < s.shape ∧ 0 < s.invScale ∧ s.norm = Real.log (Real.Gamma s.shape) - s.shape * Real.log s.invScale

theorem setShape_cons {s s' : GammaD} {a : ℝ} (hs : Cons s) (h : (s.setShape a).state? = some s') : Cons s' := by
  unfold setShape at h
  split_ifs at h with hc
  · simp only [Res.state?, Option.some.injEq] at h; subst h; exact hs
  · simp only [Res.state?, Option.some.injEq] at h; subst h; exact ⟨not_le.1 hc, hs.2.1, rfl⟩

theorem ctor_cons {raw s : GammaD} {a r : ℝ} (h : ctor raw a r = .ok () s) :
    Cons s ∧ s.shape = a ∧ s.invScale = r := by
  unfold ctor setShape at h
  split_ifs at h with h1
  · simp [Res.bind] at h
  · simp only [Res.bind, setInvScale] at h
    split_ifs at h with h2
    simp only [Res.ok.injEq, true_and] at h
    subst h
    exact ⟨⟨not_le.1 h1, not_le.1 h2, rfl⟩, rfl, rfl⟩

theorem reach_cons {s : GammaD} (h : Reach s) : Cons s := by
  induction h with
  | init h => exact (ctor_cons h).1
  | initChi h => exact (ctor_cons h).1
  | @step s s' o _ hr ih =>
    cases o with
    | shape a => exact setShape_cons ih hr
    | degrees a => exact setShape_cons ih hr
    | invScale r =>
      simp only [Op.run, setInvScale] at hr
      split_ifs at hr with hc
      · simp only [Res.state?, Option.some.injEq] at hr; subst hr; exact ih
      · simp only [Res.state?, Option.some.injEq] at hr; subst hr; exact ⟨ih.1, not_le.1 hc, rfl⟩

/-- **C57**: setters reject exactly the non-positive values and then change nothing; the constructor rejects the same
values. -/
theorem C57_setters (s : GammaD) (v w : ℝ) :
    (v ≤ 0 → s.setShape v = .throw .badArgument s ∧ s.setInvScale v = .throw .badArgument s) ∧
    (0 < v → (∃ s', s.setShape v = .ok () s' ∧ s'.shape = v ∧ s'.invScale = s.invScale) ∧
      ∃ s', s.setInvScale v = .ok () s' ∧ s'.invScale = v ∧ s'.shape = s.shape) ∧
    ((∃ s', ctor s v w = .ok () s' ∧ s'.shape = v ∧ s'.invScale = w) ↔ 0 < v ∧ 0 < w) := by
  refine ⟨fun h => ⟨by rw [setShape, if_pos h], by rw [setInvScale, if_pos h]⟩, fun h => ⟨⟨⟨v, s.invScale, normalizer v s.invScale⟩, by rw [setShape, if_neg (not_le.2 h)], rfl, rfl⟩,
    ⟨⟨s.shape, v, normalizer s.shape v⟩, by rw [setInvScale, if_neg (not_le.2 h)], rfl, rfl⟩⟩, ?_⟩
  constructor
  · rintro ⟨s', h, -, -⟩
    obtain ⟨⟨a, b, -⟩, c, d⟩ := ctor_cons h
    exact ⟨c ▸ a, d ▸ b⟩
  · rintro ⟨a, b⟩
    refine ⟨⟨v, w, normalizer v w⟩, ?_, rfl, rfl⟩
    unfold ctor setShape
    rw [if_neg (not_le.2 a)]
    simp only [Res.bind, setInvScale]
    rw [if_neg (not_le.2 b)]

theorem exp_logpdf {s : GammaD} (h : Cons s) {x : ℝ} (hx : 0 < x) :
    Real.exp (s.logpdf x) = gammaPDFReal s.shape s.invScale x := by
  obtain ⟨h1, h2, h3⟩ := h
  have hG := Real.Gamma_pos_of_pos h1
  rw [logpdf, if_neg (fun hh => hx.ne' hh.1), gammaPDFReal, if_pos hx.le, h3, Real.rpow_def_of_pos h2,
    Real.rpow_def_of_pos hx]
  rw [show (s.shape - 1) * Real.log x - x * s.invScale -
      (Real.log (Real.Gamma s.shape) - s.shape * Real.log s.invScale) =
      (Real.log s.invScale * s.shape - Real.log (Real.Gamma s.shape)) + Real.log x * (s.shape - 1) +
        -(s.invScale * x) by ring, Real.exp_add, Real.exp_add, Real.exp_sub, Real.exp_log hG]

/-- **C57**: away from zero `pdf` is the Gamma density with the reported shape and inverse scale (Mathlib's
`gammaPDFReal`), zero for negative values; at zero it is infinite exactly for shapes below one, and the density
integrates to one. -/
theorem C57_pdf {s : GammaD} (h : Reach s) :
    (∀ x, x ≠ 0 → s.pdf x = some (gammaPDFReal s.shape s.invScale x)) ∧ (∀ x, x < 0 → s.pdf x = some 0) ∧
    (s.pdf 0 = none ↔ s.shape < 1) ∧ (s.shape = 1 → s.pdf 0 = some s.invScale) ∧
    (∫⁻ x, ENNReal.ofReal ((s.pdf x).getD 0)) = 1 := by
  have hc := reach_cons h
  obtain ⟨h1, h2, h3⟩ := hc
  have hA : ∀ x, x ≠ 0 → s.pdf x = some (gammaPDFReal s.shape s.invScale x) := by
    intro x hx
    unfold pdf
    split_ifs with ha hb
    · rw [gammaPDFReal, if_neg (not_le.2 ha)]
    · exact absurd hb.1 hx
    · exact absurd hb.1 hx
    · rw [exp_logpdf ⟨h1, h2, h3⟩ (lt_of_le_of_ne (not_lt.1 ha) (Ne.symm hx))]
  refine ⟨hA, ?_, ?_, ?_, ?_⟩
  · intro x hx; rw [pdf, if_pos hx]
  · unfold pdf
    rw [if_neg (lt_irrefl _)]
    constructor
    · intro hh
      by_contra hlt
      rcases lt_or_eq_of_le (not_lt.1 hlt) with hl | he
      · rw [if_pos ⟨rfl, hl.ne'⟩, if_pos hl] at hh; exact absurd hh (by simp)
      · rw [if_neg (fun q => q.2 he.symm)] at hh; exact absurd hh (by simp)
    · intro hl
      rw [if_pos ⟨rfl, hl.ne⟩, if_neg (not_lt.2 hl.le)]
  · intro he
    unfold pdf
    rw [if_neg (lt_irrefl _), if_neg (fun q => q.2 he), logpdf, if_pos ⟨rfl, he⟩, h3, he]
    simp [Real.exp_log h2]
  · rw [← lintegral_gammaPDF_eq_one h1 h2]
    refine lintegral_congr_ae ?_
    have : ∀ᵐ x : ℝ, x ≠ 0 := by
      have := (measure_singleton (0:ℝ) : volume {(0:ℝ)} = 0)
      rw [ae_iff]; simp
    filter_upwards [this] with x hx
    rw [hA x hx]; rfl

/-- **C57**: the chi-square distribution: degrees round-trip, and mean and variance are `degrees` and `2 degrees`. -/
theorem C57_chi_square (raw : GammaD) (d e : ℝ) (hd : 0 < d) (he : 0 < e) :
    ∃ s s', chiSquare raw d = .ok () s ∧ s.getDegrees = d ∧ s.getMean = d ∧ s.getVariance = 2 * d ∧
      s.setDegrees e = .ok () s' ∧ s'.getDegrees = e ∧ s'.getMean = e ∧ s'.getVariance = 2 * e := by
  have h1 : ¬ (0.5 * d ≤ 0) := not_le.2 (by positivity)
  have h2 : ¬ ((0.5:ℝ) ≤ 0) := by norm_num
  have h3 : ¬ (e * 0.5 ≤ 0) := not_le.2 (by positivity)
  refine ⟨⟨0.5 * d, 0.5, normalizer (0.5 * d) 0.5⟩, ⟨e * 0.5, 0.5, normalizer (e * 0.5) 0.5⟩, ?_, ?_, ?_, ?_, ?_, ?_, ?_, ?_⟩
  · unfold chiSquare ctor setShape
    rw [if_neg h1]
    simp only [Res.bind, setInvScale]
    rw [if_neg h2]
  · simp only [getDegrees]; ring
  · simp only [getMean]; ring
  · simp only [getVariance]; ring
  · rw [setDegrees, setShape, if_neg h3]
  · simp only [getDegrees]; ring
  · simp only [getMean]; ring
  · simp only [getVariance]; ring

example : (0:ℝ) < 3 := by norm_num

/-- `KLDivergence` between the same parameters is zero. -/
theorem C57_kl_self_partial (s : GammaD) : s.kl s = 0 := by unfold kl; ring

/-- `KLDivergence` of two Gamma distributions is **wrong**: between Gamma(1, 1) and Gamma(2, 1) it is negative, which a
divergence never is.  (The third term uses the digamma function of the other shape.) -/
theorem C57_kl_negative : ∃ s o, Reach s ∧ Reach o ∧ s.shape = 1 ∧ o.shape = 2 ∧ s.kl o < 0 := by
  have hc : ∀ a r : ℝ, 0 < a → 0 < r → ctor ⟨0, 0, 0⟩ a r = .ok () ⟨a, r, normalizer a r⟩ := by
    intro a r ha hr
    unfold ctor setShape
    rw [if_neg (not_le.2 ha)]
    simp only [Res.bind, setInvScale]
    rw [if_neg (not_le.2 hr)]
  refine ⟨_, _, .init (hc 1 1 one_pos one_pos), .init (hc 2 1 two_pos one_pos), rfl, rfl, ?_⟩
  have g2 : Real.Gamma 2 = 1 := Real.Gamma_two
  have d2 : deriv Real.Gamma 2 = 1 - Real.eulerMascheroniConstant := by
    have := (Real.hasDerivAt_Gamma_nat 1).deriv
    norm_num [harmonic] at this
    rw [this]; ring
  simp only [kl, digamma, g2, d2, Real.Gamma_one, Real.log_one]
  have := Real.eulerMascheroniConstant_lt_two_thirds
  norm_num
  linarith

/-- **C57**: `getMode` is rejected exactly for shapes below one; otherwise the density is nowhere larger than at the mode. -/
theorem C57_mode {s : GammaD} (h : Reach s) :
    (s.shape < 1 → s.getMode = .throw .invalidOperation ()) ∧
    (1 ≤ s.shape → ∃ m p, s.getMode = .ok m () ∧ s.pdf m = some p ∧ ∀ x, ∃ q, s.pdf x = some q ∧ q ≤ p) := by
  have hc := reach_cons h
  obtain ⟨h1, h2, h3⟩ := hc
  constructor
  · intro hs; rw [getMode, if_neg (not_le.2 hs)]
  · intro hs
    have hlog : ∀ x : ℝ, 0 < x → s.pdf x = some (Real.exp ((s.shape - 1) * Real.log x - x * s.invScale - s.norm)) := by
      intro x hx
      unfold pdf logpdf
      rw [if_neg (not_lt.2 hx.le), if_neg (fun q => hx.ne' q.1), if_neg (fun q => hx.ne' q.1)]
    have hneg : ∀ x : ℝ, x < 0 → s.pdf x = some 0 := fun x hx => by rw [pdf, if_pos hx]
    rcases lt_or_eq_of_le hs with hl | he
    · have h0 : s.pdf 0 = some 0 := by
        unfold pdf; rw [if_neg (lt_irrefl _), if_pos ⟨rfl, hl.ne'⟩, if_pos hl]
      have hm : 0 < (s.shape - 1) / s.invScale := div_pos (by linarith) h2
      refine ⟨_, _, by rw [getMode, if_pos hs], hlog _ hm, fun x => ?_⟩
      rcases lt_trichotomy x 0 with hx | rfl | hx
      · exact ⟨0, hneg x hx, (Real.exp_pos _).le⟩
      · exact ⟨0, h0, (Real.exp_pos _).le⟩
      · refine ⟨_, hlog x hx, Real.exp_le_exp.2 ?_⟩
        have hq : Real.log (x / ((s.shape - 1) / s.invScale)) ≤ x / ((s.shape - 1) / s.invScale) - 1 :=
          Real.log_le_sub_one_of_pos (div_pos hx hm)
        rw [Real.log_div hx.ne' hm.ne'] at hq
        have ha : 0 < s.shape - 1 := by linarith
        have h5 := mul_le_mul_of_nonneg_left hq ha.le
        have e1 : (s.shape - 1) * (x / ((s.shape - 1) / s.invScale) - 1) = x * s.invScale - (s.shape - 1) := by
          field_simp
        have e2 : (s.shape - 1) / s.invScale * s.invScale = s.shape - 1 := div_mul_cancel₀ _ h2.ne'
        rw [e1] at h5
        rw [e2]
        linarith
    · have hp0 : s.pdf 0 = some (Real.exp (-s.norm)) := by
        unfold pdf logpdf
        rw [if_neg (lt_irrefl _), if_neg (fun q => q.2 he.symm), if_pos ⟨rfl, he.symm⟩]
      refine ⟨(s.shape - 1) / s.invScale, Real.exp (-s.norm), by rw [getMode, if_pos hs], ?_, fun x => ?_⟩
      · rw [← he, sub_self, zero_div, hp0]
      · rcases lt_trichotomy x 0 with hx | rfl | hx
        · exact ⟨0, hneg x hx, (Real.exp_pos _).le⟩
        · exact ⟨_, hp0, le_refl _⟩
        · refine ⟨_, hlog x hx, Real.exp_le_exp.2 ?_⟩
          rw [← he]
          have := mul_pos hx h2
          linarith

theorem integral_pdf_moment {s : GammaD} (h : Reach s) (k : ℕ) :
    (∫ x, x ^ k * (s.pdf x).getD 0) = Real.Gamma (s.shape + k) / Real.Gamma s.shape / s.invScale ^ k := by
  have hA := (C57_pdf h).1
  obtain ⟨h1, h2, -⟩ := reach_cons h
  have hG := Real.Gamma_pos_of_pos h1
  have e : (fun x : ℝ => x ^ k * (s.pdf x).getD 0) =ᵐ[volume]
      (Set.Ioi (0:ℝ)).indicator (fun x => s.invScale ^ s.shape / Real.Gamma s.shape *
        (x ^ ((s.shape + k) - 1) * Real.exp (-(s.invScale * x)))) := by
    have : ∀ᵐ x : ℝ, x ≠ 0 := by
      rw [ae_iff]; simp
    filter_upwards [this] with x hx
    rw [hA x hx, Option.getD_some]
    rcases lt_or_gt_of_ne hx with hl | hg
    · rw [Set.indicator_of_notMem (by simpa using hl.le), gammaPDFReal, if_neg (not_le.2 hl), mul_zero]
    · rw [Set.indicator_of_mem (Set.mem_Ioi.2 hg), gammaPDFReal, if_pos hg.le]
      rw [show s.shape + (k:ℝ) - 1 = (s.shape - 1) + k by ring, Real.rpow_add hg, Real.rpow_natCast]
      ring
  rw [integral_congr_ae e, integral_indicator measurableSet_Ioi, integral_const_mul,
    Real.integral_rpow_mul_exp_neg_mul_Ioi (by positivity) h2, Real.div_rpow zero_le_one h2.le, Real.one_rpow,
    Real.rpow_add h2, Real.rpow_natCast]
  have := Real.rpow_pos_of_pos h2 s.shape
  field_simp

theorem moment_integrable {s : GammaD} (h : Reach s) (k : ℕ) : Integrable fun x => x ^ k * (s.pdf x).getD 0 := by
  by_contra hc
  have h0 := integral_undef hc
  rw [integral_pdf_moment h] at h0
  obtain ⟨h1, h2, -⟩ := reach_cons h
  have hG := Real.Gamma_pos_of_pos h1
  have hG2 : 0 < Real.Gamma (s.shape + k) := Real.Gamma_pos_of_pos (by positivity)
  have : 0 < Real.Gamma (s.shape + k) / Real.Gamma s.shape / s.invScale ^ k := by positivity
  exact this.ne' h0

/-- **C57**: `getMean` and `getVariance` are the mean and the variance of the density `pdf`. -/
theorem C57_moments {s : GammaD} (h : Reach s) :
    (∫ x, x * (s.pdf x).getD 0) = s.getMean ∧ (∫ x, (x - s.getMean) ^ 2 * (s.pdf x).getD 0) = s.getVariance := by
  obtain ⟨h1, h2, -⟩ := reach_cons h
  have hG := Real.Gamma_pos_of_pos h1
  have g1 : Real.Gamma (s.shape + 1) = s.shape * Real.Gamma s.shape := Real.Gamma_add_one h1.ne'
  have g2 : Real.Gamma (s.shape + 2) = (s.shape + 1) * (s.shape * Real.Gamma s.shape) := by
    rw [show s.shape + 2 = (s.shape + 1) + 1 by ring, Real.Gamma_add_one (by linarith), g1]
  have m0 := integral_pdf_moment h 0
  have m1 := integral_pdf_moment h 1
  have m2 := integral_pdf_moment h 2
  have i0 := moment_integrable h 0
  have i1 := moment_integrable h 1
  have i2 := moment_integrable h 2
  push_cast at m0 m1 m2
  rw [add_zero, div_self hG.ne'] at m0
  rw [g1] at m1
  rw [g2] at m2
  have hm : (∫ x, x * (s.pdf x).getD 0) = s.getMean := by
    have : (fun x : ℝ => x ^ 1 * (s.pdf x).getD 0) = fun x => x * (s.pdf x).getD 0 := by funext x; rw [pow_one]
    rw [← this, m1, getMean]; field_simp
  refine ⟨hm, ?_⟩
  have e : (fun x : ℝ => (x - s.getMean) ^ 2 * (s.pdf x).getD 0) = fun x =>
      (x ^ 2 * (s.pdf x).getD 0 - 2 * s.getMean * (x ^ 1 * (s.pdf x).getD 0)) +
        s.getMean ^ 2 * (x ^ 0 * (s.pdf x).getD 0) := by
    funext x; ring
  have i21 : Integrable fun x => x ^ 2 * (s.pdf x).getD 0 - 2 * s.getMean * (x ^ 1 * (s.pdf x).getD 0) :=
    i2.sub (i1.const_mul _)
  rw [e, integral_add i21 (i0.const_mul _), integral_sub i2 (i1.const_mul _), integral_const_mul,
    integral_const_mul, m0, m1, m2, getMean, getVariance]
  field_simp
  ring

end GammaD
end Verif
