import Verif.Model.ErrorTerms
import Mathlib.Analysis.SpecialFunctions.Complex.LogDeriv
import Mathlib.Analysis.SpecialFunctions.Trigonometric.Angle
import Mathlib.Analysis.SpecialFunctions.Trigonometric.Deriv
import Mathlib.Tactic.LinearCombination
import Mathlib.Tactic.FieldSimp

/-! Angles: `angleMod` and derivatives of `atan2` modulo 2π. -/

namespace Verif
namespace ErrorTerms
open Real Filter Topology

/-- an angle at which wrapping jumps: an odd multiple of π. -/
def Cut (x : ℝ) : Prop := ∃ k : ℤ, x = (2 * k + 1) * π

theorem floor_neg_half {y : ℝ} (h : ∀ k : ℤ, y ≠ k + 1 / 2) : -⌊-y + 1 / 2⌋ = ⌊y + 1 / 2⌋ := by
  symm
  rw [Int.floor_eq_iff]
  have h1 := Int.floor_le (-y + 1 / 2)
  have h2 := Int.lt_floor_add_one (-y + 1 / 2)
  push_cast
  refine ⟨by linarith, ?_⟩
  rcases lt_or_eq_of_le h1 with h3 | h3
  · linarith
  · exfalso
    apply h (-⌊-y + 1 / 2⌋)
    push_cast
    linarith

theorem roundAway_eq {y : ℝ} (h : ∀ k : ℤ, y ≠ k + 1 / 2) : roundAway y = ⌊y + 1 / 2⌋ := by
  unfold roundAway
  split_ifs
  · rfl
  · exact floor_neg_half h

theorem not_cut_iff {x : ℝ} : ¬ Cut x ↔ ∀ k : ℤ, x / (2 * π) ≠ k + 1 / 2 := by
  have hp : (2 * π) ≠ 0 := by positivity
  unfold Cut
  push Not
  refine forall_congr' fun k => not_congr ?_
  rw [div_eq_iff hp]
  constructor <;> intro h <;> rw [h] <;> ring

theorem angleMod_eq {x : ℝ} (h : ¬ Cut x) : angleMod x = x - 2 * π * ⌊x / (2 * π) + 1 / 2⌋ := by
  unfold angleMod
  rw [roundAway_eq (not_cut_iff.1 h)]

theorem angleMod_add {x : ℝ} (h : ¬ Cut x) (k : ℤ) : angleMod (x + 2 * π * k) = angleMod x := by
  have hp : (2 * π) ≠ 0 := by positivity
  have h2 : ¬ Cut (x + 2 * π * k) := by
    rintro ⟨j, hj⟩
    apply h
    exact ⟨j - k, by push_cast; linarith⟩
  rw [angleMod_eq h, angleMod_eq h2]
  have : (x + 2 * π * k) / (2 * π) + 1 / 2 = (x / (2 * π) + 1 / 2) + k := by field_simp; ring
  rw [this, Int.floor_add_intCast]
  push_cast
  ring

/-- near a point that is not a cut, wrapping subtracts a constant. -/
theorem angleMod_local {x : ℝ} (h : ¬ Cut x) :
    ∃ c : ℝ, ∀ᶠ y in 𝓝 x, ¬ Cut y ∧ angleMod y = y - c := by
  have hp : 0 < 2 * π := by positivity
  set n := ⌊x / (2 * π) + 1 / 2⌋ with hn
  have h1 : (n : ℝ) ≤ x / (2 * π) + 1 / 2 := Int.floor_le _
  have h2 : x / (2 * π) + 1 / 2 < n + 1 := Int.lt_floor_add_one _
  have h3 : (n : ℝ) < x / (2 * π) + 1 / 2 := by
    rcases lt_or_eq_of_le h1 with h3 | h3
    · exact h3
    · exfalso
      refine not_cut_iff.1 h (n - 1) ?_
      push_cast; linarith
  refine ⟨2 * π * n, ?_⟩
  have hcont : ContinuousAt (fun y : ℝ => y / (2 * π) + 1 / 2) x := by fun_prop
  have e1 : ∀ᶠ y in 𝓝 x, (n : ℝ) < y / (2 * π) + 1 / 2 := hcont.eventually (lt_mem_nhds h3)
  have e2 : ∀ᶠ y in 𝓝 x, y / (2 * π) + 1 / 2 < n + 1 := hcont.eventually (gt_mem_nhds h2)
  filter_upwards [e1, e2] with y h4 h5
  have hy : ¬ Cut y := by
    rw [not_cut_iff]
    intro k hk
    rw [hk] at h4 h5
    have h6 : (n : ℝ) < k + 1 := by linarith
    have h7 : (k : ℝ) + 1 < n + 1 := by linarith
    have h6' : n < k + 1 := by exact_mod_cast h6
    have h7' : k + 1 < n + 1 := by exact_mod_cast h7
    omega
  refine ⟨hy, ?_⟩
  rw [angleMod_eq hy]
  have : ⌊y / (2 * π) + 1 / 2⌋ = n := by
    rw [Int.floor_eq_iff]; exact ⟨le_of_lt h4, h5⟩
  rw [this]

/-- a function that agrees modulo 2π with a differentiable one is differentiable after wrapping, away from the cut. -/
theorem hasDerivAt_angleMod {f g : ℝ → ℝ} {g' x : ℝ} (hg : HasDerivAt g g' x)
    (hfg : ∀ᶠ t in 𝓝 x, ∃ k : ℤ, f t = g t + 2 * π * k) (hc : ¬ Cut (f x)) :
    HasDerivAt (fun t => angleMod (f t)) g' x := by
  have hgc : ¬ Cut (g x) := by
    obtain ⟨k, hk⟩ := hfg.self_of_nhds
    rintro ⟨j, hj⟩
    exact hc ⟨j + k, by rw [hk, hj]; push_cast; ring⟩
  obtain ⟨c, hloc⟩ := angleMod_local hgc
  have e1 : ∀ᶠ t in 𝓝 x, ¬ Cut (g t) ∧ angleMod (g t) = g t - c := hg.continuousAt.eventually hloc
  have e2 : (fun t => angleMod (f t)) =ᶠ[𝓝 x] fun t => g t - c := by
    filter_upwards [hfg, e1] with t h1 h2
    obtain ⟨k, hk⟩ := h1
    rw [hk, angleMod_add h2.1, h2.2]
  exact (hg.sub_const c).congr_of_eventuallyEq e2

/-- a curve in the plane. -/
noncomputable def curve (a b : ℝ → ℝ) (t : ℝ) : ℂ := ⟨a t, b t⟩

theorem hasDerivAt_curve {a b : ℝ → ℝ} {a' b' x : ℝ} (ha : HasDerivAt a a' x) (hb : HasDerivAt b b' x) :
    HasDerivAt (curve a b) (⟨a', b'⟩ : ℂ) x := by
  have h1 : HasDerivAt (fun t => ((a t : ℂ) + (b t : ℂ) * Complex.I)) ((a' : ℂ) + (b' : ℂ) * Complex.I) x :=
    ha.ofReal_comp.add (hb.ofReal_comp.mul_const _)
  have e1 : curve a b = fun t => ((a t : ℂ) + (b t : ℂ) * Complex.I) := by
    funext t; exact Complex.mk_eq_add_mul_I _ _
  have e2 : (⟨a', b'⟩ : ℂ) = (a' : ℂ) + (b' : ℂ) * Complex.I := Complex.mk_eq_add_mul_I _ _
  rw [e1, e2]; exact h1

theorem hasDerivAt_arg {z : ℝ → ℂ} {z' : ℂ} {x : ℝ} (hz : HasDerivAt z z' x) (hs : z x ∈ Complex.slitPlane) :
    HasDerivAt (fun t => Complex.arg (z t)) (z' / z x).im x := by
  have h := hz.clog_real hs
  have h2 := Complex.imCLM.hasFDerivAt.comp_hasDerivAt x h
  simpa [Function.comp_def, Complex.log_im] using h2

/-- the argument of a curve that avoids the origin is, modulo 2π, a differentiable function. -/
theorem atan2_branch {a b : ℝ → ℝ} {a' b' x : ℝ} (ha : HasDerivAt a a' x) (hb : HasDerivAt b b' x)
    (h0 : a x ≠ 0 ∨ b x ≠ 0) :
    ∃ g : ℝ → ℝ, HasDerivAt g ((a x * b' - b x * a') / (a x * a x + b x * b x)) x ∧
      ∀ᶠ t in 𝓝 x, ∃ k : ℤ, atan2 (b t) (a t) = g t + 2 * π * k := by
  have hz := hasDerivAt_curve ha hb
  have hne : curve a b x ≠ 0 := by
    intro h
    have h1 := congrArg Complex.re h
    have h2 := congrArg Complex.im h
    simp only [curve, Complex.zero_re, Complex.zero_im] at h1 h2
    rcases h0 with h0 | h0
    · exact h0 h1
    · exact h0 h2
  have him : ((⟨a', b'⟩ : ℂ) / curve a b x).im = (a x * b' - b x * a') / (a x * a x + b x * b x) := by
    rw [Complex.div_im]
    simp only [curve, Complex.normSq_mk]
    rw [← sub_div]
    congr 1
    ring
  have him2 : ((-⟨a', b'⟩ : ℂ) / -(curve a b x)).im = (a x * b' - b x * a') / (a x * a x + b x * b x) := by
    rw [neg_div_neg_eq, him]
  by_cases hs : curve a b x ∈ Complex.slitPlane
  · refine ⟨fun t => Complex.arg (curve a b t), ?_, ?_⟩
    · rw [← him]; exact hasDerivAt_arg hz hs
    · exact Eventually.of_forall fun t => ⟨0, by simp [atan2, curve]⟩
  · have hs2 : -(curve a b x) ∈ Complex.slitPlane := by
      rw [Complex.mem_slitPlane_iff] at hs ⊢
      push Not at hs
      left
      rcases lt_or_eq_of_le hs.1 with h | h
      · simpa using h
      · exact absurd (Complex.ext h hs.2) hne
    refine ⟨fun t => Complex.arg (-(curve a b t)) + π, ?_, ?_⟩
    · rw [← him2]; exact (hasDerivAt_arg hz.neg hs2).add_const π
    · have hev : ∀ᶠ t in 𝓝 x, curve a b t ≠ 0 := hz.continuousAt.eventually_ne hne
      filter_upwards [hev] with t ht
      have h1 := Complex.arg_neg_coe_angle ht
      have h2 : ((Complex.arg (curve a b t) : ℝ) : Real.Angle) = ((Complex.arg (-(curve a b t)) + π : ℝ) : Real.Angle) := by
        rw [Real.Angle.coe_add, h1, add_assoc, ← Real.Angle.coe_add, ← two_mul, Real.Angle.coe_two_pi, add_zero]
      rw [Real.Angle.angle_eq_iff_two_pi_dvd_sub] at h2
      obtain ⟨k, hk⟩ := h2
      exact ⟨k, by show Complex.arg (curve a b t) = _; linarith⟩

end ErrorTerms
end Verif
