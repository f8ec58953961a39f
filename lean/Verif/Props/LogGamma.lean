import Verif.Model.LogGamma
import Mathlib.Analysis.SpecialFunctions.Gamma.Deligne
import Mathlib.Analysis.SpecialFunctions.Pow.Real

/-! Property C109: the multivariate log-gamma function. -/

namespace Verif
namespace LogGamma
open Real

/-- the multivariate gamma function (specification): `Γ_0 = 1`, `Γ_(p+1)(a) = π^(p/2) Γ(a) Γ_p(a - 1/2)`. -/
noncomputable def mvGamma : ℕ → ℝ → ℝ
  | 0, _ => 1
  | p + 1, a => π ^ ((p : ℝ) / 2) * Gamma a * mvGamma p (a - 1 / 2)

/-- all factors of the definition are positive arguments, or only no pole. -/
def NoPole (d : ℕ) (a : ℝ) : Prop := ∀ i < d, ∀ n : ℕ, a - (i : ℝ) / 2 ≠ -(n : ℝ)

theorem lgamma_some {x : ℝ} (h : ∀ n : ℕ, x ≠ -(n : ℝ)) : lgamma x = some (log |Gamma x|) := by
  unfold lgamma; rw [if_neg]; push Not; exact h

theorem sumLoop_none (a : ℝ) : ∀ k i, sumLoop a k i none = none
  | 0, _ => rfl
  | k + 1, i => by simp [sumLoop, sumLoop_none a k]

theorem sumLoop_some (a : ℝ) : ∀ (k i : ℕ) (s : ℝ), (∀ j, i ≤ j → j < i + k → ∀ n : ℕ, a - (j : ℝ) / 2 ≠ -(n : ℝ)) →
    sumLoop a k i (some s) = some (s + ∑ j ∈ Finset.range k, log |Gamma (a - ((i + j : ℕ) : ℝ) / 2)|)
  | 0, _, s, _ => by simp [sumLoop]
  | k + 1, i, s, h => by
    have e : a - 0.5 * (i : ℝ) = a - (i : ℝ) / 2 := by ring
    have h0 := lgamma_some (h i le_rfl (by omega))
    simp only [sumLoop, e, h0, Option.bind_some, Option.map_some]
    rw [sumLoop_some a k (i + 1) _ fun j h1 h2 => h j (by omega) (by omega), Finset.sum_range_succ']
    simp only [Nat.add_zero, Option.some.injEq]
    have : ∀ j, i + 1 + j = i + (j + 1) := fun j => by omega
    simp only [this]; ring

theorem sumLoop_pole (a : ℝ) : ∀ (k i : ℕ) (o : Option ℝ), (∃ j, i ≤ j ∧ j < i + k ∧ ∃ n : ℕ, a - (j : ℝ) / 2 = -(n : ℝ)) →
    sumLoop a k i o = none
  | 0, i, o, ⟨j, h1, h2, _⟩ => by omega
  | k + 1, i, o, ⟨j, h1, h2, hn⟩ => by
    simp only [sumLoop]
    by_cases hj : j = i
    · subst hj
      have e : a - 0.5 * (j : ℝ) = a - (j : ℝ) / 2 := by ring
      have : lgamma (a - 0.5 * (j : ℝ)) = none := by rw [e]; unfold lgamma; rw [if_pos hn]
      simp only [this, Option.map_none]
      cases o <;> exact sumLoop_none a k _
    · exact sumLoop_pole a k (i + 1) _ ⟨j, by omega, by omega, hn⟩

theorem pairs_eq {d : ℕ} (h : d ≤ 4294967296) : pairs d = d * (d - 1) := by
  unfold pairs
  rcases Nat.eq_zero_or_pos d with rfl | hd
  · simp
  · have h1 : (d + 18446744073709551615) % 18446744073709551616 = d - 1 := by omega
    rw [h1, Nat.mod_eq_of_lt]
    calc d * (d - 1) ≤ 4294967296 * (4294967296 - 1) := Nat.mul_le_mul h (by omega)
      _ < 18446744073709551616 := by norm_num

/-- the recursion, unrolled. -/
theorem mvGamma_eq : ∀ (d : ℕ) (a : ℝ), NoPole d a →
    mvGamma d a ≠ 0 ∧ log |mvGamma d a| = (∑ j ∈ Finset.range d, log |Gamma (a - (j : ℝ) / 2)|) + (d * (d - 1) : ℝ) / 4 * log π
  | 0, a, _ => by simp [mvGamma]
  | d + 1, a, h => by
    have hr : NoPole d (a - 1 / 2) := by
      intro i hi n hn
      refine h (i + 1) (by omega) n ?_
      rw [← hn]; push_cast; ring
    obtain ⟨h1, h2⟩ := mvGamma_eq d (a - 1 / 2) hr
    have hg : Gamma a ≠ 0 := Gamma_ne_zero fun n => by simpa using h 0 (by omega) n
    have hp : (0 : ℝ) < π ^ ((d : ℝ) / 2) := rpow_pos_of_pos pi_pos _
    refine ⟨mul_ne_zero (mul_ne_zero hp.ne' hg) h1, ?_⟩
    rw [mvGamma, abs_mul, abs_mul, log_mul (mul_ne_zero (abs_ne_zero.2 hp.ne') (abs_ne_zero.2 hg)) (abs_ne_zero.2 h1),
      log_mul (abs_ne_zero.2 hp.ne') (abs_ne_zero.2 hg), h2, abs_of_pos hp, log_rpow pi_pos, Finset.sum_range_succ']
    have e : ∀ j : ℕ, a - 1 / 2 - (j : ℝ) / 2 = a - ((j + 1 : ℕ) : ℝ) / 2 := fun j => by push_cast; ring
    simp only [e]
    push_cast
    simp only [zero_div, sub_zero]
    ring

/-- **C109**: for a dimension of at most 2³² the value is the logarithm of the absolute value of the multivariate gamma
function, infinite exactly when one of its factors is at a pole. -/
theorem C109_value_partial (d : ℕ) (hd : d ≤ 4294967296) (a : ℝ) :
    (NoPole d a → mvGamma d a ≠ 0 ∧ getValue d a = some (log |mvGamma d a|)) ∧ (¬ NoPole d a → getValue d a = none) := by
  constructor
  · intro h
    obtain ⟨h1, h2⟩ := mvGamma_eq d a h
    refine ⟨h1, ?_⟩
    unfold getValue
    rw [sumLoop_some a d 0 0 fun j _ hj => h j (by omega), h2, pairs_eq hd]
    simp only [Option.map_some, Option.some.injEq, zero_add]
    rcases Nat.eq_zero_or_pos d with rfl | hp
    · simp
    · push_cast [Nat.cast_sub hp]; ring
  · intro h
    unfold NoPole at h; push Not at h
    obtain ⟨i, hi, n, hn⟩ := h
    unfold getValue
    rw [sumLoop_pole a d 0 _ ⟨i, by omega, by omega, n, hn⟩]; rfl

/-- **C109**: in the range where the multivariate gamma function is used (`a > (d - 1) / 2`) it is positive and the value is its
logarithm. -/
theorem C109_range_partial (d : ℕ) (hd : d ≤ 4294967296) (a : ℝ) (ha : ((d : ℝ) - 1) / 2 < a) :
    0 < mvGamma d a ∧ getValue d a = some (log (mvGamma d a)) := by
  have hpos : ∀ (d : ℕ) (a : ℝ), ((d : ℝ) - 1) / 2 < a → 0 < mvGamma d a := by
    intro d
    induction d with
    | zero => intro a _; exact one_pos
    | succ d ih =>
      intro a ha
      push_cast at ha
      have h0 : (0 : ℝ) ≤ d := Nat.cast_nonneg d
      have h1 := ih (a - 1 / 2) (by linarith)
      have h2 : 0 < Gamma a := Gamma_pos_of_pos (by linarith)
      exact mul_pos (mul_pos (rpow_pos_of_pos pi_pos _) h2) h1
  have hn : NoPole d a := by
    intro i hi n hn
    have h1 : (i : ℝ) + 1 ≤ d := by exact_mod_cast hi
    have h2 : (0 : ℝ) ≤ n := Nat.cast_nonneg n
    linarith
  refine ⟨hpos d a ha, ?_⟩
  rw [((C109_value_partial d hd a).1 hn).2, abs_of_pos (hpos d a ha)]

/-- **C109**: in one dimension the value is the logarithm of Euler's gamma function, so on integers it is a log-factorial. -/
theorem C109_one_dimension (a : ℝ) (ha : 0 < a) : getValue 1 a = some (log (Gamma a)) ∧
    (∀ n : ℕ, getValue 1 (n + 1) = some (log (n.factorial : ℝ))) := by
  have key : ∀ a : ℝ, 0 < a → getValue 1 a = some (log (Gamma a)) := by
    intro a ha
    have h := (C109_range_partial 1 (by norm_num) a (by push_cast; linarith)).2
    rw [h]; simp [mvGamma]
  exact ⟨key a ha, fun n => by rw [key _ (by positivity), Gamma_nat_eq_factorial]⟩

/-- non-vacuity: two dimensions at 3/2. -/
example : (2 : ℕ) ≤ 4294967296 ∧ (((2 : ℕ) : ℝ) - 1) / 2 < 3 / 2 ∧ NoPole 2 (3 / 2) ∧ ¬ NoPole 2 (1 / 2) := by
  refine ⟨by norm_num, by norm_num, ?_, fun h => h 1 (by norm_num) 0 (by norm_num)⟩
  intro i hi n hn
  have h1 : (i : ℝ) + 1 ≤ 2 := by exact_mod_cast hi
  have h2 : (0 : ℝ) ≤ n := Nat.cast_nonneg n
  linarith

/-- **C109**, what is missing: from dimension 2³² + 1 on the product in the second summand wraps; there the value is not the
logarithm, whatever the argument. -/
theorem C109_overflow (a : ℝ) (h : NoPole 4294967297 a) : getValue 4294967297 a ≠ some (log |mvGamma 4294967297 a|) := by
  obtain ⟨h1, h2⟩ := mvGamma_eq _ a h
  unfold getValue
  rw [sumLoop_some a _ 0 0 fun j _ hj => h j (by omega), h2]
  have hp : pairs 4294967297 = 4294967296 := by unfold pairs; norm_num
  rw [hp]
  simp only [Option.map_some, ne_eq, Option.some.injEq, zero_add]
  have hl : 0 < log π := log_pos (by linarith [two_le_pi])
  intro hc
  have := add_left_cancel hc
  push_cast at this
  nlinarith

end LogGamma
end Verif
