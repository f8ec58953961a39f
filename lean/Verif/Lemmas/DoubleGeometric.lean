import Verif.Model.DoubleGeometric
import Verif.Lemmas.Double
import Verif.Lemmas.DoubleSegments
import Verif.Lemmas.DoubleTimestamp
import Verif.Lemmas.Grid
import Mathlib.Analysis.SpecialFunctions.Log.Basic
import Mathlib.Analysis.SpecialFunctions.Log.Deriv

/-! Double precision logarithms. -/

namespace Verif
namespace Dbl

theorem fl53_below_one : fl53 (1 - 1 / 2 ^ 54) = 1 := by
  have hl : Int.log 2 (1 - 1 / 2 ^ 54 : ℚ) = -1 := by
    have a1 : (-1:Int) ≤ Int.log 2 (1 - 1 / 2 ^ 54 : ℚ) := by
      rw [← Int.zpow_le_iff_le_log (b := 2) (by norm_num) (by norm_num)]; norm_num
    have a2 : Int.log 2 (1 - 1 / 2 ^ 54 : ℚ) < 0 := by
      rw [← Int.lt_zpow_iff_log_lt (b := 2) (by norm_num) (by norm_num)]; norm_num
    omega
  unfold fl53 fl53pos
  rw [if_pos (by norm_num), hl]
  have : roundEven ((1 - 1 / 2 ^ 54 : ℚ) / 2 ^ ((-1:Int) - 52)) = 2 ^ 53 := by
    have hx : (1 - 1 / 2 ^ 54 : ℚ) / 2 ^ ((-1:Int) - 52) = ((2 ^ 53 - 1 : Int) : ℚ) + 1 / 2 := by
      norm_num
    rw [hx]
    have hfl : ⌊((2 ^ 53 - 1 : Int) : ℚ) + 1 / 2⌋ = 2 ^ 53 - 1 := by
      rw [Int.floor_intCast_add]; norm_num
    have hfr : Int.fract (((2 ^ 53 - 1 : Int) : ℚ) + 1 / 2) = 1 / 2 := by
      rw [Int.fract, hfl]; push_cast; ring
    unfold roundEven
    rw [hfr, hfl]; norm_num
  rw [this]; norm_num

/-- there is no double between `1 - 2^-53` and one. -/
theorem double_lt_one {q : ℚ} (h : IsDouble q) (h1 : q < 1) : q ≤ 1 - 1 / 2 ^ 53 := by
  obtain ⟨m, e, hm, rfl⟩ := h
  by_cases he : -53 ≤ e
  · obtain ⟨k, hk⟩ : ∃ k : ℤ, (m : ℚ) * (2:ℚ) ^ e = k / 2 ^ 53 := by
      refine ⟨m * 2 ^ (e + 53).toNat, ?_⟩
      push_cast
      rw [← zpow_natCast (2:ℚ) (e + 53).toNat, Int.toNat_of_nonneg (by omega), zpow_add₀ (by norm_num),
        show (2:ℚ) ^ (53 : Int) = 2 ^ 53 by norm_num]
      field_simp
    rw [hk] at h1 ⊢
    rw [div_lt_one (by positivity)] at h1
    have : k < 2 ^ 53 := by exact_mod_cast h1
    have h2 : (k : ℚ) ≤ 2 ^ 53 - 1 := by
      have : k ≤ 2 ^ 53 - 1 := by omega
      exact_mod_cast this
    rw [div_le_iff₀ (by positivity)]
    linarith
  · have h2 : (2:ℚ) ^ e ≤ (2:ℚ) ^ (-54 : Int) := zpow_le_zpow_right₀ (by norm_num) (by omega)
    have h3 : (m : ℚ) ≤ 2 ^ 53 := by
      have := (abs_le.1 hm).2
      exact_mod_cast this
    have h4 : (m : ℚ) * (2:ℚ) ^ e ≤ 2 ^ 53 * (2:ℚ) ^ (-54 : Int) :=
      mul_le_mul h3 h2 (by positivity) (by positivity)
    refine h4.trans ?_
    norm_num

theorem isDouble_pred : IsDouble (1 - 1 / 2 ^ 53) := ⟨2 ^ 53 - 1, -53, by norm_num, by norm_num⟩

/-- `1 - p` is computed as one exactly for `p ≤ 2^-54`. -/
theorem one_sub_lt {p : ℚ} (h : 1 / 2 ^ 54 < p) : fl53 (1 - p) ≤ 1 - 1 / 2 ^ 53 := by
  obtain ⟨hd, hn⟩ := fl53_nearest (1 - p)
  refine double_lt_one hd ?_
  by_cases hc : 1 - p ≤ 1 - 1 / 2 ^ 53
  · have := fl53_mono hc
    rw [fl53_fix isDouble_pred] at this
    refine lt_of_le_of_lt this (by norm_num)
  · have g := hn _ isDouble_pred
    rw [abs_of_nonpos (show (1 - 1 / 2 ^ 53 : ℚ) - (1 - p) ≤ 0 by linarith [not_le.1 hc])] at g
    have := (abs_le.1 g).2
    norm_num at *
    linarith

theorem one_sub_eq {p : ℚ} (h0 : 0 ≤ p) (h : p ≤ 1 / 2 ^ 54) : fl53 (1 - p) = 1 := by
  refine le_antisymm ?_ ?_
  · have := fl53_mono (show 1 - p ≤ 1 by linarith)
    rwa [fl53_one] at this
  · have := fl53_mono (show (1 - 1 / 2 ^ 54 : ℚ) ≤ 1 - p by linarith)
    rwa [fl53_below_one] at this

/-- the draw that is used. -/
theorem firstU_some {rand : ℕ → ℕ} {n i : ℕ} (hz : ∀ j < i, rand (n + j) = 0) (hi : rand (n + i) ≠ 0) :
    firstU rand n = some (fl53 ((rand (n + i) : ℚ) / 2147483647), n + i + 1) := by
  have hne : fl53 ((rand (n + i) : ℚ) / 2147483647) ≠ 0 := by
    have : (0:ℚ) < (rand (n + i) : ℚ) / 2147483647 := by
      have : (0:ℚ) < rand (n + i) := by exact_mod_cast Nat.pos_of_ne_zero hi
      positivity
    exact (fl53_pos this).ne'
  have h : ∃ i, fl53 ((rand (n + i) : ℚ) / 2147483647) ≠ 0 := ⟨i, hne⟩
  classical
  have hf : Nat.find h = i := by
    rw [Nat.find_eq_iff]
    refine ⟨hne, fun j hj => ?_⟩
    rw [hz j hj]
    simp [fl53_zero]
  unfold firstU
  rw [dif_pos h]
  simp only [hf]

theorem draw_facts {r : ℕ} (h0 : r ≠ 0) (hr : r ≤ 2147483647) :
    0 < fl53 ((r : ℚ) / 2147483647) ∧ fl53 ((r : ℚ) / 2147483647) ≤ 1 ∧ (1:ℚ) / 2 ^ 31 ≤ fl53 ((r : ℚ) / 2147483647) ∧
    |fl53 ((r : ℚ) / 2147483647) - (r : ℚ) / 2147483647| ≤ (r : ℚ) / 2147483647 / 2 ^ 53 := by
  have h1 : (1:ℚ) ≤ r := by exact_mod_cast Nat.pos_of_ne_zero h0
  have h2 : (r : ℚ) ≤ 2147483647 := by exact_mod_cast hr
  have hp : (0:ℚ) < (r : ℚ) / 2147483647 := by positivity
  refine ⟨fl53_pos hp, ?_, ?_, ?_⟩
  · have := fl53_mono (show (r : ℚ) / 2147483647 ≤ 1 by rw [div_le_one (by norm_num)]; exact h2)
    rwa [fl53_one] at this
  · have := fl53_mono (show (2:ℚ) ^ (-31 : Int) ≤ (r : ℚ) / 2147483647 by
      rw [le_div_iff₀ (by norm_num)]; norm_num; linarith)
    rw [fl53_pow] at this
    refine le_trans (le_of_eq ?_) this
    norm_num
  · have := fl53_rel ((r : ℚ) / 2147483647)
    rwa [abs_of_pos hp] at this

end Dbl
end Verif
