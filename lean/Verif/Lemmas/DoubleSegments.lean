import Verif.Model.DoubleSegments
import Verif.Lemmas.Double
import Mathlib.Tactic.Positivity
import Mathlib.Tactic.FieldSimp

/-! # Lemmas about the number of spline segments in double arithmetic -/

namespace Verif
namespace Dbl

theorem isDouble_int {m : Int} (h : |m| ≤ 2 ^ 53) : IsDouble (m : ℚ) := ⟨m, 0, h, by simp⟩

theorem fl53_int {m : Int} (h : |m| ≤ 2 ^ 53) : fl53 (m : ℚ) = m := fl53_fix (isDouble_int h)

/-- rounding moves a positive number by a factor between `1 - u` and `1 + u`. -/
theorem fl53_bounds {x : ℚ} (hx : 0 < x) : x * (1 - 1 / 2 ^ 53) ≤ fl53 x ∧ fl53 x ≤ x * (1 + 1 / 2 ^ 53) := by
  have h := abs_le.mp (fl53_rel x)
  rw [abs_of_pos hx] at h
  constructor <;> linarith [h.1, h.2]

theorem fl53_pos {x : ℚ} (hx : 0 < x) : 0 < fl53 x := by
  have h := (fl53_bounds hx).1
  have : 0 < x * (1 - 1 / 2 ^ 53) := by apply mul_pos hx; norm_num
  linarith

theorem elapsed_bounds {d : Int} (hd : 0 < d) (hb : d ≤ 2 ^ 53) :
    (d : ℚ) / 1000000000 * (1 - 1 / 2 ^ 53) ≤ elapsedTime d ∧ elapsedTime d ≤ (d : ℚ) / 1000000000 * (1 + 1 / 2 ^ 53) ∧ 0 < elapsedTime d := by
  have h1 : fl53 (d : ℚ) = d := fl53_int (by rw [abs_of_pos hd]; exact hb)
  have hdq : (0:ℚ) < d := by exact_mod_cast hd
  have hq : (0:ℚ) < (d : ℚ) / 1000000000 := by positivity
  unfold elapsedTime
  rw [h1]
  exact ⟨(fl53_bounds hq).1, (fl53_bounds hq).2, fl53_pos hq⟩

theorem roundQ_gt {y : ℚ} (hy : 0 ≤ y) (k : Int) : k < CarCal.roundQ y ↔ (k : ℚ) + 1 / 2 ≤ y := by
  unfold CarCal.roundQ
  rw [if_pos hy, Int.lt_iff_add_one_le, Int.le_floor]
  push_cast
  constructor <;> intro h <;> linarith

/-- the rounded rate is within three rounding errors of the exact one. -/
theorem rate_bounds {n : ℕ} {d : Int} (hn : 0 < n) (hn2 : n ≤ 2 ^ 53) (hd : 0 < d) (hb : d ≤ 2 ^ 53) :
    (n : ℚ) / (d / 1000000000) * (1 - 3 / 2 ^ 53) ≤ fl53 (fl53 n / elapsedTime d) ∧
    fl53 (fl53 n / elapsedTime d) ≤ (n : ℚ) / (d / 1000000000) * (1 + 3 / 2 ^ 53) := by
  obtain ⟨h1, h2, h3⟩ := elapsed_bounds hd hb
  have hnq : (0:ℚ) < n := by exact_mod_cast hn
  have hdq : (0:ℚ) < d := by exact_mod_cast hd
  have e1 : fl53 (n : ℚ) = n := by
    have := fl53_int (m := (n : Int)) (by rw [abs_of_nonneg (by positivity)]; exact_mod_cast hn2)
    exact_mod_cast this
  rw [e1]
  set x : ℚ := (d : ℚ) / 1000000000 with hx
  have hxp : 0 < x := by rw [hx]; positivity
  set E := elapsedTime d
  have hq : 0 < (n : ℚ) / E := by positivity
  obtain ⟨h4, h5⟩ := fl53_bounds hq
  -- n / E against n / x
  have a1 : (n : ℚ) / x * (1 - 1 / 2 ^ 53) ≤ n / E := by
    rw [div_mul_eq_mul_div, div_le_div_iff₀ hxp h3]
    have : E * (1 - 1 / 2 ^ 53) ≤ x := by
      have : x * (1 + 1 / 2 ^ 53) * (1 - 1 / 2 ^ 53) ≤ x := by
        have e : x * (1 + 1 / 2 ^ 53) * (1 - 1 / 2 ^ 53) = x * (1 - 1 / 2 ^ 106) := by ring
        rw [e]
        nlinarith [hxp]
      have := mul_le_mul_of_nonneg_right h2 (show (0:ℚ) ≤ 1 - 1 / 2 ^ 53 by norm_num)
      linarith
    nlinarith [this, hnq]
  have a2 : n / E ≤ (n : ℚ) / x * (1 + 5 / 4 / 2 ^ 53) := by
    rw [div_mul_eq_mul_div, div_le_div_iff₀ h3 hxp]
    have : x ≤ E * (1 + 5 / 4 / 2 ^ 53) := by
      have h := mul_le_mul_of_nonneg_right h1 (show (0:ℚ) ≤ 1 + 5 / 4 / 2 ^ 53 by norm_num)
      have : x ≤ x * (1 - 1 / 2 ^ 53) * (1 + 5 / 4 / 2 ^ 53) := by
        have e : x * (1 - 1 / 2 ^ 53) * (1 + 5 / 4 / 2 ^ 53) = x * ((1 - 1 / 2 ^ 53) * (1 + 5 / 4 / 2 ^ 53)) := by ring
        rw [e]
        have : (1:ℚ) ≤ (1 - 1 / 2 ^ 53) * (1 + 5 / 4 / 2 ^ 53) := by norm_num
        nlinarith [hxp]
      linarith
    nlinarith [this, hnq]
  have hyp : 0 < (n : ℚ) / x := by positivity
  constructor
  · refine le_trans ?_ h4
    have := mul_le_mul_of_nonneg_right a1 (show (0:ℚ) ≤ 1 - 1 / 2 ^ 53 by norm_num)
    refine le_trans ?_ this
    have e : (n : ℚ) / x * (1 - 1 / 2 ^ 53) * (1 - 1 / 2 ^ 53) = n / x * ((1 - 1 / 2 ^ 53) * (1 - 1 / 2 ^ 53)) := by ring
    rw [e]
    exact mul_le_mul_of_nonneg_left (by norm_num) hyp.le
  · refine le_trans h5 ?_
    have := mul_le_mul_of_nonneg_right a2 (show (0:ℚ) ≤ 1 + 1 / 2 ^ 53 by norm_num)
    refine le_trans this ?_
    have e : (n : ℚ) / x * (1 + 5 / 4 / 2 ^ 53) * (1 + 1 / 2 ^ 53) = n / x * ((1 + 5 / 4 / 2 ^ 53) * (1 + 1 / 2 ^ 53)) := by ring
    rw [e]
    exact mul_le_mul_of_nonneg_left (by norm_num) hyp.le

/-- the rate is compared with the knots as in exact arithmetic, except at a tie. -/
theorem rate_gt {k : Int} {n : ℕ} {d : Int} (hk : 0 ≤ k) (hn : 0 < n) (hn2 : n ≤ 2 ^ 53) (hd : 0 < d)
    (hb : d * (2 * k + 1) ≤ 2 ^ 50) :
    ((2 * k + 1) * d < 2 * n * 10 ^ 9 → k < measPerSec n d) ∧ (2 * n * 10 ^ 9 < (2 * k + 1) * d → measPerSec n d ≤ k) := by
  have hd53 : d ≤ 2 ^ 53 := by nlinarith
  obtain ⟨h1, h2⟩ := rate_bounds hn hn2 hd hd53
  have hdq : (0:ℚ) < d := by exact_mod_cast hd
  have hnq : (0:ℚ) < n := by exact_mod_cast hn
  have hkq : (0:ℚ) ≤ k := by exact_mod_cast hk
  have hbq : (d : ℚ) * (2 * k + 1) ≤ 2 ^ 50 := by exact_mod_cast hb
  have hR : 0 ≤ fl53 (fl53 n / elapsedTime d) := by
    refine le_trans ?_ h1
    have : (0:ℚ) ≤ 1 - 3 / 2 ^ 53 := by norm_num
    positivity
  have ey : (n : ℚ) / (d / 1000000000) = n * 1000000000 / d := by field_simp
  rw [ey] at h1 h2
  constructor
  · intro h
    have hq : ((2 * k + 1) * d + 1 : ℚ) ≤ 2 * n * 1000000000 := by exact_mod_cast h
    rw [measPerSec, roundQ_gt hR]
    refine le_trans ?_ h1
    rw [div_mul_eq_mul_div, le_div_iff₀ hdq]
    nlinarith
  · intro h
    have hq : (2 * n * 1000000000 + 1 : ℚ) ≤ (2 * k + 1) * d := by exact_mod_cast h
    by_contra hc
    push Not at hc
    rw [measPerSec, roundQ_gt hR] at hc
    have h3 := le_trans hc h2
    rw [div_mul_eq_mul_div, le_div_iff₀ hdq] at h3
    nlinarith

/-- the number of knots is the exact one, or one more if the exact product is an integer. -/
theorem knots_eq {k : Int} {d : Int} (hk : 0 < k) (hd : 0 < d) (hb : d * (2 * k + 1) ≤ 2 ^ 50) :
    knotsFor k d = ⌈(k : ℚ) * (d / 1000000000)⌉ ∨
    (10 ^ 9 ∣ k * d ∧ knotsFor k d = ⌈(k : ℚ) * (d / 1000000000)⌉ + 1) := by
  have hd53 : d ≤ 2 ^ 53 := by nlinarith
  have hk53 : k ≤ 2 ^ 53 := by nlinarith
  obtain ⟨h1, h2, h3⟩ := elapsed_bounds hd hd53
  have hdq : (0:ℚ) < d := by exact_mod_cast hd
  have hkq : (0:ℚ) < k := by exact_mod_cast hk
  have hbq : (d : ℚ) * (2 * k + 1) ≤ 2 ^ 50 := by exact_mod_cast hb
  have e1 : fl53 (k : ℚ) = k := fl53_int (by rw [abs_of_pos hk]; exact hk53)
  have hp : 0 < (k : ℚ) * elapsedTime d := by positivity
  obtain ⟨h4, h5⟩ := fl53_bounds hp
  set P : ℚ := (k : ℚ) * (d / 1000000000) with hP
  have hPp : 0 < P := by rw [hP]; positivity
  have hPb : P * (2 * 1000000000) ≤ 2 ^ 50 := by
    have : P * (2 * 1000000000) = 2 * (k * d) := by rw [hP]; ring
    rw [this]
    nlinarith
  have l1 : P * (1 - 3 / 2 ^ 53) ≤ fl53 (k * elapsedTime d) := by
    have := mul_le_mul_of_nonneg_left h1 hkq.le
    have h6 : P * (1 - 1 / 2 ^ 53) ≤ k * elapsedTime d := by
      have e : (k : ℚ) * (d / 1000000000 * (1 - 1 / 2 ^ 53)) = P * (1 - 1 / 2 ^ 53) := by rw [hP]; ring
      linarith
    have := mul_le_mul_of_nonneg_right h6 (show (0:ℚ) ≤ 1 - 1 / 2 ^ 53 by norm_num)
    have e : P * (1 - 1 / 2 ^ 53) * (1 - 1 / 2 ^ 53) = P * ((1 - 1 / 2 ^ 53) * (1 - 1 / 2 ^ 53)) := by ring
    have : P * (1 - 3 / 2 ^ 53) ≤ P * ((1 - 1 / 2 ^ 53) * (1 - 1 / 2 ^ 53)) := mul_le_mul_of_nonneg_left (by norm_num) hPp.le
    linarith
  have l2 : fl53 (k * elapsedTime d) ≤ P * (1 + 3 / 2 ^ 53) := by
    have := mul_le_mul_of_nonneg_left h2 hkq.le
    have h6 : k * elapsedTime d ≤ P * (1 + 1 / 2 ^ 53) := by
      have e : (k : ℚ) * (d / 1000000000 * (1 + 1 / 2 ^ 53)) = P * (1 + 1 / 2 ^ 53) := by rw [hP]; ring
      linarith
    have := mul_le_mul_of_nonneg_right h6 (show (0:ℚ) ≤ 1 + 1 / 2 ^ 53 by norm_num)
    have e : P * (1 + 1 / 2 ^ 53) * (1 + 1 / 2 ^ 53) = P * ((1 + 1 / 2 ^ 53) * (1 + 1 / 2 ^ 53)) := by ring
    have : P * ((1 + 1 / 2 ^ 53) * (1 + 1 / 2 ^ 53)) ≤ P * (1 + 3 / 2 ^ 53) := mul_le_mul_of_nonneg_left (by norm_num) hPp.le
    linarith
  have small : P * (3 / 2 ^ 53) < 1 / 1000000000 := by
    have e : (2:ℚ) ^ 53 = 8 * 2 ^ 50 := by norm_num
    rw [e]
    have : P * (3 / (8 * 2 ^ 50)) = P * (2 * 1000000000) * (3 / (16 * 1000000000 * 2 ^ 50)) := by ring
    rw [this]
    have h : P * (2 * 1000000000) * (3 / (16 * 1000000000 * 2 ^ 50)) ≤ 2 ^ 50 * (3 / (16 * 1000000000 * 2 ^ 50)) :=
      mul_le_mul_of_nonneg_right hPb (by positivity)
    refine lt_of_le_of_lt h (by norm_num)
  unfold knotsFor
  rw [e1]
  set N := ⌈P⌉ with hN
  have n1 : P ≤ N := Int.le_ceil P
  have n2 : (N : ℚ) < P + 1 := Int.ceil_lt_add_one P
  by_cases hint : 10 ^ 9 ∣ k * d
  · obtain ⟨m, hm⟩ := hint
    have hPm : P = m := by
      have : ((k * d : Int) : ℚ) = ((10 ^ 9 * m : Int) : ℚ) := by rw [hm]
      push_cast at this
      rw [hP]
      field_simp
      linarith
    have hNm : N = m := by rw [hN, hPm, Int.ceil_intCast]
    rw [hNm]
    have c1 : m ≤ ⌈fl53 (k * elapsedTime d)⌉ := by
      have : m - 1 < ⌈fl53 (k * elapsedTime d)⌉ := by
        rw [Int.lt_ceil]
        push_cast
        rw [← hPm]
        have e : P * (1 - 3 / 2 ^ 53) = P - P * (3 / 2 ^ 53) := by ring
        linarith
      omega
    have c2 : ⌈fl53 (k * elapsedTime d)⌉ ≤ m + 1 := by
      rw [Int.ceil_le]
      push_cast
      rw [← hPm]
      have e : P * (1 + 3 / 2 ^ 53) = P + P * (3 / 2 ^ 53) := by ring
      linarith
    by_cases hc : ⌈fl53 (k * elapsedTime d)⌉ = m
    · exact .inl hc
    · exact .inr ⟨⟨m, hm⟩, by omega⟩
  · left
    have hne : k * d ≠ N * 10 ^ 9 := fun e => hint ⟨N, by rw [e]; ring⟩
    have hPk : P * 1000000000 = ((k * d : Int) : ℚ) := by rw [hP]; push_cast; ring
    have b1 : P + 1 / 1000000000 ≤ N := by
      have : k * d + 1 ≤ N * 10 ^ 9 := by
        have : k * d ≤ N * 10 ^ 9 := by
          have : ((k * d : Int) : ℚ) ≤ ((N * 10 ^ 9 : Int) : ℚ) := by rw [← hPk]; push_cast; linarith
          exact_mod_cast this
        omega
      have h : ((k * d + 1 : Int) : ℚ) ≤ ((N * 10 ^ 9 : Int) : ℚ) := by exact_mod_cast this
      push_cast at h hPk
      linarith
    have b2 : (N : ℚ) - 1 + 1 / 1000000000 ≤ P := by
      have : (N - 1) * 10 ^ 9 + 1 ≤ k * d := by
        have : (((N - 1) * 10 ^ 9 : Int) : ℚ) < ((k * d : Int) : ℚ) := by rw [← hPk]; push_cast; linarith
        have : (N - 1) * 10 ^ 9 < k * d := by exact_mod_cast this
        omega
      have h : (((N - 1) * 10 ^ 9 + 1 : Int) : ℚ) ≤ ((k * d : Int) : ℚ) := by exact_mod_cast this
      push_cast at h hPk
      linarith
    rw [Int.ceil_eq_iff]
    have e : P * (1 - 3 / 2 ^ 53) = P - P * (3 / 2 ^ 53) := by ring
    have e' : P * (1 + 3 / 2 ^ 53) = P + P * (3 / 2 ^ 53) := by ring
    constructor <;> linarith

end Dbl
end Verif
