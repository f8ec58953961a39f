import Verif.Model.DoubleTimestamp
import Verif.Lemmas.DoubleSegments
import Mathlib.Data.Rat.Floor

/-! # Lemmas about timestamps in double arithmetic -/

namespace Verif
namespace Dbl

/-- rounding is monotone. -/
theorem fl53_mono {x y : ℚ} (h : x ≤ y) : fl53 x ≤ fl53 y := by
  rcases h.eq_or_lt with rfl | h
  · exact le_refl _
  by_contra hc
  push Not at hc
  have h1 := (fl53_nearest x).2 _ (fl53_nearest y).1
  have h2 := (fl53_nearest y).2 _ (fl53_nearest x).1
  rcases abs_cases (fl53 x - x) with ⟨a, _⟩ | ⟨a, _⟩ <;> rcases abs_cases (fl53 y - x) with ⟨b, _⟩ | ⟨b, _⟩ <;>
    rcases abs_cases (fl53 y - y) with ⟨c, _⟩ | ⟨c, _⟩ <;> rcases abs_cases (fl53 x - y) with ⟨d, _⟩ | ⟨d, _⟩ <;>
    rw [a, b] at h1 <;> rw [c, d] at h2 <;> linarith

theorem fl53_nonneg {x : ℚ} (h : 0 ≤ x) : 0 ≤ fl53 x := by
  have := fl53_mono h
  rwa [fl53_fix isDouble_zero] at this

/-- the integer part of a nonnegative double and its fraction are doubles. -/
theorem isDouble_parts {s : ℚ} (h : IsDouble s) (h0 : 0 ≤ s) : IsDouble (⌊s⌋ : ℚ) ∧ IsDouble (s - ⌊s⌋) := by
  obtain ⟨m, e, hm, rfl⟩ := h
  have hm0 : 0 ≤ m := by
    have h2 : (0:ℚ) < (2:ℚ) ^ e := by positivity
    have : (0:ℚ) ≤ m := by
      by_contra hc
      push Not at hc
      nlinarith
    exact_mod_cast this
  rw [abs_of_nonneg hm0] at hm
  rcases le_or_gt 0 e with he | he
  · obtain ⟨k, rfl⟩ := Int.eq_ofNat_of_zero_le he
    have hi : (m : ℚ) * (2:ℚ) ^ ((k : ℕ) : ℤ) = ((m * 2 ^ k : ℤ) : ℚ) := by push_cast; simp
    constructor
    · rw [hi, Int.floor_intCast]
      refine ⟨m, k, by rwa [abs_of_nonneg hm0], by push_cast; simp⟩
    · rw [hi, Int.floor_intCast, sub_self]
      exact isDouble_zero
  · obtain ⟨k, hk⟩ := Int.eq_ofNat_of_zero_le (show 0 ≤ -e by omega)
    have hek : e = -((k : ℕ) : ℤ) := by omega
    have hs : (m : ℚ) * (2:ℚ) ^ e = (m : ℚ) / ((2 ^ k : ℕ) : ℚ) := by
      rw [hek, zpow_neg]; push_cast; simp [div_eq_mul_inv]
    have hfl : ⌊(m : ℚ) * (2:ℚ) ^ e⌋ = m / ((2 ^ k : ℕ) : ℤ) := by
      rw [hs]
      exact_mod_cast Rat.floor_intCast_div_natCast m (2 ^ k)
    have hp : (0:ℤ) < ((2 ^ k : ℕ) : ℤ) := by positivity
    have hdiv0 : 0 ≤ m / ((2 ^ k : ℕ) : ℤ) := Int.ediv_nonneg hm0 hp.le
    constructor
    · rw [hfl]
      refine isDouble_int ?_
      rw [abs_of_nonneg hdiv0]
      exact (Int.ediv_le_self _ hm0).trans hm
    · rw [hfl]
      refine ⟨m % ((2 ^ k : ℕ) : ℤ), e, ?_, ?_⟩
      · rw [abs_of_nonneg (Int.emod_nonneg _ hp.ne')]
        have := Int.emod_add_mul_ediv m ((2 ^ k : ℕ) : ℤ)
        have h3 : 0 ≤ ((2 ^ k : ℕ) : ℤ) * (m / ((2 ^ k : ℕ) : ℤ)) := by positivity
        omega
      · have h3 := Int.emod_add_mul_ediv m ((2 ^ k : ℕ) : ℤ)
        have h4 : ((m % ((2 ^ k : ℕ) : ℤ) : ℤ) : ℚ) = m - ((2 ^ k : ℕ) : ℚ) * ((m / ((2 ^ k : ℕ) : ℤ) : ℤ) : ℚ) := by
          have : (((m % ((2 ^ k : ℕ) : ℤ)) + ((2 ^ k : ℕ) : ℤ) * (m / ((2 ^ k : ℕ) : ℤ)) : ℤ) : ℚ) = (m : ℚ) := by rw [h3]
          push_cast at this ⊢
          linarith
        rw [h4, sub_mul]
        have : ((2 ^ k : ℕ) : ℚ) * (2:ℚ) ^ e = 1 := by
          rw [hek, zpow_neg]; push_cast; simp
        have h5 : ((2 ^ k : ℕ) : ℚ) * ((m / ((2 ^ k : ℕ) : ℤ) : ℤ) : ℚ) * (2:ℚ) ^ e = ((m / ((2 ^ k : ℕ) : ℤ) : ℤ) : ℚ) := by
          rw [mul_right_comm, this, one_mul]
        rw [h5]

/-- a double below one is at most `1 - 2^-53`. -/
theorem isDouble_lt_one {f : ℚ} (h : IsDouble f) (h1 : f < 1) : f ≤ 1 - 1 / 2 ^ 53 := by
  by_cases hh : f < 1 / 2
  · have : (1:ℚ) / 2 ≤ 1 - 1 / 2 ^ 53 := by norm_num
    linarith
  · obtain ⟨k, hk⟩ := h.multiple (L := -1) (by norm_num; linarith)
    have e : (2:ℚ) ^ ((-1 : ℤ) - 52) = 1 / 2 ^ 53 := by norm_num
    rw [e] at hk
    have : (k : ℚ) < 2 ^ 53 := by
      rw [hk] at h1
      rw [mul_one_div, div_lt_one (by positivity)] at h1
      exact h1
    have hk2 : k < 2 ^ 53 := by exact_mod_cast this
    have hk3 : k ≤ 2 ^ 53 - 1 := by omega
    have : (k : ℚ) ≤ 2 ^ 53 - 1 := by exact_mod_cast hk3
    rw [hk, mul_one_div, div_le_iff₀ (by positivity)]
    norm_num at this ⊢
    linarith

/-- the nanoseconds of a fraction stay below a second. -/
theorem nsec_lt {f : ℚ} (h : IsDouble f) (h1 : f < 1) : fl53 (f * 1000000000) < 1000000000 := by
  have hf := isDouble_lt_one h h1
  have hD : IsDouble (1000000000 - 1 / 2 ^ 23) := ⟨8388607999999999, -23, by norm_num, by norm_num⟩
  rcases le_or_gt (f * 1000000000) (1000000000 - 1 / 2 ^ 23) with hc | hc
  · have := fl53_mono hc
    rw [fl53_fix hD] at this
    refine lt_of_le_of_lt this (by norm_num)
  · by_contra hn
    push Not at hn
    have hx : f * 1000000000 ≤ 1000000000 - 1000000000 / 2 ^ 53 := by linarith
    have hne := (fl53_nearest (f * 1000000000)).2 _ hD
    rw [abs_of_nonneg (by
        have : (0:ℚ) < 1000000000 / 2 ^ 53 := by norm_num
        linarith), abs_of_neg (by linarith)] at hne
    norm_num at hx hne
    linarith

end Dbl
end Verif
