import Verif.Lemmas.DoubleLoops
import Verif.Model.Stats

/-!
# C133: uniform samples in double arithmetic
-/

namespace Verif
open Dbl

theorem draw_bounds {r : ℕ} (hr : r ≤ 2147483647) : 0 ≤ fl53 ((r : ℚ) / 2147483647) ∧ fl53 ((r : ℚ) / 2147483647) ≤ 1 := by
  constructor
  · rw [← fl53_zero]; exact fl53_mono (by positivity)
  · rw [← fl53_one]
    apply fl53_mono
    rw [div_le_one (by norm_num)]
    exact_mod_cast hr

/-- **C133.**  For doubles `a < b` and every raw number in the range of `random()`, the sample is a double; it is never below
`a`, and never above the rounded sum of `a` and the rounded width, which exceeds `b` by at most the rounding of two
operations.  The smallest raw number gives `a`; a larger raw number never gives a smaller sample. -/
theorem C133_sample {a b : ℚ} (ha : IsDouble a) (hab : a < b) {r : ℕ} (hr : r ≤ 2147483647) :
    ∃ x, sampleUniform fl53 r a b = .ok x () ∧ IsDouble x ∧ a ≤ x ∧ x ≤ fl53 (a + fl53 (b - a)) ∧
      x - b ≤ ((b - a) + |a + fl53 (b - a)|) / 2 ^ 53 ∧ (r = 0 → x = a) ∧
      ∀ r' ≤ r, ∃ x', sampleUniform fl53 r' a b = .ok x' () ∧ x' ≤ x := by
  have hw : 0 ≤ fl53 (b - a) := by rw [← fl53_zero]; exact fl53_mono (by linarith)
  obtain ⟨q0, q1⟩ := draw_bounds hr
  have hp0 : 0 ≤ fl53 (fl53 ((r : ℚ) / 2147483647) * fl53 (b - a)) := by
    rw [← fl53_zero]; exact fl53_mono (by positivity)
  have hp1 : fl53 (fl53 ((r : ℚ) / 2147483647) * fl53 (b - a)) ≤ fl53 (b - a) := by
    rw [← fl53_fix (fl53_nearest (b - a)).1]
    apply fl53_mono
    rw [fl53_fix (fl53_nearest (b - a)).1]
    nlinarith
  have hup : fl53 (a + fl53 (fl53 ((r : ℚ) / 2147483647) * fl53 (b - a))) ≤ fl53 (a + fl53 (b - a)) :=
    fl53_mono (by linarith)
  have hu : ∀ s : ℕ, sampleUniform fl53 s a b = .ok (fl53 (a + fl53 (fl53 ((s : ℚ) / 2147483647) * fl53 (b - a)))) () :=
    fun s => by unfold sampleUniform; rw [if_neg (not_le.mpr hab)]
  refine ⟨_, hu r, (fl53_nearest _).1, ?_, hup, ?_, ?_, ?_⟩
  · conv_lhs => rw [← fl53_fix ha]
    exact fl53_mono (by linarith)
  · have h1 := (abs_le.mp (fl53_rel (b - a))).2
    rw [abs_of_pos (by linarith : (0:ℚ) < b - a)] at h1
    have h2 := (abs_le.mp (fl53_rel (a + fl53 (b - a)))).2
    rw [add_div]
    linarith
  · rintro rfl
    simp [fl53_zero, fl53_fix ha]
  · intro r' hr'
    refine ⟨_, hu r', fl53_mono ?_⟩
    have : fl53 ((r' : ℚ) / 2147483647) ≤ fl53 ((r : ℚ) / 2147483647) := by
      apply fl53_mono
      have : (r' : ℚ) ≤ r := by exact_mod_cast hr'
      gcongr
    have : fl53 (fl53 ((r' : ℚ) / 2147483647) * fl53 (b - a)) ≤ fl53 (fl53 ((r : ℚ) / 2147483647) * fl53 (b - a)) :=
      fl53_mono (by gcongr)
    linarith

/-- **C133** (partial): the sample lies in the support if the width of the support is a double, for instance if the minimum is
zero; the largest raw number then gives the maximum.  Missing: supports whose width is rounded (`C133_outside`). -/
theorem C133_in_support_partial {a b : ℚ} (ha : IsDouble a) (hb : IsDouble b) (hw : IsDouble (b - a)) (hab : a < b) {r : ℕ}
    (hr : r ≤ 2147483647) :
    ∃ x, sampleUniform fl53 r a b = .ok x () ∧ a ≤ x ∧ x ≤ b ∧ (r = 2147483647 → x = b) := by
  obtain ⟨x, h1, -, h2, h3, -⟩ := C133_sample ha hab hr
  rw [fl53_fix hw, add_sub_cancel, fl53_fix hb] at h3
  refine ⟨x, h1, h2, h3, fun h => ?_⟩
  subst h
  unfold sampleUniform at h1
  rw [if_neg (not_le.mpr hab)] at h1
  injection h1 with h1
  have : ((2147483647 : ℕ) : ℚ) / 2147483647 = 1 := by norm_num
  rw [← h1, this, fl53_one, one_mul, fl53_fix hw, fl53_fix hw, add_sub_cancel, fl53_fix hb]

/-- **C133, refusal**: exactly the empty supports, and exactly with the exception for bad arguments. -/
theorem C133_refused (r : ℕ) (a b : ℚ) : (sampleUniform fl53 r a b = .throw .badArgument () ↔ b ≤ a) ∧
    (a < b → ∃ x, sampleUniform fl53 r a b = .ok x ()) := by
  unfold sampleUniform
  constructor
  · constructor
    · intro h
      by_contra hn
      rw [if_neg hn] at h
      cases h
    · intro h; rw [if_pos h]
  · intro h; rw [if_neg (not_le.mpr h)]; exact ⟨_, rfl⟩

/-- Non-vacuity: an empty support and a support. -/
example : sampleUniform fl53 7 1 1 = .throw .badArgument () ∧ ∃ x, sampleUniform fl53 7 0 1 = .ok x () :=
  ⟨(C133_refused 7 1 1).1.mpr le_rfl, (C133_refused 7 0 1).2 (by norm_num)⟩

theorem C133_zero_minimum {b : ℚ} (hb : IsDouble b) (h : 0 < b) {r : ℕ} (hr : r ≤ 2147483647) :
    ∃ x, sampleUniform fl53 r 0 b = .ok x () ∧ 0 ≤ x ∧ x ≤ b :=
  let ⟨x, h1, h2, h3, _⟩ := C133_in_support_partial isDouble_zero hb (by simpa using hb) h hr
  ⟨x, h1, h2, h3⟩

/-- **C133 (negation).**  A sample can lie above the support: for the doubles `-2^-54` and `1 - 2^-53` the largest raw number
gives one, where the density of the distribution with that support is zero. -/
theorem C133_outside : ∃ a b : ℚ, IsDouble a ∧ IsDouble b ∧ a < b ∧ b < 1 ∧ sampleUniform fl53 2147483647 a b = .ok 1 () ∧
    ∀ u : Uniform1 ℝ, u.mn = a → u.mx = b → u.pdf 1 = 0 := by
  have hw : fl53 ((1 - 1 / 2 ^ 53 : ℚ) - (-(1 / 2 ^ 54))) = 1 := by
    have := fl53_eval2 (x := (1 - 1 / 2 ^ 53 : ℚ) - (-(1 / 2 ^ 54))) 4503599627370497 0 0
    have hlog : Int.log 2 ((1 - 1 / 2 ^ 53 : ℚ) - (-(1 / 2 ^ 54))) = -1 := by
      have a1 := (Int.zpow_le_iff_le_log (b := 2) (R := ℚ) (x := -1) (r := (1 - 1 / 2 ^ 53 : ℚ) - (-(1 / 2 ^ 54))) (by norm_num)
        (by norm_num)).1 (by norm_num)
      have a2 := (Int.lt_zpow_iff_log_lt (b := 2) (R := ℚ) (x := 0) (r := (1 - 1 / 2 ^ 53 : ℚ) - (-(1 / 2 ^ 54))) (by norm_num)
        (by norm_num)).1 (by norm_num)
      omega
    unfold fl53 fl53pos
    rw [if_pos (by norm_num), hlog]
    have hr : roundEven (((1 - 1 / 2 ^ 53 : ℚ) - (-(1 / 2 ^ 54))) / 2 ^ ((-1:Int) - 52)) = 2 ^ 53 := by
      have hx : ((1 - 1 / 2 ^ 53 : ℚ) - (-(1 / 2 ^ 54))) / 2 ^ ((-1:Int) - 52) = ((2 ^ 53 - 1 : Int) : ℚ) + 1 / 2 := by norm_num
      have hfl : ⌊((2 ^ 53 - 1 : Int) : ℚ) + 1 / 2⌋ = 2 ^ 53 - 1 := by rw [Int.floor_eq_iff]; norm_num
      rw [hx]
      unfold roundEven
      rw [Int.fract, hfl]
      norm_num
    rw [hr]; norm_num
  have hs : fl53 (-(1 / 2 ^ 54) + 1) = 1 := by
    have : (-(1 / 2 ^ 54) + 1 : ℚ) = (1 - 1 / 2 ^ 53 : ℚ) - (-(1 / 2 ^ 54)) := by norm_num
    rw [this, hw]
  refine ⟨-(1 / 2 ^ 54), 1 - 1 / 2 ^ 53, ⟨-1, -54, by norm_num, by norm_num⟩, ⟨2 ^ 53 - 1, -53, by norm_num, by norm_num⟩,
    by norm_num, by norm_num, ?_, ?_⟩
  · unfold sampleUniform
    rw [if_neg (by norm_num), hw]
    have : ((2147483647 : ℕ) : ℚ) / 2147483647 = 1 := by norm_num
    rw [this, fl53_one, one_mul, fl53_one, hs]
  · intro u h1 h2
    unfold Uniform1.pdf
    rw [if_neg]
    rw [h2]
    push_cast
    norm_num

/-- Non-vacuity. -/
example : ∃ x, sampleUniform fl53 1 (1 / 4) (3 / 4) = .ok x () ∧ 1 / 4 ≤ x ∧ x ≤ 3 / 4 :=
  let ⟨x, h1, h2, h3, _⟩ := C133_in_support_partial (a := 1 / 4) (b := 3 / 4) (r := 1) ⟨1, -2, by norm_num, by norm_num⟩
    ⟨3, -2, by norm_num, by norm_num⟩ ⟨1, -1, by norm_num, by norm_num⟩ (by norm_num) (by norm_num)
  ⟨x, h1, h2, h3⟩

end Verif
