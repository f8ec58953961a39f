import Verif.Props.Stats
import Verif.Lemmas.Double

/-! Error analysis of the streaming estimator. -/

namespace Verif
namespace MLE1

/-- a rounded value near `x`. -/
theorem fl_near {fl : ℚ → ℚ} {u w X K c x y : ℚ} (hfl : ∀ z, |fl z - z| ≤ |z| * u) (hu : 0 ≤ u) (huw : u ≤ w) (hX : 0 ≤ X)
    (hK : |x| ≤ K * X) (hK0 : 0 ≤ K) (hc : c * w ≤ 1) (h : |y - x| ≤ c * w * X) : |fl y - x| ≤ (c + K + 1) * w * X := by
  have h1 := hfl y
  have h2 : |y| ≤ (K + 1) * X := by
    have : |y| ≤ |y - x| + |x| := by
      have := abs_add_le (y - x) x
      simpa using this
    nlinarith
  have h3 : |fl y - x| ≤ |fl y - y| + |y - x| := abs_sub_le _ _ _
  have h4 : |y| * u ≤ (K + 1) * X * w := mul_le_mul h2 huw hu (by positivity)
  nlinarith

/-- squares of near values. -/
theorem sq_near {w M c x y : ℚ} (hw : 0 ≤ w) (hM : 0 ≤ M) (hc0 : 0 ≤ c) (hx : |x| ≤ M) (hc : c * w ≤ 1 / 8) (h : |y - x| ≤ c * w * M) :
    |y * y - x * x| ≤ (2 * c + c / 8) * w * (M * M) := by
  have e : y * y - x * x = (y - x) * (2 * x + (y - x)) := by ring
  rw [e, abs_mul]
  have h1 : |2 * x + (y - x)| ≤ 2 * M + 1 / 8 * M := by
    have := abs_add_le (2 * x) (y - x)
    rw [abs_mul, abs_two] at this
    nlinarith
  calc |y - x| * |2 * x + (y - x)| ≤ c * w * M * (2 * M + 1 / 8 * M) := mul_le_mul h h1 (abs_nonneg _) (by positivity)
    _ = _ := by ring

set_option maxHeartbeats 1000000 in
/-- the mean and the variance computed from sums with small errors. -/
theorem moments_near {fl : ℚ → ℚ} {u n S s Q q M : ℚ} (hfl : ∀ z, |fl z - z| ≤ |z| * u) (hu : 0 ≤ u) (hM : 0 ≤ M) (hn : 1 ≤ n)
    (hw : n * u ≤ 1 / 1000) (hS : |S| ≤ n * M) (hs : |s - S| ≤ n ^ 2 * u * M) (hQ0 : 0 ≤ Q) (hQ : Q ≤ n * (M * M))
    (hq : |q - Q| ≤ 3 * n ^ 2 * u * (M * M)) :
    |fl (s / n) - S / n| ≤ (n + 2) * u * M ∧
    |fl (fl (fl (q / n) - fl (fl (fl (s * s) * 2) / (n * n))) + fl (fl (s / n) * fl (s / n))) - (Q / n - S / n * (S / n))| ≤
      40 * n * u * (M * M) := by
  have hn0 : 0 < n := by linarith
  obtain ⟨w, hwdef⟩ : ∃ w, w = n * u := ⟨_, rfl⟩
  have hw0 : 0 ≤ w := by rw [hwdef]; positivity
  have huw : u ≤ w := by rw [hwdef]; nlinarith
  rw [← hwdef] at hw
  have hX : 0 ≤ M * M := by positivity
  have ha : |S / n| ≤ M := by
    rw [abs_div, abs_of_pos hn0, div_le_iff₀ hn0]; linarith
  have ha' : |s / n - S / n| ≤ w * M := by
    rw [← sub_div, abs_div, abs_of_pos hn0, div_le_iff₀ hn0, hwdef]
    nlinarith
  have hb : |Q / n| ≤ 1 * (M * M) := by
    rw [abs_div, abs_of_pos hn0, div_le_iff₀ hn0, abs_of_nonneg hQ0]; linarith
  have hb' : |q / n - Q / n| ≤ 3 * w * (M * M) := by
    rw [← sub_div, abs_div, abs_of_pos hn0, div_le_iff₀ hn0, hwdef]
    nlinarith
  have haa : |S / n * (S / n)| ≤ 1 * (M * M) := by
    rw [abs_mul, one_mul]; exact mul_le_mul ha ha (abs_nonneg _) hM
  -- the mean
  have hm1 : |fl (s / n) - S / n| ≤ (n + 2) * u * M := by
    have h1 := hfl (s / n)
    have h2 : |s / n| ≤ 2 * M := by
      have : |s / n| ≤ |s / n - S / n| + |S / n| := by
        have := abs_add_le (s / n - S / n) (S / n)
        simpa using this
      nlinarith
    have h3 : |fl (s / n) - S / n| ≤ |fl (s / n) - s / n| + |s / n - S / n| := abs_sub_le _ _ _
    rw [hwdef] at ha'
    nlinarith [mul_le_mul_of_nonneg_right h2 hu]
  refine ⟨hm1, ?_⟩
  have hm : |fl (s / n) - S / n| ≤ 3 * w * M := by
    refine hm1.trans ?_
    apply mul_le_mul_of_nonneg_right _ hM
    rw [hwdef]; nlinarith
  have hmm := sq_near hw0 hM (by norm_num) ha (by linarith) hm
  have hmm7 : |fl (s / n) * fl (s / n) - S / n * (S / n)| ≤ 7 * w * (M * M) :=
    hmm.trans (by nlinarith [mul_nonneg hw0 hX])
  have hC := fl_near hfl hu huw hX haa zero_le_one (by linarith) hmm7
  -- the mean of the squares
  have hA := fl_near hfl hu huw hX hb zero_le_one (by linarith) hb'
  -- the square of the sum
  have hss : |s * s - S * S| ≤ 3 * w * (n * n * (M * M)) := by
    have h0 : |S| ≤ n * M := hS
    have h1 : |s - S| ≤ 1 * w * (n * M) := by rw [hwdef]; linarith
    have := sq_near hw0 (by positivity : 0 ≤ n * M) zero_le_one h0 (by linarith) h1
    refine this.trans ?_
    have : 0 ≤ w * (n * n * (M * M)) := by positivity
    nlinarith
  have hY : 0 ≤ n * n * (M * M) := by positivity
  have hSS : |S * S| ≤ 1 * (n * n * (M * M)) := by
    rw [abs_mul]
    calc |S| * |S| ≤ (n * M) * (n * M) := mul_le_mul hS hS (abs_nonneg _) (by positivity)
      _ = _ := by ring
  have h1 := fl_near hfl hu huw hY hSS zero_le_one (by linarith) hss
  have h2 : |fl (s * s) * 2 - S * S * 2| ≤ 10 * w * (n * n * (M * M)) := by
    rw [← sub_mul, abs_mul, abs_two]; linarith
  have hSS2 : |S * S * 2| ≤ 2 * (n * n * (M * M)) := by
    rw [abs_mul, abs_two]; linarith
  have h3 := fl_near hfl hu huw hY hSS2 (by norm_num) (by linarith) h2
  have hnn : 0 < n * n := by positivity
  have h4 : |fl (fl (s * s) * 2) / (n * n) - 2 * (S / n * (S / n))| ≤ 13 * w * (M * M) := by
    have e : 2 * (S / n * (S / n)) = S * S * 2 / (n * n) := by field_simp
    rw [e, ← sub_div, abs_div, abs_of_pos hnn, div_le_iff₀ hnn]
    nlinarith
  have haa2 : |2 * (S / n * (S / n))| ≤ 2 * (M * M) := by
    rw [abs_mul, abs_two]; linarith
  have hB := fl_near hfl hu huw hX haa2 (by norm_num) (by linarith) h4
  -- the difference
  have h5 : |(fl (q / n) - fl (fl (fl (s * s) * 2) / (n * n))) - (Q / n - 2 * (S / n * (S / n)))| ≤ 21 * w * (M * M) := by
    have e : (fl (q / n) - fl (fl (fl (s * s) * 2) / (n * n))) - (Q / n - 2 * (S / n * (S / n))) =
      (fl (q / n) - Q / n) - (fl (fl (fl (s * s) * 2) / (n * n)) - 2 * (S / n * (S / n))) := by ring
    rw [e]
    refine (abs_sub _ _).trans ?_
    linarith
  have h6 : |Q / n - 2 * (S / n * (S / n))| ≤ 3 * (M * M) := by
    refine (abs_sub _ _).trans ?_
    linarith
  have hD := fl_near hfl hu huw hX h6 (by norm_num) (by linarith) h5
  have h7 : |fl (fl (q / n) - fl (fl (fl (s * s) * 2) / (n * n))) + fl (fl (s / n) * fl (s / n)) - (Q / n - S / n * (S / n))| ≤
      34 * w * (M * M) := by
    have e : fl (fl (q / n) - fl (fl (fl (s * s) * 2) / (n * n))) + fl (fl (s / n) * fl (s / n)) - (Q / n - S / n * (S / n)) =
      (fl (fl (q / n) - fl (fl (fl (s * s) * 2) / (n * n))) - (Q / n - 2 * (S / n * (S / n)))) +
        (fl (fl (s / n) * fl (s / n)) - S / n * (S / n)) := by ring
    rw [e]
    refine (abs_add_le _ _).trans ?_
    linarith
  have h8 : |Q / n - S / n * (S / n)| ≤ 2 * (M * M) := by
    refine (abs_sub _ _).trans ?_
    linarith
  have hV := fl_near hfl hu huw hX h8 (by norm_num) (by linarith) h7
  refine hV.trans ?_
  have : 0 ≤ w * (M * M) := by positivity
  rw [show 40 * n * u * (M * M) = 40 * (w * (M * M)) by rw [hwdef]; ring]
  nlinarith

end MLE1
end Verif
