import Verif.Lemmas.DoubleGeometric
import Mathlib.Analysis.Complex.ExponentialBounds
import Mathlib.Analysis.SpecialFunctions.Pow.Real

/-!
# C149: geometric and exponential sampling in double arithmetic
-/

namespace Verif
namespace Dbl

/-- the function `log` of the C library is off by at most one unit in the last place. -/
def LogAccurate (logD : ℚ → ℚ) : Prop := ∀ x : ℚ, 0 < x → |(logD x : ℝ) - Real.log x| ≤ |Real.log x| / 2 ^ 52

/-- such a function exists. -/
theorem logAccurate_exists : ∃ logD, LogAccurate logD := by
  have h : ∀ x : ℚ, ∃ y : ℚ, |(y : ℝ) - Real.log x| ≤ |Real.log x| / 2 ^ 52 := by
    intro x
    by_cases hx : Real.log x = 0
    · exact ⟨0, by rw [hx]; simp⟩
    · have hp : 0 < |Real.log x| / 2 ^ 52 := by positivity
      obtain ⟨y, h1, h2⟩ := exists_rat_btwn (show Real.log x < Real.log x + |Real.log x| / 2 ^ 52 by linarith)
      exact ⟨y, by rw [abs_of_pos (by linarith)]; linarith⟩
  choose f hf using h
  exact ⟨f, fun x _ => hf x⟩

/-- the computed logarithm of a number of `(0, 1]`. -/
theorem log_bounds {logD : ℚ → ℚ} (h : LogAccurate logD) {u : ℚ} (h0 : 0 < u) (h1 : u ≤ 1) :
    -Real.log u * (1 - 1 / 2 ^ 52) ≤ ((-logD u : ℚ) : ℝ) ∧ ((-logD u : ℚ) : ℝ) ≤ -Real.log u * (1 + 1 / 2 ^ 52) ∧ 0 ≤ -Real.log u := by
  have hl : Real.log u ≤ 0 := Real.log_nonpos (by exact_mod_cast h0.le) (by exact_mod_cast h1)
  have g := h u h0
  rw [abs_of_nonpos hl] at g
  obtain ⟨g1, g2⟩ := abs_le.1 g
  push_cast
  refine ⟨by linarith, by linarith, by linarith⟩

/-- **C149** (exponential): the sample is `-log(u) / rate` for the first draw `u` that is not zero, up to a relative error of `2^-51`;
rates that are not positive are rejected without a draw. -/
theorem C149_exponential (logD : ℚ → ℚ) (hlog : LogAccurate logD) (rand : ℕ → ℕ) (hr : ∀ i, rand i ≤ 2147483647) (n i : ℕ)
    (hz : ∀ j < i, rand (n + j) = 0) (hi : rand (n + i) ≠ 0) (rate : ℚ) :
    (rate ≤ 0 → exponentialD logD rand rate n = .throw .badArgument n) ∧
    (0 < rate → ∃ x u, exponentialD logD rand rate n = .ok x (n + i + 1) ∧ 0 ≤ x ∧
      |u - (rand (n + i) : ℚ) / 2147483647| ≤ (rand (n + i) : ℚ) / 2147483647 / 2 ^ 53 ∧
      |(x : ℝ) * rate + Real.log u| ≤ |Real.log u| / 2 ^ 51) := by
  refine ⟨fun h => by unfold exponentialD; rw [if_pos h], fun h0 => ?_⟩
  obtain ⟨u0, u1, -, u3⟩ := draw_facts hi (hr _)
  obtain ⟨l1, l2, l3⟩ := log_bounds hlog u0 u1
  obtain ⟨u, hu⟩ : ∃ u, u = fl53 ((rand (n + i) : ℚ) / 2147483647) := ⟨_, rfl⟩
  rw [← hu] at u0 u1 u3 l1 l2 l3
  have hR : (0:ℝ) < rate := by exact_mod_cast h0
  have ha : (0:ℝ) ≤ ((-logD u : ℚ) : ℝ) := le_trans (mul_nonneg l3 (by norm_num)) l1
  have haq : (0:ℚ) ≤ -logD u := by exact_mod_cast ha
  have hq : (0:ℚ) ≤ -logD u / rate := by positivity
  refine ⟨fl53 (-logD u / rate), u, ?_, fl53_nonneg hq, u3, ?_⟩
  · unfold exponentialD
    rw [if_neg (not_le.2 h0), firstU_some hz hi, ← hu]
  · have hf := fl53_rel (-logD u / rate)
    rw [abs_of_nonneg hq] at hf
    obtain ⟨y, hy⟩ : ∃ y, y = fl53 (-logD u / rate) := ⟨_, rfl⟩
    rw [← hy] at hf ⊢
    have hf' : |(y : ℝ) - ((-logD u : ℚ) : ℝ) / rate| ≤ ((-logD u : ℚ) : ℝ) / rate / 2 ^ 53 := by exact_mod_cast hf
    obtain ⟨a, hA⟩ : ∃ a : ℝ, a = ((-logD u : ℚ) : ℝ) := ⟨_, rfl⟩
    obtain ⟨A, hAA⟩ : ∃ A : ℝ, A = -Real.log u := ⟨_, rfl⟩
    have hlogA : Real.log u = -A := by rw [hAA]; ring
    rw [← hA] at hf' l1 l2 ha
    rw [← hAA] at l1 l2 l3
    rw [hlogA, abs_neg, abs_of_nonneg l3]
    obtain ⟨f1, f2⟩ := abs_le.1 hf'
    have e : a / rate * rate = a := div_mul_cancel₀ _ hR.ne'
    have g1 : (y : ℝ) * rate ≤ (a / rate + a / rate / 2 ^ 53) * rate := mul_le_mul_of_nonneg_right (by linarith) hR.le
    have g2 : (a / rate - a / rate / 2 ^ 53) * rate ≤ (y : ℝ) * rate := mul_le_mul_of_nonneg_right (by linarith) hR.le
    rw [show (a / rate + a / rate / 2 ^ 53) * rate = a / rate * rate * (1 + 1 / 2 ^ 53) by ring, e] at g1
    rw [show (a / rate - a / rate / 2 ^ 53) * rate = a / rate * rate * (1 - 1 / 2 ^ 53) by ring, e] at g2
    rw [abs_le]
    norm_num at *
    constructor <;> linarith

/-- **C149** (geometric, partial): for every probability greater than `2^-54` the sample is the number `k` of failures before the first success
that the first draw `u` that is not zero stands for: the survival probability `q^k` is at least `u` and `q^(k+1)` is below it, up to a
relative error of `2^-50` of the exponent, `q` being the rounded probability of failure.  Probabilities outside `(0, 1]` are rejected without a
draw.  Missing: probabilities up to `2^-54` (`C149_small_probability`). -/
theorem C149_geometric_partial (logD : ℚ → ℚ) (hlog : LogAccurate logD) (rand : ℕ → ℕ) (hr : ∀ i, rand i ≤ 2147483647) (n i : ℕ)
    (hz : ∀ j < i, rand (n + j) = 0) (hi : rand (n + i) ≠ 0) (p : ℚ) :
    (p ≤ 0 ∨ 1 < p → geometricD logD rand p n = .throw .badArgument n) ∧
    (1 / 2 ^ 54 < p → p ≤ 1 → ∃ (k : ℕ) (u q : ℚ), geometricD logD rand p n = .ok k (n + i + 1) ∧
      |u - (rand (n + i) : ℚ) / 2147483647| ≤ (rand (n + i) : ℚ) / 2147483647 / 2 ^ 53 ∧
      |q - (1 - p)| ≤ (1 - p) / 2 ^ 53 ∧ 0 ≤ q ∧ q < 1 ∧ 0 < u ∧ u ≤ 1 ∧
      (u : ℝ) ^ (1 + 1 / 2 ^ (50 : ℕ) : ℝ) ≤ (q : ℝ) ^ k ∧ (q : ℝ) ^ (k + 1) < (u : ℝ) ^ (1 - 1 / 2 ^ (50 : ℕ) : ℝ)) := by
  refine ⟨fun h => by unfold geometricD; rw [if_pos h], fun h0 h1 => ?_⟩
  obtain ⟨u0, u1, u2, u3⟩ := draw_facts hi (hr _)
  obtain ⟨l1, l2, l3⟩ := log_bounds hlog u0 u1
  obtain ⟨u, hu⟩ : ∃ u, u = fl53 ((rand (n + i) : ℚ) / 2147483647) := ⟨_, rfl⟩
  rw [← hu] at u0 u1 u2 u3 l1 l2 l3
  have hp0 : ¬ (p ≤ 0 ∨ p > 1) := by
    have : (0:ℚ) < p := lt_trans (by norm_num) h0
    exact not_or.2 ⟨not_le.2 this, not_lt.2 h1⟩
  have hq1 := one_sub_lt h0
  have hq0 : 0 ≤ fl53 (1 - p) := fl53_nonneg (by linarith)
  have hqr := fl53_rel (1 - p)
  rw [abs_of_nonneg (show 0 ≤ 1 - p by linarith)] at hqr
  have hg : geometricD logD rand p n = if fl53 (1 - p) = 0 then .ok 0 (n + i + 1)
      else if logD (fl53 (1 - p)) = 0 then .ub
      else if ⌊fl53 (logD u / logD (fl53 (1 - p)))⌋ < 0 ∨ 2 ^ 64 ≤ ⌊fl53 (logD u / logD (fl53 (1 - p)))⌋ then .ub
      else .ok ⌊fl53 (logD u / logD (fl53 (1 - p)))⌋.toNat (n + i + 1) := by
    unfold geometricD
    rw [if_neg hp0, firstU_some hz hi, ← hu]
  obtain ⟨q, hq⟩ : ∃ q, q = fl53 (1 - p) := ⟨_, rfl⟩
  rw [← hq] at hg hq1 hq0 hqr
  have hu0R : (0:ℝ) < u := by exact_mod_cast u0
  by_cases hz0 : q = 0
  · rw [if_pos hz0] at hg
    refine ⟨0, u, q, hg, u3, hqr, hq0, by rw [hz0]; norm_num, u0, u1, ?_, ?_⟩
    · rw [pow_zero]; exact Real.rpow_le_one hu0R.le (by exact_mod_cast u1) (by norm_num)
    · rw [hz0, zero_add, pow_one, Rat.cast_zero]; exact Real.rpow_pos_of_pos hu0R _
  · have hqp : 0 < q := lt_of_le_of_ne hq0 (Ne.symm hz0)
    have hqR : (0:ℝ) < q := by exact_mod_cast hqp
    have hqlt : q < 1 := lt_of_le_of_lt hq1 (by norm_num)
    obtain ⟨m1, m2, m3⟩ := log_bounds hlog hqp hqlt.le
    have hB : (1:ℝ) / 2 ^ 53 ≤ -Real.log q := by
      have h2 := Real.log_le_sub_one_of_pos hqR
      have h3 : (q : ℝ) ≤ 1 - 1 / 2 ^ 53 := by
        have : ((q : ℚ) : ℝ) ≤ ((1 - 1 / 2 ^ 53 : ℚ) : ℝ) := Rat.cast_le.2 hq1
        push_cast at this; exact this
      linarith
    have hA : -Real.log u ≤ 31 := by
      have h3 : ((1:ℝ) / 2 ^ 31) ≤ u := by
        have : ((1 / 2 ^ 31 : ℚ) : ℝ) ≤ ((u : ℚ) : ℝ) := Rat.cast_le.2 u2
        push_cast at this; exact this
      have h4 := Real.log_le_log (by norm_num) h3
      rw [one_div, Real.log_inv, Real.log_pow] at h4
      have := Real.log_two_lt_d9
      push_cast at h4
      linarith
    obtain ⟨A, eA⟩ : ∃ A : ℝ, A = -Real.log u := ⟨_, rfl⟩
    obtain ⟨B, eB⟩ : ∃ B : ℝ, B = -Real.log q := ⟨_, rfl⟩
    obtain ⟨a, ea⟩ : ∃ a : ℚ, a = -logD u := ⟨_, rfl⟩
    obtain ⟨b, eb⟩ : ∃ b : ℚ, b = -logD q := ⟨_, rfl⟩
    rw [← eA, ← ea] at l1 l2
    rw [← eA] at l3 hA
    rw [← eB, ← eb] at m1 m2
    rw [← eB] at m3 hB
    have hBp : 0 < B := lt_of_lt_of_le (by norm_num) hB
    have hbR : (0:ℝ) < b := lt_of_lt_of_le (mul_pos hBp (by norm_num)) m1
    have hb : 0 < b := by exact_mod_cast hbR
    have haR : (0:ℝ) ≤ a := le_trans (mul_nonneg l3 (by norm_num)) l1
    have ha : 0 ≤ a := by exact_mod_cast haR
    have hquot : logD u / logD q = a / b := by rw [ea, eb, neg_div_neg_eq]
    have hq' : (0:ℚ) ≤ a / b := by positivity
    have hf := fl53_rel (a / b)
    rw [abs_of_nonneg hq'] at hf
    have hy0 : 0 ≤ fl53 (a / b) := fl53_nonneg hq'
    rw [hquot, if_neg hz0, if_neg (by intro h; rw [h, neg_zero] at eb; exact hb.ne' eb)] at hg
    obtain ⟨y, hy⟩ : ∃ y, y = fl53 (a / b) := ⟨_, rfl⟩
    rw [← hy] at hg hf hy0
    have hf' : |(y : ℝ) - (a : ℝ) / b| ≤ (a : ℝ) / b / 2 ^ 53 := by exact_mod_cast hf
    obtain ⟨f1, f2⟩ := abs_le.1 hf'
    obtain ⟨x, hx⟩ : ∃ x : ℝ, x = (a : ℝ) / b := ⟨_, rfl⟩
    rw [← hx] at f1 f2
    have hxb : x * b = a := by rw [hx]; exact div_mul_cancel₀ _ hbR.ne'
    have hx0 : 0 ≤ x := by rw [hx]; positivity
    have hyR : (0:ℝ) ≤ y := by exact_mod_cast hy0
    -- `y * B` and `A`
    have up : (y : ℝ) * B ≤ A * (1 + 1 / 2 ^ 50) := by
      have e1 : x * (B * (1 - 1 / 2 ^ 52)) ≤ A * (1 + 1 / 2 ^ 52) := by
        have := mul_le_mul_of_nonneg_left m1 hx0
        linarith
      have e2 : (y : ℝ) * (B * (1 - 1 / 2 ^ 52)) ≤ (x * (1 + 1 / 2 ^ 53)) * (B * (1 - 1 / 2 ^ 52)) :=
        mul_le_mul_of_nonneg_right (by linarith) (mul_nonneg hBp.le (by norm_num))
      have e3 : (x * (1 + 1 / 2 ^ 53)) * (B * (1 - 1 / 2 ^ 52)) ≤ A * (1 + 1 / 2 ^ 52) * (1 + 1 / 2 ^ 53) := by
        calc _ = x * (B * (1 - 1 / 2 ^ 52)) * (1 + 1 / 2 ^ 53) := by ring
          _ ≤ _ := mul_le_mul_of_nonneg_right e1 (by norm_num)
      norm_num at e2 e3 ⊢
      linarith
    have low : A * (1 - 1 / 2 ^ 50) ≤ (y : ℝ) * B := by
      have e1 : A * (1 - 1 / 2 ^ 52) ≤ x * (B * (1 + 1 / 2 ^ 52)) := by
        have := mul_le_mul_of_nonneg_left m2 hx0
        linarith
      have e2 : (x * (1 - 1 / 2 ^ 53)) * (B * (1 + 1 / 2 ^ 52)) ≤ (y : ℝ) * (B * (1 + 1 / 2 ^ 52)) :=
        mul_le_mul_of_nonneg_right (by linarith) (mul_nonneg hBp.le (by norm_num))
      have e3 : A * (1 - 1 / 2 ^ 52) * (1 - 1 / 2 ^ 53) ≤ (x * (1 - 1 / 2 ^ 53)) * (B * (1 + 1 / 2 ^ 52)) := by
        calc _ ≤ x * (B * (1 + 1 / 2 ^ 52)) * (1 - 1 / 2 ^ 53) := mul_le_mul_of_nonneg_right e1 (by norm_num)
          _ = _ := by ring
      norm_num at e2 e3 ⊢
      linarith
    have hfl0 : 0 ≤ ⌊y⌋ := Int.floor_nonneg.2 hy0
    have hylt : (y : ℝ) < 2 ^ 64 := by
      have e1 : (y : ℝ) * (1 / 2 ^ 53) ≤ (y : ℝ) * B := mul_le_mul_of_nonneg_left hB hyR
      norm_num at e1 up ⊢
      linarith
    have hfl1 : ⌊y⌋ < 2 ^ 64 := by
      rw [Int.floor_lt]
      have : y < 2 ^ 64 := by exact_mod_cast hylt
      exact_mod_cast this
    rw [if_neg (not_or.2 ⟨not_lt.2 hfl0, not_le.2 hfl1⟩)] at hg
    have hk : ((⌊y⌋.toNat : ℕ) : ℝ) ≤ y ∧ (y : ℝ) < (⌊y⌋.toNat : ℕ) + 1 := by
      have e : ((⌊y⌋.toNat : ℕ) : ℚ) = (⌊y⌋ : ℚ) := by
        rw [← Int.cast_natCast, Int.toNat_of_nonneg hfl0]
      have f3 := Int.floor_le y
      have f4 := Int.lt_floor_add_one y
      rw [← e] at f3 f4
      constructor
      · exact_mod_cast f3
      · exact_mod_cast f4
    refine ⟨⌊y⌋.toNat, u, q, hg, u3, hqr, hq0, hqlt, u0, u1, ?_, ?_⟩
    · rw [← Real.rpow_natCast (q : ℝ), Real.rpow_def_of_pos hu0R, Real.rpow_def_of_pos hqR, Real.exp_le_exp]
      have e1 : ((⌊y⌋.toNat : ℕ) : ℝ) * B ≤ y * B := mul_le_mul_of_nonneg_right hk.1 hBp.le
      have e2 : Real.log u = -A := by rw [eA]; ring
      have e3 : Real.log q = -B := by rw [eB]; ring
      rw [e2, e3]
      linarith
    · rw [← Real.rpow_natCast (q : ℝ), Real.rpow_def_of_pos hu0R, Real.rpow_def_of_pos hqR, Real.exp_lt_exp]
      have e1 : (y : ℝ) * B < ((⌊y⌋.toNat : ℕ) + 1) * B := mul_lt_mul_of_pos_right hk.2 hBp
      have e2 : Real.log u = -A := by rw [eA]; ring
      have e3 : Real.log q = -B := by rw [eB]; ring
      rw [e2, e3]
      push_cast
      linarith

/-- **C149** (what is wrong): for positive probabilities up to `2^-54` the call is undefined for all draws, because `1 - probability` is
computed as one. -/
theorem C149_small_probability (logD : ℚ → ℚ) (hlog : LogAccurate logD) (rand : ℕ → ℕ) (n i : ℕ)
    (hz : ∀ j < i, rand (n + j) = 0) (hi : rand (n + i) ≠ 0) (p : ℚ) (h0 : 0 < p) (h1 : p ≤ 1 / 2 ^ 54) :
    geometricD logD rand p n = .ub := by
  have hl : logD 1 = 0 := by
    have := hlog 1 (by norm_num)
    rw [Rat.cast_one, Real.log_one, abs_zero, zero_div, sub_zero] at this
    exact_mod_cast abs_nonpos_iff.1 this
  unfold geometricD
  rw [if_neg (not_or.2 ⟨not_le.2 h0, not_lt.2 (h1.trans (by norm_num))⟩), firstU_some hz hi]
  simp only [one_sub_eq h0.le h1, hl]
  norm_num

/-- non-vacuity: a probability of `2^-53` is sampled, `2^-54` is not, and of rate three an exponential sample is drawn, after two zeros. -/
example : ∃ logD, LogAccurate logD ∧
    (∃ k, geometricD logD (fun i => if i < 2 then 0 else 1000) (1 / 2 ^ 53) 0 = .ok k 3) ∧
    geometricD logD (fun i => if i < 2 then 0 else 1000) (1 / 2 ^ 54) 0 = .ub ∧
    ∃ x, exponentialD logD (fun i => if i < 2 then 0 else 1000) 3 0 = .ok x 3 := by
  obtain ⟨logD, h⟩ := logAccurate_exists
  have hr : ∀ i, (fun i : ℕ => if i < 2 then 0 else 1000) i ≤ 2147483647 := by intro i; simp only []; split_ifs <;> norm_num
  have hz : ∀ j < 2, (fun i : ℕ => if i < 2 then 0 else 1000) (0 + j) = 0 := by intro j hj; simp [hj]
  refine ⟨logD, h, ?_, ?_, ?_⟩
  · obtain ⟨k, -, -, hk, -⟩ := (C149_geometric_partial logD h _ hr 0 2 hz (by norm_num) (1 / 2 ^ 53)).2 (by norm_num) (by norm_num)
    exact ⟨k, hk⟩
  · exact C149_small_probability logD h _ 0 2 hz (by norm_num) _ (by norm_num) (by norm_num)
  · obtain ⟨x, -, hx, -⟩ := (C149_exponential logD h _ hr 0 2 hz (by norm_num) 3).2 (by norm_num)
    exact ⟨x, hx⟩

end Dbl
end Verif
