import Verif.Model.DoubleLogFactorial
import Verif.Props.DoubleGeometric
import Verif.Props.DoubleNormal
import Mathlib.Data.Nat.Factorial.Basic

/-!
# The logarithm of the factorial, computed in doubles
-/

namespace Verif
namespace Dbl

theorem logFactLoop_succ (logD : ℚ → ℚ) (k : ℕ) : ∀ x v,
    logFactLoop logD (k + 1) x v = fl53 (logFactLoop logD k x v + logD (fl53 ((x + k + 1 : ℕ) : ℚ))) := by
  induction k with
  | zero => intro x v; rfl
  | succ k ih =>
    intro x v
    rw [logFactLoop, ih]
    conv_rhs => rw [logFactLoop]
    rw [show x + 1 + k + 1 = x + (k + 1) + 1 by omega]

theorem logFactorialD_succ (logD : ℚ → ℚ) {n : ℕ} (h : n ≠ 0) :
    logFactorialD logD (n + 1) = fl53 (logFactorialD logD n + logD (fl53 ((n + 1 : ℕ) : ℚ))) := by
  unfold logFactorialD
  rw [if_pos (by omega), if_pos h, show n + 1 - 1 = (n - 1) + 1 by omega, logFactLoop_succ, show 1 + (n - 1) + 1 = n + 1 by omega]

theorem log_factorial_succ (n : ℕ) : Real.log ((n + 1).factorial : ℝ) = Real.log n.factorial + Real.log ((n + 1 : ℕ) : ℝ) := by
  rw [Nat.factorial_succ, Nat.cast_mul, Real.log_mul (by positivity) (by positivity), add_comm]

theorem log_factorial_nonneg (n : ℕ) : 0 ≤ Real.log (n.factorial : ℝ) :=
  Real.log_nonneg (by exact_mod_cast n.factorial_pos)

theorem log_factorial_le (n : ℕ) : Real.log (n.factorial : ℝ) ≤ n * Real.log ((n + 1 : ℕ) : ℝ) := by
  induction n with
  | zero => simp
  | succ n ih =>
    have h : Real.log ((n + 1 : ℕ) : ℝ) ≤ Real.log ((n + 1 + 1 : ℕ) : ℝ) :=
      Real.log_le_log (by positivity) (by exact_mod_cast Nat.le_succ _)
    rw [log_factorial_succ]
    have h1 := mul_le_mul_of_nonneg_left h (Nat.cast_nonneg (α := ℝ) n)
    push_cast at *
    linarith

theorem fl53_size {n : ℕ} (h : n ≤ 2 ^ 53) : fl53 (n : ℚ) = n := by
  have := fl53_int (m := (n : ℤ)) (by rw [abs_of_nonneg (by positivity)]; exact_mod_cast h)
  exact_mod_cast this

theorem logFactorialD_error (logD : ℚ → ℚ) (hlog : LogAccurate logD) (n : ℕ) (hn : n ≤ 2 ^ 50) :
    |(logFactorialD logD n : ℝ) - Real.log n.factorial| ≤ n / 2 ^ 52 * Real.log n.factorial := by
  induction n with
  | zero => simp [logFactorialD]
  | succ n ih =>
    by_cases h0 : n = 0
    · subst h0; simp [logFactorialD, logFactLoop]
    have ih := ih (by omega)
    rw [logFactorialD_succ logD h0, fl53_size (by omega)]
    have hS := log_factorial_nonneg n
    have hl : 0 ≤ Real.log ((n + 1 : ℕ) : ℝ) := Real.log_nonneg (by exact_mod_cast (show 1 ≤ n + 1 by omega))
    have hL := hlog ((n + 1 : ℕ) : ℚ) (by positivity)
    rw [Rat.cast_natCast, abs_of_nonneg hl] at hL
    have hr := relErr_fl (logFactorialD logD n + logD ((n + 1 : ℕ) : ℚ))
    rw [log_factorial_succ]
    generalize logFactorialD logD n = v at *
    generalize logD ((n + 1 : ℕ) : ℚ) = L at *
    generalize Real.log (n.factorial : ℝ) = S at *
    generalize Real.log ((n + 1 : ℕ) : ℝ) = l at *
    have hn1 : (1:ℝ) ≤ n := by exact_mod_cast Nat.one_le_iff_ne_zero.2 h0
    have hn2 : (n:ℝ) ≤ 2 ^ 50 := by exact_mod_cast (show n ≤ 2 ^ 50 by omega)
    have e1 : RelErr (n / 2 ^ 52) (S + l) ((v + L : ℚ) : ℝ) := by
      unfold RelErr
      rw [abs_of_nonneg (by linarith : 0 ≤ S + l)]
      push_cast
      have h1 : l / 2 ^ 52 ≤ n / 2 ^ 52 * l := by
        have := mul_le_mul_of_nonneg_right hn1 hl
        linarith
      rw [show (v:ℝ) + L - (S + l) = (v - S) + (L - l) by ring]
      have := abs_add_le ((v:ℝ) - S) (L - l)
      linarith
    have e2 := (e1.trans (by norm_num) hr).weaken (show _ ≤ ((n:ℝ) + 1) / 2 ^ 52 by linarith)
    unfold RelErr at e2
    rw [abs_of_nonneg (by linarith : 0 ≤ S + l)] at e2
    push_cast at *
    exact e2

/-- **C159** (accuracy): for every argument up to `2^50` the computed value is `log(n!)` up to a relative error of `n · 2^-52`, and it is
exactly zero for 0 and 1. -/
theorem C159_error (logD : ℚ → ℚ) (hlog : LogAccurate logD) :
    (∀ n : ℕ, n ≤ 2 ^ 50 → |(logFactorialD logD n : ℝ) - Real.log n.factorial| ≤ n / 2 ^ 52 * Real.log n.factorial) ∧
    logFactorialD logD 0 = 0 ∧ logFactorialD logD 1 = 0 :=
  ⟨logFactorialD_error logD hlog, by simp [logFactorialD], by simp [logFactorialD, logFactLoop]⟩

/-- **C159** (order): larger arguments have larger values. -/
theorem C159_increasing (logD : ℚ → ℚ) (hlog : LogAccurate logD) (m n : ℕ) (hm : 1 ≤ m) (hmn : m < n) (hn : n ≤ 2 ^ 50) :
    logFactorialD logD m < logFactorialD logD n := by
  have step : ∀ n : ℕ, 1 ≤ n → n < 2 ^ 50 → logFactorialD logD n < logFactorialD logD (n + 1) := by
    intro n h1 h2
    have he := logFactorialD_error logD hlog n h2.le
    rw [logFactorialD_succ logD (by omega), fl53_size (by omega)]
    have hS := log_factorial_nonneg n
    have hSl := log_factorial_le n
    have hl : 0 < Real.log ((n + 1 : ℕ) : ℝ) := Real.log_pos (by exact_mod_cast (show 1 < n + 1 by omega))
    have hL := hlog ((n + 1 : ℕ) : ℚ) (by positivity)
    rw [Rat.cast_natCast, abs_of_nonneg hl.le] at hL
    have hr := relErr_fl (logFactorialD logD n + logD ((n + 1 : ℕ) : ℚ))
    generalize logFactorialD logD n = v at *
    generalize logD ((n + 1 : ℕ) : ℚ) = L at *
    generalize Real.log (n.factorial : ℝ) = S at *
    generalize Real.log ((n + 1 : ℕ) : ℝ) = l at *
    have hn2 : (n:ℝ) ≤ 2 ^ 50 := by exact_mod_cast h2.le
    have hS2 : S ≤ 2 ^ 50 * l := hSl.trans (mul_le_mul_of_nonneg_right hn2 hl.le)
    have hc : (n:ℝ) / 2 ^ 52 * S ≤ S / 4 := by
      have := mul_le_mul_of_nonneg_right hn2 hS
      linarith
    obtain ⟨a1, a2⟩ := abs_le.1 he
    obtain ⟨b1, b2⟩ := abs_le.1 hL
    unfold RelErr at hr
    push_cast at hr
    rw [abs_of_nonneg (by linarith : (0:ℝ) ≤ v + L)] at hr
    have c := (abs_le.1 hr).1
    have : (v:ℝ) < (fl53 (v + L) : ℚ) := by linarith
    exact_mod_cast this
  induction n, hmn using Nat.le_induction with
  | base => exact step m hm (by omega)
  | succ k hk ih => exact (ih (by omega)).trans (step k (by omega) (by omega))

/-- **C159** (log gamma): zero is rejected; at `n + 1` the value is that of the log factorial at `n`. -/
theorem C159_gamma (logD : ℚ → ℚ) (hlog : LogAccurate logD) :
    logGammaD logD 0 = .throw .badArgument () ∧
    ∀ n : ℕ, n ≤ 2 ^ 50 → ∃ v, logGammaD logD (n + 1) = .ok v () ∧
      |(v : ℝ) - Real.log n.factorial| ≤ n / 2 ^ 52 * Real.log n.factorial :=
  ⟨by simp [logGammaD], fun n hn => ⟨logFactorialD logD n, by simp [logGammaD], logFactorialD_error logD hlog n hn⟩⟩

/-- there is such a library logarithm, and with it three is told from two and both from zero. -/
example : ∃ logD, LogAccurate logD ∧ 0 < logFactorialD logD 2 ∧ logFactorialD logD 2 < logFactorialD logD 3 := by
  obtain ⟨logD, h⟩ := logAccurate_exists
  refine ⟨logD, h, ?_, C159_increasing logD h 2 3 (by norm_num) (by norm_num) (by norm_num)⟩
  have := C159_increasing logD h 1 2 (by norm_num) (by norm_num) (by norm_num)
  rwa [(C159_error logD h).2.2] at this

end Dbl
end Verif
