import Verif.Model.NormalKLDouble
import Verif.Props.NormalDouble
import Verif.Props.Normal

/-!
# The Kullback-Leibler divergence of normal distributions computed in doubles
-/

namespace Verif
namespace Dbl
open ProbabilityTheory MeasureTheory

/-- the divergence by its definition, as the expression the code evaluates (C56). -/
theorem gaussian_kl {v v' : ℝ} (hv : 0 < v) (hv' : 0 < v') (m m' : ℝ) :
    (∫ x, gaussianPDFReal m v.toNNReal x * (Real.log (gaussianPDFReal m v.toNNReal x) - Real.log (gaussianPDFReal m' v'.toNNReal x))) =
      1 / 2 * (Real.log (v' * (1 / v)) + 1 / v' * v - 1 + (m - m') * (1 / v') * (m - m')) := by
  have hr : ∀ m v : ℝ, 0 < v → Normal1.Reach (Normal1.withVar ⟨m, v, 0, 0, 0⟩ v) := fun m v hv => by
    refine Normal1.Reach.init (raw := ⟨0, v, 0, 0, 0⟩) (m := m) (v := v) ?_
    rw [Normal1.ctor, if_neg (not_le.2 hv)]
    rfl
  have h1 := (Normal1.C56_kl (hr m v hv) (hr m' v' hv')).1
  simp only [(Normal1.C56_pdf (hr m v hv)).1, (Normal1.C56_pdf (hr m' v' hv')).1] at h1
  refine h1.symm.trans ?_
  show (0.5:ℝ) * (Real.log (v' * (1 / v)) + 1 / v' * v - 1 + (m - m') * (1 / v') * (m - m')) = _
  norm_num

theorem kl_error {logD : ℚ → ℚ} (hlog : LogAccurate logD) {v v' : ℚ} (hv : 0 < v) (hv' : 0 < v') (m m' : ℚ) :
    |((Norm1.withVariance logD m v).kl logD (Norm1.withVariance logD m' v') : ℝ) -
        1 / 2 * (Real.log ((v' : ℝ) * (1 / v)) + 1 / (v' : ℝ) * v - 1 + ((m : ℝ) - m') * (1 / v') * (m - m'))| ≤
      (|Real.log ((v' : ℝ) * (1 / v))| + 1 / (v' : ℝ) * v + 1 + ((m : ℝ) - m') * (1 / v') * (m - m')) / 2 ^ 49 := by
  have hV : (0:ℝ) < v := by exact_mod_cast hv
  have hV' : (0:ℝ) < v' := by exact_mod_cast hv'
  have p1 : RelErr (1 / 2 ^ 53) (1 / (v : ℝ)) (fl53 (1 / v) : ℚ) := by
    have := relErr_fl (1 / v); push_cast at this; exact this
  have p2 : RelErr (1 / 2 ^ 53) (1 / (v' : ℝ)) (fl53 (1 / v') : ℚ) := by
    have := relErr_fl (1 / v'); push_cast at this; exact this
  have a1 := p1.const_mul (v' : ℝ)
  have a2 : RelErr (1 / 2 ^ 53) ((v' : ℝ) * (fl53 (1 / v) : ℚ)) (fl53 (v' * fl53 (1 / v)) : ℚ) := by
    have := relErr_fl (v' * fl53 (1 / v)); push_cast at this; exact this
  have a3 := (a1.trans (by norm_num) a2).weaken (show _ ≤ (3 / 2 ^ 53 : ℝ) by norm_num)
  obtain ⟨y0, a4⟩ := log_rel (by positivity) (by norm_num) a3
  have a5 := hlog _ (by exact_mod_cast y0 : 0 < fl53 (v' * fl53 (1 / v)))
  have b1 := p2.const_mul (v : ℝ)
  rw [mul_comm (v : ℝ), mul_comm (v : ℝ)] at b1
  have b2 : RelErr (1 / 2 ^ 53) (((fl53 (1 / v') : ℚ) : ℝ) * v) (fl53 (fl53 (1 / v') * v) : ℚ) := by
    have := relErr_fl (fl53 (1 / v') * v); push_cast at this; exact this
  have b3 := (b1.trans (by norm_num) b2).weaken (show _ ≤ (3 / 2 ^ 53 : ℝ) by norm_num)
  have c1 : RelErr (6 / 2 ^ 53) (((m : ℝ) - m') * (1 / v') * (m - m'))
      (fl53 (fl53 (fl53 (m - m') * fl53 (1 / v')) * fl53 (m - m')) : ℚ) := by
    have := maha_error (logD := logD) m' v' m
    rw [show ((m : ℝ) - m') * (m - m') / v' = ((m : ℝ) - m') * (1 / v') * (m - m') by ring] at this
    exact this
  show |((fl53 (1 / 2 * fl53 (fl53 (fl53 (logD (fl53 (v' * fl53 (1 / v))) + fl53 (fl53 (1 / v') * v)) - 1) +
    fl53 (fl53 (fl53 (m - m') * fl53 (1 / v')) * fl53 (m - m')))) : ℚ) : ℝ) - _| ≤ _
  have hρ : 0 ≤ 1 / (v' : ℝ) * v := by positivity
  have hQ : 0 ≤ ((m : ℝ) - m') * (1 / v') * (m - m') := by
    rw [show ((m : ℝ) - m') * (1 / v') * (m - m') = ((m : ℝ) - m') ^ 2 * (1 / v') by ring]
    positivity
  unfold RelErr at b3 c1
  rw [abs_of_nonneg hρ] at b3
  rw [abs_of_nonneg hQ] at c1
  generalize Real.log ((fl53 (v' * fl53 (1 / v)) : ℚ) : ℝ) = l' at *
  generalize logD (fl53 (v' * fl53 (1 / v))) = L at *
  generalize fl53 (fl53 (fl53 (m - m') * fl53 (1 / v')) * fl53 (m - m')) = q at *
  generalize fl53 (fl53 (1 / v') * v) = r at *
  generalize Real.log ((v' : ℝ) * (1 / v)) = l at *
  generalize ((m : ℝ) - m') * (1 / v') * (m - m') = Q at *
  generalize 1 / (v' : ℝ) * v = ρ at *
  have d1 := relErr_fl (L + r)
  have d2 := relErr_fl (fl53 (L + r) - 1)
  have d3 := relErr_fl (fl53 (fl53 (L + r) - 1) + q)
  have d4 := relErr_fl (1 / 2 * fl53 (fl53 (fl53 (L + r) - 1) + q))
  unfold RelErr at d1 d2 d3 d4
  push_cast at d1 d2 d3 d4
  generalize fl53 (1 / 2 * fl53 (fl53 (fl53 (L + r) - 1) + q)) = R at *
  generalize fl53 (fl53 (fl53 (L + r) - 1) + q) = s3 at *
  generalize fl53 (fl53 (L + r) - 1) = s2 at *
  generalize fl53 (L + r) = s1 at *
  have hl := abs_nonneg l
  -- the logarithm
  have t1 := abs_add_le (l' - l) l
  rw [sub_add_cancel] at t1
  have t2 := abs_sub_le (L : ℝ) l' l
  have f1 : |(L : ℝ) - l| ≤ (3 * |l| + 4) / 2 ^ 53 := by linarith
  -- the sums
  have t3 := abs_add_le ((L : ℝ) - l) (r - ρ)
  rw [show (L : ℝ) - l + (r - ρ) = L + r - (l + ρ) by ring] at t3
  have t4 := abs_add_le ((L : ℝ) + r - (l + ρ)) (l + ρ)
  rw [sub_add_cancel] at t4
  have t5 := abs_add_le l ρ
  rw [abs_of_nonneg hρ] at t5
  have t6 := abs_sub_le (s1 : ℝ) (L + r) (l + ρ)
  have f2 : |(s1 : ℝ) - (l + ρ)| ≤ (5 * |l| + 5 * ρ + 5) / 2 ^ 53 := by linarith
  have t7 := abs_add_le ((s1 : ℝ) - (l + ρ)) (l + ρ)
  rw [sub_add_cancel] at t7
  have t8 := abs_sub (s1 : ℝ) 1
  rw [abs_one] at t8
  have t9 := abs_sub_le (s2 : ℝ) (s1 - 1) (l + ρ - 1)
  rw [show (s1 : ℝ) - 1 - (l + ρ - 1) = s1 - (l + ρ) by ring] at t9
  have f3 : |(s2 : ℝ) - (l + ρ - 1)| ≤ (7 * |l| + 7 * ρ + 7) / 2 ^ 53 := by linarith
  have t10 := abs_sub (l + ρ) 1
  rw [abs_one] at t10
  have t11 := abs_add_le ((s2 : ℝ) - (l + ρ - 1)) (q - Q)
  rw [show (s2 : ℝ) - (l + ρ - 1) + (q - Q) = s2 + q - (l + ρ - 1 + Q) by ring] at t11
  have t12 := abs_add_le (l + ρ - 1) Q
  rw [abs_of_nonneg hQ] at t12
  have t13 := abs_add_le ((s2 : ℝ) + q - (l + ρ - 1 + Q)) (l + ρ - 1 + Q)
  rw [sub_add_cancel] at t13
  have t14 := abs_sub_le (s3 : ℝ) (s2 + q) (l + ρ - 1 + Q)
  have f4 : |(s3 : ℝ) - (l + ρ - 1 + Q)| ≤ (9 * |l| + 9 * ρ + 9 + 9 * Q) / 2 ^ 53 := by linarith
  have t15 := abs_add_le ((s3 : ℝ) - (l + ρ - 1 + Q)) (l + ρ - 1 + Q)
  rw [sub_add_cancel] at t15
  rw [abs_mul, abs_of_pos (by norm_num : (0:ℝ) < 1 / 2)] at d4
  have t16 := abs_sub_le (R : ℝ) (1 / 2 * s3) (1 / 2 * (l + ρ - 1 + Q))
  rw [← mul_sub, abs_mul, abs_of_pos (by norm_num : (0:ℝ) < 1 / 2)] at t16
  linarith

/-- **C163** (accuracy, partial): after any histories of setter calls on two distributions the computed divergence is that of the normal
distributions with the means and variances last accepted, up to `2^-49` of the sum of the magnitudes of its terms.  Missing: it can be negative
(`C163_negative`). -/
theorem C163_error_partial (logD : ℚ → ℚ) (hlog : LogAccurate logD) (m0 v0 m0' v0' : ℚ) (h0 : 0 < v0) (h0' : 0 < v0') :
    ∃ s0 o0, Norm1.ctor logD m0 v0 = .ok s0 () ∧ Norm1.ctor logD m0' v0' = .ok o0 () ∧ ∀ ops ops' : List Norm1Op,
      let m : ℝ := (lastSet (m0, v0) ops).1
      let v : ℝ := (lastSet (m0, v0) ops).2
      let m' : ℝ := (lastSet (m0', v0') ops').1
      let v' : ℝ := (lastSet (m0', v0') ops').2
      |((Norm1.run logD s0 ops).kl logD (Norm1.run logD o0 ops') : ℝ) -
        ∫ x, gaussianPDFReal m v.toNNReal x * (Real.log (gaussianPDFReal m v.toNNReal x) - Real.log (gaussianPDFReal m' v'.toNNReal x))| ≤
      (|Real.log (v' * (1 / v))| + 1 / v' * v + 1 + (m - m') * (1 / v') * (m - m')) / 2 ^ 49 := by
  refine ⟨Norm1.withVariance logD m0 v0, Norm1.withVariance logD m0' v0', by rw [Norm1.ctor, if_neg (not_le.2 h0)],
    by rw [Norm1.ctor, if_neg (not_le.2 h0')], fun ops ops' => ?_⟩
  obtain ⟨e, hv⟩ := run_eq logD ops m0 v0 h0
  obtain ⟨e', hv'⟩ := run_eq logD ops' m0' v0' h0'
  intro m v m' v'
  rw [e, e', gaussian_kl (show 0 < v from Rat.cast_pos.2 hv) (show 0 < v' from Rat.cast_pos.2 hv')]
  exact kl_error hlog hv hv' _ _

/-- **C163 (negation).**  The divergence of the normal distribution with mean 0 and variance 49 from itself is computed as a negative number,
whatever accurate logarithm the library has. -/
theorem C163_negative (logD : ℚ → ℚ) (hlog : LogAccurate logD) : ∃ s, Norm1.ctor logD 0 49 = .ok s () ∧ s.kl logD s < 0 := by
  refine ⟨Norm1.withVariance logD 0 49, by rw [Norm1.ctor, if_neg (by norm_num)], ?_⟩
  have e1 : fl53 (49 * fl53 (1 / 49)) = 1 - 1 / 2 ^ 53 := by decide +kernel
  have e2 : fl53 (fl53 (1 / 49) * 49) = 1 - 1 / 2 ^ 53 := by rw [mul_comm, e1]
  have hz : fl53 0 = 0 := fl53_fix isDouble_zero
  show fl53 (1 / 2 * fl53 (fl53 (fl53 (logD (fl53 (49 * fl53 (1 / 49))) + fl53 (fl53 (1 / 49) * 49)) - 1) +
    fl53 (fl53 (fl53 (0 - 0) * fl53 (1 / 49)) * fl53 (0 - 0)))) < 0
  rw [e1, e2, sub_self, hz, zero_mul, hz, zero_mul, hz, add_zero]
  have hL : logD (1 - 1 / 2 ^ 53) ≤ 0 := by
    have h := hlog (1 - 1 / 2 ^ 53) (by norm_num)
    have hn : Real.log ((1 - 1 / 2 ^ 53 : ℚ) : ℝ) ≤ 0 := Real.log_nonpos (by norm_num) (by norm_num)
    rw [abs_of_nonpos hn] at h
    have := (abs_le.1 h).2
    have : (logD (1 - 1 / 2 ^ 53) : ℝ) ≤ 0 := by linarith
    exact_mod_cast this
  have e3 : fl53 (1 - 1 / 2 ^ 53) = 1 - 1 / 2 ^ 53 := by decide +kernel
  have h1 := fl53_mono (show logD (1 - 1 / 2 ^ 53) + (1 - 1 / 2 ^ 53) ≤ 1 - 1 / 2 ^ 53 by linarith)
  rw [e3] at h1
  have h2 := fl53_mono (show fl53 (logD (1 - 1 / 2 ^ 53) + (1 - 1 / 2 ^ 53)) - 1 ≤ -(1 / 2 ^ 53) by linarith)
  have e4 : fl53 (-(1 / 2 ^ 53)) = -(1 / 2 ^ 53) := by decide +kernel
  have e5 : fl53 (-(1 / 2 ^ 54)) = -(1 / 2 ^ 54) := by decide +kernel
  rw [e4] at h2
  have h3 := fl53_mono h2
  rw [e4] at h3
  have h4 := fl53_mono (show 1 / 2 * fl53 (fl53 (fl53 (logD (1 - 1 / 2 ^ 53) + (1 - 1 / 2 ^ 53)) - 1)) ≤ -(1 / 2 ^ 54) by linarith)
  rw [e5] at h4
  linarith [show (-(1 / 2 ^ 54) : ℚ) < 0 by norm_num]

/-- such logarithms exist, and the two constructors succeed for instance here. -/
example : ∃ logD, LogAccurate logD ∧ ∃ s0, Norm1.ctor logD 0 1 = .ok s0 () ∧
    |(s0.kl logD s0 : ℝ)| ≤ 1 / 2 ^ 48 := by
  obtain ⟨logD, h⟩ := logAccurate_exists
  refine ⟨logD, h, Norm1.withVariance logD 0 1, by rw [Norm1.ctor, if_neg (by norm_num)], ?_⟩
  have := kl_error h (v := 1) (v' := 1) (by norm_num) (by norm_num) 0 0
  norm_num at this ⊢
  linarith

end Dbl
end Verif
