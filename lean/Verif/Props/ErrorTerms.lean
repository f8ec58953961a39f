import Verif.Lemmas.Angle
import Mathlib.Analysis.SpecialFunctions.Pow.Deriv
import Mathlib.LinearAlgebra.Matrix.Diagonal
import Mathlib.Analysis.Real.Pi.Bounds

/-! Properties C39 and C40 (Jacobians of the error terms) and C46 (covariance setters). -/

namespace Verif
namespace ErrorTerms
open Real Filter Topology

/-- a design variable moving along a differentiable curve: value `x t`, velocity `x'` at time `t`. -/
def Moves {n : Nat} (x : ℝ → Fin n → ℝ) (x' : Fin n → ℝ) (t : ℝ) : Prop :=
  ∀ i, HasDerivAt (fun s => x s i) (x' i) t

/-- a vector valued quantity changes at the given rate. -/
def Rate {n : Nat} (f : ℝ → Fin n → ℝ) (f' : Fin n → ℝ) (t : ℝ) : Prop :=
  ∀ i, HasDerivAt (fun s => f s i) (f' i) t

/-- replace function and derivative by equal ones. -/
theorem hd_congr {f g : ℝ → ℝ} {f' g' t : ℝ} (h : HasDerivAt f f' t) (hf : ∀ s, g s = f s) (h' : g' = f') :
    HasDerivAt g g' t := by
  obtain rfl : g = f := funext hf
  rw [h']; exact h

/-- **C39**, motion error term of the 2D example: along every differentiable motion of the two poses the error changes at
the rate given by the two Jacobian blocks. -/
theorem C39_motion {T : ℝ} (_hT : T ≠ 0) (uk : Fin 3 → ℝ) {x0 x1 : ℝ → Fin 3 → ℝ} {x0' x1' : Fin 3 → ℝ} {t : ℝ}
    (h0 : Moves x0 x0' t) (h1 : Moves x1 x1' t) :
    Rate (fun s => motionErr T uk (x0 s) (x1 s))
      ((motionJxkm1 T (x0 t) (x1 t)).mulVec x0' + (motionJxk T (x0 t) (x1 t)).mulVec x1') t := by
  have hc := (h0 2).cos
  have hs := (h0 2).sin
  have d0 := (h1 0).sub (h0 0)
  have d1 := (h1 1).sub (h0 1)
  have d2 := (h1 2).sub (h0 2)
  intro i
  fin_cases i
  · have h := (((hc.mul d0).add (hs.mul d1)).const_mul (1 / T)).const_sub (uk 0)
    refine hd_congr h (fun s => ?_) ?_
    · simp [motionErr, motionB, Matrix.mulVec, dotProduct, Fin.sum_univ_three]; ring
    · simp [motionJxkm1, motionJxk, Matrix.mulVec, dotProduct, Fin.sum_univ_three]; ring
  · have h := (((hs.neg.mul d0).add (hc.mul d1)).const_mul (1 / T)).const_sub (uk 1)
    refine hd_congr h (fun s => ?_) ?_
    · simp [motionErr, motionB, Matrix.mulVec, dotProduct, Fin.sum_univ_three]; ring
    · simp [motionJxkm1, motionJxk, Matrix.mulVec, dotProduct, Fin.sum_univ_three]; ring
  · have h := (d2.const_mul (1 / T)).const_sub (uk 2)
    refine hd_congr h (fun s => ?_) ?_
    · simp [motionErr, motionB, Matrix.mulVec, dotProduct, Fin.sum_univ_three]
    · simp [motionJxkm1, motionJxk, Matrix.mulVec, dotProduct, Fin.sum_univ_three]; ring

/-- **C39**, range and bearing error term of the 2D example: along every differentiable motion of pose, landmark and
calibration parameters, wherever the landmark is not at the sensor and the wrapped bearing error is not at the jump ±π, the
error changes at the rate given by the three Jacobian blocks; also across the branch cut of `atan2`. -/
theorem C39_observation (r b : ℝ) {xk Th : ℝ → Fin 3 → ℝ} {xl : ℝ → Fin 2 → ℝ} {xk' Th' : Fin 3 → ℝ} {xl' : Fin 2 → ℝ}
    {t : ℝ} (hk : Moves xk xk' t) (hl : Moves xl xl' t) (hT : Moves Th Th' t)
    (h0 : obsA (xk t) (xl t) (Th t) ≠ 0 ∨ obsB (xk t) (xl t) (Th t) ≠ 0)
    (hcut : ¬ Cut (b - (atan2 (obsB (xk t) (xl t) (Th t)) (obsA (xk t) (xl t) (Th t)) - xk t 2 - Th t 2))) :
    Rate (fun s => obsErr r b (xk s) (xl s) (Th s))
      ((obsJxk (xk t) (xl t) (Th t)).mulVec xk' + (obsJxl (xk t) (xl t) (Th t)).mulVec xl' +
        (obsJTh (xk t) (xl t) (Th t)).mulVec Th') t := by
  have hc := (hk 2).cos
  have hs := (hk 2).sin
  have hA := (((hl 0).sub (hk 0)).sub ((hT 0).mul hc)).add ((hT 1).mul hs)
  have hB := (((hl 1).sub (hk 1)).sub ((hT 0).mul hs)).sub ((hT 1).mul hc)
  set A' := xl' 0 - xk' 0 - (Th' 0 * cos (xk t 2) + Th t 0 * (-sin (xk t 2) * xk' 2)) +
    (Th' 1 * sin (xk t 2) + Th t 1 * (cos (xk t 2) * xk' 2)) with hA'
  set B' := xl' 1 - xk' 1 - (Th' 0 * sin (xk t 2) + Th t 0 * (cos (xk t 2) * xk' 2)) -
    (Th' 1 * cos (xk t 2) + Th t 1 * (-sin (xk t 2) * xk' 2)) with hB'
  have hA2 : HasDerivAt (fun s => obsA (xk s) (xl s) (Th s)) A' t := hA
  have hB2 : HasDerivAt (fun s => obsB (xk s) (xl s) (Th s)) B' t := hB
  have hD : 0 < obsD (xk t) (xl t) (Th t) := by
    unfold obsD
    rcases h0 with h | h
    · have := mul_self_pos.2 h; have := mul_self_nonneg (obsB (xk t) (xl t) (Th t)); linarith
    · have := mul_self_pos.2 h; have := mul_self_nonneg (obsA (xk t) (xl t) (Th t)); linarith
  have hq : 0 < sqrt (obsD (xk t) (xl t) (Th t)) := sqrt_pos.2 hD
  intro i
  fin_cases i
  · have hDd := ((hA2.mul hA2).add (hB2.mul hB2)).sqrt (ne_of_gt hD)
    have h : HasDerivAt (fun s => r - sqrt (obsD (xk s) (xl s) (Th s))) _ t := hDd.const_sub r
    refine hd_congr h (fun s => rfl) ?_
    simp only [obsJxk, obsJxl, obsJTh, Matrix.mulVec, dotProduct, Fin.sum_univ_three, Fin.sum_univ_two]
    simp [Matrix.vecHead, Matrix.vecTail]
    change _ = -((A' * obsA (xk t) (xl t) (Th t) + obsA (xk t) (xl t) (Th t) * A' +
      (B' * obsB (xk t) (xl t) (Th t) + obsB (xk t) (xl t) (Th t) * B')) / (2 * sqrt (obsD (xk t) (xl t) (Th t))))
    rw [hA', hB']
    field_simp
    ring
  · obtain ⟨g, hg, hev⟩ := atan2_branch hA2 hB2 h0
    have hfg : HasDerivAt (fun s => b - (g s - xk s 2 - Th s 2)) _ t := ((hg.sub (hk 2)).sub (hT 2)).const_sub b
    have h := hasDerivAt_angleMod (f := fun s => b - (atan2 (obsB (xk s) (xl s) (Th s)) (obsA (xk s) (xl s) (Th s)) -
      xk s 2 - Th s 2)) hfg (by
        filter_upwards [hev] with s hs
        obtain ⟨k, hk⟩ := hs
        exact ⟨-k, by rw [hk]; push_cast; ring⟩) hcut
    refine hd_congr h (fun s => rfl) ?_
    simp only [obsJxk, obsJxl, obsJTh, Matrix.mulVec, dotProduct, Fin.sum_univ_three, Fin.sum_univ_two]
    simp [Matrix.vecHead, Matrix.vecTail]
    change _ = Th' 2 - ((obsA (xk t) (xl t) (Th t) * B' - obsB (xk t) (xl t) (Th t) * A') / (obsD (xk t) (xl t) (Th t)) - xk' 2)
    rw [hA', hB']
    field_simp
    ring

/-- **C39**, steering error term: where the forward velocity is not zero the Jacobians are finite and, away from the jump of
the wrapped error, are the derivatives along every motion of coefficients and velocity. -/
theorem C39_steering (meas : ℝ) {a : ℝ → Fin 4 → ℝ} {v : ℝ → Fin 3 → ℝ} {a' : Fin 4 → ℝ} {v' : Fin 3 → ℝ} {t : ℝ}
    (ha : Moves a a' t) (hv : Moves v v' t) (h0 : v t 0 ≠ 0)
    (hcut : ¬ Cut (a t 0 + a t 1 * meas + a t 2 * meas * meas + a t 3 * meas * meas * meas - atan2 (v t 1) (v t 0))) :
    ∃ J, steerJv (v t) = some J ∧
      HasDerivAt (fun s => steerErr meas (a s) (v s)) (dotProduct (steerJa meas) a' + dotProduct J v') t := by
  refine ⟨_, by rw [steerJv, if_neg h0], ?_⟩
  obtain ⟨g, hg, hev⟩ := atan2_branch (hv 0) (hv 1) (Or.inl h0)
  have hp := ((((ha 0).add ((ha 1).mul_const meas)).add (((ha 2).mul_const meas).mul_const meas)).add
    ((((ha 3).mul_const meas).mul_const meas).mul_const meas)).sub hg
  have h := hasDerivAt_angleMod (f := fun s => a s 0 + a s 1 * meas + a s 2 * meas * meas + a s 3 * meas * meas * meas -
    atan2 (v s 1) (v s 0)) hp (by
      filter_upwards [hev] with s hs
      obtain ⟨k, hk⟩ := hs
      exact ⟨-k, by rw [hk]; simp only [Pi.add_apply, Pi.sub_apply]; push_cast; ring⟩) hcut
  refine hd_congr h (fun s => rfl) ?_
  have hD : v t 0 * v t 0 + v t 1 * v t 1 ≠ 0 := by
    have := mul_self_pos.2 h0; have := mul_self_nonneg (v t 1); positivity
  have hD2 : v t 0 ^ 2 + v t 1 ^ 2 ≠ 0 := by rw [sq, sq]; exact hD
  have hD3 : v t 1 ^ 2 + v t 0 ^ 2 ≠ 0 := by rw [add_comm]; exact hD2
  have e1 : v t 0 * v t 0 * (v t 1 * v t 1 / (v t 0 * v t 0) + 1) = v t 0 * v t 0 + v t 1 * v t 1 := by
    field_simp; ring
  have e2 : v t 0 * (v t 1 * v t 1 / (v t 0 * v t 0) + 1) = (v t 0 * v t 0 + v t 1 * v t 1) / v t 0 := by
    field_simp; ring
  rw [e1, e2]
  simp [steerJa, dotProduct, Fin.sum_univ_three, Fin.sum_univ_four]
  field_simp
  ring

/-- **C39** (negation): with zero forward and non-zero lateral velocity the steering error is differentiable but the
Jacobian handed to the optimizer is not a number. -/
theorem C39_steering_jacobian_not_finite :
    ∃ (v : ℝ → Fin 3 → ℝ) (v' : Fin 3 → ℝ), Moves v v' 0 ∧ steerJv (v 0) = none ∧
      ∃ d, HasDerivAt (fun s => steerErr 0 ![0, 0, 0, 0] (v s)) d 0 := by
  have hm : Moves (fun s => ![s, 1, 0]) ![1, 0, 0] 0 := by
    intro i
    fin_cases i
    · exact hd_congr (hasDerivAt_id (0 : ℝ)) (fun s => by simp) (by simp)
    · exact hd_congr (hasDerivAt_const (0 : ℝ) (1 : ℝ)) (fun s => by simp) (by simp)
    · exact hd_congr (hasDerivAt_const (0 : ℝ) (0 : ℝ)) (fun s => by simp) (by simp)
  refine ⟨fun s => ![s, 1, 0], ![1, 0, 0], hm, by simp [steerJv], ?_⟩
  obtain ⟨g, hg, hev⟩ := atan2_branch (hm 0) (hm 1) (Or.inr (by simp))
  refine ⟨_, hasDerivAt_angleMod (f := fun s => (![0, 0, 0, 0] : Fin 4 → ℝ) 0 + (![0, 0, 0, 0] : Fin 4 → ℝ) 1 * 0 +
    (![0, 0, 0, 0] : Fin 4 → ℝ) 2 * 0 * 0 + (![0, 0, 0, 0] : Fin 4 → ℝ) 3 * 0 * 0 * 0 -
    atan2 ((![s, 1, 0] : Fin 3 → ℝ) 1) ((![s, 1, 0] : Fin 3 → ℝ) 0)) hg.neg (by
      filter_upwards [hev] with s hs
      obtain ⟨k, hk⟩ := hs
      exact ⟨-k, by rw [hk]; simp; ring⟩) ?_⟩
  have : atan2 1 0 = π / 2 := by
    have : (⟨0, 1⟩ : ℂ) = Complex.I := rfl
    rw [atan2, this, Complex.arg_I]
  simp only [Matrix.cons_val_zero, Matrix.cons_val_one, this]
  rintro ⟨k, hk⟩
  have hpi := pi_pos
  have h2 : ((-1 : ℤ) : ℝ) = ((2 * (2 * k + 1) : ℤ) : ℝ) := by
    push_cast
    have : π * (-1 : ℝ) = π * (2 * (2 * k + 1)) := by simp at hk; linarith
    exact mul_left_cancel₀ (ne_of_gt hpi) this
  have h3 : (-1 : ℤ) = 2 * (2 * k + 1) := by exact_mod_cast h2
  omega

/-- **C39**, velocity error term. -/
theorem C39_velocities (vm om : Fin 3 → ℝ) {v o : ℝ → Fin 3 → ℝ} {v' o' : Fin 3 → ℝ} {t : ℝ} (hv : Moves v v' t)
    (ho : Moves o o' t) :
    Rate (fun s => (velErr vm om (v s) (o s)).1) (velJv.1.mulVec v' + velJo.1.mulVec o') t ∧
    Rate (fun s => (velErr vm om (v s) (o s)).2) (velJv.2.mulVec v' + velJo.2.mulVec o') t := by
  refine ⟨fun i => ?_, fun i => ?_⟩
  · have := (hv i).const_sub (vm i)
    simpa [velErr, velJv, velJo, Matrix.neg_mulVec] using this
  · have := (ho i).const_sub (om i)
    simpa [velErr, velJv, velJo, Matrix.neg_mulVec] using this

/-- **C39**, rear wheel and DMI error term (no front wheel flag). -/
theorem C39_wheel_rear (meas : ℝ) {k : ℝ → ℝ} {k' : ℝ} {v : ℝ → Fin 3 → ℝ} {v' : Fin 3 → ℝ} {t : ℝ}
    (hk : HasDerivAt k k' t) (hv : Moves v v' t) :
    Rate (fun s => wheelErr false meas (k s) (v s)) ((wheelJv false (k t) (v t)).mulVec v' + k' • wheelJk false (v t)) t := by
  intro i
  fin_cases i
  · have h := (hk.mul (hv 0)).const_sub meas
    refine hd_congr h (fun s => by simp [wheelErr]) ?_
    simp [wheelJv, wheelJk, Matrix.mulVec, dotProduct, Fin.sum_univ_three]
  · have h := (hv 1).neg
    refine hd_congr h (fun s => by simp [wheelErr]) ?_
    simp [wheelJv, wheelJk, Matrix.mulVec, dotProduct, Fin.sum_univ_three]
  · have h := (hv 2).neg
    refine hd_congr h (fun s => by simp [wheelErr]) ?_
    simp [wheelJv, wheelJk, Matrix.mulVec, dotProduct, Fin.sum_univ_three]

/-- the predicted front wheel speed is the signed planar speed. -/
theorem front_speed (v : Fin 3 → ℝ) (h0 : v 0 ≠ 0) :
    v 0 / sqrt (v 1 * v 1 / (v 0 * v 0) + 1) + v 1 * v 1 / (v 0 * sqrt (v 1 * v 1 / (v 0 * v 0) + 1)) =
      SignType.sign (v 0) * sqrt (v 0 * v 0 + v 1 * v 1) := by
  have hD : 0 < v 0 * v 0 + v 1 * v 1 := by
    have := mul_self_pos.2 h0; have := mul_self_nonneg (v 1); linarith
  have e : v 1 * v 1 / (v 0 * v 0) + 1 = (v 0 * v 0 + v 1 * v 1) / (v 0 * v 0) := by field_simp; ring
  have hq : 0 < sqrt (v 0 * v 0 + v 1 * v 1) := sqrt_pos.2 hD
  have hqq : sqrt (v 0 * v 0 + v 1 * v 1) * sqrt (v 0 * v 0 + v 1 * v 1) = v 0 * v 0 + v 1 * v 1 :=
    mul_self_sqrt hD.le
  rw [e, sqrt_div hD.le, sqrt_mul_self_eq_abs]
  set q := sqrt (v 0 * v 0 + v 1 * v 1) with hqdef
  rcases lt_or_gt_of_ne h0 with h | h
  · rw [abs_of_neg h, sign_neg h]
    simp only [SignType.coe_neg, SignType.coe_one]
    field_simp
    nlinarith [hqq]
  · rw [abs_of_pos h, sign_pos h]
    simp only [SignType.coe_one]
    field_simp
    nlinarith [hqq]

/-- the derivative of the front wheel error: the velocity block handed to the optimizer times the sign of the forward
velocity, plus the coefficient block. -/
theorem wheel_front_deriv (meas : ℝ) {k : ℝ → ℝ} {k' : ℝ} {v : ℝ → Fin 3 → ℝ} {v' : Fin 3 → ℝ} {t : ℝ}
    (hk : HasDerivAt k k' t) (hv : Moves v v' t) (h0 : v t 0 ≠ 0) :
    HasDerivAt (fun s => wheelErr true meas (k s) (v s) 0)
      (SignType.sign (v t 0) * ((wheelJv true (k t) (v t)).mulVec v' 0) + k' * wheelJk true (v t) 0) t := by
  have hD : 0 < v t 0 * v t 0 + v t 1 * v t 1 := by
    have := mul_self_pos.2 h0; have := mul_self_nonneg (v t 1); linarith
  have hq : 0 < sqrt (v t 0 * v t 0 + v t 1 * v t 1) := sqrt_pos.2 hD
  have hsq := (((hv 0).mul (hv 0)).add ((hv 1).mul (hv 1))).sqrt (ne_of_gt hD)
  have hfin := (hk.mul (hsq.const_mul (SignType.sign (v t 0) : ℝ))).const_sub meas
  have hev : (fun s => wheelErr true meas (k s) (v s) 0) =ᶠ[𝓝 t]
      fun s => meas - k s * ((SignType.sign (v t 0) : ℝ) * sqrt (v s 0 * v s 0 + v s 1 * v s 1)) := by
    have hsgn : ∀ᶠ s in 𝓝 t, SignType.sign (v s 0) = SignType.sign (v t 0) := by
      rcases lt_or_gt_of_ne h0 with h | h
      · filter_upwards [(hv 0).continuousAt.eventually (gt_mem_nhds h)] with s hs
        rw [sign_neg hs, sign_neg h]
      · filter_upwards [(hv 0).continuousAt.eventually (lt_mem_nhds h)] with s hs
        rw [sign_pos hs, sign_pos h]
    filter_upwards [hsgn, (hv 0).continuousAt.eventually_ne h0] with s hs hs0
    have := front_speed (v s) hs0
    simp only [wheelErr, if_true, Matrix.cons_val_zero]
    rw [this, hs]
  refine HasDerivAt.congr_of_eventuallyEq ?_ hev
  refine hd_congr hfin (fun s => rfl) ?_
  have hJk : wheelJk true (v t) 0 = -((SignType.sign (v t 0) : ℝ) * sqrt (v t 0 * v t 0 + v t 1 * v t 1)) := by
    rw [← front_speed (v t) h0]; simp [wheelJk]
  rw [hJk]
  simp [wheelJv, Matrix.mulVec, dotProduct, Fin.sum_univ_three]
  field_simp
  ring

/-- **C40** (partial): the front wheel Jacobian is the derivative of the error for forward motion of the wheel.  The full
property (also backwards) is false: `C40_backward_wrong`. -/
theorem C40_front_wheel_forward_partial (meas : ℝ) {k : ℝ → ℝ} {k' : ℝ} {v : ℝ → Fin 3 → ℝ} {v' : Fin 3 → ℝ} {t : ℝ}
    (hk : HasDerivAt k k' t) (hv : Moves v v' t) (h0 : 0 < v t 0) :
    Rate (fun s => wheelErr true meas (k s) (v s)) ((wheelJv true (k t) (v t)).mulVec v' + k' • wheelJk true (v t)) t := by
  intro i
  fin_cases i
  · have h := wheel_front_deriv meas hk hv (ne_of_gt h0)
    rw [sign_pos h0] at h
    simpa using h
  · have h := hasDerivAt_const t (0 : ℝ)
    refine hd_congr h (fun s => by simp [wheelErr]) ?_
    simp [wheelJv, wheelJk, Matrix.mulVec, dotProduct, Fin.sum_univ_three]
  · have h := (hv 2).neg
    refine hd_congr h (fun s => by simp [wheelErr]) ?_
    simp [wheelJv, wheelJk, Matrix.mulVec, dotProduct, Fin.sum_univ_three]

/-- **C40**: for backward motion of the wheel the true derivative has the opposite sign of the velocity block handed to the
optimizer. -/
theorem C40_backward_sign (meas : ℝ) {k : ℝ → ℝ} {k' : ℝ} {v : ℝ → Fin 3 → ℝ} {v' : Fin 3 → ℝ} {t : ℝ}
    (hk : HasDerivAt k k' t) (hv : Moves v v' t) (h0 : v t 0 < 0) :
    HasDerivAt (fun s => wheelErr true meas (k s) (v s) 0)
      (-((wheelJv true (k t) (v t)).mulVec v' 0) + k' * wheelJk true (v t) 0) t := by
  have h := wheel_front_deriv meas hk hv (ne_of_lt h0)
  rw [sign_neg h0] at h
  simpa using h

/-- **C40** (negation): a wheel rolling backwards at unit speed: the Jacobian says the error grows at rate 1 where it falls
at rate 1. -/
theorem C40_backward_wrong :
    ∃ (v : ℝ → Fin 3 → ℝ) (v' : Fin 3 → ℝ), Moves v v' 0 ∧
      (wheelJv true 1 (v 0)).mulVec v' 0 = 1 ∧ HasDerivAt (fun s => wheelErr true 0 1 (v s) 0) (-1) 0 := by
  have hm : Moves (fun s => ![s - 1, 0, 0]) ![1, 0, 0] 0 := by
    intro i
    fin_cases i
    · exact hd_congr ((hasDerivAt_id (0 : ℝ)).sub_const 1) (fun s => by simp) (by simp)
    · exact hd_congr (hasDerivAt_const (0 : ℝ) (0 : ℝ)) (fun s => by simp) (by simp)
    · exact hd_congr (hasDerivAt_const (0 : ℝ) (0 : ℝ)) (fun s => by simp) (by simp)
  have hJ : (wheelJv true 1 ((fun s : ℝ => (![s - 1, 0, 0] : Fin 3 → ℝ)) 0)).mulVec ![1, 0, 0] 0 = 1 := by
    simp [wheelJv, Matrix.mulVec, dotProduct, Fin.sum_univ_three]
  refine ⟨fun s => ![s - 1, 0, 0], ![1, 0, 0], hm, hJ, ?_⟩
  have h := C40_backward_sign 0 (hasDerivAt_const (0 : ℝ) (1 : ℝ)) hm (by simp)
  rw [hJ] at h
  simpa using h

/-! ### C46 -/

namespace Weighted
variable {n : Nat}

/-- **C46** (partial): a freshly constructed error term is weighted with the inverse of its covariance. -/
theorem C46_constructor_partial (R : Matrix (Fin n) (Fin n) ℝ) (hR : IsUnit R.det) :
    (make R).getCovariance = R ∧ (make R).invR * R = 1 ∧ R * (make R).invR = 1 :=
  ⟨rfl, Matrix.nonsing_inv_mul R hR, Matrix.mul_nonsing_inv R hR⟩

/-- **C46** (negation): after any sequence of `setCovariance` calls the term is still weighted with the inverse of the
covariance it was constructed with, although the new covariance is reported. -/
theorem C46_setter_keeps_weight (R : Matrix (Fin n) (Fin n) ℝ) (Rs : List (Matrix (Fin n) (Fin n) ℝ)) (err : Fin n → ℝ) :
    (Rs.foldl setCovariance (make R)).chiSquared err = (make R).chiSquared err ∧
    (Rs.foldl setCovariance (make R)).getCovariance = (Rs.getLast?).getD R := by
  have h1 : ∀ (Rs : List (Matrix (Fin n) (Fin n) ℝ)) (s : Weighted n), (Rs.foldl setCovariance s).invR = s.invR := by
    intro Rs
    induction Rs with
    | nil => intro s; rfl
    | cons R Rs ih => intro s; rw [List.foldl_cons, ih]; rfl
  constructor
  · unfold chiSquared; rw [h1]
  · induction Rs using List.reverseRecOn with
    | nil => rfl
    | append_singleton Rs R' _ => rw [List.foldl_append]; simp [getCovariance, setCovariance]

/-- **C46** (negation), concrete: unit covariance replaced by 4, the weighted error of a unit error stays 1 instead of 1/4. -/
theorem C46_wrong_weight : ((make (1 : Matrix (Fin 1) (Fin 1) ℝ)).setCovariance ((4 : ℝ) • 1)).chiSquared (fun _ => 1) = 1 ∧
    (make ((4 : ℝ) • (1 : Matrix (Fin 1) (Fin 1) ℝ))).chiSquared (fun _ => 1) = 1 / 4 := by
  constructor
  · simp [chiSquared, setCovariance, make, dotProduct]
  · have : ((4 : ℝ) • (1 : Matrix (Fin 1) (Fin 1) ℝ))⁻¹ = (4 : ℝ)⁻¹ • 1 := by
      apply Matrix.inv_eq_right_inv
      simp [smul_smul]
    simp [chiSquared, make, this, dotProduct, Matrix.mulVec]

end Weighted

/-! ### The hypotheses are met -/

/-- concrete instance for the observation term: a landmark two metres ahead, not at the jump. -/
example : (obsA ![0, 0, 0] ![2, 0] ![0, 0, 0] ≠ 0) ∧ ¬ Cut (1 - (atan2 0 2 - 0 - 0)) := by
  constructor
  · simp [obsA]
  · have : atan2 0 2 = 0 := by
      have : (⟨2, 0⟩ : ℂ) = ((2 : ℝ) : ℂ) := rfl
      rw [atan2, this, Complex.arg_ofReal_of_nonneg (by norm_num)]
    rw [this]
    rintro ⟨k, hk⟩
    have h3 := Real.pi_gt_three
    rcases le_or_gt 0 k with h | h
    · have : (0 : ℝ) ≤ k := by exact_mod_cast h
      nlinarith
    · have : (k : ℝ) ≤ -1 := by exact_mod_cast (by omega : k ≤ -1)
      nlinarith

end ErrorTerms
end Verif
