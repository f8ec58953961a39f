import Verif.Lemmas.SimTD
import Mathlib.Analysis.SpecialFunctions.Trigonometric.Basic
import Mathlib.Algebra.BigOperators.Intervals
import Mathlib.Algebra.Order.BigOperators.Group.Finset

/-! Quaternions and the motion model of the simulators. -/

namespace Verif
namespace SimTD

/-! ## The assumed quaternion library satisfies the laws it is used with -/

/-- The rotation of an arbitrary quaternion, homogeneous of degree two. -/
def hrot (q : Quat) (v : Vec3) : Vec3 :=
  let d := q.x * v.x + q.y * v.y + q.z * v.z
  let m := q.w * q.w - (q.x * q.x + q.y * q.y + q.z * q.z)
  ⟨m * v.x + 2 * q.x * d - 2 * q.w * (q.y * v.z - q.z * v.y), m * v.y + 2 * q.y * d - 2 * q.w * (q.z * v.x - q.x * v.z),
    m * v.z + 2 * q.z * d - 2 * q.w * (q.x * v.y - q.y * v.x)⟩

theorem rotate_eq_hrot (q : Quat) (h : q.norm2 = 1) (v : Vec3) : q.rotate v = hrot q v := by
  obtain ⟨x, y, z, w⟩ := q
  simp only [Quat.norm2] at h
  ext <;> simp only [Quat.rotate, Quat.vec, Vec3.add, Vec3.sub, Vec3.smul, Vec3.cross, hrot]
  · linear_combination (-v.x) * h
  · linear_combination (-v.y) * h
  · linear_combination (-v.z) * h

theorem norm2_qplus (a b : Quat) : (a.qplus b).norm2 = a.norm2 * b.norm2 := by
  simp only [Quat.norm2, Quat.qplus]; ring

theorem norm2_inv (a : Quat) : a.inv.norm2 = a.norm2 := by
  simp only [Quat.norm2, Quat.inv]; ring

/-- composing quaternions composes the rotations. -/
theorem rotate_qplus (a b : Quat) (ha : a.norm2 = 1) (hb : b.norm2 = 1) (v : Vec3) :
    (a.qplus b).rotate v = a.rotate (b.rotate v) := by
  rw [rotate_eq_hrot a ha, rotate_eq_hrot b hb, rotate_eq_hrot _ (by rw [norm2_qplus, ha, hb, one_mul])]
  ext <;> simp only [hrot, Quat.qplus] <;> ring

theorem inv_inv' (q : Quat) : q.inv.inv = q := by
  ext <;> simp [Quat.inv]

theorem inv_qplus (a b : Quat) : (a.qplus b).inv = b.inv.qplus a.inv := by
  ext <;> simp only [Quat.inv, Quat.qplus] <;> ring

theorem qplus_assoc (a b c : Quat) : (a.qplus b).qplus c = a.qplus (b.qplus c) := by
  ext <;> simp only [Quat.qplus] <;> ring

theorem qplus_inv (a : Quat) (h : a.norm2 = 1) : a.qplus a.inv = ⟨0, 0, 0, 1⟩ := by
  simp only [Quat.norm2] at h
  ext <;> simp only [Quat.qplus, Quat.inv]
  · ring
  · ring
  · ring
  · linear_combination h

theorem qplus_one (a : Quat) : a.qplus ⟨0, 0, 0, 1⟩ = a := by
  ext <;> simp [Quat.qplus]

theorem rotate_inv (a : Quat) (h : a.norm2 = 1) (v : Vec3) : a.rotate (a.inv.rotate v) = v := by
  rw [← rotate_qplus a a.inv h (by rw [norm2_inv, h]), qplus_inv a h]
  ext <;> simp [Quat.rotate, Quat.vec, Vec3.add, Vec3.smul, Vec3.sub, Vec3.cross]

theorem rotate_smul (q : Quat) (c : ℝ) (v : Vec3) : q.rotate (Vec3.smul c v) = Vec3.smul c (q.rotate v) := by
  ext <;> simp only [Quat.rotate, Quat.vec, Vec3.add, Vec3.sub, Vec3.smul, Vec3.cross] <;> ring

/-! ## One step of the motion model -/

theorem norm_turn (w : ℝ) : Vec3.norm ⟨0, 0, w⟩ = |w| := by
  simp [Vec3.norm, Real.sqrt_mul_self_eq_abs]

/-- turning about the third axis. -/
noncomputable def zq (a : ℝ) : Quat := ⟨0, 0, Real.sin (a / 2), Real.cos (a / 2)⟩

theorem zq_norm2 (a : ℝ) : (zq a).norm2 = 1 := by
  simp only [Quat.norm2, zq]
  nlinarith [Real.sin_sq_add_cos_sq (a / 2)]

theorem zq_inv_rotate (a : ℝ) (v : Vec3) : (zq a).inv.rotate v = rotZ a v := by
  rw [rotate_eq_hrot _ (by rw [norm2_inv, zq_norm2])]
  have hc : Real.cos a = Real.cos (a / 2) * Real.cos (a / 2) - Real.sin (a / 2) * Real.sin (a / 2) := by
    rw [← Real.cos_add]; congr 1; ring
  have hs : Real.sin a = 2 * Real.sin (a / 2) * Real.cos (a / 2) := by
    rw [← Real.sin_two_mul]; congr 1; ring
  have h1 := Real.sin_sq_add_cos_sq (a / 2)
  ext <;> simp only [hrot, Quat.inv, zq, rotZ, hc, hs]
  · ring
  · ring
  · linear_combination v.z * h1

theorem integrate_turn (T : Pose) (v w dt : ℝ) :
    integrateMotionModel T ⟨v, 0, 0⟩ ⟨0, 0, w⟩ dt =
      ⟨if eps < |w| then T.q.qplus (zq (w * dt)).inv else T.q,
        Vec3.add T.r (Vec3.smul dt (T.q.rotate ⟨v, 0, 0⟩))⟩ := by
  unfold integrateMotionModel
  simp only [norm_turn]
  by_cases h : eps < |w|
  · simp only [h, if_true]
    have hw : (⟨0 / |w| * Real.sin (|w| / 2 * dt), 0 / |w| * Real.sin (|w| / 2 * dt),
        w / |w| * Real.sin (|w| / 2 * dt), Real.cos (|w| / 2 * dt)⟩ : Quat) = zq (w * dt) := by
      have hpos : (0 : ℝ) < eps := by unfold eps; norm_num
      rcases abs_choice w with ha | ha
      · have hw0 : w ≠ 0 := by intro e; rw [e, abs_zero] at h; linarith
        rw [ha, zq, div_self hw0]
        ext
        · simp
        · simp
        · simp only [one_mul]; congr 1; ring
        · simp only; congr 1; ring
      · have hw0 : w ≠ 0 := by intro e; rw [e, abs_zero] at h; linarith
        rw [ha, zq]
        ext
        · simp
        · simp
        · simp only
          rw [show -w / 2 * dt = -(w * dt / 2) by ring, Real.sin_neg, div_neg, div_self hw0]; ring
        · simp only
          rw [show -w / 2 * dt = -(w * dt / 2) by ring, Real.cos_neg]
    rw [hw, inv_qplus, inv_inv']
  · simp only [h, if_false, inv_inv']

theorem poseAt_succ (p : Params) (k : ℕ) :
    poseAt p (k + 1) =
      ⟨if eps < |stepTurn p (k + 1)| then (poseAt p k).q.qplus (zq (stepTurn p (k + 1) * p.dt)).inv else (poseAt p k).q,
        Vec3.add (poseAt p k).r (Vec3.smul p.dt ((poseAt p k).q.rotate ⟨stepSpeed p (k + 1), 0, 0⟩))⟩ :=
  integrate_turn _ _ _ _

theorem poseAt_norm (p : Params) (h : p.w_T_v_0.q.norm2 = 1) (k : ℕ) : (poseAt p k).q.norm2 = 1 := by
  induction k with
  | zero => exact h
  | succ k ih =>
    rw [poseAt_succ]
    simp only
    split
    · rw [norm2_qplus, ih, norm2_inv, zq_norm2, one_mul]
    · exact ih

theorem rotZ_add (a b : ℝ) (v : Vec3) : rotZ (a + b) v = rotZ a (rotZ b v) := by
  ext <;> simp only [rotZ, Real.cos_add, Real.sin_add] <;> ring

theorem poseAt_rotate (p : Params) (h : p.w_T_v_0.q.norm2 = 1) (k : ℕ) (v : Vec3) :
    (poseAt p k).q.rotate v = p.w_T_v_0.q.rotate (rotZ (turned p k) v) := by
  induction k generalizing v with
  | zero =>
    simp only [poseAt, turned, Finset.range_zero, Finset.sum_empty]
    congr 1
    ext <;> simp [rotZ]
  | succ k ih =>
    rw [poseAt_succ]
    simp only [turned, Finset.sum_range_succ]
    split
    · rw [rotate_qplus _ _ (poseAt_norm p h k) (by rw [norm2_inv, zq_norm2]), zq_inv_rotate, ih, rotZ_add]
      rfl
    · rw [ih, add_zero]; rfl

theorem turned_close (p : Params) (hd : 0 < p.dt) (k : ℕ) :
    |turned p (k + 1) - (pathHeading p ((k + 1 : ℕ) * p.dt) - pathHeading p p.dt)| ≤ (k + 1 : ℕ) * (eps * p.dt) := by
  have heps : (0 : ℝ) < eps := by unfold eps; norm_num
  have step : ∀ j, |(if eps < |stepTurn p (j + 1)| then stepTurn p (j + 1) * p.dt else 0) - stepTurn p (j + 1) * p.dt|
      ≤ eps * p.dt := by
    intro j
    split
    · rw [sub_self, abs_zero]; positivity
    · rename_i h
      rw [zero_sub, abs_neg, abs_mul, abs_of_pos hd]
      exact mul_le_mul_of_nonneg_right (not_lt.mp h) hd.le
  induction k with
  | zero =>
    have := step 0
    simp only [turned, zero_add, Finset.sum_range_one, Nat.cast_one, one_mul]
    simpa [stepTurn] using this
  | succ k ih =>
    rw [turned, Finset.sum_range_succ]
    have h2 := step (k + 1)
    have e : stepTurn p (k + 1 + 1) * p.dt
        = pathHeading p ((k + 1 + 1 : ℕ) * p.dt) - pathHeading p ((k + 1 : ℕ) * p.dt) := by
      have : ¬ (k + 1 + 1 ≤ 1) := by omega
      simp only [stepTurn, this, if_false]
      rw [div_mul_cancel₀ _ hd.ne']
      congr 3
      push_cast; ring
    rw [e] at h2
    rw [e]
    have : ∀ a b c d m x y : ℝ, |a - (c - d)| ≤ x → |b - (m - c)| ≤ y → |a + b - (m - d)| ≤ x + y := by
      intro a b c d m x y h1 h2
      calc |a + b - (m - d)| = |(a - (c - d)) + (b - (m - c))| := by congr 1; ring
        _ ≤ _ := (abs_add_le _ _).trans (add_le_add h1 h2)
    have h3 := this _ _ _ _ _ _ _ ih h2
    refine le_trans h3 (le_of_eq ?_)
    push_cast; ring

end SimTD
end Verif
