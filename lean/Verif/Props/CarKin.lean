import Verif.Model.CarKin
import Verif.Props.ErrorTerms

/-! Property C104: kinematics of the car calibrator. -/

namespace Verif
namespace CarKin
open Matrix ErrorTerms

/-! ### Specification -/

/-- a proper rotation. -/
def IsRot (R : M3) : Prop := R.transpose * R = 1 ∧ R.det = 1

/-- a rigid body: attitude and position over time move with the rates the splines report at time `t`; the angular velocity
expression has the opposite sign of the angular velocity in the map frame (convention of the external library). -/
structure RigidMotion (R : ℝ → M3) (p : ℝ → V3) (s : Motion) (t : ℝ) : Prop where
  rot : IsRot (R t)
  att : s.R = R t
  pos : Moves p s.v t
  turn : ∀ i j, HasDerivAt (fun x => R x i j) ((crossMx (-s.av) * R t) i j) t

/-! ### Cross products and rotations -/

theorem crossMx_mulVec (w c : V3) : crossMx w *ᵥ c = w ⨯₃ c := by
  funext i; fin_cases i <;> simp [crossMx, mulVec, dotProduct, Fin.sum_univ_three, cross_apply] <;> ring

theorem rot_adj {R : M3} (h : IsRot R) : R.transpose = R.adjugate := by
  have h1 : R * R.adjugate = 1 := by rw [mul_adjugate, h.2, one_smul]
  calc R.transpose = R.transpose * (R * R.adjugate) := by rw [h1, mul_one]
    _ = R.adjugate := by rw [← mul_assoc, h.1, one_mul]

theorem cof_cross (R : M3) (a b : V3) : (R *ᵥ a) ⨯₃ (R *ᵥ b) = R.adjugate.transpose *ᵥ (a ⨯₃ b) := by
  rw [adjugate_fin_three]
  funext i
  fin_cases i <;> simp [mulVec, dotProduct, Fin.sum_univ_three, cross_apply] <;> ring

theorem rot_cross {R : M3} (h : IsRot R) (a b : V3) : R *ᵥ (a ⨯₃ b) = (R *ᵥ a) ⨯₃ (R *ᵥ b) := by
  rw [cof_cross, ← rot_adj h, transpose_transpose]

theorem IsRot.mul_transpose {R : M3} (h : IsRot R) : R * R.transpose = 1 := mul_eq_one_comm.1 h.1

theorem IsRot.transpose {R : M3} (h : IsRot R) : IsRot R.transpose :=
  ⟨by rw [transpose_transpose]; exact h.mul_transpose, by rw [det_transpose]; exact h.2⟩

theorem mulVec_transpose_mulVec {R : M3} (h : IsRot R) (a : V3) : R *ᵥ (R.transpose *ᵥ a) = a := by
  rw [mulVec_mulVec, h.mul_transpose, one_mulVec]

/-- the velocity of a point fixed to a rigid body. -/
theorem point_moves {R : ℝ → M3} {p : ℝ → V3} {s : Motion} {t : ℝ} (h : RigidMotion R p s t) (c : V3) :
    Moves (fun x => p x + R x *ᵥ c) (R t *ᵥ pointVel s c) t := by
  have e : R t *ᵥ pointVel s c = s.v + (crossMx (-s.av) * R t) *ᵥ c := by
    unfold pointVel bodyVel bodyOm
    rw [h.att, mulVec_add, rot_cross h.rot, mulVec_transpose_mulVec h.rot, mulVec_transpose_mulVec h.rot, ← mulVec_mulVec,
      crossMx_mulVec]
  intro i
  have h1 : HasDerivAt (fun x => p x i + (R x i 0 * c 0 + R x i 1 * c 1 + R x i 2 * c 2))
      (s.v i + ((crossMx (-s.av) * R t) i 0 * c 0 + (crossMx (-s.av) * R t) i 1 * c 1 +
        (crossMx (-s.av) * R t) i 2 * c 2)) t :=
    (h.pos i).add ((((h.turn i 0).mul_const _).add ((h.turn i 1).mul_const _)).add ((h.turn i 2).mul_const _))
  refine hd_congr h1 (fun x => ?_) ?_
  · simp only [Pi.add_apply]
    rw [show (R x *ᵥ c) i = R x i 0 * c 0 + R x i 1 * c 1 + R x i 2 * c 2 by
      simp [mulVec, dotProduct, Fin.sum_univ_three]]
  · rw [e]
    simp only [Pi.add_apply]
    rw [show ((crossMx (-s.av) * R t) *ᵥ c) i = (crossMx (-s.av) * R t) i 0 * c 0 + (crossMx (-s.av) * R t) i 1 * c 1 +
        (crossMx (-s.av) * R t) i 2 * c 2 by simp only [mulVec, dotProduct, Fin.sum_univ_three]]

/-! ### C104 -/

/-- the mounting points of the wheels in the vehicle frame (specification): the rear axle centre is the origin, x points
forward to the front axle at distance `L`, y to the left. -/
def mount (o : Odo) : Bool → Bool → V3
  | true, left => ![o.L, if left then o.e_f else -o.e_f, 0]
  | false, left => ![0, if left then o.e_r else -o.e_r, 0]

/-- **C104**: the velocities used for the wheels are the velocities of the wheel mounting points of a rigidly moving vehicle,
expressed in the vehicle frame: turned into the map frame each is the derivative of the position of its point (rear left for
the distance measurement, rear left and right, front left and right, centre of the front axle for the steering). -/
theorem C104_wheel_velocities {R : ℝ → M3} {p : ℝ → V3} {s : Motion} {t : ℝ} (h : RigidMotion R p s t) (o : Odo) :
    Moves (fun x => p x + R x *ᵥ mount o false true) (R t *ᵥ dmiVel o s) t ∧
    Moves (fun x => p x + R x *ᵥ mount o false true) (R t *ᵥ rlVel o s) t ∧
    Moves (fun x => p x + R x *ᵥ mount o false false) (R t *ᵥ rrVel o s) t ∧
    Moves (fun x => p x + R x *ᵥ mount o true true) (R t *ᵥ flVel o s) t ∧
    Moves (fun x => p x + R x *ᵥ mount o true false) (R t *ᵥ frVel o s) t ∧
    Moves (fun x => p x + R x *ᵥ ![o.L, 0, 0]) (R t *ᵥ axleVel o s) t ∧
    Moves p (R t *ᵥ bodyVel s) t := by
  have e1 : o.e_r • (![0, 1, 0] : V3) = mount o false true := by
    funext i; fin_cases i <;> simp [mount]
  have e2 : o.e_r • -(![0, 1, 0] : V3) = mount o false false := by
    funext i; fin_cases i <;> simp [mount]
  have e3 : o.L • (![1, 0, 0] : V3) + o.e_f • ![0, 1, 0] = mount o true true := by
    funext i; fin_cases i <;> simp [mount]
  have e4 : o.L • (![1, 0, 0] : V3) - o.e_f • ![0, 1, 0] = mount o true false := by
    funext i; fin_cases i <;> simp [mount]
  have e5 : o.L • (![1, 0, 0] : V3) = ![o.L, 0, 0] := by
    funext i; fin_cases i <;> simp
  unfold dmiVel rlVel rrVel flVel frVel axleVel
  rw [e1, e2, e3, e4, e5]
  refine ⟨point_moves h _, point_moves h _, point_moves h _, point_moves h _, point_moves h _, point_moves h _, ?_⟩
  unfold bodyVel
  rw [h.att, mulVec_transpose_mulVec h.rot]
  exact h.pos

/-- **C104**: the velocity compared with a velocity measurement is the derivative of the position predicted for the pose
measurements, expressed in the sensor frame, and the angular velocity is that of the predicted attitude. -/
theorem C104_sensor_velocity {R : ℝ → M3} {p : ℝ → V3} {s : Motion} {t : ℝ} (h : RigidMotion R p s t) (o : Odo)
    (ho : IsRot o.v_R_r) :
    Moves (fun x => sensorPos o (R x) (p x)) (sensorRot o (R t) *ᵥ sensorVel o s) t ∧
    (∀ i j, HasDerivAt (fun x => sensorRot o (R x) i j)
      ((crossMx (sensorRot o (R t) *ᵥ sensorOm o s) * sensorRot o (R t)) i j) t) := by
  constructor
  · have e : sensorRot o (R t) *ᵥ sensorVel o s = R t *ᵥ pointVel s o.v_r_vr := by
      unfold sensorRot sensorVel
      rw [← mulVec_mulVec, mulVec_transpose_mulVec ho]; rfl
    rw [e]
    exact point_moves h _
  · have e : sensorRot o (R t) *ᵥ sensorOm o s = -s.av := by
      unfold sensorRot sensorOm bodyOm
      rw [← mulVec_mulVec, mulVec_transpose_mulVec ho, h.att, mulVec_transpose_mulVec h.rot]
    rw [e]
    intro i j
    have h1 : HasDerivAt (fun x => R x i 0 * o.v_R_r 0 j + R x i 1 * o.v_R_r 1 j + R x i 2 * o.v_R_r 2 j)
        ((crossMx (-s.av) * R t) i 0 * o.v_R_r 0 j + (crossMx (-s.av) * R t) i 1 * o.v_R_r 1 j +
          (crossMx (-s.av) * R t) i 2 * o.v_R_r 2 j) t :=
      ((((h.turn i 0).mul_const _).add ((h.turn i 1).mul_const _)).add ((h.turn i 2).mul_const _))
    refine hd_congr h1 (fun x => ?_) ?_
    · simp [sensorRot, mul_apply, Fin.sum_univ_three]
    · rw [sensorRot, ← mul_assoc, mul_apply, Fin.sum_univ_three]

/-- **C104**: the vehicle poses the splines are fitted to predict exactly the measured sensor poses. -/
theorem C104_knots_reproduce (o : Odo) (ho : IsRot o.v_R_r) (m_R_r : M3) (m_r_mr : V3) :
    sensorRot o (vehiclePose o m_R_r m_r_mr).1 = m_R_r ∧
    sensorPos o (vehiclePose o m_R_r m_r_mr).1 (vehiclePose o m_R_r m_r_mr).2 = m_r_mr := by
  constructor
  · simp [sensorRot, vehiclePose, mul_assoc, ho.1]
  · simp [sensorPos, vehiclePose]

/-- **C104** (partial): for the distance measurement and all four wheels the error is measurement minus prediction in the first
component; the velocity errors likewise.  Missing: the same for the steering (`C104_steering_units`). -/
theorem C104_prediction_plus_error_partial (o : Odo) (s : Motion) (m l r : ℝ) (vm om : V3) :
    dmiPred o s + dmiError o s m 0 = m ∧
    (rearPred o s).1 + (rearError o s l r).1 0 = l ∧ (rearPred o s).2 + (rearError o s l r).2 0 = r ∧
    (frontPred o s).1 + (frontError o s l r).1 0 = l ∧ (frontPred o s).2 + (frontError o s l r).2 0 = r ∧
    sensorVel o s + (velError o s vm om).1 = vm ∧ sensorOm o s + (velError o s vm om).2 = om := by
  refine ⟨?_, ?_, ?_, ?_, ?_, ?_, ?_⟩ <;>
    simp [dmiPred, dmiError, rearPred, rearError, frontPred, frontPred1, frontError, velError, velErr, wheelErr]

/-- **C104**: sideways and vertical slip are the other components of the errors: of the rear wheels and the distance
measurement both, of the front wheels only the vertical one (the front wheels are steered). -/
theorem C104_slip (o : Odo) (s : Motion) (m l r : ℝ) :
    (dmiError o s m 1 = -dmiVel o s 1 ∧ dmiError o s m 2 = -dmiVel o s 2) ∧
    ((rearError o s l r).1 1 = -rlVel o s 1 ∧ (rearError o s l r).1 2 = -rlVel o s 2) ∧
    ((rearError o s l r).2 1 = -rrVel o s 1 ∧ (rearError o s l r).2 2 = -rrVel o s 2) ∧
    ((frontError o s l r).1 1 = 0 ∧ (frontError o s l r).1 2 = -flVel o s 2) ∧
    ((frontError o s l r).2 1 = 0 ∧ (frontError o s l r).2 2 = -frVel o s 2) := by
  simp [dmiError, rearError, frontError, wheelErr]

/-- **C104**: a predicted front wheel speed is the wheel coefficient times the planar speed of its mounting point, with the
sign of the forward component. -/
theorem C104_front_prediction (o : Odo) (s : Motion) (hl : flVel o s 0 ≠ 0) (hr : frVel o s 0 ≠ 0) :
    (frontPred o s).1 = o.k_fl * (SignType.sign (flVel o s 0) * √(flVel o s 0 * flVel o s 0 + flVel o s 1 * flVel o s 1)) ∧
    (frontPred o s).2 = o.k_fr * (SignType.sign (frVel o s 0) * √(frVel o s 0 * frVel o s 0 + frVel o s 1 * frVel o s 1)) := by
  constructor
  · rw [← front_speed _ hl]; rfl
  · rw [← front_speed _ hr]; rfl

/-- **C104**: a measurement is skipped as reversing exactly if the world velocity of the vehicle points against its forward
axis. -/
theorem C104_gate (s : Motion) : reversing s ↔ (s.R *ᵥ ![1, 0, 0]) ⬝ᵥ s.v < 0 := by
  unfold reversing bodyVel
  simp [mulVec, dotProduct, Fin.sum_univ_three, transpose_apply]

/-- **C104**: when the vehicle does not turn, the gate admits only wheels that do not roll backwards. -/
theorem C104_gate_straight (o : Odo) (s : Motion) (h : ¬ reversing s) (hs : s.av = 0) :
    0 ≤ flVel o s 0 ∧ 0 ≤ frVel o s 0 ∧ 0 ≤ rlVel o s 0 ∧ 0 ≤ rrVel o s 0 := by
  unfold reversing at h
  push Not at h
  refine ⟨?_, ?_, ?_, ?_⟩ <;>
    simpa [flVel, frVel, rlVel, rrVel, pointVel, bodyOm, hs, cross_apply] using h

/-- the demonstration: wheels 1 m from the axle centre, one metre wheel base, unit coefficients; steering coefficients such
that a raw value of 2 stands for one radian. -/
noncomputable def demoOdo : Odo := ⟨0, 1, 1, 1, 1, ![0, 1 / 2, 0, 0], 1, 1, 1, 1, 1⟩
/-- the vehicle drives forward at 1 m/s and turns left at 2 rad/s (the reported angular velocity has the opposite sign). -/
def demoTurn : Motion := ⟨1, ![1, 0, 0], ![0, 0, -2]⟩
/-- the vehicle drives straight ahead at 1 m/s. -/
def demoStraight : Motion := ⟨1, ![1, 0, 0], 0⟩

/-- non-vacuity of `C104_gate_straight`. -/
example : ¬ reversing demoStraight ∧ demoStraight.av = 0 := ⟨by simp [reversing, bodyVel, demoStraight], rfl⟩

/-- **C104** (negation): driving forward does not mean that the wheels do: in a tight left turn the vehicle passes the gate of
the wheel measurements while the left front wheel rolls backwards, which is the case where its Jacobian is wrong (C40), and
the predicted speed of both left wheels is negative, below any speed sensor's range. -/
theorem C104_gate_admits_backward_wheels : ¬ reversing demoTurn ∧ flVel demoOdo demoTurn 0 < 0 ∧
    (rearPred demoOdo demoTurn).1 = -1 ∧ (frontPred demoOdo demoTurn).1 < 0 := by
  have h : flVel demoOdo demoTurn = ![-1, 2, 0] := by
    funext i; fin_cases i <;> simp [flVel, pointVel, bodyVel, bodyOm, demoOdo, demoTurn, cross_apply]; all_goals norm_num
  have hr : frVel demoOdo demoTurn = ![3, 2, 0] := by
    funext i; fin_cases i <;> simp [frVel, pointVel, bodyVel, bodyOm, demoOdo, demoTurn, cross_apply]; all_goals norm_num
  refine ⟨by simp [reversing, bodyVel, demoTurn], by rw [h]; simp, ?_, ?_⟩
  · simp [rearPred, rlVel, pointVel, bodyVel, bodyOm, demoOdo, demoTurn, cross_apply]; norm_num
  · rw [(C104_front_prediction demoOdo demoTurn (by rw [h]; simp) (by rw [hr]; simp)).1, h]
    simp only [cons_val_zero, cons_val_one]
    rw [sign_neg (by norm_num)]
    have : (0 : ℝ) < √(-1 * -1 + 2 * 2) := Real.sqrt_pos.2 (by norm_num)
    simp only [SignType.coe_neg, SignType.coe_one, demoOdo]
    linarith

/-- **C104** (negation, steering): the predicted steering is an angle while the measurement is a raw value, so that prediction
plus error is not the measurement: driving straight with a measured raw value of 2 gives prediction 0 and error 1. -/
theorem C104_steering_units : steerPred demoOdo demoStraight = 0 ∧ steerError demoOdo demoStraight 2 = 1 := by
  have h : axleVel demoOdo demoStraight = ![1, 0, 0] := by
    funext i; fin_cases i <;> simp [axleVel, pointVel, bodyVel, bodyOm, demoOdo, demoStraight]
  have ha : atan2 0 1 = 0 := by
    unfold atan2
    exact Complex.arg_one
  refine ⟨by simp [steerPred, h, ha], ?_⟩
  have e : steerError demoOdo demoStraight 2 = angleMod 1 := by
    unfold steerError steerErr
    rw [h]
    simp [ha, demoOdo]
  rw [e]
  unfold angleMod roundAway
  have hp := Real.pi_gt_three
  have hx : (0 : ℝ) ≤ 1 / (2 * Real.pi) := by positivity
  rw [if_pos hx]
  have hf : ⌊(1 : ℝ) / (2 * Real.pi) + 1 / 2⌋ = 0 := by
    rw [Int.floor_eq_zero_iff]
    refine ⟨by positivity, ?_⟩
    have : (1 : ℝ) / (2 * Real.pi) < 1 / 2 := by
      rw [div_lt_div_iff₀ (by positivity) (by norm_num)]; linarith
    linarith
  rw [hf]; simp

/-- **C104**: what the steering error is: the angle the raw value stands for minus the predicted angle, up to whole turns. -/
theorem C104_steering_error (o : Odo) (s : Motion) (m : ℝ) : ∃ n : ℤ,
    steerPred o s + steerError o s m + 2 * Real.pi * n = o.a 0 + o.a 1 * m + o.a 2 * m ^ 2 + o.a 3 * m ^ 3 := by
  refine ⟨roundAway ((o.a 0 + o.a 1 * m + o.a 2 * m * m + o.a 3 * m * m * m - steerPred o s) / (2 * Real.pi)), ?_⟩
  simp only [steerError, steerErr, angleMod]
  rw [show atan2 (axleVel o s 1) (axleVel o s 0) = steerPred o s from rfl]
  ring

/-- concrete instance of a rigid motion: turning left at 2 rad/s while the position moves along x. -/
example : ∃ (R : ℝ → M3) (p : ℝ → V3), RigidMotion R p demoTurn 0 ∧ IsRot demoOdo.v_R_r := by
  have hone : IsRot (1 : M3) := ⟨by simp, by simp⟩
  refine ⟨fun x => !![Real.cos (2 * x), -Real.sin (2 * x), 0; Real.sin (2 * x), Real.cos (2 * x), 0; 0, 0, 1],
    fun x => ![x, 0, 0], ⟨?_, ?_, ?_, ?_⟩, hone⟩
  · have : (!![Real.cos (2 * (0 : ℝ)), -Real.sin (2 * 0), 0; Real.sin (2 * 0), Real.cos (2 * 0), 0; 0, 0, 1] : M3) = 1 := by
      ext i j; fin_cases i <;> fin_cases j <;> simp
    rw [this]; exact hone
  · ext i j; fin_cases i <;> fin_cases j <;> simp [demoTurn]
  · intro i
    fin_cases i
    · exact hd_congr (hasDerivAt_id (0 : ℝ)) (fun s => by simp) (by simp [demoTurn])
    · exact hd_congr (hasDerivAt_const (0 : ℝ) (0 : ℝ)) (fun s => by simp) (by simp [demoTurn])
    · exact hd_congr (hasDerivAt_const (0 : ℝ) (0 : ℝ)) (fun s => by simp) (by simp [demoTurn])
  · have hl : HasDerivAt (fun x : ℝ => 2 * x) 2 0 := by simpa using (hasDerivAt_id (0 : ℝ)).const_mul 2
    have hs := hl.sin
    have hc := hl.cos
    simp only [mul_zero, Real.cos_zero, Real.sin_zero, one_mul, neg_zero, zero_mul] at hs hc
    intro i j
    fin_cases i <;> fin_cases j
    · exact hd_congr hc (fun s => by simp) (by simp [demoTurn, crossMx, mul_apply, Fin.sum_univ_three])
    · exact hd_congr hs.neg (fun s => by simp) (by simp [demoTurn, crossMx, mul_apply, Fin.sum_univ_three])
    · exact hd_congr (hasDerivAt_const (0 : ℝ) (0 : ℝ)) (fun s => by simp) (by simp [demoTurn, crossMx, mul_apply, Fin.sum_univ_three])
    · exact hd_congr hs (fun s => by simp) (by simp [demoTurn, crossMx, mul_apply, Fin.sum_univ_three])
    · exact hd_congr hc (fun s => by simp) (by simp [demoTurn, crossMx, mul_apply, Fin.sum_univ_three])
    · exact hd_congr (hasDerivAt_const (0 : ℝ) (0 : ℝ)) (fun s => by simp) (by simp [demoTurn, crossMx, mul_apply, Fin.sum_univ_three])
    · exact hd_congr (hasDerivAt_const (0 : ℝ) (0 : ℝ)) (fun s => by simp) (by simp [demoTurn, crossMx, mul_apply, Fin.sum_univ_three])
    · exact hd_congr (hasDerivAt_const (0 : ℝ) (0 : ℝ)) (fun s => by simp) (by simp [demoTurn, crossMx, mul_apply, Fin.sum_univ_three])
    · exact hd_congr (hasDerivAt_const (0 : ℝ) (1 : ℝ)) (fun s => by simp) (by simp [demoTurn, crossMx, mul_apply, Fin.sum_univ_three])

end CarKin
end Verif
