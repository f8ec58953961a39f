import Verif.Model.Geodetic
import Mathlib.Analysis.SpecialFunctions.Trigonometric.Deriv
import Mathlib.LinearAlgebra.Matrix.Determinant.Basic
import Mathlib.LinearAlgebra.Matrix.NonsingularInverse
import Mathlib.Tactic.FieldSimp
import Mathlib.Tactic.LinearCombination
import Mathlib.Tactic.FinCases

/-! Properties C41 (frame conversions) and C65 (meaning of the local frames and of the geodetic coordinates). -/

namespace Verif
namespace Geodetic
open Real

/-- squared Euclidean distance (specification). -/
def dist2 (p q : Fin 3 → ℝ) : ℝ := (p 0 - q 0) ^ 2 + (p 1 - q 1) ^ 2 + (p 2 - q 2) ^ 2

/-- a rotation (specification): orthogonal with determinant one. -/
def IsRotation (R : Matrix (Fin 3) (Fin 3) ℝ) : Prop := R * R.transpose = 1 ∧ R.transpose * R = 1 ∧ R.det = 1

theorem isRotation_of (R : Matrix (Fin 3) (Fin 3) ℝ) (h : R * R.transpose = 1) (hd : R.det = 1) : IsRotation R :=
  ⟨h, mul_eq_one_comm.1 h, hd⟩

theorem enuR_rotation (lat lon : ℝ) : IsRotation (enuR lat lon) := by
  have h1 := sin_sq_add_cos_sq lat
  have h2 := sin_sq_add_cos_sq lon
  apply isRotation_of
  · ext i j
    fin_cases i <;> fin_cases j <;>
      simp [enuR, Matrix.mul_apply, Fin.sum_univ_three]
    · linear_combination h2
    · ring
    · ring
    · ring
    · linear_combination h1 + sin lat ^ 2 * h2
    · linear_combination -sin lat * cos lat * h2
    · ring
    · linear_combination -sin lat * cos lat * h2
    · linear_combination h1 + cos lat ^ 2 * h2
  · simp [enuR, Matrix.det_fin_three]
    linear_combination h1 + (sin lat ^ 2 + cos lat ^ 2) * h2

theorem nedR_rotation (lat lon : ℝ) : IsRotation (nedR lat lon) := by
  have h1 := sin_sq_add_cos_sq lat
  have h2 := sin_sq_add_cos_sq lon
  apply isRotation_of
  · ext i j
    fin_cases i <;> fin_cases j <;>
      simp [nedR, Matrix.mul_apply, Fin.sum_univ_three]
    · linear_combination h1 + sin lat ^ 2 * h2
    · ring
    · linear_combination sin lat * cos lat * h2
    · ring
    · linear_combination h2
    · ring
    · linear_combination sin lat * cos lat * h2
    · ring
    · linear_combination h1 + cos lat ^ 2 * h2
  · simp [nedR, Matrix.det_fin_three]
    linear_combination h1 + (sin lat ^ 2 + cos lat ^ 2) * h2

theorem IsRotation.transpose {R : Matrix (Fin 3) (Fin 3) ℝ} (h : IsRotation R) : IsRotation R.transpose :=
  ⟨by simpa using h.2.1, by simpa using h.1, by rw [Matrix.det_transpose]; exact h.2.2⟩

theorem inverse_rigid (T : Rigid) (h : IsRotation T.R) :
    (∀ p, T.inverse.apply (T.apply p) = p) ∧ (∀ p, T.apply (T.inverse.apply p) = p) := by
  refine ⟨fun p => ?_, fun p => ?_⟩
  · simp only [Rigid.inverse, Rigid.apply, Matrix.mulVec_add, Matrix.mulVec_mulVec, h.2.1, Matrix.one_mulVec]
    abel
  · simp only [Rigid.inverse, Rigid.apply, Matrix.mulVec_add, Matrix.mulVec_neg, Matrix.mulVec_mulVec, h.1,
      Matrix.one_mulVec]
    abel

theorem dist2_rigid (T : Rigid) (h : IsRotation T.R) (p q : Fin 3 → ℝ) : dist2 (T.apply p) (T.apply q) = dist2 p q := by
  have key : ∀ v : Fin 3 → ℝ, dotProduct (T.R.mulVec v) (T.R.mulVec v) = dotProduct v v := by
    intro v
    rw [Matrix.dotProduct_mulVec, Matrix.vecMul_mulVec, h.2.1, Matrix.vecMul_one]
  have e : ∀ a b : Fin 3 → ℝ, dist2 a b = dotProduct (a - b) (a - b) := by
    intro a b; simp [dist2, dotProduct, Fin.sum_univ_three]; ring
  rw [e, e, ← key (p - q), Matrix.mulVec_sub]
  simp [Rigid.apply]

/-- **C41**, east-north-up: for every reference point the two conversions are inverse to each other, preserve all distances,
and the origin of the local frame is the reference point; the rotation handed to `r2quat` is a rotation matrix. -/
theorem C41_enu (x y z lat lon : ℝ) :
    (∀ p, (enu2ecef x y z lat lon).apply ((ecef2enu x y z lat lon).apply p) = p) ∧
    (∀ p, (ecef2enu x y z lat lon).apply ((enu2ecef x y z lat lon).apply p) = p) ∧
    (∀ p q, dist2 ((enu2ecef x y z lat lon).apply p) ((enu2ecef x y z lat lon).apply q) = dist2 p q) ∧
    (∀ p q, dist2 ((ecef2enu x y z lat lon).apply p) ((ecef2enu x y z lat lon).apply q) = dist2 p q) ∧
    (ecef2enu x y z lat lon).apply ![x, y, z] = 0 ∧ IsRotation (enu2ecef x y z lat lon).R := by
  have hr : IsRotation (enu2ecef x y z lat lon).R := (enuR_rotation lat lon).transpose
  have hi := inverse_rigid _ hr
  refine ⟨hi.2, hi.1, dist2_rigid _ hr, dist2_rigid _ hr.transpose, ?_, hr⟩
  simp [ecef2enu, Rigid.inverse, Rigid.apply, enu2ecef]

/-- **C41**, north-east-down. -/
theorem C41_ned (x y z lat lon : ℝ) :
    (∀ p, (ned2ecef x y z lat lon).apply ((ecef2ned x y z lat lon).apply p) = p) ∧
    (∀ p, (ecef2ned x y z lat lon).apply ((ned2ecef x y z lat lon).apply p) = p) ∧
    (∀ p q, dist2 ((ned2ecef x y z lat lon).apply p) ((ned2ecef x y z lat lon).apply q) = dist2 p q) ∧
    (∀ p q, dist2 ((ecef2ned x y z lat lon).apply p) ((ecef2ned x y z lat lon).apply q) = dist2 p q) ∧
    (ecef2ned x y z lat lon).apply ![x, y, z] = 0 ∧ IsRotation (ned2ecef x y z lat lon).R := by
  have hr : IsRotation (ned2ecef x y z lat lon).R := (nedR_rotation lat lon).transpose
  have hi := inverse_rigid _ hr
  refine ⟨hi.2, hi.1, dist2_rigid _ hr, dist2_rigid _ hr.transpose, ?_, hr⟩
  simp [ecef2ned, Rigid.inverse, Rigid.apply, ned2ecef]

/-- **C41**: the two local frames differ by swapping the horizontal axes and reversing the vertical one, at every reference
point. -/
theorem C41_enu_ned (x y z lat lon e n u : ℝ) :
    (enu2ecef x y z lat lon).apply ![e, n, u] = (ned2ecef x y z lat lon).apply ![n, e, -u] := by
  funext i
  fin_cases i <;>
    simp [enu2ecef, ned2ecef, Rigid.apply, enuR, nedR, Matrix.mulVec, dotProduct, Fin.sum_univ_three] <;> ring

/-! ### C65 -/

theorem radicand_pos (lat : ℝ) : 0 < 1 - ecc2 * sin lat * sin lat := by
  have h := sin_sq_le_one lat
  have : ecc2 = 0.006694380004260827 := rfl
  rw [this]
  nlinarith [sq_nonneg (sin lat)]

/-- **C65**: points of altitude zero are exactly on the ellipsoid with the given axes. -/
theorem C65_on_ellipsoid (lat lon : ℝ) :
    ((wgs84ToEcef lat lon 0 0) ^ 2 + (wgs84ToEcef lat lon 0 1) ^ 2) / semiMajor ^ 2 +
      (wgs84ToEcef lat lon 0 2) ^ 2 / (semiMajor ^ 2 * (1 - ecc2)) = 1 := by
  have hp := radicand_pos lat
  have hq : 0 < sqrt (1 - ecc2 * sin lat * sin lat) := sqrt_pos.2 hp
  have hs := sq_sqrt hp.le
  have ha : semiMajor ≠ 0 := by unfold semiMajor; norm_num
  have he : (1 - ecc2) ≠ 0 := by unfold ecc2; norm_num
  have h1 := sin_sq_add_cos_sq lat
  have h2 := sin_sq_add_cos_sq lon
  simp only [wgs84ToEcef, Matrix.cons_val_zero, Matrix.cons_val_one, Matrix.cons_val_two, Matrix.tail_cons,
    Matrix.head_cons, Matrix.cons_val]
  generalize sqrt (1 - ecc2 * sin lat * sin lat) = q at *
  field_simp
  rw [hs]
  linear_combination semiMajor ^ 2 * (1 - ecc2) * (cos lat ^ 2 * h2 + h1)

/-- axis `k` of the local frame at the given latitude and longitude, in earth fixed coordinates (specification): what the
conversion maps the unit vector to, relative to the origin. -/
noncomputable def enuAxis (lat lon : ℝ) (k : Fin 3) : Fin 3 → ℝ :=
  fun i => (enu2ecef 0 0 0 lat lon).apply (Pi.single k 1) i

theorem enuAxis_eq (lat lon : ℝ) (k i : Fin 3) : enuAxis lat lon k i = enuR lat lon k i := by
  fin_cases i <;> simp [enuAxis, Rigid.apply, enu2ecef]

/-- **C65**: moving up (increasing altitude) moves along the third axis of the local frame at unit speed. -/
theorem C65_up (lat lon alt : ℝ) (i : Fin 3) :
    HasDerivAt (fun h => wgs84ToEcef lat lon h i) (enuAxis lat lon 2 i) alt := by
  rw [enuAxis_eq]
  set N := semiMajor / sqrt (1 - ecc2 * sin lat * sin lat) with hN
  have hid := hasDerivAt_id alt
  fin_cases i
  · have h := ((hid.const_add N).mul_const (cos lat)).mul_const (cos lon)
    refine (h.congr_deriv ?_).congr_of_eventuallyEq (Filter.Eventually.of_forall fun s => ?_)
    · simp [enuR]
    · simp [wgs84ToEcef, hN]
  · have h := ((hid.const_add N).mul_const (cos lat)).mul_const (sin lon)
    refine (h.congr_deriv ?_).congr_of_eventuallyEq (Filter.Eventually.of_forall fun s => ?_)
    · simp [enuR]
    · simp [wgs84ToEcef, hN]
  · have h := (hid.const_add (N * (1 - ecc2))).mul_const (sin lat)
    refine (h.congr_deriv ?_).congr_of_eventuallyEq (Filter.Eventually.of_forall fun s => ?_)
    · simp [enuR]
    · simp [wgs84ToEcef, hN]

/-- **C65**: moving east (increasing longitude) moves along the first axis of the local frame, forward wherever the point is
off the polar axis on the equator's side (altitude above minus the normal radius, latitude between the poles). -/
theorem C65_east (lat lon alt : ℝ) : ∃ c : ℝ, (-(semiMajor) < alt → 0 < cos lat → 0 < c) ∧
    ∀ i, HasDerivAt (fun l => wgs84ToEcef lat l alt i) (c * enuAxis lat lon 0 i) lon := by
  set N := semiMajor / sqrt (1 - ecc2 * sin lat * sin lat) with hN
  refine ⟨(N + alt) * cos lat, ?_, fun i => ?_⟩
  · intro h1 h2
    have hp := radicand_pos lat
    have hq : 0 < sqrt (1 - ecc2 * sin lat * sin lat) := sqrt_pos.2 hp
    have hle : sqrt (1 - ecc2 * sin lat * sin lat) ≤ 1 := by
      rw [sqrt_le_one]
      have : 0 ≤ ecc2 := by unfold ecc2; norm_num
      nlinarith [mul_nonneg this (mul_self_nonneg (sin lat))]
    have ha : 0 < semiMajor := by unfold semiMajor; norm_num
    have : semiMajor ≤ N := by
      rw [hN, le_div_iff₀ hq]; nlinarith
    have : 0 < N + alt := by linarith
    positivity
  · rw [enuAxis_eq]
    fin_cases i
    · have h := (hasDerivAt_cos lon).const_mul ((N + alt) * cos lat)
      refine (h.congr_deriv ?_).congr_of_eventuallyEq (Filter.Eventually.of_forall fun s => ?_)
      · simp [enuR]
      · simp [wgs84ToEcef, hN]
    · have h := (hasDerivAt_sin lon).const_mul ((N + alt) * cos lat)
      refine (h.congr_deriv ?_).congr_of_eventuallyEq (Filter.Eventually.of_forall fun s => ?_)
      · simp [enuR]
      · simp [wgs84ToEcef, hN]
    · have h := hasDerivAt_const lon ((N * (1 - ecc2) + alt) * sin lat)
      refine (h.congr_deriv ?_).congr_of_eventuallyEq (Filter.Eventually.of_forall fun s => ?_)
      · simp [enuR]
      · simp [wgs84ToEcef, hN]

/-- **C65**: moving north (increasing latitude) moves along the second axis of the local frame, forward for altitudes above
minus the smallest radius of curvature. -/
theorem C65_north (lat lon alt : ℝ) : ∃ c : ℝ, (-(semiMajor * (1 - ecc2)) < alt → 0 < c) ∧
    ∀ i, HasDerivAt (fun l => wgs84ToEcef l lon alt i) (c * enuAxis lat lon 1 i) lat := by
  have hp := radicand_pos lat
  have hq : 0 < sqrt (1 - ecc2 * sin lat * sin lat) := sqrt_pos.2 hp
  have hs := sq_sqrt hp.le
  have hin : HasDerivAt (fun l => 1 - ecc2 * sin l * sin l) (-(ecc2 * cos lat * sin lat + ecc2 * sin lat * cos lat)) lat :=
    (((hasDerivAt_sin lat).const_mul ecc2).mul (hasDerivAt_sin lat)).const_sub 1
  have hN : HasDerivAt (fun l => semiMajor / sqrt (1 - ecc2 * sin l * sin l)) _ lat :=
    (hasDerivAt_const lat semiMajor).div (hin.sqrt (ne_of_gt hp)) (ne_of_gt hq)
  have ha : 0 < semiMajor := by unfold semiMajor; norm_num
  have he0 : 0 ≤ ecc2 := by unfold ecc2; norm_num
  have he1 : 0 < 1 - ecc2 := by unfold ecc2; norm_num
  have h1 := sin_sq_add_cos_sq lat
  refine ⟨semiMajor * (1 - ecc2) / sqrt (1 - ecc2 * sin lat * sin lat) ^ 3 + alt, ?_, fun i => ?_⟩
  · intro h
    have hle : sqrt (1 - ecc2 * sin lat * sin lat) ≤ 1 := by
      rw [sqrt_le_one]
      nlinarith [mul_nonneg he0 (mul_self_nonneg (sin lat))]
    have h3 : sqrt (1 - ecc2 * sin lat * sin lat) ^ 3 ≤ 1 := pow_le_one₀ hq.le hle
    have : semiMajor * (1 - ecc2) ≤ semiMajor * (1 - ecc2) / sqrt (1 - ecc2 * sin lat * sin lat) ^ 3 := by
      rw [le_div_iff₀ (by positivity)]
      have : 0 < semiMajor * (1 - ecc2) := by positivity
      nlinarith
    linarith
  · rw [enuAxis_eq]
    generalize hqq : sqrt (1 - ecc2 * sin lat * sin lat) = q at *
    have hc : cos lat ^ 2 = 1 - sin lat ^ 2 := by linarith
    have he : ecc2 * sin lat ^ 2 = 1 - q ^ 2 := by rw [hs]; ring
    fin_cases i
    · have h := ((hN.add_const alt).mul (hasDerivAt_cos lat)).mul_const (cos lon)
      refine (h.congr_deriv ?_).congr_of_eventuallyEq (Filter.Eventually.of_forall fun s => ?_)
      · simp [enuR, hqq]
        field_simp
        linear_combination 2 * semiMajor * sin lat * cos lon * (ecc2 * h1 - he)
      · simp [wgs84ToEcef]
    · have h := ((hN.add_const alt).mul (hasDerivAt_cos lat)).mul_const (sin lon)
      refine (h.congr_deriv ?_).congr_of_eventuallyEq (Filter.Eventually.of_forall fun s => ?_)
      · simp [enuR, hqq]
        field_simp
        linear_combination 2 * semiMajor * sin lat * sin lon * (ecc2 * h1 - he)
      · simp [wgs84ToEcef]
    · have h := ((hN.mul_const (1 - ecc2)).add_const alt).mul (hasDerivAt_sin lat)
      refine (h.congr_deriv ?_).congr_of_eventuallyEq (Filter.Eventually.of_forall fun s => ?_)
      · simp [enuR, hqq]
        field_simp
        linear_combination 2 * semiMajor * cos lat * (1 - ecc2) * he
      · simp [wgs84ToEcef]

/-- concrete instance: the reference point on the equator at the zero meridian. -/
example : wgs84ToEcef 0 0 0 = ![6378137, 0, 0] := by
  funext i
  fin_cases i <;> simp [wgs84ToEcef, semiMajor]

end Geodetic
end Verif
