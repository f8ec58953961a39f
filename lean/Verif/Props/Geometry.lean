import Verif.Model.Geometry
import Mathlib.Tactic.LinearCombination
import Mathlib.Tactic.FieldSimp
import Mathlib.LinearAlgebra.Matrix.NonsingularInverse

/-! Property C33: rigid transformations. -/

namespace Verif
namespace Transf
open Real

/-- the planar rotation by an angle (specification). -/
noncomputable def planeRot (a : ℝ) (p : Fin 2 → ℝ) : Fin 2 → ℝ :=
  ![cos a * p 0 - sin a * p 1, sin a * p 0 + cos a * p 1]

/-- squared Euclidean distance (specification). -/
def sqDist {n : Nat} (p q : Fin n → ℝ) : ℝ := ∑ i, (p i - q i) ^ 2

/-- rotation about the x, y and z axis (specification). -/
noncomputable def rotX (a : ℝ) (p : Fin 3 → ℝ) : Fin 3 → ℝ :=
  ![p 0, cos a * p 1 - sin a * p 2, sin a * p 1 + cos a * p 2]
/-- rotation about the y axis (specification). -/
noncomputable def rotY (a : ℝ) (p : Fin 3 → ℝ) : Fin 3 → ℝ :=
  ![cos a * p 0 + sin a * p 2, p 1, - sin a * p 0 + cos a * p 2]
/-- rotation about the z axis (specification). -/
noncomputable def rotZ (a : ℝ) (p : Fin 3 → ℝ) : Fin 3 → ℝ :=
  ![cos a * p 0 - sin a * p 1, sin a * p 0 + cos a * p 1, p 2]

/-- **C33**: the planar transformation rotates by the yaw angle and then translates, and never leaves the defined
domain, whatever the object held before. -/
theorem C33_set2_apply (s : Transf 3) (x y yaw : ℝ) (p : Fin 2 → ℝ) :
    (s.set2 x y yaw).apply2 p = .ok (planeRot yaw p + ![x, y]) (s.set2 x y yaw) := by
  simp only [apply2, set2, Res.ok.injEq, and_true]
  funext i
  fin_cases i <;>
    simp [trans2, rot2, planeRot, Matrix.mulVec, Matrix.mul_apply, Fin.sum_univ_three, dotProduct] <;> ring

/-- **C33**: the spatial transformation rolls about x, pitches about y, yaws about z and then translates. -/
theorem C33_set3_apply (s : Transf 4) (x y z roll pitch yaw : ℝ) (p : Fin 3 → ℝ) :
    (s.set3 x y z roll pitch yaw).apply3 p =
      .ok (rotZ yaw (rotY pitch (rotX roll p)) + ![x, y, z]) (s.set3 x y z roll pitch yaw) := by
  simp only [apply3, set3, Res.ok.injEq, and_true]
  funext i
  fin_cases i <;>
    simp [trans3, rot3, rotZ, rotY, rotX, Matrix.mulVec, Matrix.mul_apply, Fin.sum_univ_four, dotProduct] <;> ring

/-- the inverse of a planar transformation (closed form). -/
theorem inverse_set2 (s : Transf 3) (x y yaw : ℝ) :
    (s.set2 x y yaw).inverse = .ok () ⟨some ((rot2 yaw).transpose * negLast (trans2 x y)), some (rot2 yaw).transpose,
      some (negLast (trans2 x y))⟩ := rfl

theorem apply2_inv (x y yaw : ℝ) (R L) (p : Fin 2 → ℝ) :
    apply2 ⟨some ((rot2 yaw).transpose * negLast (trans2 x y)), R, L⟩ p =
      .ok (planeRot (-yaw) (p - ![x, y])) ⟨some ((rot2 yaw).transpose * negLast (trans2 x y)), R, L⟩ := by
  simp only [apply2, Res.ok.injEq, and_true]
  funext i
  fin_cases i <;>
    simp [trans2, rot2, planeRot, negLast, Matrix.mulVec, Matrix.mul_apply, Fin.sum_univ_three, dotProduct] <;> ring

theorem planeRot_neg (a : ℝ) (p : Fin 2 → ℝ) : planeRot (-a) (planeRot a p) = p := by
  have h := sin_sq_add_cos_sq a
  funext i
  fin_cases i
  · simp [planeRot]; linear_combination (p 0) * h
  · simp [planeRot]; linear_combination (p 1) * h

theorem planeRot_neg' (a : ℝ) (p : Fin 2 → ℝ) : planeRot a (planeRot (-a) p) = p := by
  simpa using planeRot_neg (-a) p

/-- **C33**: the inverse of a planar transformation is defined, leaves the object alone and undoes it in both orders. -/
theorem C33_inverse2 (s : Transf 3) (x y yaw : ℝ) :
    ∃ inv, (s.set2 x y yaw).getInverse = .ok inv (s.set2 x y yaw) ∧
      ∀ p q, (s.set2 x y yaw).apply2 p = .ok q (s.set2 x y yaw) ↔ inv.apply2 q = .ok p inv := by
  refine ⟨⟨some ((rot2 yaw).transpose * negLast (trans2 x y)), some (rot2 yaw).transpose,
      some (negLast (trans2 x y))⟩, ?_, ?_⟩
  · rw [getInverse, inverse_set2]
  · intro p q
    rw [C33_set2_apply, apply2_inv]
    simp only [Res.ok.injEq, and_true]
    constructor
    · rintro rfl
      rw [add_sub_cancel_right, planeRot_neg]
    · rintro rfl
      rw [planeRot_neg', sub_add_cancel]

/-- **C33**: planar transformations preserve distances. -/
theorem C33_rigid2 (s : Transf 3) (x y yaw : ℝ) (p q p' q' : Fin 2 → ℝ)
    (hp : (s.set2 x y yaw).apply2 p = .ok p' (s.set2 x y yaw))
    (hq : (s.set2 x y yaw).apply2 q = .ok q' (s.set2 x y yaw)) : sqDist p' q' = sqDist p q := by
  rw [C33_set2_apply] at hp hq
  simp only [Res.ok.injEq, and_true] at hp hq
  subst hp hq
  have h := sin_sq_add_cos_sq yaw
  simp [sqDist, planeRot, Fin.sum_univ_two]
  linear_combination ((p 0 - q 0) ^ 2 + (p 1 - q 1) ^ 2) * h

theorem rotX_neg (a : ℝ) (p : Fin 3 → ℝ) : rotX (-a) (rotX a p) = p := by
  have h := sin_sq_add_cos_sq a
  funext i
  fin_cases i
  · simp [rotX]
  · simp [rotX]; linear_combination (p 1) * h
  · simp [rotX]; linear_combination (p 2) * h

theorem rotY_neg (a : ℝ) (p : Fin 3 → ℝ) : rotY (-a) (rotY a p) = p := by
  have h := sin_sq_add_cos_sq a
  funext i
  fin_cases i
  · simp [rotY]; linear_combination (p 0) * h
  · simp [rotY]
  · simp [rotY]; linear_combination (p 2) * h

theorem rotZ_neg (a : ℝ) (p : Fin 3 → ℝ) : rotZ (-a) (rotZ a p) = p := by
  have h := sin_sq_add_cos_sq a
  funext i
  fin_cases i
  · simp [rotZ]; linear_combination (p 0) * h
  · simp [rotZ]; linear_combination (p 1) * h
  · simp [rotZ]

theorem rotX_neg' (a : ℝ) (p : Fin 3 → ℝ) : rotX a (rotX (-a) p) = p := by simpa using rotX_neg (-a) p
theorem rotY_neg' (a : ℝ) (p : Fin 3 → ℝ) : rotY a (rotY (-a) p) = p := by simpa using rotY_neg (-a) p
theorem rotZ_neg' (a : ℝ) (p : Fin 3 → ℝ) : rotZ a (rotZ (-a) p) = p := by simpa using rotZ_neg (-a) p

theorem apply3_inv (x y z roll pitch yaw : ℝ) (R L) (p : Fin 3 → ℝ) :
    apply3 ⟨some ((rot3 roll pitch yaw).transpose * negLast (trans3 x y z)), R, L⟩ p =
      .ok (rotX (-roll) (rotY (-pitch) (rotZ (-yaw) (p - ![x, y, z]))))
        ⟨some ((rot3 roll pitch yaw).transpose * negLast (trans3 x y z)), R, L⟩ := by
  simp only [apply3, Res.ok.injEq, and_true]
  funext i
  fin_cases i <;>
    simp [trans3, rot3, rotX, rotY, rotZ, negLast, Matrix.mulVec, Matrix.mul_apply, Fin.sum_univ_four, dotProduct] <;>
    ring

/-- **C33**: the inverse of a spatial transformation is defined, leaves the object alone and undoes it in both orders. -/
theorem C33_inverse3 (s : Transf 4) (x y z roll pitch yaw : ℝ) :
    ∃ inv, (s.set3 x y z roll pitch yaw).getInverse = .ok inv (s.set3 x y z roll pitch yaw) ∧
      ∀ p q, (s.set3 x y z roll pitch yaw).apply3 p = .ok q (s.set3 x y z roll pitch yaw) ↔
        inv.apply3 q = .ok p inv := by
  refine ⟨⟨some ((rot3 roll pitch yaw).transpose * negLast (trans3 x y z)), some (rot3 roll pitch yaw).transpose,
      some (negLast (trans3 x y z))⟩, rfl, ?_⟩
  intro p q
  rw [C33_set3_apply, apply3_inv]
  simp only [Res.ok.injEq, and_true]
  constructor
  · rintro rfl
    rw [add_sub_cancel_right, rotZ_neg, rotY_neg, rotX_neg]
  · rintro rfl
    rw [rotX_neg', rotY_neg', rotZ_neg', sub_add_cancel]

theorem sqDist_rotX (a : ℝ) (p q : Fin 3 → ℝ) : sqDist (rotX a p) (rotX a q) = sqDist p q := by
  have h := sin_sq_add_cos_sq a
  simp [sqDist, rotX, Fin.sum_univ_three]
  linear_combination ((p 1 - q 1) ^ 2 + (p 2 - q 2) ^ 2) * h
theorem sqDist_rotY (a : ℝ) (p q : Fin 3 → ℝ) : sqDist (rotY a p) (rotY a q) = sqDist p q := by
  have h := sin_sq_add_cos_sq a
  simp [sqDist, rotY, Fin.sum_univ_three]
  linear_combination ((p 0 - q 0) ^ 2 + (p 2 - q 2) ^ 2) * h
theorem sqDist_rotZ (a : ℝ) (p q : Fin 3 → ℝ) : sqDist (rotZ a p) (rotZ a q) = sqDist p q := by
  have h := sin_sq_add_cos_sq a
  simp [sqDist, rotZ, Fin.sum_univ_three]
  linear_combination ((p 0 - q 0) ^ 2 + (p 1 - q 1) ^ 2) * h
theorem sqDist_add {n : Nat} (p q t : Fin n → ℝ) : sqDist (p + t) (q + t) = sqDist p q := by
  simp [sqDist]

/-- **C33**: spatial transformations preserve distances. -/
theorem C33_rigid3 (s : Transf 4) (x y z roll pitch yaw : ℝ) (p q p' q' : Fin 3 → ℝ)
    (hp : (s.set3 x y z roll pitch yaw).apply3 p = .ok p' (s.set3 x y z roll pitch yaw))
    (hq : (s.set3 x y z roll pitch yaw).apply3 q = .ok q' (s.set3 x y z roll pitch yaw)) :
    sqDist p' q' = sqDist p q := by
  rw [C33_set3_apply] at hp hq
  simp only [Res.ok.injEq, and_true] at hp hq
  subst hp hq
  rw [sqDist_add, sqDist_rotZ, sqDist_rotY, sqDist_rotX]

/-! ### Inverting twice -/

/-- the object after two calls of `inverse()`. -/
def inverseTwice {n : Nat} (s : Transf n) : Res (Transf n) Unit := s.inverse.bind fun _ t => t.inverse

theorem negLast_negLast {n : Nat} (L : Matrix (Fin n) (Fin n) ℝ) : negLast (negLast L) = L := by
  ext i j
  simp only [negLast, Matrix.of_apply]
  split_ifs <;> simp

theorem inverseTwice_set2 (s : Transf 3) (x y yaw : ℝ) :
    inverseTwice (s.set2 x y yaw) = .ok () ⟨some (rot2 yaw * trans2 x y), some (rot2 yaw), some (trans2 x y)⟩ := by
  rw [inverseTwice, inverse_set2]
  simp only [Res.bind, inverse, negLast_negLast, Matrix.transpose_transpose]

theorem apply2_twice (x y yaw : ℝ) (R L) (p : Fin 2 → ℝ) :
    apply2 ⟨some (rot2 yaw * trans2 x y), R, L⟩ p =
      .ok (planeRot yaw (p + ![x, y])) ⟨some (rot2 yaw * trans2 x y), R, L⟩ := by
  simp only [apply2, Res.ok.injEq, and_true]
  funext i
  fin_cases i <;>
    simp [trans2, rot2, planeRot, Matrix.mulVec, Matrix.mul_apply, Fin.sum_univ_three, dotProduct] <;> ring

theorem inverseTwice_set3 (s : Transf 4) (x y z roll pitch yaw : ℝ) :
    inverseTwice (s.set3 x y z roll pitch yaw) = .ok () ⟨some (rot3 roll pitch yaw * trans3 x y z),
      some (rot3 roll pitch yaw), some (trans3 x y z)⟩ := by
  simp only [inverseTwice, set3, Res.bind, inverse, negLast_negLast, Matrix.transpose_transpose]

theorem apply3_twice (x y z roll pitch yaw : ℝ) (R L) (p : Fin 3 → ℝ) :
    apply3 ⟨some (rot3 roll pitch yaw * trans3 x y z), R, L⟩ p =
      .ok (rotZ yaw (rotY pitch (rotX roll (p + ![x, y, z])))) ⟨some (rot3 roll pitch yaw * trans3 x y z), R, L⟩ := by
  simp only [apply3, Res.ok.injEq, and_true]
  funext i
  fin_cases i <;>
    simp [trans3, rot3, rotX, rotY, rotZ, Matrix.mulVec, Matrix.mul_apply, Fin.sum_univ_four, dotProduct] <;> ring

/-- two objects move every point of the plane alike. -/
def SameMap2 (s t : Transf 3) : Prop := ∀ p, ∃ q, s.apply2 p = .ok q s ∧ t.apply2 p = .ok q t
/-- two objects move every point of space alike. -/
def SameMap3 (s t : Transf 4) : Prop := ∀ p, ∃ q, s.apply3 p = .ok q s ∧ t.apply3 p = .ok q t

/-- **C33** (partial): inverting twice gives the original planar transformation exactly if the rotation is trivial or the
translation is zero.  The full statement (always) is false, see `C33_inverse_twice_wrong`. -/
theorem C33_inverse_twice2_partial (s : Transf 3) (x y yaw : ℝ) :
    ∃ t, inverseTwice (s.set2 x y yaw) = .ok () t ∧
      (SameMap2 t (s.set2 x y yaw) ↔ ((x = 0 ∧ y = 0) ∨ cos yaw = 1)) := by
  refine ⟨_, inverseTwice_set2 s x y yaw, ?_⟩
  have h := sin_sq_add_cos_sq yaw
  constructor
  · intro hs
    obtain ⟨q, h1, h2⟩ := hs ![0, 0]
    rw [apply2_twice] at h1
    rw [C33_set2_apply] at h2
    simp only [Res.ok.injEq, and_true] at h1 h2
    rw [← h2] at h1
    have e0 := congrFun h1 0
    have e1 := congrFun h1 1
    simp [planeRot] at e0 e1
    by_cases hc : cos yaw = 1
    · exact Or.inr hc
    · left
      have hc' : cos yaw - 1 ≠ 0 := sub_ne_zero.2 hc
      have k : 2 * (cos yaw - 1) ≠ 0 := mul_ne_zero two_ne_zero hc'
      constructor
      · apply (mul_eq_zero.1 (?_ : 2 * (cos yaw - 1) * x = 0)).resolve_left k
        linear_combination x * h - (cos yaw - 1) * e0 - sin yaw * e1
      · apply (mul_eq_zero.1 (?_ : 2 * (cos yaw - 1) * y = 0)).resolve_left k
        linear_combination y * h + sin yaw * e0 - (cos yaw - 1) * e1
  · intro hcase p
    refine ⟨_, apply2_twice .., ?_⟩
    rw [C33_set2_apply]
    simp only [Res.ok.injEq, and_true]
    rcases hcase with ⟨rfl, rfl⟩ | hc
    · funext i
      fin_cases i <;> simp [planeRot]
    · have hsin : sin yaw = 0 := by
        rw [hc] at h
        have : sin yaw ^ 2 = 0 := by linarith
        exact pow_eq_zero_iff two_ne_zero |>.1 this
      funext i
      fin_cases i <;> simp [planeRot, hc, hsin]

/-- **C33** (partial): inverting twice gives the original spatial transformation exactly if the rotation fixes the
translation vector. -/
theorem C33_inverse_twice3_partial (s : Transf 4) (x y z roll pitch yaw : ℝ) :
    ∃ t, inverseTwice (s.set3 x y z roll pitch yaw) = .ok () t ∧
      (SameMap3 t (s.set3 x y z roll pitch yaw) ↔ rotZ yaw (rotY pitch (rotX roll ![x, y, z])) = ![x, y, z]) := by
  refine ⟨_, inverseTwice_set3 s x y z roll pitch yaw, ?_⟩
  have hadd : ∀ p t : Fin 3 → ℝ, rotZ yaw (rotY pitch (rotX roll (p + t))) =
      rotZ yaw (rotY pitch (rotX roll p)) + rotZ yaw (rotY pitch (rotX roll t)) := by
    intro p t
    funext i
    fin_cases i <;> simp [rotX, rotY, rotZ] <;> ring
  constructor
  · intro hs
    obtain ⟨q, h1, h2⟩ := hs 0
    rw [apply3_twice] at h1
    rw [C33_set3_apply] at h2
    simp only [Res.ok.injEq, and_true] at h1 h2
    rw [← h2, hadd] at h1
    exact add_left_cancel h1
  · intro hf p
    refine ⟨_, apply3_twice .., ?_⟩
    rw [C33_set3_apply, hadd, hf]

/-- **C33** (negation): inverting twice does not give the original transformation: one unit forward and a quarter turn. -/
theorem C33_inverse_twice_wrong :
    ∃ s t : Transf 3, inverseTwice (s.set2 1 0 (π / 2)) = .ok () t ∧
      (s.set2 1 0 (π / 2)).apply2 ![0, 0] = .ok ![1, 0] (s.set2 1 0 (π / 2)) ∧
      t.apply2 ![0, 0] = .ok ![0, 1] t := by
  refine ⟨⟨none, none, none⟩, _, inverseTwice_set2 _ _ _ _, ?_, ?_⟩
  · rw [C33_set2_apply]
    simp only [Res.ok.injEq, and_true]
    funext i
    fin_cases i <;> simp [planeRot]
  · rw [apply2_twice]
    simp only [Res.ok.injEq, and_true]
    funext i
    fin_cases i <;> simp [planeRot]

/-- **C33** (negation): after `setTransformationMatrix` the inverse is not that of the new matrix but of the
transformation set before, whatever the new matrix. -/
theorem C33_matrix_setter_stale_inverse (s : Transf 3) (x y yaw : ℝ) (M : Matrix (Fin 3) (Fin 3) ℝ) :
    ∃ inv, ((s.set2 x y yaw).setMatrix M).getInverse = .ok inv ((s.set2 x y yaw).setMatrix M) ∧
      (s.set2 x y yaw).getInverse = .ok inv (s.set2 x y yaw) :=
  ⟨⟨some ((rot2 yaw).transpose * negLast (trans2 x y)), some (rot2 yaw).transpose, some (negLast (trans2 x y))⟩, rfl, rfl⟩

/-- **C33** (negation): inverting an object constructed from a matrix reads indeterminate values. -/
theorem C33_matrix_constructor_inverse_ub {n : Nat} (M : Matrix (Fin n) (Fin n) ℝ) :
    (ofMatrix M).inverse = .ub ∧ (ofMatrix M).getInverse = .ub := ⟨rfl, rfl⟩

/-- **C33**: the matrix getter of a planar transformation returns the homogeneous matrix with the rotation, the
translation and the bottom row `0 0 1`; the matrix of the inverse is its two-sided matrix inverse. -/
theorem C33_matrix2 (s : Transf 3) (x y yaw : ℝ) :
    (s.set2 x y yaw).getMatrix = .ok !![cos yaw, -sin yaw, x; sin yaw, cos yaw, y; 0, 0, 1] (s.set2 x y yaw) ∧
    ∃ inv M N, (s.set2 x y yaw).getInverse = .ok inv (s.set2 x y yaw) ∧
      (s.set2 x y yaw).getMatrix = .ok M (s.set2 x y yaw) ∧ inv.getMatrix = .ok N inv ∧ M * N = 1 ∧ N * M = 1 := by
  have hM : trans2 x y * rot2 yaw = !![cos yaw, -sin yaw, x; sin yaw, cos yaw, y; 0, 0, 1] := by
    ext i j
    fin_cases i <;> fin_cases j <;> simp [trans2, rot2, Matrix.mul_apply, Fin.sum_univ_three]
  have h := sin_sq_add_cos_sq yaw
  have hN : (rot2 yaw).transpose * negLast (trans2 x y) * (trans2 x y * rot2 yaw) = 1 := by
    rw [hM]
    ext i j
    fin_cases i <;> fin_cases j <;>
      simp [trans2, rot2, negLast, Matrix.mul_apply, Fin.sum_univ_three] <;>
      first | done | ring1 | linear_combination h
  refine ⟨?_, ⟨some ((rot2 yaw).transpose * negLast (trans2 x y)), some (rot2 yaw).transpose,
    some (negLast (trans2 x y))⟩, trans2 x y * rot2 yaw, (rot2 yaw).transpose * negLast (trans2 x y),
    rfl, rfl, rfl, mul_eq_one_comm.mp hN, hN⟩
  simp only [getMatrix, set2, hM]

/-- **C33**: the matrix getter of a spatial transformation returns a homogeneous matrix (bottom row `0 0 0 1`, the
translation in the last column) and the matrix of the inverse is its two-sided matrix inverse. -/
theorem C33_matrix3 (s : Transf 4) (x y z roll pitch yaw : ℝ) :
    ∃ inv M N, (s.set3 x y z roll pitch yaw).getInverse = .ok inv (s.set3 x y z roll pitch yaw) ∧
      (s.set3 x y z roll pitch yaw).getMatrix = .ok M (s.set3 x y z roll pitch yaw) ∧ inv.getMatrix = .ok N inv ∧
      (fun i => M i 3) = ![x, y, z, 1] ∧ M 3 = ![0, 0, 0, 1] ∧ N 3 = ![0, 0, 0, 1] ∧ M * N = 1 ∧ N * M = 1 := by
  have h1 := sin_sq_add_cos_sq yaw
  have h2 := sin_sq_add_cos_sq pitch
  have h3 := sin_sq_add_cos_sq roll
  have hR : (rot3 roll pitch yaw).transpose * rot3 roll pitch yaw = 1 := by
    ext i j
    fin_cases i <;> fin_cases j <;> simp [rot3, Matrix.mul_apply, Fin.sum_univ_four]
    · linear_combination (cos pitch) ^ 2 * h1 + h2
    · linear_combination (cos pitch * sin pitch * sin roll) * h1
    · linear_combination (cos pitch * sin pitch * cos roll) * h1
    · linear_combination (cos pitch * sin pitch * sin roll) * h1
    · linear_combination ((sin pitch) ^ 2 * (sin roll) ^ 2 + (cos roll) ^ 2) * h1 + (sin roll) ^ 2 * h2 + h3
    · linear_combination ((sin pitch) ^ 2 * sin roll * cos roll - sin roll * cos roll) * h1 + (sin roll * cos roll) * h2
    · linear_combination (cos pitch * sin pitch * cos roll) * h1
    · linear_combination ((sin pitch) ^ 2 * sin roll * cos roll - sin roll * cos roll) * h1 + (sin roll * cos roll) * h2
    · linear_combination ((sin pitch) ^ 2 * (cos roll) ^ 2 + (sin roll) ^ 2) * h1 + (cos roll) ^ 2 * h2 + h3
  have hL : negLast (trans3 x y z) * trans3 x y z = 1 := by
    ext i j
    fin_cases i <;> fin_cases j <;> simp [trans3, negLast, Matrix.mul_apply, Fin.sum_univ_four]
  have hN : (rot3 roll pitch yaw).transpose * negLast (trans3 x y z) * (trans3 x y z * rot3 roll pitch yaw) = 1 := by
    rw [Matrix.mul_assoc, ← Matrix.mul_assoc (negLast _), hL, Matrix.one_mul, hR]
  refine ⟨⟨some ((rot3 roll pitch yaw).transpose * negLast (trans3 x y z)), some (rot3 roll pitch yaw).transpose,
    some (negLast (trans3 x y z))⟩, trans3 x y z * rot3 roll pitch yaw,
    (rot3 roll pitch yaw).transpose * negLast (trans3 x y z),
    rfl, rfl, rfl, ?_, ?_, ?_, mul_eq_one_comm.mp hN, hN⟩
  · funext i
    fin_cases i <;> simp [trans3, rot3, Matrix.mul_apply, Fin.sum_univ_four]
  · funext j
    fin_cases j <;> simp [trans3, rot3, Matrix.mul_apply, Fin.sum_univ_four]
  · funext j
    fin_cases j <;> simp [trans3, rot3, negLast, Matrix.mul_apply, Fin.sum_univ_four]

/-- **C33** (negation): the matrix setter is observed by the getter and by `transform`, but not by the inverse: there is
a matrix whose `getInverse` does not undo it. -/
theorem C33_matrix_setter_wrong_inverse :
    ∃ (s : Transf 3) (M N : Matrix (Fin 3) (Fin 3) ℝ) (inv : Transf 3),
      (s.setMatrix M).getMatrix = .ok M (s.setMatrix M) ∧ (s.setMatrix M).getInverse = .ok inv (s.setMatrix M) ∧
      inv.getMatrix = .ok N inv ∧ M.det = 1 ∧ N * M ≠ 1 := by
  refine ⟨Transf.set2 ⟨none, none, none⟩ 0 0 0, !![1, 0, 1; 0, 1, 0; 0, 0, 1], _, _, rfl, rfl, rfl, ?_, ?_⟩
  · simp [Matrix.det_fin_three]
  · intro h
    have := congrFun (congrFun h 0) 2
    simp [trans2, rot2, negLast, Matrix.mul_apply, Fin.sum_univ_three] at this

/-- concrete instance: a quarter turn and a shift. -/
example : (Transf.set2 ⟨none, none, none⟩ 1 2 (π / 2)).apply2 ![3, 4] =
    .ok ![-3, 5] (Transf.set2 ⟨none, none, none⟩ 1 2 (π / 2)) := by
  rw [C33_set2_apply]
  simp only [Res.ok.injEq, and_true]
  funext i
  fin_cases i <;> simp [planeRot] <;> norm_num

/-- concrete instance of the spatial transformation: yaw by a quarter turn. -/
example : (Transf.set3 ⟨none, none, none⟩ 1 2 3 0 0 (π / 2)).apply3 ![1, 0, 0] =
    .ok ![1, 3, 3] (Transf.set3 ⟨none, none, none⟩ 1 2 3 0 0 (π / 2)) := by
  rw [C33_set3_apply]
  simp only [Res.ok.injEq, and_true]
  funext i
  fin_cases i <;> simp [rotX, rotY, rotZ] <;> norm_num

end Transf
end Verif
