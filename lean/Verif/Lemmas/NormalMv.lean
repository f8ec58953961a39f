import Verif.Model.NormalMv
import Mathlib.Probability.Distributions.Gaussian.Real
import Mathlib.MeasureTheory.Integral.Pi
import Mathlib.MeasureTheory.Function.Jacobian
import Mathlib.Analysis.Matrix.PosDef
import Mathlib.Analysis.Matrix.Spectrum
import Mathlib.LinearAlgebra.Matrix.PosDef

/-! Integrals of polynomials of degree two against a Gaussian density in several dimensions. -/

namespace Verif
namespace NormalV
open MeasureTheory ProbabilityTheory Matrix
variable {d : Nat}

/-- a factor of a positive definite matrix. -/
theorem exists_factor {C : Matrix (Fin d) (Fin d) ℝ} (h : C.PosSemidef) :
    ∃ L : Matrix (Fin d) (Fin d) ℝ, L * L.transpose = C := by
  have hs := h.1.spectral_theorem
  set U : Matrix (Fin d) (Fin d) ℝ := (h.1.eigenvectorUnitary : Matrix (Fin d) (Fin d) ℝ) with hU
  refine ⟨U * diagonal (fun i => √(h.1.eigenvalues i)), Eq.trans ?_ hs.symm⟩
  rw [transpose_mul, diagonal_transpose, ← Matrix.mul_assoc, Matrix.mul_assoc U, diagonal_mul_diagonal]
  have : (fun i => √(h.1.eigenvalues i) * √(h.1.eigenvalues i)) = h.1.eigenvalues := by
    funext i; exact Real.mul_self_sqrt (h.eigenvalues_nonneg i)
  rw [this]
  simp [Unitary.conjStarAlgAut_apply, ← hU, star_eq_conjTranspose]

/-- the standard normal density on the line. -/
noncomputable abbrev g1 : ℝ → ℝ := gaussianPDFReal 0 1

/-- the product density. -/
noncomputable def phi (z : Fin d → ℝ) : ℝ := ∏ i, g1 (z i)

theorem phi_pos (z : Fin d → ℝ) : 0 < phi z := Finset.prod_pos fun _ _ => gaussianPDFReal_pos _ _ _ one_ne_zero

theorem integrable_g1 (k : Nat) : Integrable (fun x : ℝ => x ^ k * g1 x) := by
  have e : (fun x : ℝ => x ^ k * g1 x) = fun x : ℝ => (√(2 * Real.pi))⁻¹ * (x ^ (k:ℝ) * Real.exp (-(1/2) * x ^ 2)) := by
    funext x
    simp only [g1, gaussianPDFReal_def, NNReal.coe_one, mul_one, sub_zero, Real.rpow_natCast]
    rw [show -x ^ 2 / 2 = -(1/2) * x ^ 2 by ring]; ring
  rw [e]
  exact (integrable_rpow_mul_exp_neg_mul_sq (by norm_num) (by
    have : (0:ℝ) ≤ k := Nat.cast_nonneg k
    linarith)).const_mul _

theorem integral_g1_zero : (∫ x : ℝ, g1 x) = 1 := integral_gaussianPDFReal_eq_one 0 one_ne_zero

theorem integral_g1_one : (∫ x : ℝ, x * g1 x) = 0 := by
  have := integral_gaussianReal_eq_integral_smul (μ := 0) (v := 1) (f := fun x : ℝ => x) one_ne_zero
  rw [integral_id_gaussianReal] at this
  rw [this]
  exact integral_congr_ae (Filter.Eventually.of_forall fun x => by simp [mul_comm])

theorem integral_g1_two : (∫ x : ℝ, x ^ 2 * g1 x) = 1 := by
  have := integral_gaussianReal_eq_integral_smul (μ := 0) (v := 1) (f := fun x : ℝ => x ^ 2) one_ne_zero
  have hvar := variance_fun_id_gaussianReal (μ := 0) (v := 1)
  rw [variance_eq_integral measurable_id'.aemeasurable] at hvar
  simp only [integral_id_gaussianReal, sub_zero, NNReal.coe_one] at hvar
  rw [← hvar, this]
  exact integral_congr_ae (Filter.Eventually.of_forall fun x => by simp [mul_comm])

/-- a monomial against the product density. -/
theorem mono_phi (k : Fin d → Nat) :
    Integrable (fun z : Fin d → ℝ => (∏ i, z i ^ k i) * phi z) ∧
    (∫ z : Fin d → ℝ, (∏ i, z i ^ k i) * phi z) = ∏ i, ∫ x : ℝ, x ^ k i * g1 x := by
  have e : (fun z : Fin d → ℝ => (∏ i, z i ^ k i) * phi z) = fun z => ∏ i, (fun (i : Fin d) (x : ℝ) => x ^ k i * g1 x) i (z i) := by
    funext z; simp only [phi, Finset.prod_mul_distrib]
  rw [e]
  exact ⟨Integrable.fintype_prod fun i => integrable_g1 (k i), integral_fintype_prod_volume_eq_prod (𝕜 := ℝ) (fun (i : Fin d) (x : ℝ) => x ^ k i * g1 x)⟩

theorem int0 : Integrable (phi (d := d)) ∧ (∫ z : Fin d → ℝ, phi z) = 1 := by
  have := mono_phi (d := d) (fun _ => 0)
  simpa [integral_g1_zero] using this

theorem int1 (i : Fin d) : Integrable (fun z : Fin d → ℝ => z i * phi z) ∧ (∫ z : Fin d → ℝ, z i * phi z) = 0 := by
  have := mono_phi (d := d) (fun j => if j = i then 1 else 0)
  have e : (fun z : Fin d → ℝ => (∏ j, z j ^ (if j = i then 1 else 0)) * phi z) = fun z => z i * phi z := by
    funext z
    congr 1
    rw [Finset.prod_eq_single i] <;> simp +contextual
  rw [e] at this
  refine ⟨this.1, this.2.trans ?_⟩
  exact Finset.prod_eq_zero (Finset.mem_univ i) (by simpa using integral_g1_one)

theorem int2 (i j : Fin d) : Integrable (fun z : Fin d → ℝ => z i * z j * phi z) ∧
    (∫ z : Fin d → ℝ, z i * z j * phi z) = if i = j then 1 else 0 := by
  have := mono_phi (d := d) (fun k => (if k = i then 1 else 0) + (if k = j then 1 else 0))
  have e : (fun z : Fin d → ℝ => (∏ k, z k ^ ((if k = i then 1 else 0) + (if k = j then 1 else 0))) * phi z) =
      fun z => z i * z j * phi z := by
    funext z
    congr 1
    simp only [pow_add, Finset.prod_mul_distrib]
    congr 1
    · rw [Finset.prod_eq_single i] <;> simp +contextual
    · rw [Finset.prod_eq_single j] <;> simp +contextual
  rw [e] at this
  refine ⟨this.1, this.2.trans ?_⟩
  split_ifs with h
  · subst h
    refine Finset.prod_eq_one fun k _ => ?_
    by_cases hk : k = i
    · simpa [hk] using integral_g1_two
    · simpa [hk] using integral_g1_zero
  · refine Finset.prod_eq_zero (Finset.mem_univ i) ?_
    simpa [h] using integral_g1_one

/-- a polynomial of degree two against the product density. -/
theorem int_quad (c : ℝ) (b : Fin d → ℝ) (A : Matrix (Fin d) (Fin d) ℝ) :
    Integrable (fun z : Fin d → ℝ => (c + b ⬝ᵥ z + z ⬝ᵥ A *ᵥ z) * phi z) ∧
    (∫ z : Fin d → ℝ, (c + b ⬝ᵥ z + z ⬝ᵥ A *ᵥ z) * phi z) = c + A.trace := by
  have e : (fun z : Fin d → ℝ => (c + b ⬝ᵥ z + z ⬝ᵥ A *ᵥ z) * phi z) =
      fun z => (c * phi z + ∑ i, b i * (z i * phi z)) + ∑ i, ∑ j, A i j * (z i * z j * phi z) := by
    funext z
    simp only [dotProduct, mulVec, add_mul, Finset.sum_mul, Finset.mul_sum]
    congr 1
    · congr 1
      exact Finset.sum_congr rfl fun i _ => by ring
    · exact Finset.sum_congr rfl fun i _ => Finset.sum_congr rfl fun j _ => by ring
  rw [e]
  have h0 : Integrable (fun z : Fin d → ℝ => c * phi z) := int0.1.const_mul _
  have h1 : Integrable (fun z : Fin d → ℝ => ∑ i, b i * (z i * phi z)) :=
    integrable_finsetSum _ fun i _ => (int1 i).1.const_mul _
  have h2 : Integrable (fun z : Fin d → ℝ => ∑ i, ∑ j, A i j * (z i * z j * phi z)) :=
    integrable_finsetSum _ fun i _ => integrable_finsetSum _ fun j _ => (int2 i j).1.const_mul _
  have h01 : Integrable (fun z : Fin d → ℝ => c * phi z + ∑ i, b i * (z i * phi z)) := h0.add h1
  refine ⟨h01.add h2, ?_⟩
  rw [integral_add h01 h2, integral_add h0 h1, integral_const_mul, int0.2,
    integral_finsetSum _ fun i _ => (int1 i).1.const_mul _,
    integral_finsetSum Finset.univ (f := fun (i : Fin d) (z : Fin d → ℝ) => ∑ j, A i j * (z i * z j * phi z))
      fun i _ => integrable_finsetSum _ fun j _ => (int2 i j).1.const_mul _]
  have e1 : ∀ i : Fin d, (∫ z : Fin d → ℝ, b i * (z i * phi z)) = 0 := fun i => by
    rw [integral_const_mul, (int1 i).2, mul_zero]
  have e2 : ∀ i : Fin d, (∫ z : Fin d → ℝ, ∑ j, A i j * (z i * z j * phi z)) = A i i := fun i => by
    rw [integral_finsetSum _ fun j _ => (int2 i j).1.const_mul _]
    simp only [integral_const_mul, (int2 i _).2, mul_ite, mul_one, mul_zero]
    simp
  simp only [e1, e2, Finset.sum_const_zero, mul_one, add_zero]
  rfl

/-- substitution `x = m + L z`. -/
theorem subst_affine (m : Fin d → ℝ) (L : Matrix (Fin d) (Fin d) ℝ) (hL : L.det ≠ 0) (f : (Fin d → ℝ) → ℝ) :
    (∫ x, f x) = (∫ z, |L.det| * f (m + L *ᵥ z)) ∧
    (Integrable f ↔ Integrable fun z => |L.det| * f (m + L *ᵥ z)) := by
  have hd : ∀ z ∈ (Set.univ : Set (Fin d → ℝ)), HasFDerivWithinAt (fun z => m + L *ᵥ z)
      (LinearMap.toContinuousLinearMap (Matrix.toLin' L)) Set.univ z := fun z _ =>
    ((LinearMap.toContinuousLinearMap (Matrix.toLin' L)).hasFDerivAt.const_add m).hasFDerivWithinAt
  have hu : IsUnit L := (Matrix.isUnit_iff_isUnit_det _).2 (isUnit_iff_ne_zero.2 hL)
  have hinj : Set.InjOn (fun z => m + L *ᵥ z) Set.univ := by
    intro a _ b _ hab
    exact Matrix.mulVec_injective_of_isUnit hu (add_left_cancel hab)
  have him : (fun z => m + L *ᵥ z) '' Set.univ = Set.univ := by
    rw [Set.image_univ, Set.range_eq_univ]
    intro x
    obtain ⟨z, hz⟩ := Matrix.mulVec_surjective_iff_isUnit.2 hu (x - m)
    exact ⟨z, by simp [hz]⟩
  have hdet : (LinearMap.toContinuousLinearMap (Matrix.toLin' L)).det = L.det := by
    rw [ContinuousLinearMap.det]; simp
  have h := integral_image_eq_integral_abs_det_fderiv_smul volume MeasurableSet.univ hd hinj f
  have h' := integrableOn_image_iff_integrableOn_abs_det_fderiv_smul volume MeasurableSet.univ hd hinj f
  rw [him] at h h'
  simp only [hdet, smul_eq_mul, setIntegral_univ, integrableOn_univ] at h h'
  exact ⟨h, h'⟩

/-- the logarithm of the density with mean `m` and covariance `C`. -/
noncomputable def logDens (m : Fin d → ℝ) (C : Matrix (Fin d) (Fin d) ℝ) (x : Fin d → ℝ) : ℝ :=
  -0.5 * ((x - m) ⬝ᵥ C⁻¹ *ᵥ (x - m)) - (0.5 * d * Real.log (2 * Real.pi) + 0.5 * Real.log C.det)

theorem factor_det {C L : Matrix (Fin d) (Fin d) ℝ} (h : L * L.transpose = C) : L.det * L.det = C.det := by
  rw [← h, det_mul, det_transpose]

theorem factor_det_ne {C L : Matrix (Fin d) (Fin d) ℝ} (hC : C.PosDef) (h : L * L.transpose = C) : L.det ≠ 0 := by
  intro h0
  have := factor_det h
  rw [h0, mul_zero] at this
  exact hC.det_pos.ne this

/-- the quadratic form of the inverse in the coordinates of the factor. -/
theorem factor_quad {C L : Matrix (Fin d) (Fin d) ℝ} (hC : C.PosDef) (h : L * L.transpose = C) (z : Fin d → ℝ) :
    (L *ᵥ z) ⬝ᵥ C⁻¹ *ᵥ (L *ᵥ z) = z ⬝ᵥ z := by
  have hL : IsUnit L.det := isUnit_iff_ne_zero.2 (factor_det_ne hC h)
  have e : L.transpose * (C⁻¹ * L) = 1 := by
    have hLT : IsUnit L.transpose.det := by rwa [det_transpose]
    rw [← h, Matrix.mul_inv_rev, Matrix.mul_assoc, Matrix.nonsing_inv_mul _ hL, Matrix.mul_one, Matrix.mul_nonsing_inv _ hLT]
  rw [mulVec_mulVec, dotProduct_comm, dotProduct_mulVec, ← mulVec_transpose, mulVec_mulVec, e, one_mulVec]

theorem phi_eq (z : Fin d → ℝ) : phi z = Real.exp (-0.5 * (z ⬝ᵥ z) - 0.5 * d * Real.log (2 * Real.pi)) := by
  have h2 : (0:ℝ) < 2 * Real.pi := by positivity
  have e : ∀ x : ℝ, g1 x = Real.exp (-0.5 * (x * x) - 0.5 * Real.log (2 * Real.pi)) := by
    intro x
    simp only [g1, gaussianPDFReal_def, NNReal.coe_one, mul_one, sub_zero]
    rw [sub_eq_add_neg, Real.exp_add, mul_comm]
    congr 1
    · congr 1; ring
    · rw [Real.exp_neg, Real.sqrt_eq_rpow, Real.rpow_def_of_pos h2]; norm_num [mul_comm]
  simp only [phi, e]
  rw [← Real.exp_sum, Finset.sum_sub_distrib, ← Finset.mul_sum]
  congr 1
  simp [dotProduct]
  ring

/-- the density in the coordinates of the factor. -/
theorem dens_phi {m : Fin d → ℝ} {C L : Matrix (Fin d) (Fin d) ℝ} (hC : C.PosDef) (h : L * L.transpose = C)
    (z : Fin d → ℝ) : |L.det| * Real.exp (logDens m C (m + L *ᵥ z)) = phi z := by
  have hl : 0 < |L.det| := abs_pos.2 (factor_det_ne hC h)
  have hd : Real.log C.det = 2 * Real.log |L.det| := by
    rw [← factor_det h, ← abs_mul_abs_self, Real.log_mul hl.ne' hl.ne']; ring
  rw [phi_eq, logDens, add_sub_cancel_left, factor_quad hC h, hd]
  have : |L.det| = Real.exp (Real.log |L.det|) := (Real.exp_log hl).symm
  generalize Real.log |L.det| = l at this ⊢
  rw [this, ← Real.exp_add]
  congr 1
  ring

/-- expectation under the density as an integral against the product density. -/
theorem expect {m : Fin d → ℝ} {C L : Matrix (Fin d) (Fin d) ℝ} (hC : C.PosDef) (h : L * L.transpose = C)
    (f : (Fin d → ℝ) → ℝ) :
    (∫ x, f x * Real.exp (logDens m C x)) = (∫ z, f (m + L *ᵥ z) * phi z) ∧
    (Integrable (fun x => f x * Real.exp (logDens m C x)) ↔ Integrable fun z => f (m + L *ᵥ z) * phi z) := by
  have := subst_affine m L (factor_det_ne hC h) (fun x => f x * Real.exp (logDens m C x))
  have e : (fun z => |L.det| * (f (m + L *ᵥ z) * Real.exp (logDens m C (m + L *ᵥ z)))) =
      fun z => f (m + L *ᵥ z) * phi z := by
    funext z
    rw [← dens_phi (m := m) hC h z]; ring
  rw [e] at this
  exact this

/-- expectation of a polynomial of degree two. -/
theorem expect_quad {m : Fin d → ℝ} {C : Matrix (Fin d) (Fin d) ℝ} (hC : C.PosDef) (c : ℝ) (b : Fin d → ℝ)
    (A : Matrix (Fin d) (Fin d) ℝ) :
    Integrable (fun x => (c + b ⬝ᵥ (x - m) + (x - m) ⬝ᵥ A *ᵥ (x - m)) * Real.exp (logDens m C x)) ∧
    (∫ x, (c + b ⬝ᵥ (x - m) + (x - m) ⬝ᵥ A *ᵥ (x - m)) * Real.exp (logDens m C x)) = c + (A * C).trace := by
  obtain ⟨L, h⟩ := exists_factor hC.posSemidef
  obtain ⟨e1, e2⟩ := expect (m := m) hC h (fun x => c + b ⬝ᵥ (x - m) + (x - m) ⬝ᵥ A *ᵥ (x - m))
  have e : (fun z : Fin d → ℝ => (c + b ⬝ᵥ ((m + L *ᵥ z) - m) + ((m + L *ᵥ z) - m) ⬝ᵥ A *ᵥ ((m + L *ᵥ z) - m)) * phi z) =
      fun z => (c + (L.transpose *ᵥ b) ⬝ᵥ z + z ⬝ᵥ (L.transpose * (A * L)) *ᵥ z) * phi z := by
    funext z
    rw [add_sub_cancel_left, dotProduct_mulVec b L z, mulVec_transpose]
    congr 2
    rw [mulVec_mulVec, dotProduct_comm, dotProduct_mulVec, ← mulVec_transpose, mulVec_mulVec, dotProduct_comm]
  obtain ⟨q1, q2⟩ := int_quad c (L.transpose *ᵥ b) (L.transpose * (A * L))
  simp only [e] at e1 e2
  refine ⟨e2.2 q1, e1.trans (q2.trans ?_)⟩
  rw [Matrix.trace_mul_comm, Matrix.mul_assoc, h]

end NormalV
end Verif
