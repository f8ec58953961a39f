import Verif.Lemmas.IdealNormal
import Mathlib.Probability.Distributions.Gaussian.Multivariate
import Mathlib.Probability.Distributions.Gaussian.CharFun
import Mathlib.Probability.Distributions.Gaussian.Fernique

/-! Lemmas: the multivariate normal and uniform samplers. -/

namespace Verif
namespace Ideal

open MeasureTheory ProbabilityTheory Set Matrix WithLp
open scoped RealInnerProductSpace

theorem normals_eq_calls (m : ℕ) : ∀ (u : Stream) (n : ℕ), normals u m n = calls (normal 0 1) m u n := by
  induction m with
  | zero => intro u n; rfl
  | succ m ih => intro u n; simp only [normals, calls, ih]

theorem std_map_affine {d : ℕ} (μ : EuclideanSpace ℝ (Fin d)) (L : Matrix (Fin d) (Fin d) ℝ) :
    (stdGaussian (EuclideanSpace ℝ (Fin d))).map (fun x => μ + toEuclideanCLM (𝕜 := ℝ) L x) =
      multivariateGaussian μ (L * Lᵀ) := by
  have hps : (L * Lᵀ).PosSemidef := by
    have := Matrix.posSemidef_self_mul_conjTranspose L
    rwa [Matrix.conjTranspose_eq_transpose_of_trivial] at this
  have h : (fun x ↦ μ + x) ∘ ((toEuclideanCLM (𝕜 := ℝ) L)) = (fun x ↦ μ + (toEuclideanCLM (𝕜 := ℝ) L) x) := rfl
  have hg : IsGaussian ((stdGaussian (EuclideanSpace ℝ (Fin d))).map (fun x => μ + toEuclideanCLM (𝕜 := ℝ) L x)) := by
    rw [← h, ← Measure.map_map (measurable_const_add μ) (by fun_prop)]
    infer_instance
  apply IsGaussian.ext
  · simp only [id_eq, integral_id_multivariateGaussian]
    rw [integral_map (by fun_prop) (by fun_prop), integral_add (integrable_const _), integral_const]
    · simp [ContinuousLinearMap.integral_comp_comm _ IsGaussian.integrable_fun_id]
    · exact IsGaussian.integrable_id.comp_measurable (by fun_prop)
  · ext x y
    rw [covarianceBilin_multivariateGaussian hps]
    rw [← h, ← Measure.map_map (measurable_const_add μ) (by fun_prop), covarianceBilin_map_const_add,
      covarianceBilin_map, covarianceBilin_stdGaussian, innerSL_apply_apply]
    · have had : ContinuousLinearMap.adjoint (toEuclideanCLM (𝕜 := ℝ) L) = toEuclideanCLM (𝕜 := ℝ) Lᵀ := by
        rw [← ContinuousLinearMap.star_eq_adjoint, ← map_star, Matrix.star_eq_conjTranspose,
          Matrix.conjTranspose_eq_transpose_of_trivial]
      rw [ContinuousLinearMap.adjoint_inner_left, had, ← ContinuousLinearMap.comp_apply, ← ContinuousLinearMap.mul_def,
        ← map_mul, inner_toEuclideanCLM]
    · exact IsGaussian.memLp_two_id

theorem normalMv_samples {d : ℕ} (mean : Fin d → ℝ) (L : Matrix (Fin d) (Fin d) ℝ) :
    Samples (normalMv mean L) (ofLp : EuclideanSpace ℝ (Fin d) → Fin d → ℝ)
      (multivariateGaussian (toLp 2 mean) (L * Lᵀ)) := by
  have h1 := (normal_samples (mean := 0) (variance := 1) one_pos).calls d
  have hg : Measurable fun x : Fin d → ℝ => (toLp 2 mean : EuclideanSpace ℝ (Fin d)) + toEuclideanCLM (𝕜 := ℝ) L (toLp 2 x) := by
    fun_prop
  have h2 := h1.map (fun zs i => mean i + L.mulVec (fun j : Fin d => zs.getD j 0) i) _ hg ofLp (fun x => by
    funext i
    simp [List.getD_eq_getElem?_getD])
  have e : (Measure.pi fun _ : Fin d => gaussianReal 0 (1:ℝ).toNNReal).map
      (fun x : Fin d → ℝ => (toLp 2 mean : EuclideanSpace ℝ (Fin d)) + toEuclideanCLM (𝕜 := ℝ) L (toLp 2 x)) =
        multivariateGaussian (toLp 2 mean) (L * Lᵀ) := by
    rw [← std_map_affine, ← map_pi_eq_stdGaussian, Measure.map_map (by fun_prop) (by fun_prop)]
    simp only [Real.toNNReal_one]; rfl
  rw [e] at h2
  have e2 : normalMv mean L = fun u n => (calls (normal 0 1) d u n).bind fun zs n' =>
      .ok (fun i => mean i + L.mulVec (fun j => zs.getD j 0) i) n' := by
    funext u n; unfold normalMv; rw [normals_eq_calls]
  rw [e2]; exact h2

end Ideal
end Verif
