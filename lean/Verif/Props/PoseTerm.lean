import Verif.Lemmas.Euler

/-! Property C39, pose error term, all six rows. -/

namespace Verif
namespace ErrorTerms
open Real Filter Topology

/-- **C39**, pose error term.  The pose `(p, C)` moves along any differentiable curve of rigid transformations; `d` and `w`
are its translation and rotation increments (`p ↦ p + ε (d - w × p)`, `C ↦ (1 - ε [w]ₓ) C`, the convention of the
transformation expressions).  With a correct Euler angle library, away from gimbal lock and where no wrapped angle error is at
its jump ±π, both halves of the error change at the rate given by the rows of the Jacobian handed to the optimizer. -/
theorem C39_pose {lib : YprLib} (hl : lib.Correct) (tm am : Fin 3 → ℝ) {p : ℝ → Fin 3 → ℝ}
    {C : ℝ → Matrix (Fin 3) (Fin 3) ℝ} {d w : Fin 3 → ℝ} {t : ℝ}
    (hp : ∀ i, HasDerivAt (fun s => p s i)
      ((d - ![w 1 * p t 2 - w 2 * p t 1, w 2 * p t 0 - w 0 * p t 2, w 0 * p t 1 - w 1 * p t 0]) i) t)
    (hC : Turns C (-crossMx w * C t) t) (hR : ∀ s, IsRotation (C s)) (hgimbal : |C t 2 0| < 1)
    (hcut : ∀ i, ¬ Cut (am i - lib.params (C t) i)) :
    (∀ i, HasDerivAt (fun s => (poseErr lib tm am (p s) (C s)).1 i)
      (((poseJ lib (p t) (C t)).1.1.mulVec d + (poseJ lib (p t) (C t)).1.2.mulVec w) i) t) ∧
    (∀ i, HasDerivAt (fun s => (poseErr lib tm am (p s) (C s)).2 i)
      (((poseJ lib (p t) (C t)).2.1.mulVec d + (poseJ lib (p t) (C t)).2.2.mulVec w) i) t) := by
  refine ⟨fun i => ?_, ?_⟩
  · refine hd_congr' ((hp i).const_sub (tm i)) (fun s => rfl) ?_
    fin_cases i <;>
      simp [poseJ, crossMx, Matrix.neg_mulVec, Matrix.mulVec, dotProduct, Fin.sum_univ_three] <;> ring
  obtain ⟨q, q', hq, hqt, hqe⟩ := params_lift hl hC hR hgimbal
  -- the rates of the angles
  have hS : (lib.sMatrix (lib.params (C t))).mulVec q' = w := by
    have h1 := hl.sMatrix q q' t hq
    have h2 : ∀ᶠ s in 𝓝 t, ypr (q s) = C s := by
      have hev : ∀ᶠ s in 𝓝 t, |C s 2 0| < 1 :=
        (hC 2 0).continuousAt.abs.eventually (isOpen_Iio.mem_nhds hgimbal)
      filter_upwards [hqe, hev] with s hs h3
      rw [← ypr_shift hs]
      exact (hl.params _ (hR s) h3).1
    have h3 : -crossMx ((lib.sMatrix (q t)).mulVec q') * ypr (q t) = -crossMx w * C t := by
      ext i j
      refine (h1 i j).unique ((hC i j).congr_of_eventuallyEq ?_)
      filter_upwards [h2] with s hs
      rw [hs]
    rw [h2.self_of_nhds, hqt] at h3
    have h4 := congrArg (· * (C t).transpose) h3
    simp only [Matrix.mul_assoc, (hR t).mul_transpose, Matrix.mul_one] at h4
    exact crossMx_inj (neg_injective h4)
  have hdet : IsUnit (lib.sMatrix (lib.params (C t))).det := by
    rw [sMatrix_unique hl, sExp_det, isUnit_iff_ne_zero]
    obtain ⟨h1, -⟩ := hl.params _ (hR t) hgimbal
    have e20 := congrFun (congrFun ((ypr_eq _).symm.trans h1) 2) 0
    simp at e20
    intro h
    have q := sin_sq_add_cos_sq (lib.params (C t) 1)
    rw [h] at q
    have h5 := abs_lt.1 hgimbal
    nlinarith
  have hinv : (lib.sMatrix (lib.params (C t)))⁻¹.mulVec w = q' := by
    rw [← hS, Matrix.mulVec_mulVec, Matrix.nonsing_inv_mul _ hdet, Matrix.one_mulVec]
  intro i
  have h := hasDerivAt_angleMod (f := fun s => am i - lib.params (C s) i) ((hq i).const_sub (am i)) (by
    filter_upwards [hqe] with s hs
    obtain ⟨k, hk⟩ := hs i
    exact ⟨-k, by rw [hk]; push_cast; ring⟩) (hcut i)
  refine hd_congr' h (fun s => rfl) ?_
  simp [poseJ, Matrix.neg_mulVec, hinv]

/-- the textbook formulas are a correct library, so the theorem applies: here to a turn in yaw and pitch, with a position. -/
example : textbook.Correct ∧ ∃ (p : ℝ → Fin 3 → ℝ) (C : ℝ → Matrix (Fin 3) (Fin 3) ℝ) (d w : Fin 3 → ℝ),
    (∀ i, HasDerivAt (fun s => p s i)
      ((d - ![w 1 * p 0 2 - w 2 * p 0 1, w 2 * p 0 0 - w 0 * p 0 2, w 0 * p 0 1 - w 1 * p 0 0]) i) 0) ∧
    Turns C (-crossMx w * C 0) 0 ∧ (∀ s, IsRotation (C s)) ∧ |C 0 2 0| < 1 ∧ w ≠ 0 ∧
    ∀ i, ¬ Cut ((0 : Fin 3 → ℝ) i - textbook.params (C 0) i) := by
  have hm : ∀ i, HasDerivAt (fun s : ℝ => (![s, 2 * s, 0] : Fin 3 → ℝ) i) ((![1, 2, 0] : Fin 3 → ℝ) i) 0 := by
    intro i
    fin_cases i
    · exact hd_congr' (hasDerivAt_id (0 : ℝ)) (fun s => by simp) (by simp)
    · exact hd_congr' ((hasDerivAt_id (0 : ℝ)).const_mul 2) (fun s => by simp) (by simp)
    · exact hd_congr' (hasDerivAt_const (0 : ℝ) (0 : ℝ)) (fun s => by simp) (by simp)
  have h1 : ypr ![0, 0, 0] = 1 := by
    rw [ypr_eq]; ext i j; fin_cases i <;> fin_cases j <;> simp
  refine ⟨textbook_correct, fun s => ![s, 1, 2], fun s => ypr ![s, 2 * s, 0],
    ![1, 0, 0] + ![(sExp ![0, 0, 0]).mulVec ![1, 2, 0] 1 * 2 - (sExp ![0, 0, 0]).mulVec ![1, 2, 0] 2 * 1,
      (sExp ![0, 0, 0]).mulVec ![1, 2, 0] 2 * 0 - (sExp ![0, 0, 0]).mulVec ![1, 2, 0] 0 * 2,
      (sExp ![0, 0, 0]).mulVec ![1, 2, 0] 0 * 1 - (sExp ![0, 0, 0]).mulVec ![1, 2, 0] 1 * 0],
    (sExp ![0, 0, 0]).mulVec ![1, 2, 0], ?_, ?_, fun s => ypr_rotation _, ?_, ?_, ?_⟩
  · intro i
    fin_cases i
    · exact hd_congr' (hasDerivAt_id (0 : ℝ)) (fun s => by simp) (by simp)
    · exact hd_congr' (hasDerivAt_const (0 : ℝ) (1 : ℝ)) (fun s => by simp) (by simp)
    · exact hd_congr' (hasDerivAt_const (0 : ℝ) (2 : ℝ)) (fun s => by simp) (by simp)
  · simpa using sExp_spec _ _ 0 hm
  · simp [h1]
  · intro h
    have := congrFun h 2
    simp [sExp, Matrix.mulVec, dotProduct, Fin.sum_univ_three] at this
  · have h2 : textbook.params (ypr ![0, 2 * 0, 0]) = 0 := by
      rw [mul_zero, h1]
      funext i
      fin_cases i <;> simp [textbook, atan2] <;> exact Complex.arg_one
    intro i
    simp only [h2]
    rintro ⟨k, hk⟩
    simp [pi_ne_zero] at hk
    have : (2 * k + 1 : ℤ) = 0 := by exact_mod_cast hk
    omega

end ErrorTerms
end Verif
