import Verif.Spec.Euler
import Verif.Lemmas.Angle
import Mathlib.Analysis.SpecialFunctions.Trigonometric.InverseDeriv

/-! Helper lemmas for the angles of a rotation. -/

namespace Verif
namespace ErrorTerms
open Real Filter Topology

theorem ypr_eq (a : Fin 3 → ℝ) : ypr a =
    !![cos (a 0) * cos (a 1), cos (a 0) * sin (a 1) * sin (a 2) - sin (a 0) * cos (a 2),
        cos (a 0) * sin (a 1) * cos (a 2) + sin (a 0) * sin (a 2);
       sin (a 0) * cos (a 1), sin (a 0) * sin (a 1) * sin (a 2) + cos (a 0) * cos (a 2),
        sin (a 0) * sin (a 1) * cos (a 2) - cos (a 0) * sin (a 2);
       -sin (a 1), cos (a 1) * sin (a 2), cos (a 1) * cos (a 2)] := by
  ext i j
  fin_cases i <;> fin_cases j <;> simp [ypr, Matrix.mul_apply, Fin.sum_univ_three] <;> ring

/-- the explicit S matrix. -/
noncomputable def sExp (a : Fin 3 → ℝ) : Matrix (Fin 3) (Fin 3) ℝ :=
  !![0, sin (a 0), -(cos (a 0) * cos (a 1)); 0, -cos (a 0), -(sin (a 0) * cos (a 1)); -1, 0, sin (a 1)]

theorem hd_congr' {f g : ℝ → ℝ} {f' g' t : ℝ} (h : HasDerivAt f f' t) (hf : ∀ s, g s = f s) (h' : g' = f') :
    HasDerivAt g g' t := by
  obtain rfl : g = f := funext hf
  rw [h']; exact h

theorem sExp_spec (a : ℝ → Fin 3 → ℝ) (a' : Fin 3 → ℝ) (t : ℝ) (h : ∀ i, HasDerivAt (fun s => a s i) (a' i) t) :
    Turns (fun s => ypr (a s)) (-crossMx ((sExp (a t)).mulVec a') * ypr (a t)) t := by
  have c0 := (h 0).cos
  have s0 := (h 0).sin
  have c1 := (h 1).cos
  have s1 := (h 1).sin
  have c2 := (h 2).cos
  have s2 := (h 2).sin
  have q0 := sin_sq_add_cos_sq (a t 0)
  have q1 := sin_sq_add_cos_sq (a t 1)
  intro i j
  simp only [ypr_eq]
  fin_cases i <;> fin_cases j
  · refine hd_congr' (c0.mul c1) (fun s => by simp) ?_
    simp [crossMx, sExp, Matrix.mul_apply, Matrix.mulVec, dotProduct, Fin.sum_univ_three]
    grind
  · refine hd_congr' (((c0.mul s1).mul s2).sub (s0.mul c2)) (fun s => by simp) ?_
    simp [crossMx, sExp, Matrix.mul_apply, Matrix.mulVec, dotProduct, Fin.sum_univ_three]
    grind
  · refine hd_congr' (((c0.mul s1).mul c2).add (s0.mul s2)) (fun s => by simp) ?_
    simp [crossMx, sExp, Matrix.mul_apply, Matrix.mulVec, dotProduct, Fin.sum_univ_three]
    grind
  · refine hd_congr' (s0.mul c1) (fun s => by simp) ?_
    simp [crossMx, sExp, Matrix.mul_apply, Matrix.mulVec, dotProduct, Fin.sum_univ_three]
    grind
  · refine hd_congr' (((s0.mul s1).mul s2).add (c0.mul c2)) (fun s => by simp) ?_
    simp [crossMx, sExp, Matrix.mul_apply, Matrix.mulVec, dotProduct, Fin.sum_univ_three]
    grind
  · refine hd_congr' (((s0.mul s1).mul c2).sub (c0.mul s2)) (fun s => by simp) ?_
    simp [crossMx, sExp, Matrix.mul_apply, Matrix.mulVec, dotProduct, Fin.sum_univ_three]
    grind
  · refine hd_congr' s1.neg (fun s => by simp) ?_
    simp [crossMx, sExp, Matrix.mul_apply, Matrix.mulVec, dotProduct, Fin.sum_univ_three]
    grind
  · refine hd_congr' (c1.mul s2) (fun s => by simp) ?_
    simp [crossMx, sExp, Matrix.mul_apply, Matrix.mulVec, dotProduct, Fin.sum_univ_three]
    grind
  · refine hd_congr' (c1.mul c2) (fun s => by simp) ?_
    simp [crossMx, sExp, Matrix.mul_apply, Matrix.mulVec, dotProduct, Fin.sum_univ_three]
    grind

theorem crossMx_inj {u v : Fin 3 → ℝ} (h : crossMx u = crossMx v) : u = v := by
  have h1 := congrFun (congrFun h 2) 1
  have h2 := congrFun (congrFun h 0) 2
  have h3 := congrFun (congrFun h 1) 0
  simp [crossMx] at h1 h2 h3
  funext i
  fin_cases i <;> simp [h1, h2, h3]

theorem sExp_det (a : Fin 3 → ℝ) : (sExp a).det = cos (a 1) := by
  have q0 := sin_sq_add_cos_sq (a 0)
  simp [sExp, Matrix.det_fin_three]
  grind

theorem ypr_rotation (a : Fin 3 → ℝ) : IsRotation (ypr a) := by
  have q0 := sin_sq_add_cos_sq (a 0)
  have q1 := sin_sq_add_cos_sq (a 1)
  have q2 := sin_sq_add_cos_sq (a 2)
  refine ⟨?_, ?_⟩
  · rw [ypr_eq]
    ext i j
    fin_cases i <;> fin_cases j <;> simp [Matrix.mul_apply, Fin.sum_univ_three] <;> grind
  · rw [ypr_eq, Matrix.det_fin_three]; simp; grind

theorem IsRotation.mul_transpose {C : Matrix (Fin 3) (Fin 3) ℝ} (h : IsRotation C) : C * C.transpose = 1 :=
  mul_eq_one_comm.1 h.1

/-- the S matrix is determined by its property. -/
theorem sMatrix_unique {lib : YprLib} (hl : lib.Correct) (a : Fin 3 → ℝ) : lib.sMatrix a = sExp a := by
  have key : ∀ a' : Fin 3 → ℝ, (lib.sMatrix a).mulVec a' = (sExp a).mulVec a' := by
    intro a'
    have hm : ∀ i, HasDerivAt (fun s : ℝ => (fun s => a + s • a') s i) (a' i) 0 := by
      intro i
      have := ((hasDerivAt_id (0 : ℝ)).mul_const (a' i)).const_add (a i)
      simpa using this
    have h1 := hl.sMatrix _ a' 0 hm
    have h2 := sExp_spec _ a' 0 hm
    simp only [zero_smul, add_zero] at h1 h2
    have h3 : -crossMx ((lib.sMatrix a).mulVec a') * ypr a = -crossMx ((sExp a).mulVec a') * ypr a := by
      ext i j; exact (h1 i j).unique (h2 i j)
    have h4 := congrArg (· * (ypr a).transpose) h3
    simp only [Matrix.mul_assoc, (ypr_rotation a).mul_transpose, Matrix.mul_one] at h4
    exact crossMx_inj (neg_injective h4)
  ext i j
  have := congrFun (key (Pi.single j 1)) i
  simpa using this

theorem atan2_polar {r φ : ℝ} (hr : 0 < r) : ∃ k : ℤ, atan2 (r * sin φ) (r * cos φ) = φ + 2 * π * k := by
  have h1 : (⟨r * cos φ, r * sin φ⟩ : ℂ) = r * (Complex.cos φ + Complex.sin φ * Complex.I) := by
    apply Complex.ext <;> simp [← Complex.ofReal_cos, ← Complex.ofReal_sin]
  have h2 := Complex.arg_mul_cos_add_sin_mul_I_coe_angle hr φ
  unfold atan2
  rw [h1]
  rw [Real.Angle.angle_eq_iff_two_pi_dvd_sub] at h2
  obtain ⟨k, hk⟩ := h2
  refine ⟨k, ?_⟩
  rw [← Complex.ofReal_cos, ← Complex.ofReal_sin]
  rw [Real.Angle.cos_coe, Real.Angle.sin_coe] at hk
  linarith

/-- a function that agrees modulo 2π with a differentiable one has a differentiable lift through its value. -/
theorem lift_at {f g : ℝ → ℝ} {x : ℝ} {g' : ℝ} (hg : HasDerivAt g g' x) (h : ∀ᶠ t in 𝓝 x, ∃ k : ℤ, f t = g t + 2 * π * k) :
    ∃ q : ℝ → ℝ, HasDerivAt q g' x ∧ q x = f x ∧ ∀ᶠ t in 𝓝 x, ∃ k : ℤ, f t = q t + 2 * π * k := by
  obtain ⟨k0, hk0⟩ := h.self_of_nhds
  refine ⟨fun t => g t + 2 * π * k0, hg.add_const _, hk0.symm, ?_⟩
  filter_upwards [h] with t ⟨k, hk⟩
  exact ⟨k - k0, by rw [hk]; push_cast; ring⟩

theorem ypr_shift {a b : Fin 3 → ℝ} (h : ∀ i, ∃ k : ℤ, a i = b i + 2 * π * k) : ypr a = ypr b := by
  obtain ⟨k0, h0⟩ := h 0
  obtain ⟨k1, h1⟩ := h 1
  obtain ⟨k2, h2⟩ := h 2
  have c : ∀ (x : ℝ) (k : ℤ), cos (x + 2 * π * k) = cos x := fun x k => by
    rw [mul_comm (2 * π)]; exact cos_add_int_mul_two_pi x k
  have s : ∀ (x : ℝ) (k : ℤ), sin (x + 2 * π * k) = sin x := fun x k => by
    rw [mul_comm (2 * π)]; exact sin_add_int_mul_two_pi x k
  rw [ypr_eq, ypr_eq, h0, h1, h2]
  simp only [c, s]

/-- the parameters of a moving rotation have a differentiable lift. -/
theorem params_lift {lib : YprLib} (hl : lib.Correct) {C : ℝ → Matrix (Fin 3) (Fin 3) ℝ} {C' : Matrix (Fin 3) (Fin 3) ℝ}
    {t : ℝ} (hC : Turns C C' t) (hR : ∀ s, IsRotation (C s)) (hg : |C t 2 0| < 1) :
    ∃ (q : ℝ → Fin 3 → ℝ) (q' : Fin 3 → ℝ), (∀ i, HasDerivAt (fun s => q s i) (q' i) t) ∧ q t = lib.params (C t) ∧
      ∀ᶠ s in 𝓝 t, ∀ i, ∃ k : ℤ, lib.params (C s) i = q s i + 2 * π * k := by
  have hev : ∀ᶠ s in 𝓝 t, |C s 2 0| < 1 :=
    (hC 2 0).continuousAt.abs.eventually (isOpen_Iio.mem_nhds hg)
  have hpar : ∀ s, |C s 2 0| < 1 → -sin (lib.params (C s) 1) = C s 2 0 ∧ 0 < cos (lib.params (C s) 1) ∧
      cos (lib.params (C s) 0) * cos (lib.params (C s) 1) = C s 0 0 ∧ sin (lib.params (C s) 0) * cos (lib.params (C s) 1) = C s 1 0 ∧
      cos (lib.params (C s) 1) * sin (lib.params (C s) 2) = C s 2 1 ∧ cos (lib.params (C s) 1) * cos (lib.params (C s) 2) = C s 2 2 ∧
      lib.params (C s) 1 = arcsin (-C s 2 0) := by
    intro s hs
    obtain ⟨h1, h2⟩ := hl.params _ (hR s) hs
    have e := fun i j => congrFun (congrFun ((ypr_eq _).symm.trans h1) i) j
    have e20 := e 2 0
    have e00 := e 0 0
    have e10 := e 1 0
    have e21 := e 2 1
    have e22 := e 2 2
    simp at e20 e00 e10 e21 e22
    have hsin : sin (lib.params (C s) 1) = -C s 2 0 := by linarith
    have hb := abs_le.1 h2
    refine ⟨by linarith, ?_, e00, e10, e21, e22, ?_⟩
    · have h0 : 0 ≤ cos (lib.params (C s) 1) := cos_nonneg_of_mem_Icc ⟨by linarith [hb.1], hb.2⟩
      rcases h0.eq_or_lt with h | h
      · have q := sin_sq_add_cos_sq (lib.params (C s) 1)
        rw [← h, hsin] at q
        have : |C s 2 0| ^ 2 < 1 := by
          have := abs_nonneg (C s 2 0); nlinarith
        rw [sq_abs] at this
        nlinarith
      · exact h
    · rw [← hsin, arcsin_sin (by linarith [hb.1]) hb.2]
  obtain ⟨p20, ppos, p00, p10, p21, p22, pasin⟩ := hpar t hg
  -- yaw
  obtain ⟨g0, hg0, hg0e⟩ := atan2_branch (hC 0 0) (hC 1 0) (by
    by_contra hc
    push Not at hc
    have q := sin_sq_add_cos_sq (lib.params (C t) 0)
    have : cos (lib.params (C t) 0) = 0 := by
      rcases mul_eq_zero.1 (p00.trans hc.1) with h | h
      · exact h
      · exact absurd h (ne_of_gt ppos)
    have h2 : sin (lib.params (C t) 0) = 0 := by
      rcases mul_eq_zero.1 (p10.trans hc.2) with h | h
      · exact h
      · exact absurd h (ne_of_gt ppos)
    rw [this, h2] at q; norm_num at q)
  obtain ⟨g2, hg2, hg2e⟩ := atan2_branch (hC 2 2) (hC 2 1) (by
    by_contra hc
    push Not at hc
    have q := sin_sq_add_cos_sq (lib.params (C t) 2)
    have : cos (lib.params (C t) 2) = 0 := by
      rcases mul_eq_zero.1 (p22.trans hc.1) with h | h
      · exact absurd h (ne_of_gt ppos)
      · exact h
    have h2 : sin (lib.params (C t) 2) = 0 := by
      rcases mul_eq_zero.1 (p21.trans hc.2) with h | h
      · exact absurd h (ne_of_gt ppos)
      · exact h
    rw [this, h2] at q; norm_num at q)
  have y0 : ∀ᶠ s in 𝓝 t, ∃ k : ℤ, lib.params (C s) 0 = g0 s + 2 * π * k := by
    filter_upwards [hev, hg0e] with s h1 ⟨k, hk⟩
    obtain ⟨-, pp, q1, q2, -⟩ := hpar s h1
    obtain ⟨j, hj⟩ := atan2_polar (φ := lib.params (C s) 0) pp
    rw [mul_comm _ (sin _), mul_comm _ (cos (lib.params (C s) 0)), q1, q2, hk] at hj
    exact ⟨k - j, by push_cast; linarith⟩
  have y2 : ∀ᶠ s in 𝓝 t, ∃ k : ℤ, lib.params (C s) 2 = g2 s + 2 * π * k := by
    filter_upwards [hev, hg2e] with s h1 ⟨k, hk⟩
    obtain ⟨-, pp, -, -, q1, q2, -⟩ := hpar s h1
    obtain ⟨j, hj⟩ := atan2_polar (φ := lib.params (C s) 2) pp
    rw [q1, q2, hk] at hj
    exact ⟨k - j, by push_cast; linarith⟩
  obtain ⟨q0, hq0, hq0t, hq0e⟩ := lift_at hg0 y0
  obtain ⟨q2, hq2, hq2t, hq2e⟩ := lift_at hg2 y2
  have hb := abs_lt.1 hg
  obtain ⟨d1, hq1⟩ : ∃ d, HasDerivAt (fun s => arcsin (-C s 2 0)) d t :=
    ⟨_, HasDerivAt.comp (h := fun s => -C s 2 0) t
      (hasDerivAt_arcsin (x := -C t 2 0) (by linarith [hb.2]) (by linarith [hb.1])) (hC 2 0).neg⟩
  obtain ⟨d0, hq0⟩ : ∃ d, HasDerivAt q0 d t := ⟨_, hq0⟩
  obtain ⟨d2, hq2⟩ : ∃ d, HasDerivAt q2 d t := ⟨_, hq2⟩
  refine ⟨fun s => ![q0 s, arcsin (-C s 2 0), q2 s], ![d0, d1, d2], ?_, ?_, ?_⟩
  rotate_left
  · funext i
    fin_cases i
    · exact hq0t
    · exact pasin.symm
    · exact hq2t
  · filter_upwards [hev, hq0e, hq2e] with s h1 h2 h3 i
    fin_cases i
    · exact h2
    · exact ⟨0, by simpa using (hpar s h1).2.2.2.2.2.2⟩
    · exact h3
  · intro i
    fin_cases i
    · exact hq0
    · exact hq1
    · exact hq2

theorem cos_atan2 {a b r : ℝ} (hr : 0 < r) (h : a * a + b * b = r * r) : r * cos (atan2 b a) = a := by
  have hn : ‖(⟨a, b⟩ : ℂ)‖ = r := by
    rw [Complex.norm_def, Complex.normSq_mk, h, sqrt_mul_self hr.le]
  have := Complex.norm_mul_cos_arg (⟨a, b⟩ : ℂ)
  rwa [hn] at this

theorem sin_atan2 {a b r : ℝ} (hr : 0 < r) (h : a * a + b * b = r * r) : r * sin (atan2 b a) = b := by
  have hn : ‖(⟨a, b⟩ : ℂ)‖ = r := by
    rw [Complex.norm_def, Complex.normSq_mk, h, sqrt_mul_self hr.le]
  have := Complex.norm_mul_sin_arg (⟨a, b⟩ : ℂ)
  rwa [hn] at this

/-- the textbook formulas. -/
noncomputable def textbook : YprLib :=
  ⟨fun C => ![atan2 (C 1 0) (C 0 0), arcsin (-C 2 0), atan2 (C 2 1) (C 2 2)], sExp⟩

theorem textbook_correct : textbook.Correct := by
  refine ⟨?_, sExp_spec⟩
  intro C hC hg
  have hb := abs_lt.1 hg
  refine ⟨?_, ?_⟩
  rotate_left
  · show |arcsin (-C 2 0)| ≤ _
    exact abs_le.2 ⟨neg_pi_div_two_le_arcsin _, arcsin_le_pi_div_two _⟩
  have hs : sin (arcsin (-C 2 0)) = -C 2 0 := sin_arcsin (by linarith [hb.2]) (by linarith [hb.1])
  have hc : cos (arcsin (-C 2 0)) = sqrt (1 - (-C 2 0) ^ 2) := cos_arcsin _
  have hpos : 0 < 1 - (-C 2 0) ^ 2 := by nlinarith [hb.1, hb.2]
  obtain ⟨cp, hcp⟩ : ∃ cp, cp = cos (arcsin (-C 2 0)) := ⟨_, rfl⟩
  have hcp0 : 0 < cp := by rw [hcp, hc]; exact sqrt_pos.2 hpos
  have hcp2 : cp * cp = 1 - C 2 0 * C 2 0 := by rw [hcp, hc, mul_self_sqrt hpos.le]; ring
  have n0 := congrFun (congrFun hC.1 0) 0
  have n2 := congrFun (congrFun hC.mul_transpose 2) 2
  simp [Matrix.mul_apply, Fin.sum_univ_three] at n0 n2
  have hadj : C.adjugate = C.transpose := by
    have h1 := Matrix.adjugate_mul C
    rw [hC.2, one_smul] at h1
    calc C.adjugate = C.adjugate * (C * C.transpose) := by rw [hC.mul_transpose, Matrix.mul_one]
      _ = C.transpose := by rw [← Matrix.mul_assoc, h1, Matrix.one_mul]
  have ad := fun i j => congrFun (congrFun hadj i) j
  have a11 := ad 1 1
  have a10 := ad 1 0
  have a20 := ad 2 0
  have a21 := ad 2 1
  simp [Matrix.adjugate_fin_three] at a11 a10 a20 a21
  have e1 := cos_atan2 (a := C 0 0) (b := C 1 0) hcp0 (by linarith)
  have e2 := sin_atan2 (a := C 0 0) (b := C 1 0) hcp0 (by linarith)
  have e3 := cos_atan2 (a := C 2 2) (b := C 2 1) hcp0 (by linarith)
  have e4 := sin_atan2 (a := C 2 2) (b := C 2 1) hcp0 (by linarith)
  rw [ypr_eq]
  simp only [textbook, Matrix.cons_val_zero, Matrix.cons_val_one, Matrix.cons_val]
  rw [hs, ← hcp]
  generalize cos (atan2 (C 1 0) (C 0 0)) = cy at *
  generalize sin (atan2 (C 1 0) (C 0 0)) = sy at *
  generalize cos (atan2 (C 2 1) (C 2 2)) = cr at *
  generalize sin (atan2 (C 2 1) (C 2 2)) = sr at *
  have hne : cp * cp ≠ 0 := (mul_pos hcp0 hcp0).ne'
  ext i j
  fin_cases i <;> fin_cases j <;> simp
  · linarith
  · apply mul_left_cancel₀ hne
    linear_combination a10 + C 2 0 * a21 - C 0 1 * hcp2 - C 2 0 * (cp * sr * e1 + C 0 0 * e4) - (cp * cr * e2 + C 1 0 * e3)
  · apply mul_left_cancel₀ hne
    linear_combination a20 - C 2 0 * a11 - C 0 2 * hcp2 - C 2 0 * (cp * cr * e1 + C 0 0 * e3) + (cp * sr * e2 + C 1 0 * e4)
  · linarith
  · apply mul_left_cancel₀ hne
    linear_combination a11 - C 2 0 * a20 - C 1 1 * hcp2 - C 2 0 * (cp * sr * e2 + C 1 0 * e4) + (cp * cr * e1 + C 0 0 * e3)
  · apply mul_left_cancel₀ hne
    linear_combination a21 + C 2 0 * a10 - C 1 2 * hcp2 - C 2 0 * (cp * cr * e2 + C 1 0 * e3) - (cp * sr * e1 + C 0 0 * e4)
  · linarith
  · linarith

end ErrorTerms
end Verif
