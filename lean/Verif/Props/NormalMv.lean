import Verif.Lemmas.NormalMv
import Verif.Props.Sampling

/-! Property C107: the multivariate normal distribution. -/

namespace Verif
namespace NormalV
open MeasureTheory Matrix
variable {d : Nat}

/-- Eigen's decompositions in exact arithmetic: `isPositive` recognises the positive semidefinite matrices (Eigen's
documentation: "true if the matrix is positive (semidefinite)"), and the factor of a positive definite matrix is a factor. -/
structure Eig.Exact (env : Eig d) : Prop where
  pos : ∀ C, C.transpose = C → (env.isPositive C = true ↔ C.PosSemidef)
  fac : ∀ C, C.PosDef → env.llt C * (env.llt C).transpose = C

/-- calls that change the distribution. -/
inductive Op (d : Nat) where
  | setMean (m : Fin d → ℝ)
  | setCovariance (C : Matrix (Fin d) (Fin d) ℝ)

/-- effect of a call. -/
noncomputable def Op.run (env : Eig d) (s : NormalV d) : Op d → Res (NormalV d) Unit
  | .setMean m => .ok () (s.setMean m)
  | .setCovariance C => s.setCovariance env C

/-- objects that exist after a construction and any history of calls, throwing or not. -/
inductive Reach (env : Eig d) : NormalV d → Prop
  | init {raw s : NormalV d} {m : Fin d → ℝ} {C : Matrix (Fin d) (Fin d) ℝ} : ctor env raw m C = .ok () s → Reach env s
  | step {s s' : NormalV d} (o : Op d) : Reach env s → (o.run env s).state? = some s' → Reach env s'

/-- objects that exist after a construction and any history of calls, none of which threw. -/
inductive ReachOk (env : Eig d) : NormalV d → Prop
  | init {raw s : NormalV d} {m : Fin d → ℝ} {C : Matrix (Fin d) (Fin d) ℝ} : ctor env raw m C = .ok () s → ReachOk env s
  | step {s s' : NormalV d} (o : Op d) : ReachOk env s → o.run env s = .ok () s' → ReachOk env s'

theorem transpose_of_posSemidef {C : Matrix (Fin d) (Fin d) ℝ} (h : C.PosSemidef) : C.transpose = C := by
  simpa [Matrix.IsHermitian, conjTranspose_eq_transpose_of_trivial] using h.1

theorem posDef_iff_det {C : Matrix (Fin d) (Fin d) ℝ} (h : C.PosSemidef) : C.PosDef ↔ C.det ≠ 0 := by
  constructor
  · exact fun hp => hp.det_pos.ne'
  · intro hd
    obtain ⟨L, hL⟩ := exists_factor h
    rw [← hL]
    have h0 : L.det ≠ 0 := by
      intro h0; apply hd; rw [← hL, det_mul, h0, zero_mul]
    have hu : IsUnit L := (Matrix.isUnit_iff_isUnit_det _).2 (isUnit_iff_ne_zero.2 h0)
    have := Matrix.PosDef.mul_conjTranspose_self L (Matrix.vecMul_injective_of_isUnit hu)
    rwa [conjTranspose_eq_transpose_of_trivial] at this

/-- the two outcomes of `setCovariance`. -/
theorem setCovariance_cases {env : Eig d} (he : env.Exact) (s : NormalV d) (C : Matrix (Fin d) (Fin d) ℝ) :
    (C.PosSemidef ∧ s.setCovariance env C = .ok () (({ s with llt := env.llt C } : NormalV d).withCov C)) ∨
    (¬ C.PosSemidef ∧ ((C.transpose ≠ C ∧ s.setCovariance env C = .throw .badArgument s) ∨
      (C.transpose = C ∧ s.setCovariance env C = .throw .badArgument { s with llt := env.llt C }))) := by
  unfold setCovariance
  by_cases ht : C.transpose = C
  · rw [if_neg (by simpa using ht)]
    by_cases hp : C.PosSemidef
    · left
      refine ⟨hp, ?_⟩
      have h1 : ¬ env.isPositive C = false := by rw [(he.pos C ht).2 hp]; simp
      have h2 : ¬ ∃ i, C i i < 0 := by
        rintro ⟨i, hi⟩; exact absurd (hp.diag_nonneg (i := i)) (not_le.2 hi)
      simp only [if_neg h1, if_neg h2]
    · right
      have h1 : env.isPositive C = false := by
        have := mt (he.pos C ht).1 hp; simpa using this
      exact ⟨hp, .inr ⟨ht, by simp only [if_pos h1]⟩⟩
  · right
    refine ⟨fun hp => ht (transpose_of_posSemidef hp), .inl ⟨ht, by rw [if_pos ht]⟩⟩

/-- **C107**: `setCovariance` accepts exactly the (symmetric) positive semidefinite matrices; a rejected call changes
neither the reported parameters nor the density. -/
theorem C107_setCovariance_partial {env : Eig d} (he : env.Exact) (s : NormalV d) (C : Matrix (Fin d) (Fin d) ℝ) :
    (C.PosSemidef → ∃ s', s.setCovariance env C = .ok () s' ∧ s'.cov = C ∧ s'.mean = s.mean) ∧
    (¬ C.PosSemidef → ∃ s', s.setCovariance env C = .throw .badArgument s' ∧ s'.cov = s.cov ∧ s'.mean = s.mean ∧
      s'.prec = s.prec ∧ s'.det = s.det ∧ s'.norm = s.norm ∧ ∀ x, s'.pdf x = s.pdf x) := by
  rcases setCovariance_cases he s C with ⟨hp, h⟩ | ⟨hp, ⟨_, h⟩ | ⟨_, h⟩⟩
  · exact ⟨fun _ => ⟨_, h, rfl, rfl⟩, fun hn => absurd hp hn⟩
  · exact ⟨fun hp' => absurd hp' hp, fun _ => ⟨_, h, rfl, rfl, rfl, rfl, rfl, fun _ => rfl⟩⟩
  · exact ⟨fun hp' => absurd hp' hp, fun _ => ⟨_, h, rfl, rfl, rfl, rfl, rfl, fun _ => rfl⟩⟩

/-- **C107**: a constructed distribution reports the mean and covariance it was given; `setMean` replaces the mean and
nothing else. -/
theorem C107_parameters {env : Eig d} (he : env.Exact) :
    (∀ (raw s : NormalV d) (m : Fin d → ℝ) (C : Matrix (Fin d) (Fin d) ℝ), ctor env raw m C = .ok () s → s.mean = m ∧ s.cov = C) ∧
    (∀ (s : NormalV d) (m : Fin d → ℝ), (s.setMean m).mean = m ∧ (s.setMean m).cov = s.cov ∧ (s.setMean m).prec = s.prec ∧
      (s.setMean m).det = s.det ∧ (s.setMean m).norm = s.norm ∧ (s.setMean m).llt = s.llt) := by
  refine ⟨fun raw s m C h => ?_, fun s m => ⟨rfl, rfl, rfl, rfl, rfl, rfl⟩⟩
  rcases setCovariance_cases he { raw with mean := m } C with ⟨_, e⟩ | ⟨_, ⟨_, e⟩ | ⟨_, e⟩⟩
  · rw [ctor, e] at h
    simp only [Res.ok.injEq, true_and] at h
    subst h; exact ⟨rfl, rfl⟩
  · rw [ctor, e] at h; cases h
  · rw [ctor, e] at h; cases h

/-- the members belong together. -/
def Cons (s : NormalV d) : Prop :=
  s.cov.PosSemidef ∧ s.det = s.cov.det ∧ s.prec = (if s.cov.det = 0 then none else some s.cov⁻¹) ∧
  s.norm = (if s.cov.det = 0 then none else some (0.5 * d * Real.log (2 * Real.pi) + 0.5 * Real.log s.cov.det))

theorem setCovariance_cons {env : Eig d} (he : env.Exact) {s s' : NormalV d} {C : Matrix (Fin d) (Fin d) ℝ}
    (h : s.setCovariance env C = .ok () s') : Cons s' ∧ s'.llt = env.llt s'.cov := by
  rcases setCovariance_cases he s C with ⟨hp, e⟩ | ⟨hp, ⟨_, e⟩ | ⟨_, e⟩⟩
  · rw [e] at h
    simp only [Res.ok.injEq, true_and] at h
    subst h
    exact ⟨⟨hp, rfl, rfl, rfl⟩, rfl⟩
  · rw [e] at h; cases h
  · rw [e] at h; cases h

theorem reach_cons {env : Eig d} (he : env.Exact) {s : NormalV d} (h : Reach env s) : Cons s := by
  induction h with
  | init h => exact (setCovariance_cons he h).1
  | @step s s' o _ hr ih =>
    cases o with
    | setMean m =>
      simp only [Op.run, Res.state?, Option.some.injEq] at hr
      subst hr; exact ih
    | setCovariance C =>
      simp only [Op.run] at hr
      rcases setCovariance_cases he s C with ⟨hp, e⟩ | ⟨hp, ⟨_, e⟩ | ⟨_, e⟩⟩
      · rw [e] at hr
        simp only [Res.state?, Option.some.injEq] at hr
        subst hr; exact (setCovariance_cons he e).1
      · rw [e] at hr
        simp only [Res.state?, Option.some.injEq] at hr
        subst hr; exact ih
      · rw [e] at hr
        simp only [Res.state?, Option.some.injEq] at hr
        subst hr; exact ih

theorem reachOk_reach {env : Eig d} {s : NormalV d} (h : ReachOk env s) : Reach env s := by
  induction h with
  | init h => exact .init h
  | step o _ hr ih => exact .step o ih (by rw [hr]; rfl)

theorem reachOk_llt {env : Eig d} (he : env.Exact) {s : NormalV d} (h : ReachOk env s) : s.llt = env.llt s.cov := by
  induction h with
  | init h => exact (setCovariance_cons he h).2
  | @step s s' o _ hr ih =>
    cases o with
    | setMean m =>
      simp only [Op.run, Res.ok.injEq, true_and] at hr
      subst hr; exact ih
    | setCovariance C => exact (setCovariance_cons he hr).2

theorem logpdf_eq {s : NormalV d} (h : Cons s) (hp : s.cov.PosDef) (x : Fin d → ℝ) :
    s.logpdf x = some (logDens s.mean s.cov x) := by
  obtain ⟨_, _, h3, h4⟩ := h
  rw [if_neg hp.det_pos.ne'] at h3 h4
  simp [logpdf, mahalanobis, h3, h4, logDens]

/-- **C107**: after any history of calls the reported covariance is positive semidefinite and the reported determinant is its
determinant; precision, normalizer and density are finite exactly if it is positive definite, and the precision is then its
inverse. -/
theorem C107_members {env : Eig d} (he : env.Exact) {s : NormalV d} (h : Reach env s) :
    s.cov.PosSemidef ∧ s.det = s.cov.det ∧
    (s.cov.PosDef → ∃ P n, s.prec = some P ∧ P * s.cov = 1 ∧ s.cov * P = 1 ∧ s.norm = some n ∧
      Real.exp n = √((2 * Real.pi) ^ d * s.cov.det)) ∧
    (¬ s.cov.PosDef → s.prec = none ∧ s.norm = none ∧ (∀ x, s.pdf x = none) ∧ ∀ o : NormalV d, s.kl o = none) := by
  obtain ⟨h1, h2, h3, h4⟩ := reach_cons he h
  refine ⟨h1, h2, fun hp => ?_, fun hn => ?_⟩
  · rw [if_neg hp.det_pos.ne'] at h3 h4
    have hu : IsUnit s.cov.det := isUnit_iff_ne_zero.2 hp.det_pos.ne'
    refine ⟨_, _, h3, Matrix.nonsing_inv_mul _ hu, Matrix.mul_nonsing_inv _ hu, h4, ?_⟩
    have h2 : (0:ℝ) < 2 * Real.pi := by positivity
    have hq : 0 < (2 * Real.pi) ^ d * s.cov.det := mul_pos (pow_pos h2 d) hp.det_pos
    rw [Real.sqrt_eq_rpow, Real.rpow_def_of_pos hq, Real.log_mul (pow_pos h2 d).ne' hp.det_pos.ne', Real.log_pow]
    congr 1; ring
  · have hd : s.cov.det = 0 := by
      by_contra hd; exact hn ((posDef_iff_det h1).2 hd)
    rw [if_pos hd] at h3 h4
    refine ⟨h3, h4, fun x => by simp [pdf, logpdf, mahalanobis, h3], fun o => ?_⟩
    rw [kl, if_pos (.inl (h2.trans hd))]

/-- **C107**: with a positive definite covariance `pdf` is a probability density; its mean and covariance are the reported
ones, and it is largest exactly at the reported mode. -/
theorem C107_density {env : Eig d} (he : env.Exact) {s : NormalV d} (h : Reach env s) (hp : s.cov.PosDef) :
    ∃ p : (Fin d → ℝ) → ℝ, (∀ x, s.pdf x = some (p x)) ∧ (∀ x, s.logpdf x = some (Real.log (p x))) ∧ (∀ x, 0 < p x) ∧
      Integrable p ∧ (∫ x, p x) = 1 ∧ (∀ i, (∫ x, x i * p x) = s.mean i) ∧
      (∀ i j, (∫ x, (x i - s.mean i) * (x j - s.mean j) * p x) = s.cov i j) ∧
      ∀ x, x ≠ s.getMode → p x < p s.getMode := by
  have hc := reach_cons he h
  refine ⟨fun x => Real.exp (logDens s.mean s.cov x), fun x => by rw [pdf, logpdf_eq hc hp]; rfl,
    fun x => by rw [logpdf_eq hc hp, Real.log_exp], fun x => Real.exp_pos _, ?_, ?_, ?_, ?_, ?_⟩
  · have := (expect_quad (m := s.mean) hp 1 0 0).1
    simpa using this
  · have := (expect_quad (m := s.mean) hp 1 0 0).2
    simpa using this
  · intro i
    have := (expect_quad (m := s.mean) hp (s.mean i) (Pi.single i 1) 0).2
    simpa using this
  · intro i j
    have := (expect_quad (m := s.mean) hp 0 0 (Matrix.single i j 1)).2
    have e : ∀ v : Fin d → ℝ, v ⬝ᵥ (Matrix.single i j (1:ℝ)) *ᵥ v = v i * v j := by
      intro v
      rw [Matrix.single_mulVec]
      simp [dotProduct, Function.update_apply]
    simp only [e, zero_dotProduct, zero_add, Pi.sub_apply] at this
    rw [this, Matrix.trace_single_mul]
    have ht := transpose_of_posSemidef hc.1
    have := congrFun (congrFun ht i) j
    simpa using this
  · intro x hx
    apply Real.exp_lt_exp.2
    have hi : s.cov⁻¹.PosDef := Matrix.posDef_inv_iff.2 hp
    have hne : x - s.mean ≠ 0 := fun h0 => hx (sub_eq_zero.1 h0)
    have := hi.dotProduct_mulVec_pos hne
    simp only [star_trivial] at this
    simp only [logDens, getMode, sub_self, zero_dotProduct, mul_zero]
    linarith

/-- **C107**: `KLDivergence` is the Kullback-Leibler divergence of the two densities, never negative, and zero exactly if the
reported means and covariances agree. -/
theorem C107_kl {env : Eig d} (he : env.Exact) {s o : NormalV d} (hs : Reach env s) (ho : Reach env o)
    (ps : s.cov.PosDef) (po : o.cov.PosDef) :
    ∃ (p q : (Fin d → ℝ) → ℝ) (k : ℝ), (∀ x, s.pdf x = some (p x)) ∧ (∀ x, o.pdf x = some (q x)) ∧ s.kl o = some k ∧
      k = (∫ x, p x * (Real.log (p x) - Real.log (q x))) ∧ 0 ≤ k ∧ (k = 0 ↔ s.mean = o.mean ∧ s.cov = o.cov) := by
  have hc := reach_cons he hs
  have hd := reach_cons he ho
  set p := fun x => Real.exp (logDens s.mean s.cov x) with hpdef
  set q := fun x => Real.exp (logDens o.mean o.cov x) with hqdef
  have hkl : s.kl o = some (0.5 * (Real.log (o.cov.det / s.cov.det) + (o.cov⁻¹ * s.cov).trace - d +
      (s.mean - o.mean) ⬝ᵥ o.cov⁻¹ *ᵥ (s.mean - o.mean))) := by
    rw [kl, if_neg (by rw [hc.2.1, hd.2.1]; push Not; exact ⟨ps.det_pos.ne', po.det_pos.ne'⟩), hd.2.2.1,
      if_neg po.det_pos.ne', hc.2.1, hd.2.1]
    rfl
  set k := 0.5 * (Real.log (o.cov.det / s.cov.det) + (o.cov⁻¹ * s.cov).trace - d +
      (s.mean - o.mean) ⬝ᵥ o.cov⁻¹ *ᵥ (s.mean - o.mean)) with hk
  -- the integrand as a polynomial
  set D := s.mean - o.mean with hD
  set c0 : ℝ := 0.5 * (D ⬝ᵥ o.cov⁻¹ *ᵥ D) + 0.5 * Real.log o.cov.det - 0.5 * Real.log s.cov.det with hc0
  set A := (0.5 : ℝ) • o.cov⁻¹ - (0.5 : ℝ) • s.cov⁻¹ with hA
  have hsym : (o.cov⁻¹).transpose = o.cov⁻¹ := by rw [transpose_nonsing_inv, transpose_of_posSemidef hd.1]
  have hpt : ∀ x, logDens s.mean s.cov x - logDens o.mean o.cov x =
      c0 + (o.cov⁻¹ *ᵥ D) ⬝ᵥ (x - s.mean) + (x - s.mean) ⬝ᵥ A *ᵥ (x - s.mean) := by
    intro x
    have e : x - o.mean = (x - s.mean) + D := by rw [hD]; abel
    have e2 : ∀ v w : Fin d → ℝ, v ⬝ᵥ o.cov⁻¹ *ᵥ w = (o.cov⁻¹ *ᵥ w) ⬝ᵥ v := fun v w => dotProduct_comm _ _
    have e3 : D ⬝ᵥ o.cov⁻¹ *ᵥ (x - s.mean) = (o.cov⁻¹ *ᵥ D) ⬝ᵥ (x - s.mean) := by
      rw [dotProduct_mulVec, ← mulVec_transpose, hsym]
    have e4 : (x - s.mean) ⬝ᵥ A *ᵥ (x - s.mean) = 0.5 * ((x - s.mean) ⬝ᵥ o.cov⁻¹ *ᵥ (x - s.mean)) -
        0.5 * ((x - s.mean) ⬝ᵥ s.cov⁻¹ *ᵥ (x - s.mean)) := by
      rw [hA, sub_mulVec, smul_mulVec, smul_mulVec, dotProduct_sub, dotProduct_smul, dotProduct_smul]; rfl
    have e5 : (x - o.mean) ⬝ᵥ o.cov⁻¹ *ᵥ (x - o.mean) = (x - s.mean) ⬝ᵥ o.cov⁻¹ *ᵥ (x - s.mean) +
        2 * ((o.cov⁻¹ *ᵥ D) ⬝ᵥ (x - s.mean)) + D ⬝ᵥ o.cov⁻¹ *ᵥ D := by
      rw [e, mulVec_add, add_dotProduct, dotProduct_add, dotProduct_add, e3, e2 (x - s.mean) D]; ring
    unfold logDens
    rw [e5, e4, hc0]; ring
  have hquad := expect_quad (m := s.mean) ps c0 (o.cov⁻¹ *ᵥ D) A
  have hint : (∫ x, p x * (Real.log (p x) - Real.log (q x))) = k := by
    have e : (fun x => p x * (Real.log (p x) - Real.log (q x))) = fun x =>
        (c0 + (o.cov⁻¹ *ᵥ D) ⬝ᵥ (x - s.mean) + (x - s.mean) ⬝ᵥ A *ᵥ (x - s.mean)) * Real.exp (logDens s.mean s.cov x) := by
      funext x
      rw [← hpt, hpdef, hqdef]
      simp only [Real.log_exp]; ring
    rw [e, hquad.2, hk, hc0, hA, Matrix.sub_mul, Matrix.smul_mul, Matrix.smul_mul,
      Matrix.nonsing_inv_mul _ (isUnit_iff_ne_zero.2 ps.det_pos.ne'), trace_sub, trace_smul, trace_smul, trace_one,
      Real.log_div po.det_pos.ne' ps.det_pos.ne', Fintype.card_fin]
    simp only [smul_eq_mul]
    ring
  have ip : Integrable p ∧ (∫ x, p x) = 1 := by
    have := expect_quad (m := s.mean) ps 1 0 0
    simpa using this
  have iq : Integrable q ∧ (∫ x, q x) = 1 := by
    have := expect_quad (m := o.mean) po 1 0 0
    simpa using this
  have ie : Integrable fun x => p x * (Real.log (p x) - Real.log (q x)) := by
    have e : (fun x => p x * (Real.log (p x) - Real.log (q x))) = fun x =>
        (c0 + (o.cov⁻¹ *ᵥ D) ⬝ᵥ (x - s.mean) + (x - s.mean) ⬝ᵥ A *ᵥ (x - s.mean)) * Real.exp (logDens s.mean s.cov x) := by
      funext x
      rw [← hpt, hpdef, hqdef]
      simp only [Real.log_exp]; ring
    rw [e]; exact hquad.1
  have pp : ∀ x, 0 < p x := fun x => Real.exp_pos _
  have qp : ∀ x, 0 < q x := fun x => Real.exp_pos _
  set f := fun x => p x * (Real.log (p x) - Real.log (q x)) - (p x - q x) with hf
  have ipq : Integrable fun x => p x - q x := ip.1.sub iq.1
  have hfi : Integrable f := ie.sub ipq
  have hfint : (∫ x, f x) = k := by
    simp only [hf]
    rw [integral_sub ie ipq, hint, integral_sub ip.1 iq.1, ip.2, iq.2]; ring
  have key : ∀ x, f x = p x * (q x / p x - 1 - Real.log (q x / p x)) := by
    intro x
    rw [hf, Real.log_div (qp x).ne' (pp x).ne']
    have := (pp x).ne'
    field_simp
    ring
  have hf0 : ∀ x, 0 ≤ f x := by
    intro x
    rw [key]
    have := Real.log_le_sub_one_of_pos (div_pos (qp x) (pp x))
    exact mul_nonneg (pp x).le (by linarith)
  have hpos : 0 ≤ k := by rw [← hfint]; exact integral_nonneg hf0
  refine ⟨p, q, k, fun x => by rw [pdf, logpdf_eq hc ps]; rfl, fun x => by rw [pdf, logpdf_eq hd po]; rfl, hkl,
    hint.symm, hpos, ?_, ?_⟩
  · intro hk0
    have hcont : Continuous f := by
      have c1 : ∀ (m : Fin d → ℝ) (C : Matrix (Fin d) (Fin d) ℝ), Continuous (logDens m C) := by
        intro m C
        unfold logDens
        simp only [dotProduct, mulVec]
        fun_prop
      have e : f = fun x => Real.exp (logDens s.mean s.cov x) * (logDens s.mean s.cov x - logDens o.mean o.cov x) -
          (Real.exp (logDens s.mean s.cov x) - Real.exp (logDens o.mean o.cov x)) := by
        funext x; simp only [hf, hpdef, hqdef, Real.log_exp]
      rw [e]
      have := c1 s.mean s.cov
      have := c1 o.mean o.cov
      fun_prop
    have hz : f = 0 := by
      have h0 : (∫ x, f x) = 0 := by rw [hfint, hk0]
      have := (integral_eq_zero_iff_of_nonneg hf0 hfi).1 h0
      exact Continuous.ae_eq_iff_eq volume hcont continuous_const |>.1 this
    have heq : ∀ x, logDens s.mean s.cov x = logDens o.mean o.cov x := by
      intro x
      have h0 : f x = 0 := congrFun hz x
      rw [key] at h0
      have h1 : q x / p x - 1 - Real.log (q x / p x) = 0 := (mul_eq_zero.1 h0).resolve_left (pp x).ne'
      have h2 : q x / p x = 1 := by
        by_contra hne
        have := Real.log_lt_sub_one_of_pos (div_pos (qp x) (pp x)) hne
        linarith
      have h3 : q x = p x := (div_eq_one_iff_eq (pp x).ne').1 h2
      exact (Real.exp_injective h3).symm
    have hm : s.mean = o.mean := by
      obtain ⟨P, e1, _, _, _, _, _, _, m1⟩ := C107_density he hs ps
      obtain ⟨Q, g1, _, _, _, _, _, _, m2⟩ := C107_density he ho po
      have hPQ : ∀ x, P x = Q x := by
        intro x
        have a := e1 x
        have b := g1 x
        rw [pdf, logpdf_eq hc ps] at a
        rw [pdf, logpdf_eq hd po] at b
        simp only [Option.map_some, Option.some.injEq] at a b
        rw [← a, ← b, heq]
      by_contra hne
      have a := m1 o.mean (Ne.symm hne)
      have b := m2 s.mean hne
      simp only [getMode, hPQ] at a b
      exact absurd a (not_lt.2 b.le)
    refine ⟨hm, ?_⟩
    have hquadeq : ∀ v : Fin d → ℝ, v ⬝ᵥ s.cov⁻¹ *ᵥ v = v ⬝ᵥ o.cov⁻¹ *ᵥ v := by
      intro v
      have a := heq s.mean
      have b := heq (s.mean + v)
      simp only [logDens, hm, sub_self, zero_dotProduct, add_sub_cancel_left] at a b
      linarith
    have hsymS : (s.cov⁻¹).transpose = s.cov⁻¹ := by rw [transpose_nonsing_inv, transpose_of_posSemidef hc.1]
    have hinv : s.cov⁻¹ = o.cov⁻¹ := by
      have hbil : ∀ v w : Fin d → ℝ, v ⬝ᵥ s.cov⁻¹ *ᵥ w = v ⬝ᵥ o.cov⁻¹ *ᵥ w := by
        intro v w
        have hS : w ⬝ᵥ s.cov⁻¹ *ᵥ v = v ⬝ᵥ s.cov⁻¹ *ᵥ w := by
          rw [dotProduct_mulVec w, ← mulVec_transpose, hsymS, dotProduct_comm]
        have hO : w ⬝ᵥ o.cov⁻¹ *ᵥ v = v ⬝ᵥ o.cov⁻¹ *ᵥ w := by
          rw [dotProduct_mulVec w, ← mulVec_transpose, hsym, dotProduct_comm]
        have a := hquadeq (v + w)
        simp only [mulVec_add, add_dotProduct, dotProduct_add] at a
        have b := hquadeq v
        have c := hquadeq w
        linarith
      ext i j
      have := hbil (Pi.single i 1) (Pi.single j 1)
      simpa using this
    have := congrArg (fun M => M⁻¹) hinv
    simp only [nonsing_inv_nonsing_inv _ (isUnit_iff_ne_zero.2 ps.det_pos.ne'),
      nonsing_inv_nonsing_inv _ (isUnit_iff_ne_zero.2 po.det_pos.ne')] at this
    exact this
  · rintro ⟨hm, hcov⟩
    rw [hk, hD, hcov, hm, Matrix.nonsing_inv_mul _ (isUnit_iff_ne_zero.2 po.det_pos.ne'), trace_one,
      div_self po.det_pos.ne']
    simp

/-- **C107**: if no call threw, a sample is an affine image of independent standard normal draws made in turn, and this image
of standard normal variables follows the density: every expectation under `pdf` is the expectation of the image. -/
theorem C107_samples_partial {env : Eig d} (he : env.Exact) {s : NormalV d} (h : ReachOk env s) (hp : s.cov.PosDef)
    (rand : Nat → Nat) (n : Nat) (y : Fin d → ℝ) (m : Nat) (hy : s.getSample rand n = .ok y m) :
    (∃ zs : List ℝ, Sampling.DrawnInTurn rand n zs m ∧ zs.length = d ∧
      y = s.mean + s.llt *ᵥ fun j => zs.getD j 0) ∧
    ∀ f : (Fin d → ℝ) → ℝ, ∃ p : (Fin d → ℝ) → ℝ, (∀ x, s.pdf x = some (p x)) ∧
      (∫ z : Fin d → ℝ, f (s.mean + s.llt *ᵥ z) * ∏ i, ProbabilityTheory.gaussianPDFReal 0 1 (z i)) = ∫ x, f x * p x := by
  have hc := reach_cons he (reachOk_reach h)
  constructor
  · unfold getSample Sampling.normalMv at hy
    cases e : Sampling.normals rand d n with
    | throw _ _ => rw [e] at hy; cases hy
    | ub => rw [e] at hy; cases hy
    | diverge => rw [e] at hy; cases hy
    | ok zs n' =>
      rw [e] at hy
      simp only [Res.bind, Res.ok.injEq] at hy
      obtain ⟨rfl, rfl⟩ := hy
      obtain ⟨hl, hd⟩ := Sampling.normals_length rand d n zs n' e
      exact ⟨zs, hd, hl, rfl⟩
  · intro f
    refine ⟨fun x => Real.exp (logDens s.mean s.cov x), fun x => by rw [pdf, logpdf_eq hc hp]; rfl, ?_⟩
    have hf : s.llt * s.llt.transpose = s.cov := by rw [reachOk_llt he h]; exact he.fac _ hp
    exact (expect (m := s.mean) hp hf f).1.symm

/-! ### Witnesses -/

open Classical in
/-- decompositions in exact arithmetic; on the indefinite matrix `[1 2; 2 1]` the factor is what Eigen's algorithm has written
when it meets the negative pivot. -/
noncomputable def eig2 : Eig 2 where
  llt C := if h : C.PosDef then (exists_factor h.posSemidef).choose else !![1, 0; 2, 1]
  isPositive C := decide C.PosSemidef

theorem eig2_exact : eig2.Exact where
  pos C _ := by simp [eig2]
  fac C h := by
    simp only [eig2, dif_pos h]
    exact (exists_factor h.posSemidef).choose_spec

theorem indef_not : ¬ (!![1, 2; 2, 1] : Matrix (Fin 2) (Fin 2) ℝ).PosSemidef := by
  intro h
  have := h.det_nonneg
  norm_num [det_fin_two] at this

/-- any memory. -/
noncomputable def raw2 : NormalV 2 := ⟨0, 0, none, 0, none, 0⟩

/-- the default constructed distribution. -/
noncomputable def std2 : NormalV 2 :=
  ({ raw2 with mean := 0, llt := eig2.llt 1 } : NormalV 2).withCov 1

theorem std2_ctor : ctor eig2 raw2 0 1 = .ok () std2 := by
  rcases setCovariance_cases eig2_exact { raw2 with mean := 0 } 1 with ⟨_, h⟩ | ⟨h, _⟩
  · exact h
  · exact absurd PosSemidef.one h

/-- non-vacuity of `C107_members`, `C107_density`, `C107_kl`: two different reachable distributions. -/
example : Reach eig2 std2 ∧ std2.cov.PosDef ∧ Reach eig2 (std2.setMean 1) ∧ (std2.setMean 1).mean ≠ std2.mean := by
  refine ⟨.init std2_ctor, PosDef.one, .step (.setMean 1) (.init std2_ctor) rfl, fun h => ?_⟩
  have := congrFun h 0
  simp [setMean, std2, withCov] at this

/-- **C107**, what is missing: a rejected `setCovariance` does change the object: samples are drawn from then on with the
factor of the rejected matrix, which is not a factor of the reported covariance. -/
theorem C107_rejected_call_changes_samples : ∃ (s s' : NormalV 2) (C : Matrix (Fin 2) (Fin 2) ℝ), ReachOk eig2 s ∧
    s.setCovariance eig2 C = .throw .badArgument s' ∧ s.llt * s.llt.transpose = s.cov ∧
    s'.cov = s.cov ∧ s'.llt * s'.llt.transpose ≠ s'.cov := by
  have hsym : (!![1, 2; 2, 1] : Matrix (Fin 2) (Fin 2) ℝ).transpose = !![1, 2; 2, 1] := by
    ext i j; fin_cases i <;> fin_cases j <;> rfl
  refine ⟨std2, { std2 with llt := eig2.llt !![1, 2; 2, 1] }, !![1, 2; 2, 1], .init std2_ctor, ?_, ?_, rfl, ?_⟩
  · rcases setCovariance_cases eig2_exact std2 !![1, 2; 2, 1] with ⟨h, _⟩ | ⟨_, ⟨h, _⟩ | ⟨_, h⟩⟩
    · exact absurd h indef_not
    · exact absurd hsym h
    · exact h
  · exact eig2_exact.fac 1 PosDef.one
  · have hl : eig2.llt !![1, 2; 2, 1] = !![1, 0; 2, 1] := by
      simp only [eig2]; rw [dif_neg fun h => indef_not h.posSemidef]
    intro h
    have := congrFun (congrFun h 0) 1
    simp [hl, std2, withCov, Matrix.mul_apply, Fin.sum_univ_two] at this

/-- **C107**, what is missing: a covariance that is not positive definite is accepted, in every dimension but zero; there is no
density then. -/
theorem C107_singular_accepted {env : Eig d} (he : env.Exact) (hd : 0 < d) (s : NormalV d) :
    ∃ s', s.setCovariance env 0 = .ok () s' ∧ ¬ s'.cov.PosDef ∧ s'.det = 0 ∧ ∀ x, s'.pdf x = none := by
  have : Nonempty (Fin d) := ⟨⟨0, hd⟩⟩
  obtain ⟨s', h, hc, _⟩ := (C107_setCovariance_partial he s 0).1 PosSemidef.zero
  have hcons := (setCovariance_cons he h).1
  have h0 : s'.cov.det = 0 := by rw [hc]; exact det_zero
  refine ⟨s', h, fun hp => hp.det_pos.ne' h0, hcons.2.1.trans h0, fun x => ?_⟩
  have := hcons.2.2.1
  rw [if_pos h0] at this
  simp [pdf, logpdf, mahalanobis, this]

/-- non-vacuity of `C107_samples_partial`. -/
example : ReachOk eig2 std2 ∧ std2.cov.PosDef ∧ ∃ y m, std2.getSample (fun _ => 1500000000) 0 = .ok y m := by
  refine ⟨.init std2_ctor, PosDef.one, ?_⟩
  have key : ∀ n, ∃ x m, Sampling.normal .real (fun _ => 1500000000) 0 1 n = .ok x m := by
    intro n
    have hacc : ∃ k, ¬ (Sampling.polarS .real (fun _ => 1500000000) (n + 2 * k) ≥ 1 ∨
        Sampling.polarS .real (fun _ => 1500000000) (n + 2 * k) = 0) := by
      refine ⟨0, ?_⟩
      norm_num [Sampling.polarS, Sampling.polarU, Sampling.unit, uniformDraw]
    unfold Sampling.normal Sampling.firstRound
    rw [if_neg (by norm_num), dif_pos hacc]
    exact ⟨_, _, rfl⟩
  obtain ⟨x1, m1, h1⟩ := key 0
  obtain ⟨x2, m2, h2⟩ := key m1
  have hn : Sampling.normals (fun _ => 1500000000) 2 0 = .ok [x1, x2] m2 := by
    simp only [Sampling.normals, h1, h2, Res.bind]
  exact ⟨_, m2, by rw [getSample, Sampling.normalMv, hn]; rfl⟩

end NormalV
end Verif
