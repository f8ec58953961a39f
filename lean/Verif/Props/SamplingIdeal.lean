import Verif.Lemmas.IdealGamma
import Verif.Lemmas.IdealPoisson
import Verif.Lemmas.IdealCategorical
import Verif.Lemmas.IdealNormalMv
import Verif.Lemmas.IdealUniform
import Verif.Lemmas.IdealChi
import Verif.Props.NormalMv
import Verif.Props.Gamma

/-!
Property C111: if the generator delivers independent uniform numbers, the samplers have exactly the distributions they are
named after, and repeated calls give independent values (`Spec/Sampling.lean` says what this means).
-/

namespace Verif
namespace Ideal

open MeasureTheory ProbabilityTheory Set Matrix WithLp

/-- the stream the C library produces: multiples of `1 / RAND_MAX`. -/
noncomputable def ofRand (rand : ℕ → ℕ) : Stream := fun i => (rand i : ℝ) / 2147483647

theorem ofRand_unit (rand : ℕ → ℕ) (i : ℕ) : ((Sampling.unit .real (rand i) : ℚ) : ℝ) = ofRand rand i := by
  unfold Sampling.unit uniformDraw ofRand; push_cast; rfl

/-! ### The samplers of the library are the samplers of this file on the library's stream -/

theorem exponential_bridge (rand : ℕ → ℕ) (rate : ℝ) (n : ℕ) :
    Sampling.exponential .real rand rate n = exponential rate (ofRand rand) n := by
  unfold Sampling.exponential exponential
  have : (fun i => Sampling.unit .real (rand i) ≠ 0) = fun i => ofRand rand i ≠ 0 := by
    funext i; rw [← ofRand_unit]; simp
  simp only [this, ofRand_unit]
  rfl

theorem prodFrom_bridge (rand : ℕ → ℕ) (n j : ℕ) :
    ((Sampling.prodFrom .real rand n j : ℚ) : ℝ) = prodFrom (ofRand rand) n j := by
  induction j with
  | zero => simp [Sampling.prodFrom, prodFrom]
  | succ j ih => simp only [Sampling.prodFrom, prodFrom, Rat.cast_mul, ih, ofRand_unit]

theorem normal_bridge (rand : ℕ → ℕ) (mean variance : ℝ) (n : ℕ) :
    Sampling.normal .real rand mean variance n = normal mean variance (ofRand rand) n := by
  unfold Sampling.normal normal
  have hU : ∀ i, ((Sampling.polarU .real rand i : ℚ) : ℝ) = polar (ofRand rand i) := by
    intro i; unfold Sampling.polarU polar; push_cast; rw [ofRand_unit]
  have hS : ∀ i, ((Sampling.polarS .real rand i : ℚ) : ℝ) = polarS (ofRand rand i) (ofRand rand (i + 1)) := by
    intro i; unfold Sampling.polarS polarS; push_cast; rw [hU, hU]
  have : (fun i => ¬ (Sampling.polarS .real rand i ≥ 1 ∨ Sampling.polarS .real rand i = 0)) =
      fun i => ¬ (polarS (ofRand rand i) (ofRand rand (i + 1)) ≥ 1 ∨ polarS (ofRand rand i) (ofRand rand (i + 1)) = 0) := by
    funext i
    have h1 : (Sampling.polarS .real rand i ≥ 1) ↔ (polarS (ofRand rand i) (ofRand rand (i + 1)) ≥ 1) := by
      rw [← hS]; exact_mod_cast Iff.rfl
    have h2 : (Sampling.polarS .real rand i = 0) ↔ (polarS (ofRand rand i) (ofRand rand (i + 1)) = 0) := by
      rw [← hS]; exact_mod_cast Iff.rfl
    rw [h1, h2]
  simp only [this, hU, hS]
  rfl

theorem normals_bridge (rand : ℕ → ℕ) (m : ℕ) : ∀ n, Sampling.normals rand m n = normals (ofRand rand) m n := by
  induction m with
  | zero => intro n; rfl
  | succ m ih => intro n; simp only [Sampling.normals, normals, normal_bridge, ih]

theorem expSum_bridge (rand : ℕ → ℕ) (m : ℕ) : ∀ y n, Sampling.expSum .real rand m y n = expSum (ofRand rand) m y n := by
  induction m with
  | zero => intro y n; rfl
  | succ m ih => intro y n; simp only [Sampling.expSum, expSum, exponential_bridge, ih]

/-- **C111**: the sampling functions are the idealised ones applied to the C library's numbers. -/
theorem C111_bridge (rand : ℕ → ℕ) (n : ℕ) :
    (∀ rate, Sampling.exponential .real rand rate n = exponential rate (ofRand rand) n) ∧
    (∀ p, Sampling.geometric .real rand p n = geometric p (ofRand rand) n) ∧
    (∀ mean, Sampling.poisson .real rand mean n = poisson mean (ofRand rand) n) ∧
    (∀ mean variance, Sampling.normal .real rand mean variance n = normal mean variance (ofRand rand) n) ∧
    (∀ shape invScale, Sampling.gamma rand shape invScale n = gamma shape invScale (ofRand rand) n) ∧
    (∀ (d : ℕ) (mean : Fin d → ℝ) (L : Matrix (Fin d) (Fin d) ℝ),
      Sampling.normalMv rand mean L n = normalMv mean L (ofRand rand) n) := by
  refine ⟨fun rate => exponential_bridge rand rate n, fun p => ?_, fun mean => ?_,
    fun mean variance => normal_bridge rand mean variance n, fun shape invScale => ?_, fun d mean L => ?_⟩
  · unfold Sampling.geometric geometric
    have : (fun i => Sampling.unit .real (rand i) ≠ 0) = fun i => ofRand rand i ≠ 0 := by
      funext i; rw [← ofRand_unit]; simp
    simp only [this, ofRand_unit]
    rfl
  · unfold Sampling.poisson poisson
    have hfun : (fun m => ((Sampling.prodFrom .real rand n (m + 1) : ℚ) : ℝ)) = fun m => prodFrom (ofRand rand) n (m + 1) :=
      funext fun m => prodFrom_bridge rand n (m + 1)
    classical
    have key : ∀ f g : ℕ → ℝ, f = g → (if mean ≤ 0 then (Res.throw Exc.badArgument n : Res ℕ ℕ) else
        if h : ∃ m, ¬ f m > Real.exp (-mean) then .ok (Nat.find h) (n + Nat.find h + 1) else .diverge) =
        if mean ≤ 0 then (Res.throw Exc.badArgument n : Res ℕ ℕ) else
        if h : ∃ m, ¬ g m > Real.exp (-mean) then .ok (Nat.find h) (n + Nat.find h + 1) else .diverge := by
      rintro f g rfl; rfl
    exact key _ _ hfun
  · unfold Sampling.gamma gamma
    simp only [expSum_bridge, ofRand_unit]
    rfl
  · unfold Sampling.normalMv normalMv
    rw [normals_bridge]

theorem categoricalLoop_bridge (x : ℚ) : ∀ (ps : List ℚ) (sum : ℚ) (i : ℕ),
    Verif.categoricalLoop x ps sum i = categoricalLoop (x : ℝ) (ps.map fun p : ℚ => (p : ℝ)) (sum : ℝ) i := by
  intro ps
  induction ps with
  | nil => intro sum i; rfl
  | cons p ps ih =>
    intro sum i
    simp only [Verif.categoricalLoop, categoricalLoop, List.map_cons, ih, Rat.cast_add]
    have : (x > sum) ↔ ((x : ℝ) > sum) := by exact_mod_cast Iff.rfl
    simp only [this]

/-- **C111**: likewise the functions that take one draw (modelled in `Model/Small.lean` with rational arguments). -/
theorem C111_bridge_one_draw (rand : ℕ → ℕ) (n : ℕ) :
    (∀ a b : ℚ, (∀ x, sampleUniformReal (rand n) a b = .ok x () → uniform a b (ofRand rand) n = .ok (x : ℝ) (n + 1)) ∧
      (∀ e, sampleUniformReal (rand n) a b = .throw e () → uniform a b (ofRand rand) n = .throw e n)) ∧
    (∀ a b : ℤ, (∀ x, sampleUniformInt (rand n) a b = .ok x () → uniformInt a b (ofRand rand) n = .ok x (n + 1)) ∧
      (∀ e, sampleUniformInt (rand n) a b = .throw e () → uniformInt a b (ofRand rand) n = .throw e n)) ∧
    (∀ ps : List ℚ, (∀ k, sampleCategorical ps (uniformDraw (rand n)) = .ok k () →
        categorical (ps.map fun p : ℚ => (p : ℝ)) (ofRand rand) n = .ok k (n + 1)) ∧
      (∀ e, sampleCategorical ps (uniformDraw (rand n)) = .throw e () →
        categorical (ps.map fun p : ℚ => (p : ℝ)) (ofRand rand) n = .throw e n)) := by
  have hu : ((uniformDraw (rand n) : ℚ) : ℝ) = ofRand rand n := ofRand_unit rand n
  refine ⟨fun a b => ?_, fun a b => ?_, fun ps => ?_⟩
  · unfold sampleUniformReal uniform
    by_cases h : a ≥ b
    · have h' : (a : ℝ) ≥ b := by exact_mod_cast h
      rw [if_pos h, if_pos h']
      exact ⟨fun x hx => by simp at hx, fun e he => by simp at he; rw [he]⟩
    · have h' : ¬ (a : ℝ) ≥ b := by exact_mod_cast h
      rw [if_neg h, if_neg h']
      refine ⟨fun x hx => ?_, fun e he => by simp at he⟩
      simp only [Res.ok.injEq, and_true] at hx
      rw [← hx]; push_cast; rw [hu]
  · unfold sampleUniformInt uniformInt
    by_cases h : a ≥ b
    · rw [if_pos h, if_pos h]
      exact ⟨fun x hx => by simp at hx, fun e he => by simp at he; rw [he]⟩
    · rw [if_neg h, if_neg h]
      refine ⟨fun x hx => ?_, fun e he => by simp at he⟩
      simp only [Res.ok.injEq, and_true] at hx
      rw [← hx, ← hu]
      unfold roundHalfUp
      have : (⌊((uniformDraw (rand n) : ℚ) : ℝ) * ((b - a : ℤ) : ℝ) + 1 / 2⌋ : ℤ) = ⌊uniformDraw (rand n) * ((b - a : ℤ) : ℚ) + 1 / 2⌋ := by
        rw [← Rat.floor_cast (α := ℝ)]; push_cast; rfl
      rw [this]
  · unfold sampleCategorical categorical
    have hsum : ((ps.map fun p : ℚ => (p : ℝ)).sum) = ((ps.sum : ℚ) : ℝ) := by
      induction ps with
      | nil => simp
      | cons p ps ih => rw [List.map_cons, List.sum_cons, List.sum_cons, ih]; push_cast; rfl
    have hc : (|ps.sum - 1| > 1 / 1000000000000 ∨ ps.any (fun p => decide (p < 0)) = true) ↔
        (|(ps.map fun p : ℚ => (p : ℝ)).sum - 1| > 1 / 1000000000000 ∨ ∃ p ∈ ps.map (fun p : ℚ => (p : ℝ)), p < 0) := by
      rw [hsum]
      have h1 : |((ps.sum : ℚ) : ℝ) - 1| > 1 / 1000000000000 ↔ |ps.sum - 1| > 1 / 1000000000000 := by
        have : |((ps.sum : ℚ) : ℝ) - 1| = ((|ps.sum - 1| : ℚ) : ℝ) := by push_cast; rfl
        rw [this]
        constructor <;> intro h
        · have : ((1 / 1000000000000 : ℚ) : ℝ) < ((|ps.sum - 1| : ℚ) : ℝ) := by push_cast; push_cast at h; exact h
          exact_mod_cast this
        · have : ((1 / 1000000000000 : ℚ) : ℝ) < ((|ps.sum - 1| : ℚ) : ℝ) := by exact_mod_cast h
          push_cast; push_cast at this; exact this
      rw [h1]
      simp
    by_cases h : |ps.sum - 1| > 1 / 1000000000000 ∨ ps.any (fun p => decide (p < 0)) = true
    · rw [if_pos h, if_pos (hc.1 h)]
      exact ⟨fun x hx => by simp at hx, fun e he => by simp at he; rw [he]⟩
    · rw [if_neg h, if_neg (fun h' => h (hc.2 h'))]
      cases ps with
      | nil => exact ⟨fun x hx => by simp at hx, fun e he => by simp at he⟩
      | cons p ps =>
        refine ⟨fun x hx => ?_, fun e he => by simp at he⟩
        simp only [Res.ok.injEq, and_true] at hx
        simp only [List.map_cons, ← hu, ← categoricalLoop_bridge, hx]

/-! ### The laws -/

/-- **C111**: `sampleUniform(a, b)` of a real type has the uniform distribution on `[a, b]`. -/
theorem C111_uniform {a b : ℝ} (h : a < b) :
    Samples (uniform a b) id ((ENNReal.ofReal (b - a))⁻¹ • volume.restrict (Icc a b)) := uniform_samples h

/-- **C111**: the samples of the multivariate uniform distribution are independent uniform numbers of the intervals. -/
theorem C111_uniform_mv (l : List (ℝ × ℝ)) (h : ∀ p ∈ l, p.1 < p.2) :
    Samples (fun u n => uniforms u l n) (fun x : Fin l.length → ℝ => List.ofFn x)
      (Measure.pi fun i : Fin l.length => (ENNReal.ofReal ((l.get i).2 - (l.get i).1))⁻¹ •
        volume.restrict (Icc (l.get i).1 (l.get i).2)) := uniforms_samples l h

/-- **C111**, what is missing: `sampleUniform(a, b)` of an integer type is not uniform; the ends have half the probability of
the integers between them. -/
theorem C111_uniform_int_partial {a b : ℤ} (h : a < b) : ∃ ν : Measure ℤ, Samples (uniformInt a b) id ν ∧
    ν.real {a} = 1 / (2 * (b - a : ℤ)) ∧ ν.real {b} = 1 / (2 * (b - a : ℤ)) ∧
    ∀ k, a < k → k < b → ν.real {k} = 1 / (b - a : ℤ) :=
  ⟨_, uniformInt_samples h, uniformInt_probs h⟩

/-- **C111**: `sampleExponential(rate)` has the exponential distribution. -/
theorem C111_exponential {rate : ℝ} (h : 0 < rate) : Samples (exponential rate) id (expMeasure rate) := exponential_samples h

/-- **C111**: `sampleGeometric(p)` has the geometric distribution, the number of failures before the first success. -/
theorem C111_geometric {p : ℝ} (h0 : 0 < p) (h1 : p ≤ 1) : Samples (geometric p) id (geometricMeasure ⟨p, h0.le, h1⟩) :=
  geometric_samples h0 h1

/-- **C111**: `samplePoisson(mean)` has the Poisson distribution. -/
theorem C111_poisson {mean : ℝ} (h : 0 < mean) : Samples (poisson mean) id (poissonMeasure mean.toNNReal) := poisson_samples h

/-- **C111**: `sampleNormal(mean, variance)` has the normal distribution. -/
theorem C111_normal {mean variance : ℝ} (h : 0 < variance) :
    Samples (normal mean variance) id (gaussianReal mean variance.toNNReal) := normal_samples h

/-- **C111**: the samples of the multivariate normal distribution have it, whatever matrix the factor is a factor of. -/
theorem C111_normal_mv {d : ℕ} (mean : Fin d → ℝ) (L C : Matrix (Fin d) (Fin d) ℝ) (h : L * Lᵀ = C) :
    Samples (normalMv mean L) (ofLp : EuclideanSpace ℝ (Fin d) → Fin d → ℝ) (multivariateGaussian (toLp 2 mean) C) := by
  rw [← h]; exact normalMv_samples mean L

/-- **C111**: a sample of a multivariate normal distribution on which no call has thrown and whose covariance is positive
definite has the mean and covariance it reports. -/
theorem C111_normal_mv_object {d : ℕ} {env : NormalV.Eig d} (he : env.Exact) {s : NormalV d} (h : NormalV.ReachOk env s)
    (hp : s.cov.PosDef) : (∀ rand n, s.getSample rand n = normalMv s.mean s.llt (ofRand rand) n) ∧
    Samples (normalMv s.mean s.llt) (ofLp : EuclideanSpace ℝ (Fin d) → Fin d → ℝ)
      (multivariateGaussian (toLp 2 s.mean) s.cov) :=
  ⟨fun rand n => (C111_bridge rand n).2.2.2.2.2 d s.mean s.llt,
    C111_normal_mv _ _ _ (by rw [NormalV.reachOk_llt he h]; exact he.fac _ hp)⟩

/-- **C111**: `sampleCategorical(probabilities)` returns each category with its probability, up to the tolerance of the check
that they sum up to one; exactly if they do. -/
theorem C111_categorical {probs : List ℝ} (hp : ∀ p ∈ probs, 0 ≤ p) (hs : |probs.sum - 1| ≤ 1 / 1000000000000) :
    ∃ ν : Measure ℕ, Samples (categorical probs) id ν ∧ ∀ m, |ν.real {m} - probs.getD m 0| ≤ |probs.sum - 1| :=
  ⟨_, categorical_samples hp hs, fun m => catVal_close (by rintro rfl; norm_num at hs) hp le_rfl m⟩

/-- **C111**: `sampleGamma(shape, invScale)` has the gamma distribution if the fractional part of the shape is zero or more
than `DBL_EPSILON`. -/
theorem C111_gamma_partial {shape invScale : ℝ} (hs : 0 < shape) (hi : 0 < invScale)
    (hf : shape = ⌊shape⌋ ∨ 1 / 2 ^ 52 < shape - ⌊shape⌋) :
    Samples (gamma shape invScale) some (gammaMeasure shape invScale) := by
  rcases hf with hf | hf
  · have h := gamma_samples_tiny hs hi (by rw [← hf]; simp)
    have hfl : 0 < ⌊shape⌋ := by
      have : (0:ℝ) < ⌊shape⌋ := by rw [← hf]; exact hs
      exact_mod_cast this
    have hcast : ((⌊shape⌋.toNat : ℕ) : ℝ) = shape := by
      have : ((⌊shape⌋.toNat : ℕ) : ℤ) = ⌊shape⌋ := Int.toNat_of_nonneg hfl.le
      have e : ((⌊shape⌋.toNat : ℕ) : ℝ) = ((⌊shape⌋ : ℤ) : ℝ) := by exact_mod_cast congrArg (Int.cast : ℤ → ℝ) this
      exact e.trans hf.symm
    rw [erlang, if_neg (by omega), hcast, map_div_gammaMeasure hs hi] at h
    exact h
  · exact gamma_samples_frac hs hi hf

/-- **C111**, what is missing: a fractional part of at most `DBL_EPSILON` is dropped; with a shape that small all samples
are zero. -/
theorem C111_gamma_tiny_shape {shape invScale : ℝ} (hs : 0 < shape) (hi : 0 < invScale) (h : shape ≤ 1 / 2 ^ 52) :
    (∀ u n, gamma shape invScale u n = .ok (some 0) n) ∧
    ¬ Samples (gamma shape invScale) some (gammaMeasure shape invScale) := by
  have hfl : ⌊shape⌋ = 0 := by
    rw [Int.floor_eq_zero_iff]; exact ⟨hs.le, lt_of_le_of_lt h (by norm_num)⟩
  have hzero : ∀ u n, gamma shape invScale u n = .ok (some 0) n := by
    intro u n
    unfold gamma
    rw [if_neg (not_le.2 hs), if_neg (not_le.2 hi), hfl]
    simp only [Int.toNat_zero, expSum, Res.bind, Nat.cast_zero, sub_zero]
    rw [if_neg (by rw [abs_of_pos hs]; exact not_lt.2 h)]
    simp
  refine ⟨hzero, fun hS => ?_⟩
  have := isProbabilityMeasure_gammaMeasure hs hi
  obtain ⟨X, N, hX, hN, hok, hlaw⟩ := hS.law
  have hX0 : ∀ᵐ u ∂Draws, X u = 0 := by
    filter_upwards [hok] with u hu
    rw [hzero] at hu
    simp only [Res.ok.injEq, Option.some.injEq] at hu
    exact hu.1.symm
  have h1 : Draws.map X = gammaMeasure shape invScale := by
    have : X = Prod.fst ∘ fun u => (X u, rest (N u) u) := rfl
    rw [this, ← Measure.map_map measurable_fst (hX.prodMk (measurable_restN hN)), hlaw]
    exact Measure.fst_prod
  have h2 : gammaMeasure shape invScale {0} = 1 := by
    rw [← h1, Measure.map_apply hX (measurableSet_singleton 0)]
    exact (prob_compl_eq_zero_iff (hX (measurableSet_singleton 0))).1 hX0
  have h3 : gammaMeasure shape invScale {0} = 0 := by
    have : gammaMeasure shape invScale ≪ volume := withDensity_absolutelyContinuous _ _
    exact this (by simp)
  rw [h3] at h2; simp at h2

/-- **C111**: the chi-square distribution of a whole number of degrees has the law of the sum of that many squares of
independent standard normal variables. -/
theorem C111_chi_square {degrees : ℕ} (h : 0 < degrees) {raw s : GammaD} (hs : GammaD.chiSquare raw degrees = .ok () s) :
    Samples (gamma s.shape s.invScale) some
      ((Measure.pi fun _ : Fin degrees => gaussianReal 0 1).map fun x => ∑ i, x i ^ 2) := by
  have hd : (0:ℝ) < degrees := by exact_mod_cast h
  have e1 : (0.5 : ℝ) * degrees = degrees / 2 := by norm_num; ring
  have e2 : (0.5 : ℝ) = 1 / 2 := by norm_num
  obtain ⟨h1, h2⟩ : s.shape = degrees / 2 ∧ s.invScale = 1 / 2 := by
    unfold GammaD.chiSquare GammaD.ctor GammaD.setShape GammaD.setInvScale at hs
    rw [e1, e2] at hs
    rw [if_neg (not_le.2 (by positivity))] at hs
    simp only [Res.bind] at hs
    rw [if_neg (by norm_num)] at hs
    simp only [Res.ok.injEq, true_and] at hs
    rw [← hs]; exact ⟨rfl, rfl⟩
  rw [h1, h2]
  obtain ⟨m, rfl⟩ : ∃ m, degrees = m + 1 := ⟨degrees - 1, by omega⟩
  rw [map_sum_sq]
  refine C111_gamma_partial (by positivity) (by norm_num) ?_
  rcases Nat.even_or_odd' (m + 1) with ⟨k, hk | hk⟩
  · left; rw [hk]; push_cast
    rw [show (2 * (k:ℝ)) / 2 = k by ring]; simp
  · right; rw [hk]; push_cast
    have : ⌊(2 * (k:ℝ) + 1) / 2⌋ = (k : ℤ) := by
      rw [Int.floor_eq_iff]; push_cast; constructor <;> linarith
    rw [this]; push_cast
    rw [show (2 * (k:ℝ) + 1) / 2 - k = 1 / 2 by ring]; norm_num

/-- non-vacuity of `C111_chi_square`. -/
example (raw : GammaD) : ∃ s, GammaD.chiSquare raw ((3 : ℕ) : ℝ) = .ok () s := by
  obtain ⟨s, _, h, _⟩ := GammaD.C57_chi_square raw ((3 : ℕ) : ℝ) 1 (by norm_num) one_pos
  exact ⟨s, h⟩

/-- **C111**: repeated calls of a sampler give independent values of its distribution. -/
theorem C111_repeated_calls {α β : Type} [MeasurableSpace β] {s : Stream → ℕ → Res ℕ α} {emb : β → α} {ν : Measure β}
    [IsProbabilityMeasure ν] (h : Samples s emb ν) (m : ℕ) :
    Samples (calls s m) (fun x : Fin m → β => List.ofFn fun i => emb (x i)) (Measure.pi fun _ : Fin m => ν) := h.calls m

/-- **C111**: arguments out of range are rejected without drawing. -/
theorem C111_rejected (u : Stream) (n : ℕ) :
    (∀ a b, b ≤ a → uniform a b u n = .throw .badArgument n) ∧
    (∀ a b, b ≤ a → uniformInt a b u n = .throw .badArgument n) ∧
    (∀ rate, rate ≤ 0 → exponential rate u n = .throw .badArgument n) ∧
    (∀ p, p ≤ 0 ∨ 1 < p → geometric p u n = .throw .badArgument n) ∧
    (∀ mean, mean ≤ 0 → poisson mean u n = .throw .badArgument n) ∧
    (∀ mean v, v ≤ 0 → normal mean v u n = .throw .badArgument n) ∧
    (∀ a b, a ≤ 0 ∨ b ≤ 0 → gamma a b u n = .throw .badArgument n) ∧
    (∀ ps : List ℝ, 1 / 1000000000000 < |ps.sum - 1| ∨ (∃ p ∈ ps, p < 0) → categorical ps u n = .throw .badArgument n) := by
  refine ⟨fun a b h => if_pos h, fun a b h => if_pos h, fun r h => if_pos h, fun p h => if_pos h, fun m h => if_pos h,
    fun m v h => if_pos h, fun a b h => ?_, fun ps h => if_pos h⟩
  unfold gamma
  by_cases ha : a ≤ 0
  · rw [if_pos ha]
  · rw [if_neg ha, if_pos (h.resolve_left ha)]

/-! ### Non-vacuity -/

/-- the streams of the theorems exist and runs succeed: three calls of the normal sampler return independent standard normal
numbers. -/
example : Samples (calls (normal 0 1) 3) (fun x : Fin 3 → ℝ => List.ofFn fun i => id (x i))
    (Measure.pi fun _ : Fin 3 => gaussianReal 0 (1:ℝ).toNNReal) := C111_repeated_calls (C111_normal one_pos) 3

/-- a shape with a fractional part, and one without. -/
example : (0:ℝ) < 2.5 ∧ 1 / 2 ^ 52 < (2.5 : ℝ) - ⌊(2.5 : ℝ)⌋ ∧ (3 : ℝ) = ⌊(3 : ℝ)⌋ := by
  have : ⌊(2.5 : ℝ)⌋ = 2 := by rw [Int.floor_eq_iff]; norm_num
  rw [this]; norm_num

/-- probabilities. -/
example : (∀ p ∈ ([0.25, 0, 0.75] : List ℝ), 0 ≤ p) ∧ |([0.25, 0, 0.75] : List ℝ).sum - 1| ≤ 1 / 1000000000000 := by
  constructor
  · intro p hp; simp at hp; rcases hp with rfl | rfl | rfl <;> norm_num
  · norm_num

/-- an object with a positive definite covariance. -/
example : NormalV.eig2.Exact ∧ NormalV.ReachOk NormalV.eig2 NormalV.std2 ∧ NormalV.std2.cov.PosDef :=
  ⟨NormalV.eig2_exact, .init NormalV.std2_ctor, PosDef.one⟩

end Ideal
end Verif
