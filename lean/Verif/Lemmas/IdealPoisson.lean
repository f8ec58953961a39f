import Verif.Lemmas.IdealLaws
import Mathlib.Probability.Distributions.Poisson.Basic
import Mathlib.MeasureTheory.Integral.IntervalIntegral.FundThmCalculus

/-! # The multiplication method gives a Poisson distribution -/

namespace Verif
namespace Ideal

open MeasureTheory ProbabilityTheory Set Real

/-- the streams for which `m` is returned with threshold `c` and whose remaining draws are in `T`. -/
def stopAt (m : ℕ) (c : ℝ) (T : Set Stream) : Set Stream :=
  {u | (∀ j < m, c < prodFrom u 0 (j + 1)) ∧ prodFrom u 0 (m + 1) ≤ c ∧ rest (m + 1) u ∈ T}

theorem measurable_prodFrom (n j : ℕ) : Measurable fun u : Stream => prodFrom u n j := by
  induction j with
  | zero => exact measurable_const
  | succ j ih => exact ih.mul (measurable_pi_apply _)

theorem prodFrom_head (u : Stream) (j : ℕ) : prodFrom u 0 (j + 1) = u 0 * prodFrom (rest 1 u) 0 j := by
  induction j with
  | zero => simp [prodFrom]
  | succ j ih =>
    rw [prodFrom, ih, prodFrom]
    simp only [rest, Nat.zero_add]
    rw [mul_assoc, Nat.add_comm 1 j]

theorem prodFrom_rest (u : Stream) (n j : ℕ) : prodFrom u n j = prodFrom (rest n u) 0 j := by
  induction j with
  | zero => rfl
  | succ j ih => rw [prodFrom, prodFrom, ih]; simp [rest]

/-- the recursion over the first draw. -/
theorem stopAt_succ {u : Stream} (h0 : 0 < u 0) (m : ℕ) (c : ℝ) (T : Set Stream) :
    u ∈ stopAt (m + 1) c T ↔ c < u 0 ∧ rest 1 u ∈ stopAt m (c / u 0) T := by
  have hc : ∀ j, c < prodFrom u 0 (j + 1 + 1) ↔ c / u 0 < prodFrom (rest 1 u) 0 (j + 1) := by
    intro j; rw [prodFrom_head, div_lt_iff₀ h0, mul_comm]
  have hr : rest (m + 1 + 1) u = rest (m + 1) (rest 1 u) := by rw [rest_rest]; congr 1; omega
  simp only [stopAt, mem_ofPred_eq]
  rw [hr, ← not_lt (a := c), hc, not_lt]
  constructor
  · rintro ⟨h1, h2, h3⟩
    refine ⟨?_, fun j hj => (hc j).1 (h1 (j + 1) (by omega)), h2, h3⟩
    have := h1 0 (by omega)
    simpa [prodFrom] using this
  · rintro ⟨h1, h2, h3, h4⟩
    refine ⟨fun j hj => ?_, h3, h4⟩
    cases j with
    | zero => simpa [prodFrom] using h1
    | succ j => exact (hc j).2 (h2 j (by omega))

theorem measurableSet_stop2 (m : ℕ) (c : ℝ) {T : Set Stream} (hT : MeasurableSet T) :
    MeasurableSet {p : ℝ × Stream | c < p.1 ∧ p.2 ∈ stopAt m (c / p.1) T} := by
  have hp : ∀ j, Measurable fun p : ℝ × Stream => prodFrom p.2 0 j := fun j => (measurable_prodFrom 0 j).comp measurable_snd
  have hd : Measurable fun p : ℝ × Stream => c / p.1 := measurable_const.div measurable_fst
  have e : {p : ℝ × Stream | c < p.1 ∧ p.2 ∈ stopAt m (c / p.1) T} =
      {p | c < p.1} ∩ ((⋂ j ∈ Iio m, {p | c / p.1 < prodFrom p.2 0 (j + 1)}) ∩
        ({p | prodFrom p.2 0 (m + 1) ≤ c / p.1} ∩ {p | rest (m + 1) p.2 ∈ T})) := by
    ext p; simp [stopAt]
  rw [e]
  refine (measurableSet_lt measurable_const measurable_fst).inter ((MeasurableSet.biInter (to_countable _) fun j _ =>
    measurableSet_lt hd (hp _)).inter ((measurableSet_le (hp _) hd).inter ?_))
  exact ((measurable_rest (m + 1)).comp measurable_snd) hT

theorem measurableSet_stopAt (m : ℕ) (c : ℝ) {T : Set Stream} (hT : MeasurableSet T) : MeasurableSet (stopAt m c T) := by
  have e : stopAt m c T = (⋂ j ∈ Iio m, {u | c < prodFrom u 0 (j + 1)}) ∩
      ({u | prodFrom u 0 (m + 1) ≤ c} ∩ {u | rest (m + 1) u ∈ T}) := by
    ext p; simp [stopAt]
  rw [e]
  refine (MeasurableSet.biInter (to_countable _) fun j _ => measurableSet_lt measurable_const (measurable_prodFrom _ _)).inter
    ((measurableSet_le (measurable_prodFrom _ _) measurable_const).inter ((measurable_rest (m + 1)) hT))

/-- probability of `m` with threshold `c`. -/
noncomputable def stopProb (m : ℕ) (c : ℝ) : ℝ := c * (-log c) ^ m / m.factorial

theorem stopProb_nonneg (m : ℕ) {c : ℝ} (h0 : 0 < c) (h1 : c ≤ 1) : 0 ≤ stopProb m c := by
  have := log_nonpos h0.le h1
  unfold stopProb
  have : 0 ≤ -log c := by linarith
  positivity

theorem stopProb_succ (m : ℕ) {c : ℝ} (h0 : 0 < c) (h1 : c ≤ 1) :
    ∫⁻ x in Ioc c 1, ENNReal.ofReal (stopProb m (c / x)) = ENNReal.ofReal (stopProb (m + 1) c) := by
  have hcont : ContinuousOn (fun x => stopProb m (c / x)) (Icc c 1) := by
    unfold stopProb
    have hne : ∀ x ∈ Icc c 1, x ≠ 0 := fun x hx => (lt_of_lt_of_le h0 hx.1).ne'
    have hd : ContinuousOn (fun x => c / x) (Icc c 1) := continuousOn_const.div continuousOn_id hne
    refine ((hd.mul ((hd.log ?_).neg.pow m)).div_const _)
    intro x hx; exact (div_pos h0 (lt_of_lt_of_le h0 hx.1)).ne'
  have hint : IntegrableOn (fun x => stopProb m (c / x)) (Ioc c 1) :=
    (hcont.integrableOn_Icc).mono_set Ioc_subset_Icc_self
  rw [← ofReal_integral_eq_lintegral_ofReal hint]
  · congr 1
    rw [← intervalIntegral.integral_of_le h1]
    have hder : ∀ x ∈ uIcc c 1, HasDerivAt (fun x => c * (log (x / c)) ^ (m + 1) / (m + 1).factorial) (stopProb m (c / x)) x := by
      intro x hx
      rw [uIcc_of_le h1] at hx
      have hx0 : 0 < x := lt_of_lt_of_le h0 hx.1
      have hl : HasDerivAt (fun x => log (x / c)) (1 / x) x := by
        have : HasDerivAt (fun x : ℝ => x / c) (1 / c) x := (hasDerivAt_id x).div_const c
        have h2 := this.log (div_pos hx0 h0).ne'
        convert h2 using 1
        field_simp
      have h3 := ((hl.pow (m + 1)).const_mul c).div_const ((m + 1).factorial : ℝ)
      refine h3.congr_deriv ?_
      unfold stopProb
      have hneg : -log (c / x) = log (x / c) := by rw [log_div h0.ne' hx0.ne', log_div hx0.ne' h0.ne']; ring
      rw [hneg, Nat.factorial_succ]
      have hm : ((m:ℝ) + 1) ≠ 0 := by positivity
      have hf : (m.factorial : ℝ) ≠ 0 := by positivity
      push_cast
      field_simp
    rw [intervalIntegral.integral_eq_sub_of_hasDerivAt hder ?_]
    · rw [div_self h0.ne', log_one, one_div, log_inv, stopProb, zero_pow (by omega)]
      simp
    · rw [intervalIntegrable_iff_integrableOn_Ioc_of_le h1]; exact hint
  · refine (ae_restrict_iff' measurableSet_Ioc).2 (Filter.Eventually.of_forall fun x hx => ?_)
    exact stopProb_nonneg m (div_pos h0 (h0.trans hx.1)) ((div_le_one (h0.trans hx.1)).2 hx.1.le)

theorem draws_head_ae : ∀ᵐ u ∂Draws, u 0 ∈ Ioc (0:ℝ) 1 := by
  have h0 : Draws.map (fun u => u 0) = unif := by
    have : (fun u : Stream => u 0) = Prod.fst ∘ fun u => (u 0, rest 1 u) := rfl
    rw [this, ← Measure.map_map measurable_fst (measurable_zero.prodMk (measurable_rest 1)), draws_head]
    exact Measure.fst_prod
  have := unif_ae
  rw [← h0] at this
  exact ae_of_ae_map measurable_zero.aemeasurable this

theorem stopAt_prob {T : Set Stream} (hT : MeasurableSet T) : ∀ (m : ℕ) (c : ℝ), 0 < c → c ≤ 1 →
    Draws (stopAt m c T) = ENNReal.ofReal (stopProb m c) * Draws T := by
  intro m
  have hm : Measurable fun u : Stream => (u 0, rest 1 u) := measurable_zero.prodMk (measurable_rest 1)
  induction m with
  | zero =>
    intro c h0 h1
    have e : stopAt 0 c T = (fun u : Stream => (u 0, rest 1 u)) ⁻¹' (Iic c ×ˢ T) := by
      ext u; simp [stopAt, prodFrom]
    rw [e, ← Measure.map_apply hm (measurableSet_Iic.prod hT), draws_head, Measure.prod_prod]
    congr 1
    have : unif (Iic c) = unif (Ioc 0 c) := by
      refine measure_congr ?_
      filter_upwards [unif_ae] with u hu
      refine propext ?_
      change u ≤ c ↔ 0 < u ∧ u ≤ c
      simp [hu.1]
    rw [this, unif_Ioc le_rfl h1]
    simp [stopProb]
  | succ m ih =>
    intro c h0 h1
    have hms := measurableSet_stop2 m c hT
    have e : Draws (stopAt (m + 1) c T) = (unif.prod Draws) {p : ℝ × Stream | c < p.1 ∧ p.2 ∈ stopAt m (c / p.1) T} := by
      rw [← draws_head, Measure.map_apply hm hms]
      refine measure_congr ?_
      filter_upwards [draws_head_ae] with u hu
      exact propext (stopAt_succ hu.1 m c T)
    rw [e, Measure.prod_apply hms, unif]
    have e2 : ∀ x ∈ Icc (0:ℝ) 1, Draws (Prod.mk x ⁻¹' {p : ℝ × Stream | c < p.1 ∧ p.2 ∈ stopAt m (c / p.1) T}) =
        (Ioc c 1).indicator (fun x => ENNReal.ofReal (stopProb m (c / x)) * Draws T) x := by
      intro x hx
      by_cases hc : c < x
      · have hx0 : 0 < x := h0.trans hc
        rw [indicator_of_mem (show x ∈ Ioc c 1 from ⟨hc, hx.2⟩), ← ih (c / x) (div_pos h0 hx0) ((div_le_one hx0).2 hc.le)]
        congr 1; ext v; simp [hc]
      · rw [indicator_of_notMem (fun h : x ∈ Ioc c 1 => hc h.1)]
        have : Prod.mk x ⁻¹' {p : ℝ × Stream | c < p.1 ∧ p.2 ∈ stopAt m (c / p.1) T} = ∅ := by ext v; simp [hc]
        rw [this, measure_empty]
    rw [setLIntegral_congr_fun measurableSet_Icc e2, lintegral_indicator measurableSet_Ioc, Measure.restrict_restrict measurableSet_Ioc]
    have e3 : Ioc c 1 ∩ Icc 0 1 = Ioc c 1 := by
      rw [inter_eq_left]; intro x hx; exact ⟨h0.le.trans hx.1.le, hx.2⟩
    rw [e3, lintegral_mul_const' _ _ (measure_ne_top _ _), stopProb_succ m h0 h1]

theorem stopProb_exp (mean : ℝ) (hm : 0 < mean) (m : ℕ) :
    ENNReal.ofReal (stopProb m (exp (-mean))) = poissonMeasure mean.toNNReal {m} := by
  rw [poissonMeasure_singleton, stopProb, log_exp, neg_neg, Real.coe_toNNReal _ hm.le]

theorem stopAt_disjoint (c : ℝ) (T : Set Stream) : Pairwise (Function.onFun Disjoint fun m => stopAt m c T) := by
  intro a b hab
  rw [Function.onFun, Set.disjoint_left]
  rintro u ⟨h1, h2, _⟩ ⟨h3, h4, _⟩
  rcases lt_or_gt_of_ne hab with h | h
  · exact absurd (h3 a h) (not_lt.2 h2)
  · exact absurd (h1 b h) (not_lt.2 h4)

theorem stops_ae {mean : ℝ} (hm : 0 < mean) : ∀ᵐ u ∂Draws, ∃ m, prodFrom u 0 (m + 1) ≤ exp (-mean) := by
  have hc1 : exp (-mean) ≤ 1 := by rw [exp_le_one_iff]; linarith
  have hU : MeasurableSet (⋃ m, stopAt m (exp (-mean)) univ) := MeasurableSet.iUnion fun m => measurableSet_stopAt m _ .univ
  have h : Draws (⋃ m, stopAt m (exp (-mean)) univ) = 1 := by
    rw [measure_iUnion (stopAt_disjoint _ _) fun m => measurableSet_stopAt m _ .univ]
    simp_rw [stopAt_prob .univ _ _ (exp_pos _) hc1, measure_univ, mul_one, stopProb_exp mean hm]
    rw [← measure_iUnion (fun a b hab => by simpa [Function.onFun] using hab) fun m => measurableSet_singleton m]
    have : ⋃ m : ℕ, ({m} : Set ℕ) = univ := by ext; simp
    rw [this, measure_univ]
  have h2 : ∀ᵐ u ∂Draws, u ∈ ⋃ m, stopAt m (exp (-mean)) univ := by
    rw [← prob_compl_eq_zero_iff hU] at h
    exact h
  filter_upwards [h2] with u hu
  obtain ⟨m, hm⟩ := mem_iUnion.1 hu
  exact ⟨m, hm.2.1⟩

theorem poisson_samples {mean : ℝ} (hm : 0 < mean) : Samples (poisson mean) id (poissonMeasure mean.toNNReal) := by
  classical
  have hc1 : exp (-mean) ≤ 1 := by rw [exp_le_one_iff]; linarith
  have hex : ∀ u : Stream, ∃ m, prodFrom u 0 (m + 1) ≤ exp (-mean) ∨ ∀ j, ¬ prodFrom u 0 (j + 1) ≤ exp (-mean) := by
    intro u
    by_cases h : ∃ m, prodFrom u 0 (m + 1) ≤ exp (-mean)
    · exact ⟨h.choose, Or.inl h.choose_spec⟩
    · exact ⟨0, Or.inr fun j hj => h ⟨j, hj⟩⟩
  let X : Stream → ℕ := fun u => Nat.find (hex u)
  have hX : Measurable X := by
    refine measurable_find hex fun k => ?_
    have : {u : Stream | prodFrom u 0 (k + 1) ≤ exp (-mean) ∨ ∀ j, ¬ prodFrom u 0 (j + 1) ≤ exp (-mean)} =
        {u | prodFrom u 0 (k + 1) ≤ exp (-mean)} ∪ ⋂ j, {u | prodFrom u 0 (j + 1) ≤ exp (-mean)}ᶜ := by ext u; simp
    rw [this]
    exact (measurableSet_le (measurable_prodFrom _ _) measurable_const).union
      (MeasurableSet.iInter fun j => (measurableSet_le (measurable_prodFrom _ _) measurable_const).compl)
  have hXs : ∀ u, (∃ m, prodFrom u 0 (m + 1) ≤ exp (-mean)) → ∀ (m : ℕ) (T : Set Stream),
      (X u = m ∧ rest (X u + 1) u ∈ T) ↔ u ∈ stopAt m (exp (-mean)) T := by
    rintro u ⟨k, hk⟩ m T
    have hno : ¬ ∀ j, ¬ prodFrom u 0 (j + 1) ≤ exp (-mean) := fun h => h k hk
    constructor
    · rintro ⟨h1, h2⟩
      have hs := Nat.find_spec (hex u)
      have hmin := fun j => Nat.find_min (hex u) (m := j)
      change (prodFrom u 0 (X u + 1) ≤ _ ∨ _) at hs
      refine ⟨fun j hj => ?_, ?_, ?_⟩
      · have := hmin j (by change j < X u; omega)
        rw [not_or] at this; exact not_le.1 this.1
      · rw [h1] at hs; exact hs.resolve_right hno
      · rw [h1] at h2; exact h2
    · rintro ⟨h1, h2, h3⟩
      have : X u = m := by
        change Nat.find (hex u) = m
        rw [Nat.find_eq_iff]
        refine ⟨Or.inl h2, fun j hj h => ?_⟩
        rcases h with h | h
        · exact absurd (h1 j hj) (not_lt.2 h)
        · exact hno h
      exact ⟨this, by rw [this]; exact h3⟩
  have hN : Measurable fun u => X u + 1 := hX.add_const 1
  have hpair : Measurable fun u => (X u, rest (X u + 1) u) := hX.prodMk (measurable_restN hN)
  refine ⟨fun u n => ?_, X, fun u => X u + 1, hX, hN, ?_, ?_⟩
  · unfold poisson
    rw [if_neg (not_le.2 hm), if_neg (not_le.2 hm)]
    have e : ∀ m, prodFrom u n (m + 1) = prodFrom (rest n u) 0 (m + 1) := fun m => prodFrom_rest u n _
    by_cases h : ∃ m, ¬ prodFrom (rest n u) 0 (m + 1) > exp (-mean)
    · have h' : ∃ m, ¬ prodFrom u n (m + 1) > exp (-mean) := by simpa [e] using h
      rw [dif_pos h, dif_pos h']
      have : Nat.find h' = Nat.find h := by congr 1; funext m; rw [e]
      rw [this]; simp [Res.mapState, Nat.add_assoc]
    · have h' : ¬ ∃ m, ¬ prodFrom u n (m + 1) > exp (-mean) := by simpa [e] using h
      rw [dif_neg h, dif_neg h']; rfl
  · filter_upwards [stops_ae hm] with u hu
    unfold poisson
    have h : ∃ m, ¬ prodFrom u 0 (m + 1) > exp (-mean) := by simpa using hu
    rw [if_neg (not_le.2 hm), dif_pos h]
    have : Nat.find h = X u := by
      have hmem := ((hXs u hu (X u) univ).1 ⟨rfl, trivial⟩)
      rw [Nat.find_eq_iff]
      exact ⟨not_lt.2 hmem.2.1, fun j hj => not_not.2 (hmem.1 j hj)⟩
    rw [this]; simp
  · symm
    refine Measure.prod_eq fun S T _ hT => ?_
    have h1 : ∀ S : Set ℕ, Draws.map (fun u => (X u, rest (X u + 1) u)) (S ×ˢ T) =
        ((Draws.map (fun u => (X u, rest (X u + 1) u))).restrict (univ ×ˢ T)).map Prod.fst S := by
      intro S
      rw [Measure.map_apply measurable_fst (.of_discrete), Measure.restrict_apply (measurable_fst .of_discrete)]
      congr 1; ext p; simp
    have h2 : ((Draws.map (fun u => (X u, rest (X u + 1) u))).restrict (univ ×ˢ T)).map Prod.fst =
        Draws T • poissonMeasure mean.toNNReal := by
      refine Measure.ext_of_singleton fun m => ?_
      rw [← h1, Measure.map_apply hpair ((measurableSet_singleton m).prod hT), Measure.smul_apply, ← stopProb_exp mean hm,
        smul_eq_mul, mul_comm, ← stopAt_prob hT m _ (exp_pos _) hc1]
      refine measure_congr ?_
      filter_upwards [stops_ae hm] with u hu
      exact propext (hXs u hu m T)
    rw [h1, h2, Measure.smul_apply, smul_eq_mul, mul_comm]

end Ideal
end Verif
