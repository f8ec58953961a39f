import Verif.Lemmas.IdealLaws

/-! Lemmas: the integer and the multivariate uniform sampler. -/

namespace Verif
namespace Ideal

open MeasureTheory ProbabilityTheory Set

theorem unif_Ico {a b : ℝ} (h0 : 0 ≤ a) (h1 : b ≤ 1) : unif (Ico a b) = ENNReal.ofReal (b - a) := by
  unfold unif
  rw [Measure.restrict_apply measurableSet_Ico]
  have : Ico a b ∩ Icc 0 1 = Ico a b := by
    apply inter_eq_left.2
    intro x hx; exact ⟨h0.trans hx.1, hx.2.le.trans h1⟩
  rw [this, Real.volume_Ico]

theorem unif_Icc {a b : ℝ} (h0 : 0 ≤ a) (h1 : b ≤ 1) : unif (Icc a b) = ENNReal.ofReal (b - a) := by
  unfold unif
  rw [Measure.restrict_apply measurableSet_Icc]
  have : Icc a b ∩ Icc 0 1 = Icc a b := by
    apply inter_eq_left.2
    intro x hx; exact ⟨h0.trans hx.1, hx.2.trans h1⟩
  rw [this, Real.volume_Icc]

/-- value for the draw `x`. -/
noncomputable def intVal (a b : ℤ) (x : ℝ) : ℤ := a + ⌊x * ((b - a : ℤ) : ℝ) + 1 / 2⌋

theorem measurable_intVal (a b : ℤ) : Measurable (intVal a b) := by
  unfold intVal
  have : Measurable fun x : ℝ => ⌊x * ((b - a : ℤ) : ℝ) + 1 / 2⌋ := Int.measurable_floor.comp (by fun_prop)
  exact (measurable_from_top (f := fun k : ℤ => a + k)).comp this

theorem uniformInt_samples {a b : ℤ} (h : a < b) : Samples (uniformInt a b) id (unif.map (intVal a b)) := by
  have h1 := one_draw (intVal a b) id (intVal a b) (measurable_intVal a b) (Filter.Eventually.of_forall fun x => rfl)
  have e : uniformInt a b = fun u n => .ok (intVal a b (u n)) (n + 1) := by
    funext u n; unfold uniformInt; rw [if_neg (by omega)]; rfl
  rw [e]; exact h1

theorem intVal_eq_iff {a b : ℤ} (h : a < b) (k : ℤ) (x : ℝ) :
    intVal a b x = k ↔ (2 * (k - a : ℤ) - 1) / (2 * (b - a : ℤ)) ≤ x ∧ x < (2 * (k - a : ℤ) + 1 : ℝ) / (2 * (b - a : ℤ)) := by
  have hd : (0:ℝ) < ((b - a : ℤ) : ℝ) := by exact_mod_cast (by omega : 0 < b - a)
  unfold intVal
  rw [show (a + ⌊x * ((b - a : ℤ) : ℝ) + 1 / 2⌋ = k) ↔ ⌊x * ((b - a : ℤ) : ℝ) + 1 / 2⌋ = k - a by constructor <;> intro h <;> omega,
    Int.floor_eq_iff, div_le_iff₀ (by positivity), lt_div_iff₀ (by positivity)]
  constructor <;> rintro ⟨h1, h2⟩ <;> constructor <;> nlinarith

/-- the ends get half the probability of the other integers. -/
theorem uniformInt_probs {a b : ℤ} (h : a < b) :
    (unif.map (intVal a b)).real {a} = 1 / (2 * (b - a : ℤ)) ∧ (unif.map (intVal a b)).real {b} = 1 / (2 * (b - a : ℤ)) ∧
    ∀ k, a < k → k < b → (unif.map (intVal a b)).real {k} = 1 / (b - a : ℤ) := by
  have hd : (0:ℝ) < ((b - a : ℤ) : ℝ) := by exact_mod_cast (by omega : 0 < b - a)
  have hm := measurable_intVal a b
  have key : ∀ k, (unif.map (intVal a b)).real {k} =
      unif.real (Ico ((2 * (k - a : ℤ) - 1) / (2 * (b - a : ℤ))) ((2 * (k - a : ℤ) + 1 : ℝ) / (2 * (b - a : ℤ)))) := by
    intro k
    rw [map_measureReal_apply hm (measurableSet_singleton k)]
    congr 1
    ext x; simp only [mem_preimage, mem_singleton_iff, mem_Ico]
    exact intVal_eq_iff h k x
  refine ⟨?_, ?_, ?_⟩
  · rw [key]
    have : unif.real (Ico ((2 * ((a - a : ℤ) : ℝ) - 1) / (2 * (b - a : ℤ))) ((2 * ((a - a : ℤ) : ℝ) + 1 : ℝ) / (2 * (b - a : ℤ)))) =
        unif.real (Ico 0 (1 / (2 * (b - a : ℤ)))) := by
      simp only [measureReal_def, unif]
      rw [Measure.restrict_apply measurableSet_Ico, Measure.restrict_apply measurableSet_Ico]
      congr 2
      ext x
      simp only [mem_inter_iff, mem_Ico, mem_Icc, sub_self, Int.cast_zero, mul_zero, zero_sub, zero_add]
      constructor
      · rintro ⟨⟨_, h2⟩, h3, h4⟩; exact ⟨⟨h3, h2⟩, h3, h4⟩
      · rintro ⟨⟨_, h2⟩, h3, h4⟩
        refine ⟨⟨le_trans ?_ h3, h2⟩, h3, h4⟩
        exact div_nonpos_of_nonpos_of_nonneg (by norm_num) (by positivity)
    have hle : 1 / (2 * ((b - a : ℤ) : ℝ)) ≤ 1 := by
      rw [div_le_one (by positivity)]
      have : (1:ℝ) ≤ ((b - a : ℤ) : ℝ) := by exact_mod_cast (by omega : 1 ≤ b - a)
      linarith
    rw [this, measureReal_def, unif_Ico le_rfl hle, sub_zero, ENNReal.toReal_ofReal (by positivity)]
  · rw [key]
    set D : ℝ := ((b - a : ℤ) : ℝ) with hD
    have hD1 : (1:ℝ) ≤ D := by rw [hD]; exact_mod_cast (by omega : 1 ≤ b - a)
    have : unif.real (Ico ((2 * D - 1) / (2 * D)) ((2 * D + 1) / (2 * D))) = unif.real (Icc ((2 * D - 1) / (2 * D)) 1) := by
      simp only [measureReal_def, unif]
      rw [Measure.restrict_apply measurableSet_Ico, Measure.restrict_apply measurableSet_Icc]
      congr 2
      ext x
      simp only [mem_inter_iff, mem_Ico, mem_Icc]
      constructor
      · rintro ⟨⟨h1, h2⟩, h3, h4⟩; exact ⟨⟨h1, h4⟩, h3, h4⟩
      · rintro ⟨⟨h1, _⟩, h3, h4⟩
        refine ⟨⟨h1, lt_of_le_of_lt h4 ?_⟩, h3, h4⟩
        rw [lt_div_iff₀ (by positivity)]; linarith
    have h0 : 0 ≤ (2 * D - 1) / (2 * D) := div_nonneg (by linarith) (by positivity)
    have hle : (2 * D - 1) / (2 * D) ≤ 1 := by rw [div_le_one (by positivity)]; linarith
    rw [this, measureReal_def, unif_Icc h0 le_rfl, ENNReal.toReal_ofReal (by linarith)]
    field_simp; ring
  · intro k hk1 hk2
    rw [key]
    set D : ℝ := ((b - a : ℤ) : ℝ) with hD
    have hk : (1:ℝ) ≤ ((k - a : ℤ) : ℝ) := by exact_mod_cast (by omega : 1 ≤ k - a)
    have hkD : ((k - a : ℤ) : ℝ) + 1 ≤ D := by rw [hD]; exact_mod_cast (by omega : k - a + 1 ≤ b - a)
    set t : ℝ := ((k - a : ℤ) : ℝ)
    have h0 : 0 ≤ (2 * t - 1) / (2 * D) := div_nonneg (by linarith) (by positivity)
    have h1 : (2 * t + 1) / (2 * D) ≤ 1 := by rw [div_le_one (by positivity)]; linarith
    have h2 : (2 * t + 1) / (2 * D) - (2 * t - 1) / (2 * D) = 1 / D := by field_simp; ring
    rw [measureReal_def, unif_Ico h0 h1, h2, ENNReal.toReal_ofReal (by positivity)]

/-- the uniform distribution on `[a, b]`. -/
noncomputable def unifOn (a b : ℝ) : Measure ℝ := (ENNReal.ofReal (b - a))⁻¹ • volume.restrict (Icc a b)

theorem unifOn_prob {a b : ℝ} (h : a < b) : IsProbabilityMeasure (unifOn a b) := by
  rw [unifOn, ← map_affine_unif h]
  exact Measure.isProbabilityMeasure_map (by fun_prop)

theorem uniforms_samples : ∀ l : List (ℝ × ℝ), (∀ p ∈ l, p.1 < p.2) →
    Samples (fun u n => uniforms u l n) (fun x : Fin l.length → ℝ => List.ofFn x)
      (Measure.pi fun i : Fin l.length => unifOn (l.get i).1 (l.get i).2) := by
  intro l
  induction l with
  | nil =>
    intro _
    have := Samples.pure (fun x : Fin 0 → ℝ => List.ofFn x) (fun i => i.elim0)
    have hem : IsEmpty (Fin ([] : List (ℝ × ℝ)).length) := inferInstanceAs (IsEmpty (Fin 0))
    rw [Measure.pi_of_empty _ (fun i => i.elim0)]
    have e : (fun (u : Stream) n => uniforms u [] n) = fun _ n => .ok (List.ofFn fun i : Fin 0 => (i.elim0 : ℝ)) n := by
      funext u n; simp [uniforms]
    rw [e]; exact this
  | cons p l ih =>
    intro hl
    have hp : p.1 < p.2 := hl p (by simp)
    have ih' := ih fun q hq => hl q (by simp [hq])
    have hprob : ∀ i : Fin (p :: l).length, IsProbabilityMeasure (unifOn ((p :: l).get i).1 ((p :: l).get i).2) :=
      fun i => unifOn_prob (hl _ (List.get_mem _ _))
    have hprob' : ∀ i : Fin l.length, IsProbabilityMeasure (unifOn (l.get i).1 (l.get i).2) :=
      fun i => hprob i.succ
    have := unifOn_prob hp
    have hcons : Measurable fun q : ℝ × (Fin l.length → ℝ) => (Fin.cons q.1 q.2 : Fin (l.length + 1) → ℝ) := by
      refine measurable_pi_lambda _ fun i => ?_
      refine Fin.cases ?_ (fun j => ?_) i
      · exact measurable_fst
      · simp only [Fin.cons_succ]
        exact (measurable_pi_apply j).comp measurable_snd
    have h1 : Samples (uniform p.1 p.2) id (unifOn p.1 p.2) := uniform_samples hp
    have h := h1.seq ih' (fun x xs => x :: xs) (fun q => (Fin.cons q.1 q.2 : Fin (l.length + 1) → ℝ)) hcons
      (fun x : Fin (l.length + 1) → ℝ => List.ofFn x) (fun x y => by simp [List.ofFn_succ])
    have e : ((unifOn p.1 p.2).prod (Measure.pi fun i : Fin l.length => unifOn (l.get i).1 (l.get i).2)).map
        (fun q => (Fin.cons q.1 q.2 : Fin (l.length + 1) → ℝ)) =
        Measure.pi fun i : Fin (l.length + 1) => unifOn ((p :: l).get i).1 ((p :: l).get i).2 := by
      have hsf : ∀ i : Fin (l.length + 1), SigmaFinite (unifOn ((p :: l).get i).1 ((p :: l).get i).2) := by
        intro i; have := hprob i; infer_instance
      have := (measurePreserving_piFinSuccAbove (fun i : Fin (l.length + 1) => unifOn ((p :: l).get i).1 ((p :: l).get i).2) 0).symm.map_eq
      rw [← this]
      congr 1
      funext q; simp [MeasurableEquiv.piFinSuccAbove, Fin.insertNthEquiv]
    rw [e] at h
    exact h

end Ideal
end Verif
