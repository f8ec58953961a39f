import Verif.Lemmas.IdealLaws

/-! # Law of the categorical sampler -/

namespace Verif
namespace Ideal

open MeasureTheory Set

theorem catLoop_ge (x : ℝ) : ∀ (ps : List ℝ) (sum : ℝ) (i j : ℕ), (∀ p ∈ ps, 0 ≤ p) →
    (i + (j + 1) ≤ categoricalLoop x ps sum (i + 1) ↔ j + 1 ≤ ps.length ∧ x > sum + (ps.take j).sum) := by
  intro ps
  induction ps with
  | nil => intro sum i j _; simp [categoricalLoop]
  | cons p ps ih =>
    intro sum i j hp
    have hp0 : 0 ≤ p := hp p (by simp)
    have hps : ∀ q ∈ ps, 0 ≤ q := fun q hq => hp q (by simp [hq])
    unfold categoricalLoop
    split
    next h =>
      cases j with
      | zero =>
        simp only [List.length_cons, List.take_zero, List.sum_nil, add_zero]
        have : i + 1 ≤ categoricalLoop x ps (sum + p) (i + 1 + 1) := by
          cases ps with
          | nil => simp [categoricalLoop]
          | cons q qs =>
            by_cases hq : x > sum + p
            · have := (ih (sum + p) (i + 1) 0 hps).2 ⟨by simp, by simpa using hq⟩
              omega
            · simp [categoricalLoop, hq]
        exact ⟨fun _ => ⟨by omega, h⟩, fun _ => by omega⟩
      | succ j =>
        have := ih (sum + p) (i + 1) j hps
        rw [show i + (j + 1 + 1) = i + 1 + (j + 1) by ring, this]
        simp [add_assoc]
    next h =>
      constructor
      · intro h'; omega
      · rintro ⟨_, h2⟩
        have : 0 ≤ ((p :: ps).take j).sum := List.sum_nonneg fun q hq => hp q (List.mem_of_mem_take hq)
        linarith

/-- value of the categorical sampler as a function of the draw. -/
noncomputable def catVal (probs : List ℝ) (x : ℝ) : ℕ :=
  match probs with
  | [] => 0
  | p0 :: ps => categoricalLoop x ps p0 1

theorem catVal_ge {probs : List ℝ} (hne : probs ≠ []) (hp : ∀ p ∈ probs, 0 ≤ p) {x : ℝ} (hx : 0 < x) (m : ℕ) :
    m ≤ catVal probs x ↔ m < probs.length ∧ (probs.take m).sum < x := by
  cases probs with
  | nil => exact absurd rfl hne
  | cons p0 ps =>
    cases m with
    | zero => simp [hx]
    | succ j =>
      have := catLoop_ge x ps p0 0 j (fun q hq => hp q (by simp [hq]))
      simp only [zero_add] at this
      simp only [catVal, List.length_cons, List.take_succ_cons, List.sum_cons]
      rw [this, Nat.add_lt_add_iff_right, Nat.succ_le_iff]

theorem measurable_categoricalLoop : ∀ (ps : List ℝ) (sum : ℝ) (i : ℕ), Measurable fun x => categoricalLoop x ps sum i := by
  intro ps
  induction ps with
  | nil => intro sum i; simp only [categoricalLoop]; exact measurable_const
  | cons p ps ih =>
    intro sum i
    simp only [categoricalLoop]
    exact Measurable.ite measurableSet_Ioi (ih _ _) measurable_const

theorem measurable_catVal (probs : List ℝ) : Measurable (catVal probs) := by
  cases probs with
  | nil => exact measurable_const
  | cons p ps => exact measurable_categoricalLoop ps p 1

theorem unif_gt (a : ℝ) (h0 : 0 ≤ a) : unif.real (Ioi a) = max (1 - a) 0 := by
  rw [measureReal_def, unif, Measure.restrict_apply measurableSet_Ioi]
  have : Ioi a ∩ Icc 0 1 = Ioc a 1 := by
    ext x; simp only [mem_inter_iff, mem_Ioi, mem_Icc, mem_Ioc]; constructor
    · rintro ⟨h, _, h'⟩; exact ⟨h, h'⟩
    · rintro ⟨h, h'⟩; exact ⟨h, le_trans h0 h.le, h'⟩
  rw [this, Real.volume_Ioc, ENNReal.toReal_ofReal']

theorem catVal_prob {probs : List ℝ} (hne : probs ≠ []) (hp : ∀ p ∈ probs, 0 ≤ p) (m : ℕ) :
    (unif.map (catVal probs)).real {m} =
      (if m < probs.length then max (1 - (probs.take m).sum) 0 else 0) -
      (if m + 1 < probs.length then max (1 - (probs.take (m + 1)).sum) 0 else 0) := by
  have tail : ∀ m, unif.real {x | m ≤ catVal probs x} = if m < probs.length then max (1 - (probs.take m).sum) 0 else 0 := by
    intro m
    have h0 : 0 ≤ (probs.take m).sum := List.sum_nonneg fun q hq => hp q (List.mem_of_mem_take hq)
    split
    next h =>
      rw [← unif_gt _ h0, measureReal_def, measureReal_def]
      congr 1
      refine measure_congr ?_
      filter_upwards [unif_ae] with u hu
      refine propext ?_
      change m ≤ catVal probs u ↔ (probs.take m).sum < u
      rw [catVal_ge hne hp hu.1]; simp [h]
    next h =>
      rw [measureReal_def]
      have : unif {x | m ≤ catVal probs x} = 0 := by
        refine measure_mono_null (t := {u | ¬ u ∈ Ioc (0:ℝ) 1}) (fun u hu hm => ?_) (ae_iff.1 unif_ae)
        exact h ((catVal_ge hne hp hm.1 m).1 hu).1
      rw [this]; rfl
  have hmeas : ∀ m, MeasurableSet {x | m ≤ catVal probs x} := fun m => measurable_catVal probs measurableSet_Ici
  have e : catVal probs ⁻¹' {m} = {x | m ≤ catVal probs x} \ {x | m + 1 ≤ catVal probs x} := by
    ext x; simp only [mem_preimage, mem_singleton_iff, mem_sdiff, mem_ofPred_eq]; omega
  rw [map_measureReal_apply (measurable_catVal probs) (measurableSet_singleton _), e,
    measureReal_sdiff (fun x hx => by simp only [mem_ofPred_eq] at hx ⊢; omega) (hmeas _), tail, tail]

theorem take_succ_sum (l : List ℝ) (m : ℕ) : (l.take (m + 1)).sum = (l.take m).sum + l.getD m 0 := by
  induction l generalizing m with
  | nil => simp
  | cons a l ih =>
    cases m with
    | zero => simp
    | succ m => simp [List.take_succ_cons, ih, add_assoc]

theorem take_le_sum {l : List ℝ} (hp : ∀ p ∈ l, 0 ≤ p) (m : ℕ) : (l.take m).sum ≤ l.sum := by
  conv_rhs => rw [← List.take_append_drop m l, List.sum_append]
  have : 0 ≤ (l.drop m).sum := List.sum_nonneg fun q hq => hp q (List.mem_of_mem_drop hq)
  linarith

theorem catVal_close {probs : List ℝ} (hne : probs ≠ []) (hp : ∀ p ∈ probs, 0 ≤ p) {ε : ℝ} (hs : |probs.sum - 1| ≤ ε) (m : ℕ) :
    |(unif.map (catVal probs)).real {m} - probs.getD m 0| ≤ ε := by
  rw [catVal_prob hne hp]
  have hε : 0 ≤ ε := le_trans (abs_nonneg _) hs
  obtain ⟨h1, h2⟩ := abs_le.1 hs
  have ht := take_succ_sum probs m
  have hm0 := take_le_sum hp m
  have hm1 := take_le_sum hp (m + 1)
  have hn : 0 ≤ probs.getD m 0 := by
    rw [List.getD_eq_getElem?_getD]
    cases h : probs[m]? with
    | none => simp
    | some a => exact hp a (List.mem_of_getElem? h)
  by_cases ha : m + 1 < probs.length
  · rw [if_pos (by omega), if_pos ha]
    rw [abs_le]
    constructor
    · rcases max_cases (1 - (probs.take m).sum) 0 with ⟨e1, e2⟩ | ⟨e1, e2⟩ <;>
      rcases max_cases (1 - (probs.take (m + 1)).sum) 0 with ⟨e3, e4⟩ | ⟨e3, e4⟩ <;> linarith
    · rcases max_cases (1 - (probs.take m).sum) 0 with ⟨e1, e2⟩ | ⟨e1, e2⟩ <;>
      rcases max_cases (1 - (probs.take (m + 1)).sum) 0 with ⟨e3, e4⟩ | ⟨e3, e4⟩ <;> linarith
  · rw [if_neg ha]
    by_cases hb : m < probs.length
    · rw [if_pos hb]
      have hl : (probs.take (m + 1)).sum = probs.sum := by rw [List.take_of_length_le (by omega)]
      rw [abs_le]
      constructor <;> rcases max_cases (1 - (probs.take m).sum) 0 with ⟨e1, e2⟩ | ⟨e1, e2⟩ <;> linarith
    · rw [if_neg hb]
      have : probs.getD m 0 = 0 := by
        rw [List.getD_eq_getElem?_getD, List.getElem?_eq_none (by omega)]; rfl
      rw [this]; simpa using hε

theorem categorical_samples {probs : List ℝ} (hp : ∀ p ∈ probs, 0 ≤ p) (hs : |probs.sum - 1| ≤ 1 / 1000000000000) :
    Samples (categorical probs) id (unif.map (catVal probs)) := by
  have hne : probs ≠ [] := by rintro rfl; norm_num at hs
  have h1 := one_draw (catVal probs) id (catVal probs) (measurable_catVal probs) (Filter.Eventually.of_forall fun x => rfl)
  have e : categorical probs = fun u n => .ok (catVal probs (u n)) (n + 1) := by
    funext u n
    unfold categorical
    rw [if_neg (by push Not; exact ⟨hs, hp⟩)]
    cases probs with
    | nil => exact absurd rfl hne
    | cons p ps => rfl
  rw [e]; exact h1

end Ideal
end Verif
