import Verif.Model.MvDouble
import Verif.Lemmas.DoubleStats

/-! Error analysis of the multivariate streaming estimator. -/

namespace Verif

theorem outerInnerF_fold (fl : ℚ → ℚ) {d : Nat} (v : Fin d → ℚ) (i : Fin d) (L : List (Fin d)) : ∀ (A : Fin d → Fin d → ℚ) (a b : Fin d),
    L.foldl (outerInnerF fl v i) A a b =
      if (a = i ∧ i ≤ b ∧ b ∈ L) ∨ (b = i ∧ i ≤ a ∧ a ∈ L) then fl (v a * v b) else A a b := by
  induction L with
  | nil => intro A a b; simp
  | cons j L ih =>
    intro A a b
    rw [List.foldl_cons, ih]
    by_cases h1 : (a = i ∧ i ≤ b ∧ b ∈ L) ∨ (b = i ∧ i ≤ a ∧ a ∈ L)
    · rw [if_pos h1, if_pos]
      rcases h1 with ⟨x, y, z⟩ | ⟨x, y, z⟩
      · exact Or.inl ⟨x, y, List.mem_cons_of_mem _ z⟩
      · exact Or.inr ⟨x, y, List.mem_cons_of_mem _ z⟩
    · rw [if_neg h1]
      unfold outerInnerF
      by_cases hij : i ≤ j
      · rw [if_pos hij]
        simp only
        by_cases h2 : a = j ∧ b = i
        · obtain ⟨rfl, rfl⟩ := h2
          simp [hij, mul_comm]
        · rw [if_neg h2]
          by_cases h3 : a = i ∧ b = j
          · obtain ⟨rfl, rfl⟩ := h3
            rw [if_pos ⟨rfl, rfl⟩, if_pos (Or.inl ⟨rfl, hij, by simp⟩)]
          · rw [if_neg h3, if_neg]
            rintro (⟨x, y, z⟩ | ⟨x, y, z⟩)
            · rcases List.mem_cons.1 z with z | z
              · exact h3 ⟨x, z⟩
              · exact h1 (Or.inl ⟨x, y, z⟩)
            · rcases List.mem_cons.1 z with z | z
              · exact h2 ⟨z, x⟩
              · exact h1 (Or.inr ⟨x, y, z⟩)
      · rw [if_neg hij, if_neg]
        rintro (⟨x, y, z⟩ | ⟨x, y, z⟩)
        · rcases List.mem_cons.1 z with z | z
          · exact hij (z ▸ y)
          · exact h1 (Or.inl ⟨x, y, z⟩)
        · rcases List.mem_cons.1 z with z | z
          · exact hij (z ▸ y)
          · exact h1 (Or.inr ⟨x, y, z⟩)

theorem outerF_fold (fl : ℚ → ℚ) {d : Nat} (v : Fin d → ℚ) (L : List (Fin d)) : ∀ (A : Fin d → Fin d → ℚ) (a b : Fin d),
    L.foldl (fun A i => (List.finRange d).foldl (outerInnerF fl v i) A) A a b =
      if (a ∈ L ∧ a ≤ b) ∨ (b ∈ L ∧ b ≤ a) then fl (v a * v b) else A a b := by
  induction L with
  | nil => intro A a b; simp
  | cons i L ih =>
    intro A a b
    rw [List.foldl_cons, ih, outerInnerF_fold]
    simp only [List.mem_finRange, and_true]
    by_cases h1 : (a ∈ L ∧ a ≤ b) ∨ (b ∈ L ∧ b ≤ a)
    · rw [if_pos h1, if_pos]
      rcases h1 with ⟨x, y⟩ | ⟨x, y⟩
      · exact Or.inl ⟨List.mem_cons_of_mem _ x, y⟩
      · exact Or.inr ⟨List.mem_cons_of_mem _ x, y⟩
    · rw [if_neg h1]
      by_cases h2 : (a = i ∧ i ≤ b) ∨ (b = i ∧ i ≤ a)
      · rw [if_pos h2, if_pos]
        rcases h2 with ⟨rfl, y⟩ | ⟨rfl, y⟩
        · exact Or.inl ⟨by simp, y⟩
        · exact Or.inr ⟨by simp, y⟩
      · rw [if_neg h2, if_neg]
        rintro (⟨x, y⟩ | ⟨x, y⟩)
        · rcases List.mem_cons.1 x with rfl | x
          · exact h2 (Or.inl ⟨rfl, y⟩)
          · exact h1 (Or.inl ⟨x, y⟩)
        · rcases List.mem_cons.1 x with rfl | x
          · exact h2 (Or.inr ⟨rfl, y⟩)
          · exact h1 (Or.inr ⟨x, y⟩)

/-- the outer product in doubles. -/
theorem outerProductF_apply (fl : ℚ → ℚ) {d : Nat} (v : Fin d → ℚ) (i j : Fin d) : outerProductF fl v i j = fl (v i * v j) := by
  unfold outerProductF
  rw [Matrix.of_apply, outerF_fold, if_pos]
  simp only [List.mem_finRange, true_and]
  exact le_total i j

namespace MLEdF

/-- products of near values. -/
theorem prod_near {w M N c x y x' y' : ℚ} (hw : 0 ≤ w) (hM : 0 ≤ M) (hN : 0 ≤ N) (hc0 : 0 ≤ c) (hx : |x| ≤ M) (hx' : |x'| ≤ N)
    (hc : c * w ≤ 1 / 8) (h : |y - x| ≤ c * w * M) (h' : |y' - x'| ≤ c * w * N) :
    |y * y' - x * x'| ≤ (2 * c + c / 8) * w * (M * N) := by
  have e : y * y' - x * x' = (y - x) * x' + x * (y' - x') + (y - x) * (y' - x') := by ring
  rw [e]
  have h1 : |(y - x) * x'| ≤ c * w * M * N := by
    rw [abs_mul]; exact mul_le_mul h hx' (abs_nonneg _) (by positivity)
  have h2 : |x * (y' - x')| ≤ M * (c * w * N) := by
    rw [abs_mul]; exact mul_le_mul hx h' (abs_nonneg _) hM
  have h3 : |(y - x) * (y' - x')| ≤ c * w * M * (1 / 8 * N) := by
    rw [abs_mul]
    exact mul_le_mul h (h'.trans (mul_le_mul_of_nonneg_right hc hN)) (abs_nonneg _) (by positivity)
  have h4 := abs_add_le ((y - x) * x' + x * (y' - x')) ((y - x) * (y' - x'))
  have h5 := abs_add_le ((y - x) * x') (x * (y' - x'))
  calc _ ≤ c * w * M * N + M * (c * w * N) + c * w * M * (1 / 8 * N) := by linarith
    _ = _ := by ring

/-- the mean computed from a sum with a small error. -/
theorem mean_near {fl : ℚ → ℚ} {u n S s M : ℚ} (hfl : ∀ z, |fl z - z| ≤ |z| * u) (hu : 0 ≤ u) (hM : 0 ≤ M) (hn : 1 ≤ n)
    (hw : n * u ≤ 1 / 1000) (hS : |S| ≤ n * M) (hs : |s - S| ≤ n ^ 2 * u * M) : |fl (s / n) - S / n| ≤ (n + 2) * u * M :=
  (MLE1.moments_near (Q := 0) (q := 0) hfl hu hM hn hw hS hs le_rfl (by positivity) (by simp; positivity)).1

set_option maxHeartbeats 1000000 in
/-- a covariance computed from sums with small errors. -/
theorem cov_near {fl : ℚ → ℚ} {u n S s S' s' Q q M N : ℚ} (hfl : ∀ z, |fl z - z| ≤ |z| * u) (hu : 0 ≤ u) (hM : 0 ≤ M) (hN : 0 ≤ N)
    (hn : 1 ≤ n) (hw : n * u ≤ 1 / 1000) (hS : |S| ≤ n * M) (hs : |s - S| ≤ n ^ 2 * u * M) (hS' : |S'| ≤ n * N)
    (hs' : |s' - S'| ≤ n ^ 2 * u * N) (hQ : |Q| ≤ n * (M * N)) (hq : |q - Q| ≤ 3 * n ^ 2 * u * (M * N)) :
    |fl (fl (fl (q / n) - fl (fl (fl (s * s') * 2) / (n * n))) + fl (fl (s / n) * fl (s' / n))) - (Q / n - S / n * (S' / n))| ≤
      40 * n * u * (M * N) := by
  have hm1 := mean_near hfl hu hM hn hw hS hs
  have hm1' := mean_near hfl hu hN hn hw hS' hs'
  have hn0 : 0 < n := by linarith
  obtain ⟨w, hwdef⟩ : ∃ w, w = n * u := ⟨_, rfl⟩
  have hw0 : 0 ≤ w := by rw [hwdef]; positivity
  have huw : u ≤ w := by rw [hwdef]; nlinarith
  rw [← hwdef] at hw
  have hX : 0 ≤ M * N := by positivity
  have ha : |S / n| ≤ M := by
    rw [abs_div, abs_of_pos hn0, div_le_iff₀ hn0]; linarith
  have hA : |S' / n| ≤ N := by
    rw [abs_div, abs_of_pos hn0, div_le_iff₀ hn0]; linarith
  have hb : |Q / n| ≤ 1 * (M * N) := by
    rw [abs_div, abs_of_pos hn0, div_le_iff₀ hn0]; linarith
  have hb' : |q / n - Q / n| ≤ 3 * w * (M * N) := by
    rw [← sub_div, abs_div, abs_of_pos hn0, div_le_iff₀ hn0, hwdef]
    nlinarith
  have haa : |S / n * (S' / n)| ≤ 1 * (M * N) := by
    rw [abs_mul, one_mul]; exact mul_le_mul ha hA (abs_nonneg _) hM
  have hm : |fl (s / n) - S / n| ≤ 3 * w * M := by
    refine hm1.trans ?_
    apply mul_le_mul_of_nonneg_right _ hM
    rw [hwdef]; nlinarith
  have hm' : |fl (s' / n) - S' / n| ≤ 3 * w * N := by
    refine hm1'.trans ?_
    apply mul_le_mul_of_nonneg_right _ hN
    rw [hwdef]; nlinarith
  have hmm := prod_near hw0 hM hN (by norm_num) ha hA (by linarith) hm hm'
  have hmm7 : |fl (s / n) * fl (s' / n) - S / n * (S' / n)| ≤ 7 * w * (M * N) :=
    hmm.trans (by nlinarith [mul_nonneg hw0 hX])
  have hC := MLE1.fl_near hfl hu huw hX haa zero_le_one (by linarith) hmm7
  have hA := MLE1.fl_near hfl hu huw hX hb zero_le_one (by linarith) hb'
  have hss : |s * s' - S * S'| ≤ 3 * w * (n * n * (M * N)) := by
    have h1 : |s - S| ≤ 1 * w * (n * M) := by rw [hwdef]; linarith
    have h1' : |s' - S'| ≤ 1 * w * (n * N) := by rw [hwdef]; linarith
    have := prod_near hw0 (by positivity : 0 ≤ n * M) (by positivity : 0 ≤ n * N) zero_le_one hS hS' (by linarith) h1 h1'
    refine this.trans ?_
    have : 0 ≤ w * (n * n * (M * N)) := by positivity
    nlinarith
  have hY : 0 ≤ n * n * (M * N) := by positivity
  have hSS : |S * S'| ≤ 1 * (n * n * (M * N)) := by
    rw [abs_mul]
    calc |S| * |S'| ≤ (n * M) * (n * N) := mul_le_mul hS hS' (abs_nonneg _) (by positivity)
      _ = _ := by ring
  have h1 := MLE1.fl_near hfl hu huw hY hSS zero_le_one (by linarith) hss
  have h2 : |fl (s * s') * 2 - S * S' * 2| ≤ 10 * w * (n * n * (M * N)) := by
    rw [← sub_mul, abs_mul, abs_two]; linarith
  have hSS2 : |S * S' * 2| ≤ 2 * (n * n * (M * N)) := by
    rw [abs_mul, abs_two]; linarith
  have h3 := MLE1.fl_near hfl hu huw hY hSS2 (by norm_num) (by linarith) h2
  have hnn : 0 < n * n := by positivity
  have h4 : |fl (fl (s * s') * 2) / (n * n) - 2 * (S / n * (S' / n))| ≤ 13 * w * (M * N) := by
    have e : 2 * (S / n * (S' / n)) = S * S' * 2 / (n * n) := by field_simp
    rw [e, ← sub_div, abs_div, abs_of_pos hnn, div_le_iff₀ hnn]
    nlinarith
  have haa2 : |2 * (S / n * (S' / n))| ≤ 2 * (M * N) := by
    rw [abs_mul, abs_two]; linarith
  have hB := MLE1.fl_near hfl hu huw hX haa2 (by norm_num) (by linarith) h4
  have h5 : |(fl (q / n) - fl (fl (fl (s * s') * 2) / (n * n))) - (Q / n - 2 * (S / n * (S' / n)))| ≤ 21 * w * (M * N) := by
    have e : (fl (q / n) - fl (fl (fl (s * s') * 2) / (n * n))) - (Q / n - 2 * (S / n * (S' / n))) =
      (fl (q / n) - Q / n) - (fl (fl (fl (s * s') * 2) / (n * n)) - 2 * (S / n * (S' / n))) := by ring
    rw [e]
    refine (abs_sub _ _).trans ?_
    linarith
  have h6 : |Q / n - 2 * (S / n * (S' / n))| ≤ 3 * (M * N) := by
    refine (abs_sub _ _).trans ?_
    linarith
  have hD := MLE1.fl_near hfl hu huw hX h6 (by norm_num) (by linarith) h5
  have h7 : |fl (fl (q / n) - fl (fl (fl (s * s') * 2) / (n * n))) + fl (fl (s / n) * fl (s' / n)) - (Q / n - S / n * (S' / n))| ≤
      34 * w * (M * N) := by
    have e : fl (fl (q / n) - fl (fl (fl (s * s') * 2) / (n * n))) + fl (fl (s / n) * fl (s' / n)) - (Q / n - S / n * (S' / n)) =
      (fl (fl (q / n) - fl (fl (fl (s * s') * 2) / (n * n))) - (Q / n - 2 * (S / n * (S' / n)))) +
        (fl (fl (s / n) * fl (s' / n)) - S / n * (S' / n)) := by ring
    rw [e]
    refine (abs_add_le _ _).trans ?_
    linarith
  have h8 : |Q / n - S / n * (S' / n)| ≤ 2 * (M * N) := by
    refine (abs_sub _ _).trans ?_
    linarith
  have hV := MLE1.fl_near hfl hu huw hX h8 (by norm_num) (by linarith) h7
  refine hV.trans ?_
  have : 0 ≤ w * (M * N) := by positivity
  rw [show 40 * n * u * (M * N) = 40 * (w * (M * N)) by rw [hwdef]; ring]
  nlinarith

end MLEdF
end Verif
