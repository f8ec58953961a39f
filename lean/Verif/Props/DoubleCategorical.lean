import Verif.Model.DoubleCategorical
import Verif.Props.DoubleTimes

/-!
# C144: categorical sampling in double arithmetic
-/

namespace Verif
namespace Dbl

/-- the loop: the computed sums `s` before the category returned are below the draw, and unless it is the last one the sum including
it is not. -/
theorem catLoop_spec (u : ℚ) : ∀ (ps pre : List ℚ) (sum ε : ℚ), 0 ≤ ε → (∀ p ∈ ps, 0 ≤ p ∧ IsDouble p) → IsDouble sum →
    0 ≤ pre.sum → pre.sum + ps.sum ≤ 3 / 2 → ε + 2 * ps.length / 2 ^ 53 ≤ 1 / 4 → |sum - pre.sum| ≤ ε → pre ≠ [] →
    (∀ pl, pre.getLast? = some pl → pl = 0 → sum < u) → (pre.take (pre.length - 1)).sum < u + ε →
    ∃ k p, catLoop fl53 u ps sum pre.length = k ∧ (pre ++ ps)[k]? = some p ∧
      ((pre ++ ps).take k).sum < u + (ε + 2 * ps.length / 2 ^ 53) ∧
      (k + 1 < (pre ++ ps).length → u ≤ ((pre ++ ps).take (k + 1)).sum + (ε + 2 * ps.length / 2 ^ 53)) ∧
      (p = 0 → k + 1 = (pre ++ ps).length) := by
  intro ps
  induction ps with
  | nil =>
    intro pre sum ε hε _ _ _ _ _ herr hne hz hlt
    have hpos : 0 < pre.length := List.length_pos_iff.2 hne
    refine ⟨pre.length - 1, pre.getLast hne, rfl, ?_, ?_, ?_, ?_⟩
    · rw [List.append_nil, ← List.getLast?_eq_getElem?, List.getLast?_eq_some_getLast]
    · simpa using hlt
    · intro h; rw [List.append_nil] at h; omega
    · intro _; rw [List.append_nil]; omega
  | cons q ps ih =>
    intro pre sum ε hε hps hd h0 h1 h2 herr hne hz hlt
    have hpos : 0 < pre.length := List.length_pos_iff.2 hne
    obtain ⟨hq0, hqd⟩ := hps q List.mem_cons_self
    have hsum0 : 0 ≤ ps.sum := List.sum_nonneg fun x hx => (hps x (List.mem_cons_of_mem _ hx)).1
    rw [List.sum_cons] at h1
    rw [List.length_cons] at h2
    push_cast at h2
    have hlen : (0:ℚ) ≤ ps.length := Nat.cast_nonneg _
    by_cases hu : u > sum
    · have hstep : catLoop fl53 u (q :: ps) sum pre.length = catLoop fl53 u ps (fl53 (sum + q)) (pre ++ [q]).length := by
        simp only [catLoop, if_pos hu, List.length_append, List.length_singleton]
      have hε1 : ε ≤ 1 / 4 := by
        have : 0 ≤ 2 * ((ps.length : ℚ) + 1) / 2 ^ 53 := by positivity
        linarith
      have herr' : |fl53 (sum + q) - (pre ++ [q]).sum| ≤ ε + 2 / 2 ^ 53 := by
        rw [List.sum_append, List.sum_singleton]
        have a := fl53_rel (sum + q)
        have b := abs_sub_le (fl53 (sum + q)) (sum + q) (pre.sum + q)
        rw [add_sub_add_right_eq_sub] at b
        have c : |sum + q| ≤ 2 := by
          have := abs_le.mp herr
          rw [abs_le]; constructor <;> linarith
        have d : |sum + q| / 2 ^ 53 ≤ 2 / 2 ^ 53 := by gcongr
        linarith
      obtain ⟨k, p, g1, g2, g3, g4, g5⟩ := ih (pre ++ [q]) (fl53 (sum + q)) (ε + 2 / 2 ^ 53) (by positivity)
        (fun x hx => hps x (List.mem_cons_of_mem _ hx)) (fl53_nearest _).1 (by rw [List.sum_append, List.sum_singleton]; linarith)
        (by rw [List.sum_append, List.sum_singleton]; linarith) (by
          have : ε + 2 / 2 ^ 53 + 2 * (ps.length : ℚ) / 2 ^ 53 = ε + 2 * (ps.length + 1) / 2 ^ 53 := by ring
          linarith) herr' (by simp)
        (by
          intro pl h hp0
          rw [List.getLast?_append, List.getLast?_singleton] at h
          simp at h
          subst h
          rw [hp0, add_zero, fl53_fix hd]
          exact hu)
        (by
          simp only [List.length_append, List.length_singleton, Nat.add_sub_cancel, List.take_left]
          have := (abs_le.mp herr).1
          have : (0:ℚ) < 2 / 2 ^ 53 := by norm_num
          linarith)
      have e : ε + 2 / 2 ^ 53 + 2 * (ps.length : ℚ) / 2 ^ 53 = ε + 2 * ((q :: ps).length : ℚ) / 2 ^ 53 := by
        rw [List.length_cons]; push_cast; ring
      rw [e] at g3 g4
      rw [List.append_assoc, List.singleton_append] at g2 g3 g4 g5
      exact ⟨k, p, hstep.trans g1, g2, g3, g4, g5⟩
    · have hlast := List.getLast?_eq_some_getLast hne
      have hidx : (pre ++ q :: ps)[pre.length - 1]? = some (pre.getLast hne) := by
        rw [List.getElem?_append_left (by omega), ← List.getLast?_eq_getElem?, hlast]
      have hext : (0:ℚ) ≤ 2 * ((q :: ps).length : ℚ) / 2 ^ 53 := by positivity
      refine ⟨pre.length - 1, pre.getLast hne, ?_, hidx, ?_, ?_, ?_⟩
      · simp only [catLoop, if_neg hu]
      · rw [List.take_append_of_le_length (by omega)]; linarith
      · intro _
        rw [show pre.length - 1 + 1 = pre.length by omega, List.take_left]
        have := (abs_le.mp herr).2
        rw [gt_iff_lt, not_lt] at hu
        linarith
      · intro hz0
        exact absurd (hz _ hlast hz0) hu

/-- **C144** (partial): probabilities that are doubles, at least zero, with a sum of at most `1.5`, at most `2^49` of them, a raw random
number other than zero.  The call returns a category `k`; the draw `u`, the double nearest to the quotient, lies between the exact sum of the
probabilities before `k` and (unless `k` is the last category) that including `k`, up to `2 n 2^-53`; and `k` has a positive probability
unless it is the last category.  Missing: the last category (`C144_impossible_last`) and the raw number zero
(`C42_zero_draw_returns_impossible_category`). -/
theorem C144_category_partial (ps : List ℚ) (total : ℚ) (r : ℕ) (hne : ps ≠ []) (hps : ∀ p ∈ ps, 0 ≤ p ∧ IsDouble p)
    (hsum : ps.sum ≤ 3 / 2) (hlen : ps.length ≤ 2 ^ 49) (htot : |fl53 (total - 1)| ≤ 1 / 1000000000000) (hr : 0 < r) :
    ∃ k p u, sampleCategorical fl53 total ps r = .ok k () ∧ u = fl53 ((r : ℚ) / 2147483647) ∧ ps[k]? = some p ∧
      (ps.take k).sum < u + 2 * ps.length / 2 ^ 53 ∧
      (k + 1 < ps.length → u ≤ (ps.take (k + 1)).sum + 2 * ps.length / 2 ^ 53) ∧
      (p = 0 → k + 1 = ps.length) := by
  rcases ps with _ | ⟨p0, ps⟩
  · exact absurd rfl hne
  have hany : (p0 :: ps).any (fun p => decide (p < 0)) = false := by
    rw [List.any_eq_false]
    intro p hp
    simpa using (hps p hp).1
  obtain ⟨u, hu⟩ : ∃ u, u = fl53 ((r : ℚ) / 2147483647) := ⟨_, rfl⟩
  have hu0 : 0 < u := by
    have hx : 0 < (r : ℚ) / 2147483647 := by
      have : (0:ℚ) < r := by exact_mod_cast hr
      positivity
    have h := fl53_rel ((r : ℚ) / 2147483647)
    rw [abs_of_pos hx, ← hu] at h
    have := (abs_le.mp h).1
    have : (r : ℚ) / 2147483647 / 2 ^ 53 < (r : ℚ) / 2147483647 := div_lt_self hx (by norm_num)
    linarith
  have hs : sampleCategorical fl53 total (p0 :: ps) r = .ok (catLoop fl53 u ps p0 1) () := by
    unfold sampleCategorical
    rw [if_neg]
    · rw [hu]
    · rw [hany]
      simp only [Bool.false_eq_true, or_false, gt_iff_lt, not_lt]
      exact htot
  obtain ⟨hp0, hp0d⟩ := hps p0 List.mem_cons_self
  have hl2 : (ps.length : ℚ) + 1 ≤ 2 ^ 49 := by
    rw [List.length_cons] at hlen
    exact_mod_cast hlen
  rw [List.sum_cons] at hsum
  obtain ⟨k, p, g1, g2, g3, g4, g5⟩ := catLoop_spec u ps [p0] p0 0 le_rfl (fun x hx => hps x (List.mem_cons_of_mem _ hx)) hp0d
    (by simpa using hp0) (by simpa using hsum) (by
      rw [zero_add, div_le_iff₀ (by norm_num)]
      linarith) (by simp) (by simp) (by
      intro pl h h0
      simp at h
      rw [h, h0]; exact hu0) (by simpa using hu0)
  rw [List.singleton_append] at g2 g3 g4 g5
  have hle : 0 + 2 * (ps.length : ℚ) / 2 ^ 53 ≤ 2 * ((p0 :: ps).length : ℚ) / 2 ^ 53 := by
    rw [zero_add, List.length_cons]
    push_cast
    gcongr
    linarith
  refine ⟨k, p, u, ?_, hu, g2, by linarith, fun h => ?_, g5⟩
  · rw [hs]
    rw [List.length_singleton] at g1
    rw [g1]
  · have := g4 h
    linarith

/-- **C144** (negation): ten probabilities of one tenth and one of zero.  If `random()` returns its largest value, the category of
probability zero is returned: the computed sum of the ten is less than one. -/
theorem C144_impossible_last : sampleCategorical fl53 1 (List.replicate 10 tenth ++ [0]) 2147483647 = .ok 10 () := by
  obtain ⟨-, h2, h3, h4, h5, h6, h7, h8, h9, h10, -⟩ := tenth_sums
  have h1 : fl53 1 = 1 := by simpa using fl53_pow 0
  have h0 : fl53 0 = 0 := fl53_zero
  have ht : (0:ℚ) < tenth := by norm_num [tenth]
  have ht1 : tenth < 1 := by norm_num [tenth]
  unfold sampleCategorical
  rw [if_neg]
  · simp only [List.replicate, List.cons_append, List.nil_append]
    have : fl53 ((2147483647 : ℕ) / 2147483647) = 1 := by
      rw [show (((2147483647 : ℕ) : ℚ) / 2147483647) = 1 by norm_num, h1]
    rw [this]
    simp only [catLoop, h2, h3, h4, h5, h6, h7, h8, h9, h10]
    simp only [gt_iff_lt, if_pos ht1]
    norm_num
  · simp only [sub_self, h0, abs_zero]
    simp [List.replicate, ht.le]

/-- a case: two halves. -/
example : ∃ k p u, sampleCategorical fl53 1 [1 / 2, 1 / 2] 2147483647 = .ok k () ∧ u = fl53 (((2147483647 : ℕ) : ℚ) / 2147483647) ∧
    ([1 / 2, 1 / 2] : List ℚ)[k]? = some p ∧ p ≠ 0 := by
  have hd : IsDouble (1 / 2) := by
    have := (fl53_nearest ((2:ℚ) ^ (-1 : ℤ))).1
    rw [fl53_pow] at this
    norm_num at this ⊢
    exact this
  obtain ⟨k, p, u, h1, h2, h3, -⟩ := C144_category_partial [1 / 2, 1 / 2] 1 2147483647 (by simp) (by
    intro p hp; simp at hp; rw [hp]; exact ⟨by norm_num, by simpa using hd⟩) (by norm_num) (by simp) (by
    rw [sub_self, fl53_zero]; norm_num) (by norm_num)
  refine ⟨k, p, u, h1, h2, h3, ?_⟩
  have := List.mem_of_getElem? h3
  simp at this
  rw [this]; norm_num

end Dbl
end Verif
