import Verif.Model.Stats
import Verif.Spec.Stats
import Verif.Lemmas.Grid
import Mathlib.Tactic.FieldSimp
import Mathlib.Tactic.Ring
import Mathlib.Tactic.Linarith
import Mathlib.Tactic.NormNum
import Mathlib.Algebra.Order.BigOperators.Group.List

namespace Verif

/-- evaluation of the double rounding: numbers between `n` and `n + 1/2` units in the last place round to `n`. -/
theorem fl53_eval {x : ℚ} (n : Nat) (r : ℚ) (e : Int) (hn : 2 ^ 52 ≤ n) (hn2 : n < 2 ^ 53) (hr : 0 ≤ r)
    (hr2 : r < 1 / 2) (hx : x = (n + r) * (2:ℚ) ^ e) : fl53 x = n * (2:ℚ) ^ e := by
  have h2 : (0:ℚ) < (2:ℚ) ^ e := by positivity
  have hnq : (2:ℚ) ^ 52 ≤ n := by exact_mod_cast hn
  have hnq2 : (n:ℚ) + 1 ≤ (2:ℚ) ^ 53 := by exact_mod_cast hn2
  have hpos : 0 < x := by rw [hx]; positivity
  have hlog : Int.log 2 x = e + 52 := by
    have l1 : (((2:ℕ):ℚ)) ^ (e + 52) ≤ x := by
      rw [hx, zpow_add₀ (by norm_num), mul_comm]
      push_cast
      refine mul_le_mul_of_nonneg_right ?_ h2.le
      norm_num at hnq2 ⊢
      have : (4503599627370496:ℚ) ≤ n := by exact_mod_cast hn
      linarith
    have l2 : x < (((2:ℕ):ℚ)) ^ (e + 53) := by
      rw [hx, zpow_add₀ (by norm_num), mul_comm ((((2:ℕ):ℚ)) ^ e)]
      push_cast
      refine mul_lt_mul_of_pos_right ?_ h2
      norm_num at hnq hnq2 ⊢; linarith
    have a1 := (Int.zpow_le_iff_le_log (b := 2) (by norm_num) hpos).1 l1
    have a2 := (Int.lt_zpow_iff_log_lt (b := 2) (by norm_num) hpos).1 l2
    omega
  rw [fl53, if_pos hpos, fl53pos, hlog]
  have he : e + 52 - 52 = e := by ring
  rw [he, hx, mul_div_assoc, div_self h2.ne', mul_one]
  have hfl : ⌊(n:ℚ) + r⌋ = n := by
    rw [Int.floor_eq_iff]; constructor
    · push_cast; linarith
    · push_cast; linarith
  have hre : roundEven ((n:ℚ) + r) = n := by
    unfold roundEven
    rw [if_pos, hfl]
    rw [Int.fract, hfl]; push_cast; linarith
  rw [hre]; push_cast; rfl

end Verif

namespace Verif.Spec
variable {K : Type} [Field K]

theorem sum_sq_dev (xs : List K) (m : K) :
    (xs.map fun x => (x - m) ^ 2).sum = (xs.map fun x => x * x).sum - 2 * m * xs.sum + xs.length * (m * m) := by
  induction xs with
  | nil => simp
  | cons x xs ih =>
    simp only [List.map_cons, List.sum_cons, ih, List.length_cons]
    push_cast; ring

variable [LinearOrder K] [IsStrictOrderedRing K]

theorem variance_eq (xs : List K) (h : xs ≠ []) :
    variance xs = (xs.map fun x => x * x).sum / xs.length - xs.sum * xs.sum * 2 / ((xs.length : K) * xs.length) +
      xs.sum / xs.length * (xs.sum / xs.length) := by
  have hn : (xs.length : K) ≠ 0 := by
    simpa using h
  unfold variance mean
  rw [sum_sq_dev]
  field_simp

theorem variance_nonneg (xs : List K) : 0 ≤ variance xs := by
  unfold variance
  refine div_nonneg (List.sum_nonneg ?_) (by positivity)
  intro a ha
  obtain ⟨x, _, rfl⟩ := List.mem_map.1 ha
  positivity

theorem sum_eq_zero_of_nonneg : ∀ (l : List K), (∀ a ∈ l, 0 ≤ a) → l.sum = 0 → ∀ a ∈ l, a = 0
  | [], _, _ => by simp
  | b :: l, h, hs => by
    have h1 := List.sum_nonneg (fun a ha => h a (List.mem_cons_of_mem _ ha))
    have h2 := h b (by simp)
    rw [List.sum_cons] at hs
    have hb : b = 0 := by linarith
    have hl : l.sum = 0 := by linarith
    intro a ha
    rcases List.mem_cons.1 ha with rfl | ha
    · exact hb
    · exact sum_eq_zero_of_nonneg l (fun a ha => h a (List.mem_cons_of_mem _ ha)) hl a ha

theorem variance_eq_zero (xs : List K) (h : xs ≠ []) :
    variance xs = 0 ↔ ∀ x ∈ xs, ∀ y ∈ xs, x = y := by
  have hn : (xs.length : K) ≠ 0 := by simpa using h
  constructor
  · intro hv
    unfold variance at hv
    rw [div_eq_zero_iff, or_iff_left hn] at hv
    have hz := sum_eq_zero_of_nonneg _ (by
      intro a ha
      obtain ⟨x, _, rfl⟩ := List.mem_map.1 ha
      positivity) hv
    have he : ∀ x ∈ xs, x = mean xs := by
      intro x hx
      have := hz _ (List.mem_map.2 ⟨x, hx, rfl⟩)
      have := pow_eq_zero_iff (two_ne_zero) |>.1 this
      linarith
    intro x hx y hy
    rw [he x hx, he y hy]
  · intro hall
    obtain ⟨c, l, rfl⟩ := List.exists_cons_of_ne_nil h
    have hc : ∀ x ∈ c :: l, x = c := fun x hx => hall x hx c (by simp)
    have hrep : c :: l = List.replicate (c :: l).length c := List.eq_replicate_of_mem hc
    have hm : mean (c :: l) = c := by
      unfold mean
      rw [div_eq_iff hn]
      conv_lhs => rw [hrep]
      rw [List.sum_replicate, nsmul_eq_mul, mul_comm]
    unfold variance
    rw [div_eq_zero_iff]; left
    rw [hm]
    apply List.sum_eq_zero
    intro a ha
    obtain ⟨x, hx, rfl⟩ := List.mem_map.1 ha
    rw [hc x hx]; simp

theorem mean_perm {xs ys : List K} (h : xs.Perm ys) : mean xs = mean ys := by
  unfold mean; rw [h.sum_eq, h.length_eq]

theorem variance_perm {xs ys : List K} (h : xs.Perm ys) : variance xs = variance ys := by
  unfold variance; rw [mean_perm h, h.length_eq, (h.map _).sum_eq]

end Verif.Spec
