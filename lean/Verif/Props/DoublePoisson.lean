import Verif.Lemmas.Double64
import Mathlib.Algebra.BigOperators.Group.Finset.Basic
import Mathlib.Algebra.Order.BigOperators.Ring.Finset

/-!
# C148: Poisson sampling in double arithmetic
-/

namespace Verif
namespace Dbl
open Spec RelErr

/-- bound on the computed product after `c` draws of at most one half. -/
def halves (c : ℕ) : ℚ := if c ≤ 1074 then (2:ℚ) ^ (-(c : Int)) else 0

theorem halves_nonneg (c : ℕ) : 0 ≤ halves c := by unfold halves; split_ifs <;> positivity

theorem fl64_halves (c : ℕ) : fl64 (halves c) = halves c := by
  unfold halves; split_ifs with h
  · exact fl64_pow h
  · exact fl64_zero

theorem fl64_half (c : ℕ) : fl64 (halves c * (1 / 2)) ≤ halves (c + 1) := by
  unfold halves
  split_ifs with h h' h'
  · rw [show (2:ℚ) ^ (-(c : Int)) * (1 / 2) = (2:ℚ) ^ (-((c + 1 : ℕ) : Int)) by
      rw [show (-((c + 1 : ℕ) : Int)) = -(c : Int) + -1 by push_cast; ring, zpow_add₀ (by norm_num)]; norm_num]
    exact (fl64_pow h').le
  · have hc : c = 1074 := by omega
    rw [hc]
    refine (fl64_tiny ?_ (by positivity)).le
    rw [show (-1075 : Int) = -((1074 : ℕ) : Int) + -1 by norm_num, zpow_add₀ (by norm_num)]; norm_num
  · rw [zero_mul, fl64_zero]; positivity
  · rw [zero_mul, fl64_zero]

theorem draw_bounds {r : ℕ} (hr : r ≤ 2147483647) : 0 ≤ fl64 ((r : ℚ) / 2147483647) ∧ fl64 ((r : ℚ) / 2147483647) ≤ 1 ∧
    (2 * r ≤ 2147483647 → fl64 ((r : ℚ) / 2147483647) ≤ 1 / 2) := by
  have hq : (r : ℚ) ≤ 2147483647 := by exact_mod_cast hr
  refine ⟨fl64_nonneg (by positivity), ?_, fun h => ?_⟩
  · have := fl64_mono (show (r : ℚ) / 2147483647 ≤ (2:ℚ) ^ (-((0 : ℕ) : Int)) by
      rw [div_le_iff₀ (by norm_num)]; simpa using hq)
    rw [fl64_pow (by norm_num)] at this
    simpa using this
  · have hq2 : 2 * (r : ℚ) ≤ 2147483647 := by exact_mod_cast h
    have := fl64_mono (show (r : ℚ) / 2147483647 ≤ (2:ℚ) ^ (-((1 : ℕ) : Int)) by
      rw [div_le_iff₀ (by norm_num)]; norm_num; linarith)
    rw [fl64_pow (by norm_num)] at this
    simpa using this

theorem prodD_nonneg (rand : ℕ → ℕ) (hr : ∀ i, rand i ≤ 2147483647) (n j : ℕ) : 0 ≤ prodD rand n j := by
  induction j with
  | zero => simp [prodD]
  | succ j ih => exact fl64_nonneg (mul_nonneg ih (draw_bounds (hr _)).1)

theorem prodD_halves (rand : ℕ → ℕ) (hr : ∀ i, rand i ≤ 2147483647) (n j : ℕ) :
    prodD rand n j ≤ halves (Nat.count (fun i => 2 * rand (n + i) ≤ 2147483647) j) := by
  induction j with
  | zero => simp [prodD, halves]
  | succ j ih =>
    obtain ⟨d0, d1, d2⟩ := draw_bounds (hr (n + j))
    have hp := prodD_nonneg rand hr n j
    rw [prodD, Nat.count_succ]
    split_ifs with h
    · refine (fl64_mono ?_).trans (fl64_half _)
      exact mul_le_mul ih (d2 h) d0 (halves_nonneg _)
    · rw [add_zero]
      refine (fl64_mono ?_).trans (fl64_halves _).le
      calc _ ≤ halves _ * 1 := mul_le_mul ih d1 d0 (halves_nonneg _)
        _ = _ := mul_one _

/-- **C148** (what is wrong): with a mean of 746 or more the sample does not depend on the mean, and for every mean it is less than the
number of draws until 1075 of them are at most one half.  (Such a sample is far below a mean of some thousands.) -/
theorem C148_mean_ignored (expD : ℚ → ℚ) (hexp : ∀ x : ℚ, x ≤ 0 → Nearest64 (Real.exp (x : ℝ)) (expD x)) (rand : ℕ → ℕ)
    (hr : ∀ i, rand i ≤ 2147483647) (n : ℕ) :
    (∀ mean mean', 746 ≤ mean → 746 ≤ mean' → poissonD expD rand mean n = poissonD expD rand mean' n) ∧
    ∀ mean N, 0 < mean → 1075 ≤ Nat.count (fun i => 2 * rand (n + i) ≤ 2147483647) N →
      ∃ k, k < N ∧ poissonD expD rand mean n = .ok k (n + k + 1) := by
  constructor
  · have hz : ∀ mean : ℚ, 746 ≤ mean → expD (-mean) = 0 := by
      intro mean h
      refine nearest64_tiny (hexp _ (by linarith)) (Real.exp_pos _).le ?_
      have hm : (746 : ℝ) ≤ (mean : ℝ) := by exact_mod_cast h
      refine (Real.lt_log_iff_exp_lt (by positivity)).1 ?_
      rw [Real.log_zpow]
      have := Real.log_two_lt_d9
      push_cast
      linarith
    intro mean mean' h h'
    unfold poissonD
    rw [hz mean h, hz mean' h', if_neg (by linarith), if_neg (by linarith)]
  · intro mean N h0 hN
    have hl := nearest64_nonneg (hexp (-mean) (by linarith)) (Real.exp_pos _).le
    have hN0 : 0 < N := by
      rcases Nat.eq_zero_or_pos N with h | h
      · rw [h] at hN; simp at hN
      · exact h
    have hp := prodD_halves rand hr n N
    have hh : halves (Nat.count (fun i => 2 * rand (n + i) ≤ 2147483647) N) = 0 := by unfold halves; rw [if_neg (by omega)]
    rw [hh] at hp
    have hex : ¬ prodD rand n (N - 1 + 1) > expD (-mean) := by
      rw [Nat.sub_add_cancel hN0]; exact not_lt.2 (hp.trans hl)
    have h : ∃ m, ¬ prodD rand n (m + 1) > expD (-mean) := ⟨_, hex⟩
    classical
    refine ⟨Nat.find h, ?_, ?_⟩
    · have := Nat.find_min' h hex
      omega
    · unfold poissonD
      rw [if_neg (not_le.2 h0), dif_pos h]

theorem draw_NN (r : ℕ) : NN 1 ((r : ℚ) / 2147483647) (fl64 ((r : ℚ) / 2147483647)) := by
  rcases Nat.eq_zero_or_pos r with h | h
  · subst h; simp [NN, fl64_zero]
  · have hr : (1:ℚ) ≤ r := by exact_mod_cast h
    rw [fl64_normal]
    · exact fl_NN (by positivity)
    · have h1 : (2:ℚ) ^ (-1022 : Int) ≤ (2:ℚ) ^ (-31 : Int) := zpow_le_zpow_right₀ (by norm_num) (by norm_num)
      refine h1.trans ?_
      rw [le_div_iff₀ (by norm_num)]
      norm_num
      linarith

theorem exp_normal {x : ℝ} (h : -708 ≤ x) : (2:ℝ) ^ (-1022 : Int) * (5 / 4) ≤ Real.exp x := by
  have h1 : Real.log ((2:ℝ) ^ (-1022 : Int) * (5 / 4)) ≤ x := by
    rw [Real.log_mul (by positivity) (by norm_num), Real.log_zpow]
    have := Real.log_two_gt_d9
    have h2 := Real.log_le_sub_one_of_pos (show (0:ℝ) < 5 / 4 by norm_num)
    push_cast
    linarith
  exact (Real.log_le_iff_le_exp (by positivity)).1 h1

/-- **C148** (partial): means up to 708.  The call returns `m` only if the exact product of the next `m` uniform draws exceeds `exp(-mean)`
and that of the next `m + 1` does not, up to `2 m + 3` relative errors of `2^-53`: the number of arrivals with independent unit-rate gaps
before the mean.  Means that are not positive are rejected without a draw.  Missing: greater means (`C148_mean_ignored`). -/
theorem C148_arrivals_partial (expD : ℚ → ℚ) (hexp : ∀ x : ℚ, x ≤ 0 → Nearest64 (Real.exp (x : ℝ)) (expD x)) (rand : ℕ → ℕ)
    (n : ℕ) (mean : ℚ) :
    (mean ≤ 0 → poissonD expD rand mean n = .throw .badArgument n) ∧
    (0 < mean → mean ≤ 708 → ∀ m n', poissonD expD rand mean n = .ok m n' → n' = n + m + 1 ∧
      Real.exp (-mean) * (1 - 1 / 2 ^ 53) ^ (2 * m + 1) < ∏ i ∈ Finset.range m, ((rand (n + i) : ℝ) / 2147483647) ∧
      (∏ i ∈ Finset.range (m + 1), ((rand (n + i) : ℝ) / 2147483647)) * (1 - 1 / 2 ^ 53) ^ (2 * m + 3) ≤ Real.exp (-mean)) := by
  refine ⟨fun h => by unfold poissonD; rw [if_pos h], fun h0 h1 m n' hm => ?_⟩
  have hm' := hm
  classical
  unfold poissonD at hm
  rw [if_neg (not_le.2 h0)] at hm
  split_ifs at hm with hex
  simp only [Res.ok.injEq] at hm
  obtain ⟨hm1, hm2⟩ := hm
  have hfind : ¬ prodD rand n (m + 1) > expD (-mean) := by rw [← hm1]; exact Nat.find_spec hex
  have hmin : ∀ j < m, prodD rand n (j + 1) > expD (-mean) := by
    intro j hj
    rw [← hm1] at hj
    exact not_not.1 (Nat.find_min hex hj)
  obtain ⟨l, hl⟩ : ∃ l, l = expD (-mean) := ⟨_, rfl⟩
  rw [← hl] at hfind hmin
  obtain ⟨E, hE⟩ : ∃ E : ℝ, E = Real.exp (-(mean : ℝ)) := ⟨_, rfl⟩
  have hnear : Nearest64 E l := by rw [hl, hE]; simpa using hexp (-mean) (by linarith)
  have hE0 : 0 < E := by rw [hE]; exact Real.exp_pos _
  have hEn : (2:ℝ) ^ (-1022 : Int) * (5 / 4) ≤ E := by
    rw [hE]; exact exp_normal (by have : (mean : ℝ) ≤ 708 := by exact_mod_cast h1
                                  linarith)
  have hsmall : (0:ℝ) < (2:ℝ) ^ (-1022 : Int) := by positivity
  have hrel := nearest64_rel hnear (by linarith)
  have hρ : ((ρ : ℚ) : ℝ) = 1 - 1 / 2 ^ 53 := by rw [ρ]; push_cast; rfl
  have hρ0 : (0:ℝ) < 1 - 1 / 2 ^ 53 := by norm_num
  -- the computed exponential
  obtain ⟨r1, r2⟩ := abs_le.1 hrel
  have l1 : E * (1 - 1 / 2 ^ 53) ≤ l := by
    have : E * (1 - 1 / 2 ^ 53) = E - E / 2 ^ 53 := by ring
    linarith
  have l2 : (l : ℝ) * (1 - 1 / 2 ^ 53) ≤ E := by
    have e1 : (l : ℝ) ≤ E * (1 + 1 / 2 ^ 53) := by
      have : E * (1 + 1 / 2 ^ 53) = E + E / 2 ^ 53 := by ring
      linarith
    refine (mul_le_mul_of_nonneg_right e1 hρ0.le).trans ?_
    rw [mul_assoc]; exact mul_le_of_le_one_right hE0.le (by norm_num)
  have lnR : (2:ℝ) ^ (-1022 : Int) < l := by
    have : (2:ℝ) ^ (-1022 : Int) * (5 / 4) * (1 - 1 / 2 ^ 53) ≤ l := (mul_le_mul_of_nonneg_right hEn hρ0.le).trans l1
    have e : (2:ℝ) ^ (-1022 : Int) * (5 / 4) * (1 - 1 / 2 ^ 53) = (2:ℝ) ^ (-1022 : Int) * ((5 / 4) * (1 - 1 / 2 ^ 53)) := by ring
    rw [e] at this
    have : (2:ℝ) ^ (-1022 : Int) * 1 < (2:ℝ) ^ (-1022 : Int) * ((5 / 4) * (1 - 1 / 2 ^ 53)) :=
      mul_lt_mul_of_pos_left (by norm_num) hsmall
    linarith
  have ln : (2:ℚ) ^ (-1022 : Int) < l := by
    have e : (2:ℝ) ^ (-1022 : Int) = (((2:ℚ) ^ (-1022 : Int) : ℚ) : ℝ) := by rw [Rat.cast_zpow]; norm_num
    rw [e] at lnR
    exact Rat.cast_lt.1 lnR
  -- the products
  obtain ⟨P, hP⟩ : ∃ P : ℕ → ℚ, P = fun j => ∏ i ∈ Finset.range j, ((rand (n + i) : ℚ) / 2147483647) := ⟨_, rfl⟩
  have hPc : ∀ j, ((P j : ℚ) : ℝ) = ∏ i ∈ Finset.range j, ((rand (n + i) : ℝ) / 2147483647) := by
    intro j; rw [hP]; push_cast; rfl
  have hPs : ∀ j, P (j + 1) = P j * ((rand (n + j) : ℚ) / 2147483647) := by
    intro j; rw [hP]; exact Finset.prod_range_succ _ _
  have hnn : ∀ j, j ≤ m → NN (2 * j) (P j) (prodD rand n j) := by
    intro j
    induction j with
    | zero => intro _; rw [hP]; simp [prodD, NN]
    | succ j ih =>
      intro hj
      have g := (ih (by omega)).mul (draw_NN (rand (n + j)))
      rw [← hPs] at g
      have hgt := hmin j (by omega)
      rw [prodD] at hgt ⊢
      have hnorm : (2:ℚ) ^ (-1022 : Int) ≤ prodD rand n j * fl64 ((rand (n + j) : ℚ) / 2147483647) := by
        by_contra hc
        have := fl64_mono (not_le.1 hc).le
        rw [show (-1022 : Int) = -((1022 : ℕ) : Int) by norm_num, fl64_pow (by norm_num)] at this
        rw [show (-1022 : Int) = -((1022 : ℕ) : Int) by norm_num] at ln
        exact absurd (hgt.trans_le this) (not_lt.2 ln.le)
      rw [fl64_normal hnorm]
      exact g.fl.mono (by omega)
  have hEq : Real.exp (-(mean : ℝ)) = E := hE.symm
  rw [hEq, ← hPc, ← hPc, ← hρ]
  refine ⟨by rw [← hm2, ← hm1], ?_, ?_⟩
  · -- the product of `m` draws
    have hlt1 : E < 1 := by rw [hE, Real.exp_lt_one_iff]; have : (0:ℝ) < mean := by exact_mod_cast h0
                            linarith
    rcases Nat.eq_zero_or_pos m with hz | hpos
    · rw [hz, hP]
      simp only [Finset.range_zero, Finset.prod_empty, Rat.cast_one, hρ]
      calc E * (1 - 1 / 2 ^ 53) ^ (2 * 0 + 1) ≤ E := mul_le_of_le_one_right hE0.le (by norm_num)
        _ < 1 := hlt1
    · have hgt := hmin (m - 1) (by omega)
      rw [Nat.sub_add_cancel hpos] at hgt
      have g := (hnn m le_rfl).2.2
      have h3 : l * ρ ^ (2 * m) < P m := lt_of_lt_of_le (mul_lt_mul_of_pos_right hgt (pow_pos ρ_pos _)) g
      have h4 : (l : ℝ) * (ρ : ℝ) ^ (2 * m) < (P m : ℝ) := by exact_mod_cast h3
      refine lt_of_le_of_lt ?_ h4
      rw [pow_succ', ← mul_assoc]
      rw [← hρ] at l1
      exact mul_le_mul_of_nonneg_right l1 (by rw [hρ]; positivity)
  · have g := (hnn m le_rfl).mul (draw_NN (rand (n + m)))
    rw [← hPs] at g
    rw [prodD, gt_iff_lt, not_lt] at hfind
    obtain ⟨y, hy⟩ : ∃ y, y = prodD rand n m * fl64 ((rand (n + m) : ℚ) / 2147483647) := ⟨_, rfl⟩
    rw [← hy] at g hfind
    have hyl : y * ρ ≤ l := by
      by_cases hc : (2:ℚ) ^ (-1022 : Int) ≤ y
      · rw [fl64_normal hc] at hfind
        have := (fl_NN g.nonneg).2.1
        rw [pow_one] at this
        exact this.trans hfind
      · have h5 : y * ρ ≤ y := mul_le_of_le_one_right g.nonneg ρ_le
        exact h5.trans ((not_le.1 hc).le.trans ln.le)
    have h6 : P (m + 1) * ρ ^ (2 * m + 2) ≤ l := by
      rw [show 2 * m + 2 = (2 * m + 1) + 1 by ring, pow_succ, ← mul_assoc]
      exact (mul_le_mul_of_nonneg_right g.2.1 ρ_pos.le).trans hyl
    have h7 : (P (m + 1) : ℝ) * (ρ : ℝ) ^ (2 * m + 2) ≤ (l : ℝ) := by exact_mod_cast h6
    rw [show 2 * m + 3 = (2 * m + 2) + 1 by ring, pow_succ, ← mul_assoc]
    have h8 : (P (m + 1) : ℝ) * (ρ : ℝ) ^ (2 * m + 2) * ρ ≤ l * ρ :=
      mul_le_mul_of_nonneg_right h7 (by rw [hρ]; exact hρ0.le)
    refine h8.trans ?_
    rw [hρ]; exact l2

/-- the hypothesis on `exp` is met: a nearest double exists for every number between zero and one. -/
theorem nearest64_exists (x : ℝ) (h0 : 0 ≤ x) (h1 : x ≤ 1) : ∃ y, Nearest64 x y := by
  obtain ⟨S, hS⟩ : ∃ S : Set ℚ, S = {z | IsDouble64 z ∧ |z| ≤ 2} := ⟨_, rfl⟩
  have hz : IsDouble64 0 := ⟨0, 0, by norm_num, by norm_num, by simp⟩
  have hfin : S.Finite := by
    refine ((Set.finite_Icc (-(2 ^ 1075) : ℤ) (2 ^ 1075)).image (fun k : ℤ => (k : ℚ) * (2:ℚ) ^ (-1074 : Int))).subset ?_
    intro z hz'
    rw [hS] at hz'
    obtain ⟨k, hk⟩ := double64_multiple hz'.1
    refine ⟨k, ?_, hk.symm⟩
    have h2 := abs_le.1 hz'.2
    have e : (k : ℚ) = z * (2:ℚ) ^ (1074 : Int) := by
      rw [hk, mul_assoc, ← zpow_add₀ (by norm_num)]; norm_num
    have p : (0:ℚ) ≤ (2:ℚ) ^ (1074 : Int) := by positivity
    have e2 : (2:ℚ) * (2:ℚ) ^ (1074 : Int) = 2 ^ 1075 := by
      rw [show (1074 : Int) = ((1074 : ℕ) : Int) by norm_num, zpow_natCast, ← pow_succ']
    constructor
    · have := mul_le_mul_of_nonneg_right h2.1 p
      rw [← e, neg_mul, e2] at this
      exact_mod_cast this
    · have := mul_le_mul_of_nonneg_right h2.2 p
      rw [← e, e2] at this
      exact_mod_cast this
  obtain ⟨y, hy, hmin⟩ := Set.exists_min_image S (fun z : ℚ => |(z : ℝ) - x|) hfin ⟨0, by rw [hS]; exact ⟨hz, by norm_num⟩⟩
  rw [hS] at hy
  refine ⟨y, hy.1, fun z hz' => ?_⟩
  by_cases hb : |z| ≤ 2
  · exact hmin z (by rw [hS]; exact ⟨hz', hb⟩)
  · refine (hmin 0 (by rw [hS]; exact ⟨hz, by norm_num⟩)).trans ?_
    have hb' : (2:ℝ) < |(z : ℝ)| := by
      have := not_le.1 hb
      exact_mod_cast this
    rw [Rat.cast_zero, zero_sub, abs_neg, abs_of_nonneg h0]
    have := abs_sub_abs_le_abs_sub (z : ℝ) x
    rw [abs_of_nonneg h0] at this
    linarith

/-- non-vacuity: with some `exp` as required and raw numbers that are all `2^29` (about a quarter) no mean of 746 or more
is told from another. -/
example : ∃ expD : ℚ → ℚ, (∀ x : ℚ, x ≤ 0 → Nearest64 (Real.exp (x : ℝ)) (expD x)) ∧
    poissonD expD (fun _ => 2 ^ 29) 746 0 = poissonD expD (fun _ => 2 ^ 29) 100000 0 := by
  have h : ∀ x : ℚ, ∃ y, x ≤ 0 → Nearest64 (Real.exp (x : ℝ)) y := by
    intro x
    by_cases hx : x ≤ 0
    · obtain ⟨y, hy⟩ := nearest64_exists (Real.exp x) (Real.exp_pos _).le (by
        rw [Real.exp_le_one_iff]; exact_mod_cast hx)
      exact ⟨y, fun _ => hy⟩
    · exact ⟨0, fun h => absurd h hx⟩
  choose expD hexp using h
  exact ⟨expD, hexp, (C148_mean_ignored expD hexp (fun _ => 2 ^ 29) (fun _ => by norm_num) 0).1 _ _ (by norm_num) (by norm_num)⟩

end Dbl
end Verif
