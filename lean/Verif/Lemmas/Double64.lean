import Verif.Model.DoublePoisson
import Verif.Spec.Double64
import Verif.Lemmas.RelativeError
import Verif.Lemmas.DoubleTimestamp
import Verif.Lemmas.Grid
import Mathlib.Data.Nat.Count
import Mathlib.Analysis.SpecialFunctions.Exp
import Mathlib.Analysis.Complex.ExponentialBounds
import Mathlib.Analysis.SpecialFunctions.Pow.Real

/-! Double precision with gradual underflow. -/

namespace Verif
namespace Dbl
open Spec

theorem fl64_nonneg {x : ℚ} (h : 0 ≤ x) : 0 ≤ fl64 x := by
  unfold fl64
  split_ifs
  · exact fl53_nonneg h
  · have : (0:Int) ≤ roundEven (x * (2:ℚ) ^ (1074 : Int)) := by
      have := roundEven_mono (show (0:ℚ) ≤ x * (2:ℚ) ^ (1074 : Int) by positivity)
      have h0 := roundEven_int 0
      rw [Int.cast_zero] at h0
      rwa [h0] at this
    have : (0:ℚ) ≤ (roundEven (x * (2:ℚ) ^ (1074 : Int)) : ℚ) := by exact_mod_cast this
    positivity

theorem sub_le_normal {x : ℚ} (h : ¬ (2:ℚ) ^ (-1022 : Int) ≤ x) :
    (roundEven (x * (2:ℚ) ^ (1074 : Int)) : ℚ) * (2:ℚ) ^ (-1074 : Int) ≤ (2:ℚ) ^ (-1022 : Int) := by
  have h1 : x * (2:ℚ) ^ (1074 : Int) ≤ ((2 ^ 52 : ℤ) : ℚ) := by
    have : x * (2:ℚ) ^ (1074 : Int) ≤ (2:ℚ) ^ (-1022 : Int) * (2:ℚ) ^ (1074 : Int) :=
      mul_le_mul_of_nonneg_right (not_le.1 h).le (by positivity)
    refine this.trans (le_of_eq ?_)
    rw [← zpow_add₀ (by norm_num)]; norm_num
  have h2 := roundEven_mono h1
  rw [roundEven_int] at h2
  have h3 : (roundEven (x * (2:ℚ) ^ (1074 : Int)) : ℚ) ≤ ((2 ^ 52 : ℤ) : ℚ) := by exact_mod_cast h2
  refine (mul_le_mul_of_nonneg_right h3 (by positivity)).trans (le_of_eq ?_)
  rw [show ((2 ^ 52 : ℤ) : ℚ) = (2:ℚ) ^ (52 : Int) by norm_num, ← zpow_add₀ (by norm_num)]; norm_num

theorem fl64_mono {x y : ℚ} (h : x ≤ y) : fl64 x ≤ fl64 y := by
  unfold fl64
  split_ifs with a b b
  · exact Verif.fl53_mono h
  · exact absurd (a.trans h) b
  · refine (sub_le_normal a).trans ?_
    have := Verif.fl53_mono b
    rwa [fl53_pow] at this
  · have h1 := roundEven_mono (mul_le_mul_of_nonneg_right h (show (0:ℚ) ≤ (2:ℚ) ^ (1074 : Int) by positivity))
    have h2 : (roundEven (x * (2:ℚ) ^ (1074 : Int)) : ℚ) ≤ (roundEven (y * (2:ℚ) ^ (1074 : Int)) : ℚ) := by exact_mod_cast h1
    exact mul_le_mul_of_nonneg_right h2 (by positivity)

theorem fl64_normal {x : ℚ} (h : (2:ℚ) ^ (-1022 : Int) ≤ x) : fl64 x = fl53 x := by unfold fl64; rw [if_pos h]

theorem fl64_zero : fl64 0 = 0 := by
  unfold fl64
  rw [if_neg (not_le.2 (by positivity)), zero_mul]
  have h0 := roundEven_int 0
  rw [Int.cast_zero] at h0
  rw [h0]; simp

theorem fl64_pow {c : ℕ} (h : c ≤ 1074) : fl64 ((2:ℚ) ^ (-(c : Int))) = (2:ℚ) ^ (-(c : Int)) := by
  unfold fl64
  split_ifs with a
  · exact fl53_pow _
  · rw [← zpow_add₀ (by norm_num)]
    have e : (2:ℚ) ^ (-(c : Int) + 1074) = ((2 ^ (1074 - c) : ℤ) : ℚ) := by
      rw [show (-(c : Int) + 1074) = ((1074 - c : ℕ) : ℤ) by omega, zpow_natCast]; push_cast; rfl
    rw [e, roundEven_int, ← e, ← zpow_add₀ (by norm_num)]; congr 1; omega

theorem fl64_tiny {x : ℚ} (h : x ≤ (2:ℚ) ^ (-1075 : Int)) (h0 : 0 ≤ x) : fl64 x = 0 := by
  refine le_antisymm ?_ (fl64_nonneg h0)
  refine (fl64_mono h).trans (le_of_eq ?_)
  unfold fl64
  rw [if_neg]
  · rw [← zpow_add₀ (by norm_num), show (-1075 + 1074 : Int) = -1 by norm_num]
    have : roundEven ((2:ℚ) ^ (-1 : Int)) = 0 := by
      have e : (2:ℚ) ^ (-1 : Int) = 1 / 2 := by norm_num
      rw [e]
      have hf : ⌊(1 / 2 : ℚ)⌋ = 0 := by rw [Int.floor_eq_iff]; norm_num
      unfold roundEven
      rw [Int.fract, hf]; norm_num
    rw [this]; simp
  · rw [not_le]
    exact zpow_lt_zpow_right₀ (by norm_num) (by norm_num)

/-- fidelity: the rounding gives a double that no other double is nearer than. -/
theorem fl64_nearest {x : ℚ} (h : 0 ≤ x) : Nearest64 (x : ℝ) (fl64 x) := by
  unfold fl64
  split_ifs with a
  · obtain ⟨-, h2⟩ := fl53_nearest x
    have hlow := Verif.fl53_mono a
    rw [fl53_pow] at hlow
    refine ⟨?_, ?_⟩
    · have hx : 0 < x := lt_of_lt_of_le (by positivity) a
      have hl : (-1022 : Int) ≤ Int.log 2 x := (Int.zpow_le_iff_le_log (b := 2) (by norm_num) hx).1 (by exact_mod_cast a)
      have hd := fl53pos_double hx
      refine ⟨roundEven (x / (2:ℚ) ^ (Int.log 2 x - 52)), Int.log 2 x - 52, ?_, by omega, by unfold fl53; rw [if_pos hx]; rfl⟩
      have hlt := Int.lt_zpow_succ_log_self (b := 2) (by norm_num) x
      have h1 : x / (2:ℚ) ^ (Int.log 2 x - 52) ≤ ((2 ^ 53 : ℤ) : ℚ) := by
        rw [div_le_iff₀ (by positivity), show ((2 ^ 53 : ℤ) : ℚ) = (2:ℚ) ^ (53 : Int) by norm_num, ← zpow_add₀ (by norm_num)]
        rw [show (53 + (Int.log 2 x - 52)) = Int.log 2 x + 1 by ring]
        exact_mod_cast hlt.le
      have h3 := roundEven_mono h1
      rw [roundEven_int] at h3
      have h4 := roundEven_mono (show ((0 : ℤ) : ℚ) ≤ x / (2:ℚ) ^ (Int.log 2 x - 52) by rw [Int.cast_zero]; positivity)
      rw [roundEven_int] at h4
      rw [abs_of_nonneg h4]; exact h3
    · rintro z ⟨m, e, hm, -, hz⟩
      have := h2 z ⟨m, e, hm, hz⟩
      exact_mod_cast this
  · have hb := sub_le_normal a
    have hn : (0:Int) ≤ roundEven (x * (2:ℚ) ^ (1074 : Int)) := by
      have := roundEven_mono (show ((0 : ℤ) : ℚ) ≤ x * (2:ℚ) ^ (1074 : Int) by rw [Int.cast_zero]; positivity)
      rwa [roundEven_int] at this
    refine ⟨⟨roundEven (x * (2:ℚ) ^ (1074 : Int)), -1074, ?_, le_rfl, rfl⟩, ?_⟩
    · rw [abs_of_nonneg hn]
      have : (roundEven (x * (2:ℚ) ^ (1074 : Int)) : ℚ) ≤ (2:ℚ) ^ (52 : Int) := by
        have h1 := mul_le_mul_of_nonneg_right hb (show (0:ℚ) ≤ (2:ℚ) ^ (1074 : Int) by positivity)
        rw [mul_assoc, ← zpow_add₀ (by norm_num), ← zpow_add₀ (by norm_num)] at h1
        simpa using h1
      have h2 : roundEven (x * (2:ℚ) ^ (1074 : Int)) ≤ 2 ^ 52 := by
        have e : (2:ℚ) ^ (52 : Int) = ((2 ^ 52 : ℤ) : ℚ) := by norm_num
        rw [e] at this; exact_mod_cast this
      refine h2.trans (by norm_num)
    · rintro z ⟨m, e, -, he, hz⟩
      have hk := roundEven_near (x * (2:ℚ) ^ (1074 : Int)) (m * 2 ^ (e + 1074).toNat)
      have hz' : z * (2:ℚ) ^ (1074 : Int) = ((m * 2 ^ (e + 1074).toNat : ℤ) : ℚ) := by
        rw [hz, mul_assoc, ← zpow_add₀ (by norm_num)]
        push_cast
        rw [← zpow_natCast, Int.toNat_of_nonneg (by omega)]
      rw [← hz'] at hk
      obtain ⟨c, hc⟩ : ∃ c : ℚ, c = (2:ℚ) ^ (-1074 : Int) := ⟨_, rfl⟩
      have hc0 : 0 < c := by rw [hc]; positivity
      have hcc : (2:ℚ) ^ (1074 : Int) * c = 1 := by rw [hc, ← zpow_add₀ (by norm_num)]; norm_num
      have h5 := mul_le_mul_of_nonneg_right hk hc0.le
      have ea : ∀ t : ℚ, |t| * c = |t * c| := fun t => by rw [abs_mul, abs_of_pos hc0]
      rw [ea, ea, sub_mul, sub_mul, mul_assoc x, mul_assoc z, hcc, mul_one, mul_one] at h5
      rw [← hc]
      exact_mod_cast h5

/-- the doubles that are not negative are multiples of the smallest one. -/
theorem double64_multiple {y : ℚ} (h : IsDouble64 y) : ∃ k : ℤ, y = k * (2:ℚ) ^ (-1074 : Int) := by
  obtain ⟨m, e, -, he, rfl⟩ := h
  refine ⟨m * 2 ^ (e + 1074).toNat, ?_⟩
  push_cast
  rw [mul_assoc, ← zpow_natCast, Int.toNat_of_nonneg (by omega), ← zpow_add₀ (by norm_num)]
  congr 2; ring

theorem nearest64_nonneg {x : ℝ} {y : ℚ} (h : Nearest64 x y) (hx : 0 ≤ x) : 0 ≤ y := by
  have h0 := h.2 0 ⟨0, 0, by norm_num, by norm_num, by simp⟩
  rw [Rat.cast_zero, zero_sub, abs_neg, abs_of_nonneg hx] at h0
  have := (abs_le.1 h0).1
  have : (0:ℝ) ≤ (y : ℝ) := by linarith
  exact_mod_cast this

/-- below half of the smallest double, zero is the nearest double. -/
theorem nearest64_tiny {x : ℝ} {y : ℚ} (h : Nearest64 x y) (hx : 0 ≤ x) (ht : x < (2:ℝ) ^ (-1075 : Int)) : y = 0 := by
  obtain ⟨k, hk⟩ := double64_multiple h.1
  have h0 := h.2 0 ⟨0, 0, by norm_num, by norm_num, by simp⟩
  rw [Rat.cast_zero, zero_sub, abs_neg, abs_of_nonneg hx] at h0
  have h1 := (abs_le.1 h0).2
  have hn := nearest64_nonneg h hx
  have hlt : (y : ℝ) < (2:ℝ) ^ (-1074 : Int) := by
    have e : (2:ℝ) ^ (-1074 : Int) = 2 * (2:ℝ) ^ (-1075 : Int) := by
      rw [show (-1074 : Int) = 1 + -1075 by norm_num, zpow_add₀ (by norm_num), zpow_one]
    linarith
  have hlt' : y < (2:ℚ) ^ (-1074 : Int) := by
    have e : (2:ℝ) ^ (-1074 : Int) = (((2:ℚ) ^ (-1074 : Int) : ℚ) : ℝ) := by rw [Rat.cast_zpow]; norm_num
    rw [e] at hlt
    exact Rat.cast_lt.1 hlt
  have hp : (0:ℚ) < (2:ℚ) ^ (-1074 : Int) := by positivity
  rw [hk] at hlt' hn
  have k1 : (k : ℚ) < 1 := by
    by_contra hc
    have := mul_le_mul_of_nonneg_right (not_lt.1 hc) hp.le
    linarith
  have k0 : (0:ℚ) ≤ k := by
    by_contra hc
    have := mul_neg_of_neg_of_pos (not_le.1 hc) hp
    linarith
  have a1 : k < 1 := by exact_mod_cast k1
  have a0 : 0 ≤ k := by exact_mod_cast k0
  have : k = 0 := by omega
  rw [hk, this]; simp

/-- in the normal range the nearest double is within half a unit in the last place. -/
theorem nearest64_rel {x : ℝ} {y : ℚ} (h : Nearest64 x y) (hx : (2:ℝ) ^ (-1022 : Int) ≤ x) : |(y : ℝ) - x| ≤ x / 2 ^ 53 := by
  have hx0 : 0 < x := lt_of_lt_of_le (by positivity) hx
  obtain ⟨e, he⟩ : ∃ e, e = Int.log 2 x - 52 := ⟨_, rfl⟩
  have hl : (-1022 : Int) ≤ Int.log 2 x := (Int.zpow_le_iff_le_log (b := 2) (by norm_num) hx0).1 (by exact_mod_cast hx)
  have hlo := Int.zpow_log_le_self (b := 2) (by norm_num) hx0
  have hhi := Int.lt_zpow_succ_log_self (b := 2) (by norm_num) x
  have hp : (0:ℝ) < (2:ℝ) ^ e := by positivity
  have hlo' : (2:ℝ) ^ (52 : Int) * (2:ℝ) ^ e ≤ x := by
    rw [← zpow_add₀ (by norm_num), he, show (52 + (Int.log 2 x - 52)) = Int.log 2 x by ring]; exact_mod_cast hlo
  have hhi' : x < (2:ℝ) ^ (53 : Int) * (2:ℝ) ^ e := by
    rw [← zpow_add₀ (by norm_num), he, show (53 + (Int.log 2 x - 52)) = Int.log 2 x + 1 by ring]; exact_mod_cast hhi
  obtain ⟨q, hq⟩ : ∃ q, q = x / (2:ℝ) ^ e := ⟨_, rfl⟩
  have hxq : x = q * (2:ℝ) ^ e := by rw [hq, div_mul_cancel₀ _ hp.ne']
  have hq0 : 0 < q := by rw [hq]; positivity
  have hq1 : q < 2 ^ 53 := by rw [hq, div_lt_iff₀ hp]; exact_mod_cast hhi'
  have hr := abs_sub_round q
  have hrn : 0 ≤ round q := by
    rw [round_eq, Int.floor_nonneg]; linarith
  have hr1 : round q ≤ 2 ^ 53 := by
    have : (round q : ℝ) < ((2 ^ 53 + 1 : ℤ) : ℝ) := by
      have := (abs_le.1 hr).1
      push_cast; linarith
    have : round q < 2 ^ 53 + 1 := by exact_mod_cast this
    omega
  have hz := h.2 ((round q : ℚ) * (2:ℚ) ^ e) ⟨round q, e, by rw [abs_of_nonneg hrn]; exact hr1, by omega, rfl⟩
  refine hz.trans ?_
  push_cast
  rw [hxq, ← sub_mul, abs_mul, abs_of_pos hp, abs_sub_comm]
  have hb : (2:ℝ) ^ e ≤ q * (2:ℝ) ^ e / 2 ^ 52 := by
    rw [le_div_iff₀ (by norm_num), ← hxq, mul_comm]; exact_mod_cast hlo'
  have : |q - (round q : ℝ)| * (2:ℝ) ^ e ≤ 1 / 2 * (2:ℝ) ^ e := mul_le_mul_of_nonneg_right hr hp.le
  refine this.trans ?_
  calc 1 / 2 * (2:ℝ) ^ e ≤ 1 / 2 * (q * (2:ℝ) ^ e / 2 ^ 52) := by linarith
    _ = _ := by ring

end Dbl
end Verif
