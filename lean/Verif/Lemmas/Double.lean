import Verif.Spec.Double
import Verif.Lemmas.Grid
import Mathlib.Tactic.FieldSimp
import Mathlib.Tactic.Ring
import Mathlib.Tactic.Positivity
import Mathlib.Tactic.Push

namespace Verif

theorem roundEven_half (y : ℚ) : |(roundEven y : ℚ) - y| ≤ 1 / 2 := by
  have h0 := Int.floor_add_fract y
  have h1 := Int.fract_nonneg y
  have h2 := Int.fract_lt_one y
  unfold roundEven
  split_ifs <;> (rw [abs_le]; push_cast; constructor <;> linarith)

theorem roundEven_near (y : ℚ) (k : Int) : |(roundEven y : ℚ) - y| ≤ |(k : ℚ) - y| := by
  by_cases hk : roundEven y = k
  · rw [hk]
  · have h := roundEven_half y
    have h1 : (1:ℚ) ≤ |(k : ℚ) - (roundEven y : ℚ)| := by
      have : (1:Int) ≤ |k - roundEven y| := Int.one_le_abs (by omega)
      exact_mod_cast this
    have h2 : |(k : ℚ) - (roundEven y : ℚ)| ≤ |(k : ℚ) - y| + |(roundEven y : ℚ) - y| := by
      have := abs_sub ((k : ℚ) - y) ((roundEven y : ℚ) - y)
      rwa [show (k : ℚ) - y - ((roundEven y : ℚ) - y) = k - roundEven y by ring] at this
    linarith

theorem IsDouble.neg {x : ℚ} (h : IsDouble x) : IsDouble (-x) := by
  obtain ⟨m, e, hm, rfl⟩ := h
  exact ⟨-m, e, by rwa [abs_neg], by push_cast; ring⟩

theorem isDouble_zero : IsDouble 0 := ⟨0, 0, by norm_num, by norm_num⟩

/-- a double that is at least `2^L` is a multiple of the unit in the last place of the binade of `2^L`. -/
theorem IsDouble.multiple {y : ℚ} (h : IsDouble y) {L : Int} (hy : (2:ℚ) ^ L ≤ y) : ∃ k : Int, y = k * (2:ℚ) ^ (L - 52) := by
  obtain ⟨m, e, hm, rfl⟩ := h
  by_cases he : L - 52 ≤ e
  · obtain ⟨n, hn⟩ := Int.eq_ofNat_of_zero_le (show 0 ≤ e - (L - 52) by omega)
    refine ⟨m * 2 ^ n, ?_⟩
    rw [show e = (n : Int) + (L - 52) by omega, zpow_add₀ (by norm_num)]
    push_cast
    rw [zpow_natCast]; ring
  · have hle : (m : ℚ) * 2 ^ e ≤ 2 ^ L := by
      have h1 : (m : ℚ) ≤ 2 ^ 53 := by exact_mod_cast (le_abs_self m).trans hm
      calc (m : ℚ) * 2 ^ e ≤ 2 ^ 53 * 2 ^ (L - 53) := by
            have h2 : (2:ℚ) ^ e ≤ 2 ^ (L - 53) := zpow_le_zpow_right₀ (by norm_num) (by omega)
            have h3 : (0:ℚ) < 2 ^ e := by positivity
            nlinarith [show (0:ℚ) < 2 ^ 53 by norm_num]
        _ = 2 ^ L := by rw [zpow_sub₀ (by norm_num)]; field_simp
    refine ⟨2 ^ 52, ?_⟩
    rw [le_antisymm hle hy, zpow_sub₀ (by norm_num)]
    push_cast; field_simp

theorem fl53pos_double {x : ℚ} (hx : 0 < x) : IsDouble (fl53pos x) := by
  refine ⟨roundEven (x / (2:ℚ) ^ (Int.log 2 x - 52)), Int.log 2 x - 52, ?_, rfl⟩
  have hp : (0:ℚ) < (2:ℚ) ^ (Int.log 2 x - 52) := by positivity
  have h1 := (fl53pos_bds hx).1
  have h2 := (fl53pos_bds hx).2
  unfold fl53pos at h1 h2
  have e2 : (2:ℚ) ^ (Int.log 2 x + 1) = ((2 ^ 53 : Int) : ℚ) * 2 ^ (Int.log 2 x - 52) := by
    rw [zpow_sub₀ (by norm_num), zpow_add₀ (by norm_num)]; push_cast; field_simp; norm_num
  rw [e2] at h2
  have h3 := le_of_mul_le_mul_right h2 hp
  have h4 : (0:ℚ) ≤ (roundEven (x / (2:ℚ) ^ (Int.log 2 x - 52)) : ℚ) := by
    by_contra hneg
    push Not at hneg
    have : (roundEven (x / (2:ℚ) ^ (Int.log 2 x - 52)) : ℚ) * (2:ℚ) ^ (Int.log 2 x - 52) < 0 := mul_neg_of_neg_of_pos hneg hp
    have : (0:ℚ) < 2 ^ Int.log 2 x := by positivity
    linarith
  rw [abs_of_nonneg (by exact_mod_cast h4)]
  exact_mod_cast h3

theorem fl53pos_near {x : ℚ} (hx : 0 < x) {z : ℚ} (hz : IsDouble z) : |fl53pos x - x| ≤ |z - x| := by
  have hL := Int.zpow_log_le_self (b := 2) (by norm_num) hx
  push_cast at hL
  set L := Int.log 2 x with hLdef
  have hp : (0:ℚ) < (2:ℚ) ^ (L - 52) := by positivity
  have key : ∀ k : Int, |fl53pos x - x| ≤ |(k : ℚ) * 2 ^ (L - 52) - x| := by
    intro k
    have h := roundEven_near (x / 2 ^ (L - 52)) k
    have hx' : x = x / 2 ^ (L - 52) * 2 ^ (L - 52) := by field_simp
    have e : ∀ j : ℚ, |j * 2 ^ (L - 52) - x| = |j - x / 2 ^ (L - 52)| * 2 ^ (L - 52) := by
      intro j
      conv_lhs => rw [hx']
      rw [← sub_mul, abs_mul, abs_of_pos hp]
    unfold fl53pos
    rw [← hLdef, e, e]
    gcongr
  by_cases hzL : (2:ℚ) ^ L ≤ z
  · obtain ⟨k, rfl⟩ := hz.multiple hzL
    exact key k
  · push Not at hzL
    have h1 := key (2 ^ 52)
    have e1 : ((2 ^ 52 : Int) : ℚ) * 2 ^ (L - 52) = 2 ^ L := by
      rw [zpow_sub₀ (by norm_num)]; push_cast; field_simp
    rw [e1] at h1
    refine h1.trans ?_
    rw [abs_of_nonpos (by linarith), abs_of_nonpos (by linarith)]
    linarith

/-- rounding gives the nearest double. -/
theorem fl53_nearest (x : ℚ) : NearestDouble x (fl53 x) := by
  unfold fl53
  split_ifs with h1 h2
  · exact ⟨fl53pos_double h1, fun z hz => fl53pos_near h1 hz⟩
  · refine ⟨(fl53pos_double (by linarith)).neg, fun z hz => ?_⟩
    have := fl53pos_near (x := -x) (by linarith) hz.neg
    rw [← abs_neg, show -(-fl53pos (-x) - x) = fl53pos (-x) - -x by ring, ← abs_neg (z - x),
      show -(z - x) = -z - -x by ring]
    exact this
  · have : x = 0 := le_antisymm (not_lt.mp h1) (not_lt.mp h2)
    subst this
    exact ⟨isDouble_zero, fun z _ => by simp⟩

/-- a double is not changed. -/
theorem fl53_fix {x : ℚ} (h : IsDouble x) : fl53 x = x := by
  have := (fl53_nearest x).2 x h
  rw [sub_self, abs_zero] at this
  linarith [abs_eq_zero.mp (le_antisymm this (abs_nonneg _))]

/-- the relative error of rounding. -/
theorem fl53_rel (x : ℚ) : |fl53 x - x| ≤ |x| / 2 ^ 53 := by
  have pos : ∀ {x : ℚ}, 0 < x → |fl53pos x - x| ≤ x / 2 ^ 53 := by
    intro x hx
    have hL := Int.zpow_log_le_self (b := 2) (by norm_num) hx
    push_cast at hL
    have hp : (0:ℚ) < (2:ℚ) ^ (Int.log 2 x - 52) := by positivity
    have h := roundEven_half (x / 2 ^ (Int.log 2 x - 52))
    have hx' : x = x / 2 ^ (Int.log 2 x - 52) * 2 ^ (Int.log 2 x - 52) := by field_simp
    have e : |fl53pos x - x| = |(roundEven (x / 2 ^ (Int.log 2 x - 52)) : ℚ) - x / 2 ^ (Int.log 2 x - 52)| *
        2 ^ (Int.log 2 x - 52) := by
      unfold fl53pos
      conv_lhs => rw [show ∀ a : ℚ, |a - x| = |a - x / 2 ^ (Int.log 2 x - 52) * 2 ^ (Int.log 2 x - 52)| by
        intro a; rw [← hx']]
      rw [← sub_mul, abs_mul, abs_of_pos hp]
    rw [e]
    have e1 : (2:ℚ) ^ (Int.log 2 x - 52) = 2 ^ Int.log 2 x / 2 ^ 52 := by
      rw [zpow_sub₀ (by norm_num)]; norm_cast
    calc _ ≤ 1 / 2 * (2:ℚ) ^ (Int.log 2 x - 52) := by gcongr
      _ = 2 ^ Int.log 2 x / 2 ^ 53 := by rw [e1]; ring
      _ ≤ x / 2 ^ 53 := by gcongr
  unfold fl53
  split_ifs with h1 h2
  · rw [abs_of_pos h1]; exact pos h1
  · have := pos (x := -x) (by linarith)
    rw [abs_of_neg h2, ← abs_neg, show -(-fl53pos (-x) - x) = fl53pos (-x) - -x by ring]
    exact this
  · have : x = 0 := le_antisymm (not_lt.mp h1) (not_lt.mp h2)
    simp [this]

end Verif
