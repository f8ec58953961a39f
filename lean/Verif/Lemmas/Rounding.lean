import Verif.Spec.Rounding
import Mathlib.Tactic.Ring

namespace Verif

theorem nearestAway_round (x : ℚ) : NearestAway x (if 0 ≤ x then ⌊x + 1 / 2⌋ else -⌊-x + 1 / 2⌋) := by
  have key : ∀ y : ℚ, 0 ≤ y → NearestAway y ⌊y + 1 / 2⌋ := by
    intro y hy
    have h1 := Int.floor_le (y + 1 / 2)
    have h2 := Int.lt_floor_add_one (y + 1 / 2)
    refine ⟨abs_le.2 ⟨by linarith, by linarith⟩, fun h => ?_⟩
    have h3 : y - ⌊y + 1 / 2⌋ = -(1 / 2) := by
      rcases (abs_eq (by norm_num)).1 h with h | h
      · linarith
      · exact h
    have h4 : (⌊y + 1 / 2⌋ : ℚ) = y + 1 / 2 := by linarith
    rw [h4, abs_of_nonneg hy, abs_of_nonneg (by linarith)]; linarith
  split_ifs with h
  · exact key x h
  · obtain ⟨h1, h2⟩ := key (-x) (by linarith)
    have e : |x - ((-⌊-x + 1 / 2⌋ : Int) : ℚ)| = |-x - (⌊-x + 1 / 2⌋ : Int)| := by
      rw [← abs_neg]; congr 1; push_cast; ring
    refine ⟨by rw [e]; exact h1, fun h => ?_⟩
    rw [e] at h
    have := h2 h
    rw [abs_neg] at this
    rw [Int.cast_neg, abs_neg]
    exact this

theorem NearestAway.unique {x : ℚ} {r s : Int} (hr : NearestAway x r) (hs : NearestAway x s) : r = s := by
  wlog h : r ≤ s generalizing r s
  · exact (this hs hr (by omega)).symm
  by_contra hne
  have hlt : r + 1 ≤ s := by omega
  have hq : (r : ℚ) + 1 ≤ s := by exact_mod_cast hlt
  obtain ⟨a1, a2⟩ := abs_le.1 hr.1
  obtain ⟨b1, b2⟩ := abs_le.1 hs.1
  have e1 : x = r + 1 / 2 := by linarith
  have e2 : x = s - 1 / 2 := by linarith
  have h1 := hr.2 (by rw [e1]; norm_num [abs_of_pos])
  have h2 := hs.2 (by rw [show x - s = -(1 / 2) by rw [e2]; ring, abs_neg]; norm_num [abs_of_pos])
  have e3 : (s : ℚ) = r + 1 := by linarith
  rcases le_or_gt 0 r with h0 | h0
  · have : (0 : ℚ) ≤ r := by exact_mod_cast h0
    rw [abs_of_nonneg this, abs_of_nonneg (by linarith : (0 : ℚ) ≤ x)] at h1; linarith
  · have : (r : ℚ) + 1 ≤ 0 := by exact_mod_cast h0
    rw [e3, abs_of_nonpos (by linarith : x ≤ 0), abs_of_nonpos this] at h2; linarith

end Verif
