import Verif.Model.Grid
import Mathlib.Data.Rat.Floor
import Mathlib.Algebra.Order.Floor.Ring
import Mathlib.Algebra.Order.Field.Power
import Mathlib.Tactic.Linarith
import Mathlib.Tactic.Ring
import Mathlib.Tactic.Positivity
import Mathlib.Tactic.FieldSimp
import Mathlib.Algebra.Order.Group.Int
import Mathlib.Algebra.Order.BigOperators.Group.List

/-! Lemmas about the grid model. -/

namespace Verif

/-! ### Arithmetic -/

/-- What every arithmetic must satisfy for the index computation never to leave `[0, numCells]`. -/
structure GridArith.Sound {T : Type} [LinearOrder T] (A : GridArith T) (zero : T) : Prop where
  num_pos : ∀ mn mx rs, zero < rs → mn < mx → rs ≤ A.sub mx mn → 1 ≤ A.ceil (A.div (A.sub mx mn) rs)
  idx_bd : ∀ p mn mx rs, zero < rs → mn ≤ p → p < mx → rs ≤ A.sub mx mn →
    0 ≤ A.trunc (A.div (A.sub p mn) rs) ∧ A.trunc (A.div (A.sub p mn) rs) ≤ A.ceil (A.div (A.sub mx mn) rs)

/-- ... and never to reach `numCells`. -/
structure GridArith.Exact {T : Type} [LinearOrder T] (A : GridArith T) (zero : T) : Prop
    extends A.Sound zero where
  idx_lt : ∀ p mn mx rs, zero < rs → mn ≤ p → p < mx → rs ≤ A.sub mx mn →
    A.trunc (A.div (A.sub p mn) rs) < A.ceil (A.div (A.sub mx mn) rs)

theorem truncQ_of_nonneg {x : ℚ} (h : 0 ≤ x) : truncQ x = ⌊x⌋ := by simp [truncQ, h]

theorem flArith_sound (fl : ℚ → ℚ) (hm : Monotone fl) (h0 : fl 0 = 0) (h1 : fl 1 = 1) :
    (flArith fl).Sound 0 := by
  constructor
  · intro mn mx rs hr hlt hle
    simp only [flArith] at *
    have : (1:ℚ) ≤ fl (fl (mx - mn) / rs) := by
      rw [← h1]; apply hm; rw [le_div_iff₀ hr]; linarith
    have : (0:ℚ) < fl (fl (mx - mn) / rs) := by linarith
    have := Int.ceil_pos.2 this
    omega
  · intro p mn mx rs hr h1' h2 hle
    simp only [flArith] at *
    have ha : 0 ≤ fl (p - mn) := by rw [← h0]; exact hm (by linarith)
    have hb : 0 ≤ fl (fl (p - mn) / rs) := by rw [← h0]; exact hm (by positivity)
    have hc : fl (fl (p - mn) / rs) ≤ fl (fl (mx - mn) / rs) := by
      apply hm; gcongr; exact hm (by linarith)
    rw [truncQ_of_nonneg hb]
    exact ⟨Int.floor_nonneg.2 hb, (Int.floor_le_ceil _).trans (Int.ceil_mono hc)⟩

theorem ratArith_exact : ratArith.Exact 0 where
  toSound := flArith_sound id monotone_id rfl rfl
  idx_lt := by
    intro p mn mx rs hr h1 h2 hle
    simp only [ratArith, flArith, id] at *
    have hb : 0 ≤ (p - mn) / rs := div_nonneg (by linarith) hr.le
    rw [truncQ_of_nonneg hb]
    have : (p - mn) / rs < (mx - mn) / rs := by gcongr
    have h3 : (⌊(p - mn) / rs⌋ : ℚ) < ⌈(mx - mn) / rs⌉ :=
      lt_of_le_of_lt (Int.floor_le _) (lt_of_lt_of_le this (Int.le_ceil _))
    exact_mod_cast h3

theorem intArith_exact : intArith.Exact 0 where
  num_pos := by
    intro mn mx rs hr hlt hle
    simp only [intArith] at *
    have := Int.tdiv_nonneg (a := mx - mn) (b := rs) (by omega) (by omega)
    omega
  idx_bd := by
    intro p mn mx rs hr h1 h2 hle
    simp only [intArith] at *
    have ha := Int.tdiv_nonneg (a := p - mn) (b := rs) (by omega) (by omega)
    rw [Int.tdiv_eq_ediv_of_nonneg (by omega), Int.tdiv_eq_ediv_of_nonneg (by omega)] at *
    have := Int.ediv_le_ediv hr (show p - mn ≤ mx - mn by omega)
    omega
  idx_lt := by
    intro p mn mx rs hr h1 h2 hle
    simp only [intArith] at *
    rw [Int.tdiv_eq_ediv_of_nonneg (by omega), Int.tdiv_eq_ediv_of_nonneg (by omega)]
    have := Int.ediv_le_ediv hr (show p - mn ≤ mx - mn by omega)
    omega

/-! ### rounding to 53 bits -/

theorem roundEven_bds (x : ℚ) : ⌊x⌋ ≤ roundEven x ∧ roundEven x ≤ ⌊x⌋ + 1 := by
  unfold roundEven; split_ifs <;> omega

theorem roundEven_int (n : Int) : roundEven (n : ℚ) = n := by
  unfold roundEven; simp

/-- fidelity of the rounding: to the nearest integer, ties to the even one (the IEEE 754 default mode). -/
theorem roundEven_nearest (x : ℚ) : |x - roundEven x| ≤ 1 / 2 ∧ (|x - roundEven x| = 1 / 2 → roundEven x % 2 = 0) := by
  have h1 := Int.floor_le x
  have h2 := Int.lt_floor_add_one x
  have h3 := Int.floor_add_fract x
  unfold roundEven
  split_ifs with a b c <;> push_cast <;> rw [abs_le] <;> refine ⟨⟨by linarith, by linarith⟩, fun h => ?_⟩
  · rw [abs_of_nonneg (by linarith)] at h; exfalso; linarith
  · rw [abs_of_nonpos (by linarith)] at h; exfalso; linarith
  · exact c
  · omega

theorem roundEven_mono : Monotone roundEven := by
  intro x y h
  have hf := Int.floor_mono h
  rcases lt_or_eq_of_le hf with hlt | heq
  · have := (roundEven_bds x).2; have := (roundEven_bds y).1; omega
  · have hfr : Int.fract x ≤ Int.fract y := by
      rw [Int.fract, Int.fract, heq]; linarith
    unfold roundEven
    rw [heq]
    split_ifs <;> first | omega | (exfalso; linarith)

theorem fl53pos_bds {x : ℚ} (hx : 0 < x) :
    (2:ℚ) ^ Int.log 2 x ≤ fl53pos x ∧ fl53pos x ≤ (2:ℚ) ^ (Int.log 2 x + 1) := by
  have h1 := Int.zpow_log_le_self (b := 2) (by norm_num) hx
  have h2 := Int.lt_zpow_succ_log_self (b := 2) (by norm_num) x
  set e := Int.log 2 x
  push_cast at h1 h2
  unfold fl53pos
  have hp : (0:ℚ) < 2 ^ (e - 52) := by positivity
  have e1 : (2:ℚ) ^ e = ((2 ^ 52 : Int) : ℚ) * 2 ^ (e - 52) := by
    rw [zpow_sub₀ (by norm_num)]; push_cast; field_simp
  have e2 : (2:ℚ) ^ (e + 1) = ((2 ^ 53 : Int) : ℚ) * 2 ^ (e - 52) := by
    rw [zpow_sub₀ (by norm_num), zpow_add₀ (by norm_num)]; push_cast; field_simp; norm_num
  constructor
  · rw [e1]
    gcongr
    rw [← roundEven_int (2 ^ 52)]
    apply roundEven_mono
    rw [le_div_iff₀ hp, ← e1]; exact h1
  · rw [e2]
    gcongr
    rw [← roundEven_int (2 ^ 53)]
    apply roundEven_mono
    rw [div_le_iff₀ hp, ← e2]; exact h2.le

theorem fl53pos_mono {x y : ℚ} (hx : 0 < x) (h : x ≤ y) : fl53pos x ≤ fl53pos y := by
  have hy : 0 < y := lt_of_lt_of_le hx h
  have hl := Int.log_mono_right (b := 2) hx h
  rcases lt_or_eq_of_le hl with hlt | heq
  · refine (fl53pos_bds hx).2.trans (le_trans ?_ (fl53pos_bds hy).1)
    exact zpow_le_zpow_right₀ (by norm_num) (by omega)
  · unfold fl53pos
    rw [heq]
    gcongr
    apply roundEven_mono
    gcongr

theorem fl53_mono : Monotone fl53 := by
  intro x y h
  have hpos : ∀ {z : ℚ}, 0 < z → 0 < fl53pos z := fun hz =>
    lt_of_lt_of_le (by positivity) (fl53pos_bds hz).1
  unfold fl53
  split_ifs with h1 h2 h3 h4 h5 h6 h7 <;> try linarith
  · exact fl53pos_mono h1 h
  · have := hpos ‹0 < y›; have := hpos (show 0 < -x by linarith); linarith
  · have := fl53pos_mono (show 0 < -y by linarith) (show -y ≤ -x by linarith); linarith
  · have := hpos (show 0 < -x by linarith); linarith
  · have := hpos ‹0 < y›; linarith

theorem fl53_zero : fl53 0 = 0 := by simp [fl53]

theorem roundEven_of_eq {x : ℚ} {n : Int} (h : x = n) : roundEven x = n := by rw [h, roundEven_int]

theorem fl53pos_pow (k : Int) : fl53pos ((2:ℚ) ^ k) = 2 ^ k := by
  have hl : Int.log 2 ((2:ℚ) ^ k) = k := by
    have := Int.log_zpow (R := ℚ) (b := 2) (by norm_num) k
    exact_mod_cast this
  unfold fl53pos
  rw [hl]
  have : (2:ℚ) ^ k / 2 ^ (k - 52) = ((2 ^ 52 : Int) : ℚ) := by
    rw [zpow_sub₀ (by norm_num)]; push_cast; field_simp
  rw [roundEven_of_eq this]
  push_cast
  rw [zpow_sub₀ (by norm_num)]; field_simp; norm_cast

theorem fl53_pow (k : Int) : fl53 ((2:ℚ) ^ k) = 2 ^ k := by
  unfold fl53; rw [if_pos (by positivity), fl53pos_pow]

theorem fl53_one : fl53 1 = 1 := by simpa using fl53_pow 0
theorem fl53_two : fl53 2 = 2 := by simpa using fl53_pow 1

theorem dblArith_sound : dblArith.Sound 0 := flArith_sound fl53 fl53_mono fl53_zero fl53_one

/-- `1 - 2^-53` is a double; adding one rounds up to two. -/
theorem fl53_tie : fl53 ((1 - 1 / 2 ^ 53) - (-1)) = 2 := by
  have hl : Int.log 2 ((1 - 1 / 2 ^ 53 : ℚ) - (-1)) = 0 := by
    have a1 : (0:Int) ≤ Int.log 2 ((1 - 1 / 2 ^ 53 : ℚ) - (-1)) := by
      rw [← Int.zpow_le_iff_le_log (b := 2) (by norm_num) (by norm_num)]; norm_num
    have a2 : Int.log 2 ((1 - 1 / 2 ^ 53 : ℚ) - (-1)) < 1 := by
      rw [← Int.lt_zpow_iff_log_lt (b := 2) (by norm_num) (by norm_num)]; norm_num
    omega
  unfold fl53 fl53pos
  rw [if_pos (by norm_num), hl]
  have : roundEven (((1 - 1 / 2 ^ 53 : ℚ) - (-1)) / 2 ^ ((0:Int) - 52)) = 2 ^ 53 := by
    have hx : ((1 - 1 / 2 ^ 53 : ℚ) - (-1)) / 2 ^ ((0:Int) - 52) = ((2 ^ 53 - 1 : Int) : ℚ) + 1 / 2 := by
      norm_num
    rw [hx]
    have hfl : ⌊((2 ^ 53 - 1 : Int) : ℚ) + 1 / 2⌋ = 2 ^ 53 - 1 := by
      rw [Int.floor_intCast_add]; norm_num
    have hfr : Int.fract (((2 ^ 53 - 1 : Int) : ℚ) + 1 / 2) = 1 / 2 := by
      rw [Int.fract, hfl]; push_cast; ring
    unfold roundEven
    rw [hfr, hfl]; norm_num
  rw [this]; norm_num

end Verif
