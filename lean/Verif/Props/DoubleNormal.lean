import Verif.Model.DoubleNormal
import Verif.Props.DoubleGamma
import Verif.Props.Sampling

/-!
# C157: normal sampling in double arithmetic
-/

namespace Verif
namespace Dbl

/-- the function `sqrt` of the C library is correctly rounded. -/
def SqrtAccurate (sqrtD : ℚ → ℚ) : Prop := ∀ x : ℚ, 0 ≤ x → |(sqrtD x : ℝ) - √x| ≤ √x / 2 ^ 53

/-- such a function exists. -/
theorem sqrtAccurate_exists : ∃ sqrtD, SqrtAccurate sqrtD := by
  have h : ∀ x : ℚ, ∃ y : ℚ, |(y : ℝ) - √x| ≤ √x / 2 ^ 53 := by
    intro x
    by_cases hx : √(x : ℝ) = 0
    · exact ⟨0, by rw [hx]; simp⟩
    · have hp : 0 < √(x : ℝ) / 2 ^ 53 := by
        have := lt_of_le_of_ne (Real.sqrt_nonneg (x : ℝ)) (Ne.symm hx)
        positivity
      obtain ⟨y, h1, h2⟩ := exists_rat_btwn (show √(x : ℝ) < √x + √x / 2 ^ 53 by linarith)
      exact ⟨y, by rw [abs_of_pos (by linarith)]; linarith⟩
  choose f hf using h
  exact ⟨f, fun x _ => hf x⟩

/-! ### Relative errors -/

/-- `y` is `x` up to the relative error `a`. -/
def RelErr (a x y : ℝ) : Prop := |y - x| ≤ a * |x|

theorem RelErr.abs_le {a x y : ℝ} (h : RelErr a x y) : |y| ≤ (1 + a) * |x| := by
  have := abs_add_le (y - x) x
  rw [sub_add_cancel] at this
  unfold RelErr at h
  linarith

theorem RelErr.trans {a b x y z : ℝ} (hb : 0 ≤ b) (h : RelErr a x y) (h' : RelErr b y z) : RelErr (a + b + a * b) x z := by
  have h1 := abs_sub_le z y x
  have h2 := mul_le_mul_of_nonneg_left h.abs_le hb
  unfold RelErr at *
  linarith

theorem RelErr.mul {a b x y x' y' : ℝ} (ha : 0 ≤ a) (hb : 0 ≤ b) (h : RelErr a x y) (h' : RelErr b x' y') :
    RelErr (a + b + a * b) (x * x') (y * y') := by
  have e : y * y' - x * x' = (y - x) * x' + x * (y' - x') + (y - x) * (y' - x') := by ring
  have h4 := abs_add_le ((y - x) * x' + x * (y' - x')) ((y - x) * (y' - x'))
  have h5 := abs_add_le ((y - x) * x') (x * (y' - x'))
  unfold RelErr at *
  have h1 : |(y - x) * x'| ≤ a * |x| * |x'| := by
    rw [abs_mul]; exact mul_le_mul_of_nonneg_right h (abs_nonneg _)
  have h2 : |x * (y' - x')| ≤ |x| * (b * |x'|) := by
    rw [abs_mul]; exact mul_le_mul_of_nonneg_left h' (abs_nonneg _)
  have h3 : |(y - x) * (y' - x')| ≤ a * |x| * (b * |x'|) := by
    rw [abs_mul]
    exact mul_le_mul h h' (abs_nonneg _) (by positivity)
  rw [e, abs_mul x x']
  calc _ ≤ a * |x| * |x'| + |x| * (b * |x'|) + a * |x| * (b * |x'|) := by linarith
    _ = _ := by ring

theorem RelErr.const_mul {a x y : ℝ} (c : ℝ) (h : RelErr a x y) : RelErr a (c * x) (c * y) := by
  unfold RelErr at *
  rw [← mul_sub, abs_mul, abs_mul]
  have := mul_le_mul_of_nonneg_left h (abs_nonneg c)
  linarith

theorem RelErr.weaken {a b x y : ℝ} (h : RelErr a x y) (hab : a ≤ b) : RelErr b x y :=
  le_trans h (mul_le_mul_of_nonneg_right hab (abs_nonneg _))

theorem RelErr.sqrt {a x y : ℝ} (hx : 0 ≤ x) (hy : 0 ≤ y) (h : RelErr a x y) : RelErr a (√x) (√y) := by
  unfold RelErr at *
  rw [abs_of_nonneg hx] at h
  rw [abs_of_nonneg (Real.sqrt_nonneg x)]
  rcases hx.eq_or_lt with h0 | h0
  · subst h0
    have : y = 0 := by simpa using h
    simp [this]
  · have hs : 0 < √x := Real.sqrt_pos.2 h0
    have hs' : 0 ≤ √y := Real.sqrt_nonneg y
    have e : (√y - √x) * (√y + √x) = y - x := by
      have := Real.mul_self_sqrt hx
      have := Real.mul_self_sqrt hy
      nlinarith
    have h1 : |√y - √x| * √x ≤ a * √x * √x := by
      calc |√y - √x| * √x ≤ |√y - √x| * (√y + √x) := mul_le_mul_of_nonneg_left (by linarith) (abs_nonneg _)
        _ = |y - x| := by rw [← abs_of_nonneg (show 0 ≤ √y + √x by linarith), ← abs_mul, e]
        _ ≤ a * x := h
        _ = a * √x * √x := by rw [mul_assoc, Real.mul_self_sqrt hx]
    exact le_of_mul_le_mul_right h1 hs

theorem relErr_fl (x : ℚ) : RelErr (1 / 2 ^ 53) x (fl53 x : ℚ) := by
  have := fl53_rel x
  unfold RelErr
  have h : ((|fl53 x - x| : ℚ) : ℝ) ≤ ((|x| / 2 ^ 53 : ℚ) : ℝ) := by exact_mod_cast this
  push_cast at h
  linarith

/-! ### A round -/

theorem normalU_bounds {r : ℕ} (hr : r ≤ 2147483647) : |normalU r| ≤ 1 ∧ 1 / 2 ^ 32 ≤ |normalU r| ∧
    |normalU r - (2 * (r : ℚ) / 2147483647 - 1)| ≤ 1 / 2 ^ 51 := by
  have hr' : (r : ℚ) ≤ 2147483647 := by exact_mod_cast hr
  have h0 : (0:ℚ) ≤ r := Nat.cast_nonneg _
  have hU := fl53_rel ((r : ℚ) / 2147483647)
  have hq0 : 0 ≤ (r : ℚ) / 2147483647 := by positivity
  have hq1 : (r : ℚ) / 2147483647 ≤ 1 := by rw [div_le_one (by norm_num)]; exact hr'
  rw [abs_of_nonneg hq0] at hU
  have hU0 : 0 ≤ unitD r := fl53_nonneg hq0
  have one : fl53 1 = 1 := by exact_mod_cast fl53_int (m := 1) (by norm_num)
  have two : fl53 2 = 2 := by exact_mod_cast fl53_int (m := 2) (by norm_num)
  have mone : fl53 (-1) = -1 := by exact_mod_cast fl53_int (m := -1) (by norm_num)
  have hU1 : unitD r ≤ 1 := by
    have := Verif.fl53_mono hq1
    rwa [one] at this
  have hT := fl53_rel (2 * unitD r)
  have hT0 : 0 ≤ fl53 (2 * unitD r) := fl53_nonneg (by linarith)
  have hT1 : fl53 (2 * unitD r) ≤ 2 := by
    have := Verif.fl53_mono (show 2 * unitD r ≤ 2 by linarith)
    rwa [two] at this
  rw [abs_of_nonneg (by linarith : 0 ≤ 2 * unitD r)] at hT
  have hN := fl53_rel (fl53 (2 * unitD r) - 1)
  have hNle : |fl53 (2 * unitD r) - 1| ≤ 1 := abs_le.2 ⟨by linarith, by linarith⟩
  have hle : |normalU r| ≤ 1 := by
    refine abs_le.2 ⟨?_, ?_⟩
    · have := Verif.fl53_mono (show -1 ≤ fl53 (2 * unitD r) - 1 by linarith)
      rwa [mone] at this
    · have := Verif.fl53_mono (show fl53 (2 * unitD r) - 1 ≤ 1 by linarith)
      rwa [one] at this
  have herr : |normalU r - (2 * (r : ℚ) / 2147483647 - 1)| ≤ 1 / 2 ^ 51 - 1 / 2 ^ 53 + 1 / 2 ^ 53 := by
    have e : normalU r - (2 * (r : ℚ) / 2147483647 - 1) = (fl53 (fl53 (2 * unitD r) - 1) - (fl53 (2 * unitD r) - 1)) +
      (fl53 (2 * unitD r) - 2 * unitD r) + 2 * (fl53 ((r : ℚ) / 2147483647) - (r : ℚ) / 2147483647) := by
      unfold normalU unitD; ring
    have ht : fl53 (2 * unitD r) = 2 * unitD r := by
      refine fl53_fix ?_
      obtain ⟨m, k, hm, hk⟩ := (fl53_nearest ((r : ℚ) / 2147483647)).1
      exact ⟨m, k + 1, hm, by unfold unitD; rw [hk, zpow_add₀ (by norm_num)]; ring⟩
    rw [e, ht, sub_self, add_zero]
    refine (abs_add_le _ _).trans ?_
    rw [abs_mul, abs_two, ← ht]
    linarith
  refine ⟨hle, ?_, by linarith⟩
  -- the quotient is not one half
  have hodd : 1 / 2147483647 ≤ |2 * (r : ℚ) / 2147483647 - 1| := by
    have hi : (1 : ℤ) ≤ |2 * (r : ℤ) - 2147483647| := by
      exact Int.one_le_abs (by omega)
    have hi' : (1 : ℚ) ≤ |2 * (r : ℚ) - 2147483647| := by exact_mod_cast hi
    have e : 2 * (r : ℚ) / 2147483647 - 1 = (2 * (r : ℚ) - 2147483647) / 2147483647 := by field_simp
    rw [e, abs_div, abs_of_pos (by norm_num : (0:ℚ) < 2147483647)]
    exact div_le_div_of_nonneg_right hi' (by norm_num)
  have := abs_sub_le (2 * (r : ℚ) / 2147483647 - 1) (normalU r) 0
  rw [sub_zero, sub_zero, abs_sub_comm _ (normalU r)] at this
  have hh : (1 : ℚ) / 2 ^ 32 + 1 / 2 ^ 51 ≤ 1 / 2147483647 := by norm_num
  linarith

theorem normalS_bounds {r r' : ℕ} (hr : r ≤ 2147483647) (hr' : r' ≤ 2147483647) : 1 / 2 ^ 63 ≤ normalS r r' ∧
    |normalS r r' - (normalU r * normalU r + normalU r' * normalU r')| ≤
      (normalU r * normalU r + normalU r' * normalU r') / 2 ^ 51 ∧
    normalU r * normalU r ≤ normalS r r' * (1 + 1 / 2 ^ 52) := by
  have sq : ∀ {q : ℕ}, q ≤ 2147483647 → 1 / 2 ^ 64 ≤ normalU q * normalU q := fun {q} hq => by
    have := (normalU_bounds hq).2.1
    calc (1:ℚ) / 2 ^ 64 = 1 / 2 ^ 32 * (1 / 2 ^ 32) := by norm_num
      _ ≤ |normalU q| * |normalU q| := mul_le_mul this this (by norm_num) (abs_nonneg _)
      _ = _ := abs_mul_abs_self _
  have pow : ∀ k : ℕ, fl53 (1 / 2 ^ k) = 1 / 2 ^ k := fun k => by
    have := fl53_pow (-(k : ℤ))
    rwa [zpow_neg, zpow_natCast, ← one_div] at this
  have a := sq hr
  have b := sq hr'
  have fa := Verif.fl53_mono a
  have fb := Verif.fl53_mono b
  rw [pow] at fa fb
  have ra := fl53_rel (normalU r * normalU r)
  have rb := fl53_rel (normalU r' * normalU r')
  have rs := fl53_rel (fl53 (normalU r * normalU r) + fl53 (normalU r' * normalU r'))
  have le1 : fl53 (normalU r * normalU r) ≤ normalS r r' := by
    have := Verif.fl53_mono (show fl53 (normalU r * normalU r) ≤ fl53 (normalU r * normalU r) + fl53 (normalU r' * normalU r') by
      have : (0:ℚ) ≤ 1 / 2 ^ 64 := by norm_num
      linarith)
    rwa [fl53_fix (fl53_nearest _).1] at this
  have ge : 1 / 2 ^ 63 ≤ normalS r r' := by
    have := Verif.fl53_mono (show (1:ℚ) / 2 ^ 63 ≤ fl53 (normalU r * normalU r) + fl53 (normalU r' * normalU r') by
      have : (1:ℚ) / 2 ^ 63 = 1 / 2 ^ 64 + 1 / 2 ^ 64 := by norm_num
      linarith)
    rwa [pow] at this
  have hdef : normalS r r' = fl53 (fl53 (normalU r * normalU r) + fl53 (normalU r' * normalU r')) := rfl
  rw [← hdef] at rs
  generalize normalU r * normalU r = x at *
  generalize normalU r' * normalU r' = y at *
  have h64 : (0:ℚ) < 1 / 2 ^ 64 := by norm_num
  have x0 : 0 < x := by linarith
  have y0 : 0 < y := by linarith
  rw [abs_of_pos x0] at ra
  rw [abs_of_pos y0] at rb
  rw [abs_of_pos (show 0 < fl53 x + fl53 y by linarith)] at rs
  obtain ⟨ra1, ra2⟩ := abs_le.1 ra
  obtain ⟨rb1, rb2⟩ := abs_le.1 rb
  obtain ⟨rs1, rs2⟩ := abs_le.1 rs
  refine ⟨ge, abs_le.2 ⟨by linarith, by linarith⟩, ?_⟩
  have h63 : (0:ℚ) < 1 / 2 ^ 63 := by norm_num
  linarith

/-- **C157** (a round): for all raw numbers, the two coordinates of a round are in `[-1, 1]`, are `2 r / RAND_MAX - 1` up to `2^-51` and never
zero; `s` is the sum of their squares up to one part in `2^51` and positive: the test `s == 0.0` never decides. -/
theorem C157_round {r r' : ℕ} (hr : r ≤ 2147483647) (hr' : r' ≤ 2147483647) :
    |normalU r| ≤ 1 ∧ normalU r ≠ 0 ∧ |normalU r - (2 * (r : ℚ) / 2147483647 - 1)| ≤ 1 / 2 ^ 51 ∧ 0 < normalS r r' ∧
    |normalS r r' - (normalU r ^ 2 + normalU r' ^ 2)| ≤ (normalU r ^ 2 + normalU r' ^ 2) / 2 ^ 51 := by
  obtain ⟨a1, a2, a3⟩ := normalU_bounds hr
  obtain ⟨b1, b2, -⟩ := normalS_bounds hr hr'
  refine ⟨a1, fun h => ?_, a3, lt_of_lt_of_le (by norm_num) b1, by simpa only [pow_two] using b2⟩
  rw [h] at a2
  norm_num at a2

set_option maxHeartbeats 1000000 in
/-- the number computed from an accepted round. -/
theorem normal_value {logD sqrtD : ℚ → ℚ} (hlog : LogAccurate logD) (hsqrt : SqrtAccurate sqrtD) {u s : ℚ} (hs : 1 / 2 ^ 63 ≤ s)
    (hs1 : s < 1) (hu : u * u ≤ s * (1 + 1 / 2 ^ 52)) (mean variance : ℚ) (hv : 0 < variance) :
    let w := fl53 (fl53 (-2 * logD s) / s)
    let x := fl53 (mean + fl53 (fl53 (sqrtD variance * u) * sqrtD w))
    let T : ℝ := √(variance : ℝ) * u * √(-2 * Real.log s / s)
    0 ≤ w ∧ |(x : ℝ) - (mean + T)| ≤ |T| / 2 ^ 49 + |(mean : ℝ)| / 2 ^ 53 ∧ |T| ≤ 9.346 * √(variance : ℝ) := by
  intro w x T
  have s0 : 0 < s := lt_of_lt_of_le (by norm_num) hs
  have s0' : (0:ℝ) < s := by exact_mod_cast s0
  have s1' : (s:ℝ) < 1 := by exact_mod_cast hs1
  have hneg : Real.log s < 0 := Real.log_neg s0' s1'
  have g := hlog s s0
  have hLe : RelErr (1 / 2 ^ 52) (Real.log s) (logD s : ℚ) := by unfold RelErr; linarith
  have hL0 : logD s ≤ 0 := by
    have : (logD s : ℝ) ≤ 0 := by
      rw [abs_of_neg hneg] at g
      have := (abs_le.1 g).2
      linarith
    exact_mod_cast this
  have n1 : 0 ≤ fl53 (-2 * logD s) := fl53_nonneg (by linarith)
  have w0 : 0 ≤ w := fl53_nonneg (div_nonneg n1 s0.le)
  have w0' : (0:ℝ) ≤ w := by exact_mod_cast w0
  have W0 : 0 ≤ -2 * Real.log s / s := div_nonneg (by linarith) s0'.le
  -- the argument of the root
  have e1 : RelErr (1 / 2 ^ 52) (-2 * Real.log s) ((-2 * logD s : ℚ) : ℝ) := by
    have := hLe.const_mul (-2)
    push_cast
    exact this
  have e2 := e1.trans (by norm_num) (relErr_fl (-2 * logD s))
  have e3 : RelErr (1 / 2 ^ 52 + 1 / 2 ^ 53 + 1 / 2 ^ 52 * (1 / 2 ^ 53)) (-2 * Real.log s / s) ((fl53 (-2 * logD s) / s : ℚ) : ℝ) := by
    have := e2.const_mul ((s:ℝ)⁻¹)
    have i1 : -2 * Real.log s / s = (s:ℝ)⁻¹ * (-2 * Real.log s) := div_eq_inv_mul _ _
    have i2 : ((fl53 (-2 * logD s) / s : ℚ) : ℝ) = (s:ℝ)⁻¹ * (fl53 (-2 * logD s) : ℚ) := by rw [Rat.cast_div, div_eq_inv_mul]
    rw [i1, i2]
    exact this
  have e4 := e3.trans (by norm_num) (relErr_fl (fl53 (-2 * logD s) / s))
  have e4 := e4.weaken (show _ ≤ (5 / 2 ^ 53 : ℝ) by norm_num)
  have e5 := e4.sqrt W0 w0'
  have e6 : RelErr (1 / 2 ^ 53) (√(w:ℝ)) (sqrtD w : ℚ) := by
    have := hsqrt w w0
    unfold RelErr
    rw [abs_of_nonneg (Real.sqrt_nonneg _)]
    linarith
  have e7 := (e5.trans (by norm_num) e6).weaken (show _ ≤ (7 / 2 ^ 53 : ℝ) by norm_num)
  -- the factor
  have f1 : RelErr (1 / 2 ^ 53) √(variance : ℝ) (sqrtD variance : ℚ) := by
    have := hsqrt variance hv.le
    unfold RelErr
    rw [abs_of_nonneg (Real.sqrt_nonneg _)]
    linarith
  have f2 : RelErr (1 / 2 ^ 53) (√(variance : ℝ) * u) ((sqrtD variance * u : ℚ) : ℝ) := by
    have := f1.const_mul (u:ℝ)
    push_cast
    rw [mul_comm _ (u:ℝ), mul_comm _ (u:ℝ)]
    exact this
  have f3 := (f2.trans (by norm_num) (relErr_fl (sqrtD variance * u))).weaken (show _ ≤ (3 / 2 ^ 53 : ℝ) by norm_num)
  have p1 := (f3.mul (by norm_num) (by norm_num) e7).weaken (show _ ≤ (11 / 2 ^ 53 : ℝ) by norm_num)
  have p2 : RelErr (11 / 2 ^ 53) T ((fl53 (sqrtD variance * u) * sqrtD w : ℚ) : ℝ) := by
    rw [Rat.cast_mul]
    exact p1
  have p3 := (p2.trans (by norm_num) (relErr_fl (fl53 (sqrtD variance * u) * sqrtD w))).weaken
    (show _ ≤ (13 / 2 ^ 53 : ℝ) by norm_num)
  obtain ⟨t, ht⟩ : ∃ t, t = fl53 (fl53 (sqrtD variance * u) * sqrtD w) := ⟨_, rfl⟩
  have hx : x = fl53 (mean + t) := by rw [ht]
  rw [← ht] at p3
  refine ⟨w0, ?_, ?_⟩
  · have q1 := relErr_fl (mean + t)
    rw [← hx] at q1
    unfold RelErr at q1 p3
    push_cast at q1
    have q2 := abs_add_le (mean : ℝ) (t : ℝ)
    have q3 := RelErr.abs_le p3
    have q4 := abs_sub_le (x : ℝ) (mean + t) (mean + T)
    rw [add_sub_add_left_eq_sub] at q4
    have := abs_nonneg T
    linarith
  · have hT : T * T ≤ (9.346 * √(variance : ℝ)) * (9.346 * √(variance : ℝ)) := by
      have hl : -Real.log s ≤ 63 * Real.log 2 := by
        have : Real.log (1 / 2 ^ 63) ≤ Real.log s := by
          refine Real.log_le_log (by norm_num) ?_
          have : (((1:ℚ) / 2 ^ 63 : ℚ) : ℝ) ≤ s := by exact_mod_cast hs
          push_cast at this
          exact this
        rw [one_div, Real.log_inv, Real.log_pow] at this
        push_cast at this
        linarith
      have h2 := Real.log_two_lt_d9
      have hu' : (u:ℝ) * u ≤ s * (1 + 1 / 2 ^ 52) := by
        have : ((u * u : ℚ) : ℝ) ≤ ((s * (1 + 1 / 2 ^ 52) : ℚ) : ℝ) := by exact_mod_cast hu
        push_cast at this
        exact this
      have hk : (u:ℝ) * u * (-2 * Real.log s / s) ≤ 9.346 * 9.346 := by
        have h3 : (u:ℝ) * u * (-2 * Real.log s / s) ≤ s * (1 + 1 / 2 ^ 52) * (-2 * Real.log s / s) :=
          mul_le_mul_of_nonneg_right hu' W0
        have h4 : s * (1 + 1 / 2 ^ 52) * (-2 * Real.log s / s) = (1 + 1 / 2 ^ 52) * 2 * (-Real.log s) := by
          field_simp
        rw [h4] at h3
        refine h3.trans ?_
        have : (1 + 1 / 2 ^ 52) * 2 * (-Real.log s) ≤ (1 + 1 / 2 ^ 52) * 2 * (63 * 0.6931471808) :=
          mul_le_mul_of_nonneg_left (by linarith) (by norm_num)
        refine this.trans (by norm_num)
      have hvs := Real.mul_self_sqrt (show (0:ℝ) ≤ variance by exact_mod_cast hv.le)
      have hWs := Real.mul_self_sqrt W0
      have e : T * T = (√(variance : ℝ) * √(variance : ℝ)) * ((u:ℝ) * u * (√(-2 * Real.log s / s) * √(-2 * Real.log s / s))) := by
        simp only [T]; ring
      rw [e, hWs]
      have := mul_le_mul_of_nonneg_left hk (mul_self_nonneg √(variance : ℝ))
      linarith
    exact abs_le_of_sq_le_sq (by simpa only [pow_two] using hT) (by positivity)

/-- **C157**: `sampleNormal` in double arithmetic.  A variance that is not positive is rejected without a draw.  Else, for every sequence of
raw numbers: if no pair of draws is in the disc, the call does not return; if the pair number `k` is the first (`s < 1`), it returns a
number, having used `2 k + 2` raw numbers: the mean plus the standard deviation times `u sqrt(-2 log(s) / s)` up to one part in `2^49` of the
second summand and one in `2^53` of the mean, and never further from the mean than 9.35 standard deviations. -/
theorem C157_normal (logD sqrtD : ℚ → ℚ) (hlog : LogAccurate logD) (hsqrt : SqrtAccurate sqrtD) (rand : ℕ → ℕ)
    (hr : ∀ i, rand i ≤ 2147483647) (mean variance : ℚ) (n : ℕ) :
    (variance ≤ 0 → normalD logD sqrtD rand mean variance n = .throw .badArgument n) ∧
    (0 < variance → (∀ j, 1 ≤ normalS (rand (n + 2 * j)) (rand (n + 2 * j + 1))) →
      normalD logD sqrtD rand mean variance n = .diverge) ∧
    (0 < variance → ∀ k, (∀ j < k, 1 ≤ normalS (rand (n + 2 * j)) (rand (n + 2 * j + 1))) →
      normalS (rand (n + 2 * k)) (rand (n + 2 * k + 1)) < 1 →
      ∃ x : ℚ, normalD logD sqrtD rand mean variance n = .ok (some x) (n + 2 * k + 2) ∧
        (let u : ℝ := normalU (rand (n + 2 * k))
         let s : ℝ := normalS (rand (n + 2 * k)) (rand (n + 2 * k + 1))
         let T : ℝ := √(variance : ℝ) * u * √(-2 * Real.log s / s)
         |(x : ℝ) - (mean + T)| ≤ |T| / 2 ^ 49 + |(mean : ℝ)| / 2 ^ 53) ∧
        |(x : ℝ) - mean| ≤ 9.35 * √(variance : ℝ) + |(mean : ℝ)| / 2 ^ 53) := by
  have hpos : ∀ i, 1 / 2 ^ 63 ≤ normalS (rand i) (rand (i + 1)) := fun i => (normalS_bounds (hr i) (hr (i + 1))).1
  have hacc : ∀ i, (¬ (normalS (rand i) (rand (i + 1)) ≥ 1 ∨ normalS (rand i) (rand (i + 1)) = 0)) ↔
      normalS (rand i) (rand (i + 1)) < 1 := fun i => by
    have h0 : normalS (rand i) (rand (i + 1)) ≠ 0 := fun h => by have := hpos i; rw [h] at this; norm_num at this
    simp [h0]
  refine ⟨fun h => by rw [normalD, if_pos h], fun hv hj => ?_, fun hv k hj hk => ?_⟩
  · rw [normalD, if_neg (not_le.2 hv)]
    have : Sampling.firstRound 2 (fun i => ¬ (normalS (rand i) (rand (i + 1)) ≥ 1 ∨ normalS (rand i) (rand (i + 1)) = 0)) n = none := by
      unfold Sampling.firstRound
      rw [dif_neg]
      rintro ⟨j, h⟩
      rw [hacc] at h
      exact absurd (hj j) (not_le.2 h)
    rw [this]
  · rw [normalD, if_neg (not_le.2 hv)]
    have : Sampling.firstRound 2 (fun i => ¬ (normalS (rand i) (rand (i + 1)) ≥ 1 ∨ normalS (rand i) (rand (i + 1)) = 0)) n =
        some (n + 2 * k) := by
      have hex : ∃ j, ¬ (normalS (rand (n + 2 * j)) (rand (n + 2 * j + 1)) ≥ 1 ∨ normalS (rand (n + 2 * j)) (rand (n + 2 * j + 1)) = 0) :=
        ⟨k, (hacc _).2 hk⟩
      unfold Sampling.firstRound
      rw [dif_pos hex]
      congr 3
      classical
      have := (Nat.find_eq_iff hex).2 ⟨(hacc _).2 hk, fun j hjk => by rw [not_not]; exact Or.inl (hj j hjk)⟩
      convert this
    rw [this]
    simp only
    obtain ⟨w0, h1, h2⟩ := normal_value hlog hsqrt (hpos (n + 2 * k)) hk (normalS_bounds (hr (n + 2 * k)) (hr (n + 2 * k + 1))).2.2
      mean variance hv
    have hp := hpos (n + 2 * k)
    have h63 : (0:ℚ) < 1 / 2 ^ 63 := by norm_num
    rw [if_neg (by linarith), if_neg (not_lt.2 w0)]
    refine ⟨_, rfl, h1, ?_⟩
    have h3 := abs_sub_le ((fl53 (mean + fl53 (fl53 (sqrtD variance * normalU (rand (n + 2 * k))) * sqrtD (fl53 (fl53 (-2 * logD
      (normalS (rand (n + 2 * k)) (rand (n + 2 * k + 1)))) / normalS (rand (n + 2 * k)) (rand (n + 2 * k + 1)))))) : ℚ) : ℝ)
      (mean + √(variance : ℝ) * (normalU (rand (n + 2 * k)) : ℚ) * √(-2 * Real.log (normalS (rand (n + 2 * k)) (rand (n + 2 * k + 1)) : ℚ) /
        (normalS (rand (n + 2 * k)) (rand (n + 2 * k + 1)) : ℚ))) mean
    rw [add_sub_cancel_left] at h3
    have := Real.sqrt_nonneg (variance : ℝ)
    linarith

/-- a case: the raw numbers 1500000000 and 900000000 are accepted. -/
theorem normal_case : normalS 1500000000 900000000 < 1 := by
  obtain ⟨-, -, a, -⟩ := C157_round (r := 1500000000) (r' := 900000000) (by norm_num) (by norm_num)
  obtain ⟨-, -, b, -⟩ := C157_round (r := 900000000) (r' := 1500000000) (by norm_num) (by norm_num)
  obtain ⟨-, -, -, -, c⟩ := C157_round (r := 1500000000) (r' := 900000000) (by norm_num) (by norm_num)
  obtain ⟨a1, a2⟩ := abs_le.1 a
  obtain ⟨b1, b2⟩ := abs_le.1 b
  push_cast at a1 a2 b1 b2
  have ha : normalU 1500000000 ^ 2 ≤ 1 / 4 := by
    have h1 : |normalU 1500000000| ≤ 1 / 2 := abs_le.2 ⟨by linarith, by linarith⟩
    rw [← sq_abs]
    nlinarith [abs_nonneg (normalU 1500000000)]
  have hb : normalU 900000000 ^ 2 ≤ 1 / 4 := by
    have h1 : |normalU 900000000| ≤ 1 / 2 := abs_le.2 ⟨by linarith, by linarith⟩
    rw [← sq_abs]
    nlinarith [abs_nonneg (normalU 900000000)]
  have := (abs_le.1 c).2
  linarith

example (logD sqrtD : ℚ → ℚ) (hlog : LogAccurate logD) (hsqrt : SqrtAccurate sqrtD) : ∃ x : ℚ,
    normalD logD sqrtD (fun i => if i = 0 then 1500000000 else 900000000) 1 4 0 = .ok (some x) 2 ∧ |(x:ℝ) - 1| ≤ 19 := by
  obtain ⟨x, h1, -, h2⟩ := (C157_normal logD sqrtD hlog hsqrt (fun i => if i = 0 then 1500000000 else 900000000)
    (fun i => by split_ifs <;> norm_num) 1 4 0).2.2 (by norm_num) 0 (by simp) (by simpa using normal_case)
  refine ⟨x, h1, ?_⟩
  have h4 : √((4:ℚ):ℝ) = 2 := by
    rw [show ((4:ℚ):ℝ) = 2 ^ 2 by norm_num]
    exact Real.sqrt_sq (by norm_num)
  rw [h4] at h2
  push_cast at h2
  rw [abs_one] at h2
  linarith

/-- a case: raw numbers that are all zero (`u = v = -1`). -/
example (logD sqrtD : ℚ → ℚ) (hlog : LogAccurate logD) (hsqrt : SqrtAccurate sqrtD) : normalD logD sqrtD (fun _ => 0) 1 4 0 = .diverge := by
  refine (C157_normal logD sqrtD hlog hsqrt (fun _ => 0) (by simp) 1 4 0).2.1 (by norm_num) fun j => ?_
  have h0 : normalU 0 = -1 := by
    have z : fl53 0 = 0 := fl53_fix isDouble_zero
    have mone : fl53 (-1) = -1 := by exact_mod_cast fl53_int (m := -1) (by norm_num)
    simp [normalU, unitD, z, mone]
  have one : fl53 1 = 1 := by exact_mod_cast fl53_int (m := 1) (by norm_num)
  have two : fl53 2 = 2 := by exact_mod_cast fl53_int (m := 2) (by norm_num)
  rw [normalS, h0, show (-1:ℚ) * -1 = 1 by norm_num, one, show (1:ℚ) + 1 = 2 by norm_num, two]
  norm_num

end Dbl
end Verif
