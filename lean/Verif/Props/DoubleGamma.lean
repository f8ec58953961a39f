import Verif.Lemmas.DoubleGamma

/-!
# C152: gamma sampling in double arithmetic
-/

namespace Verif
namespace Dbl

/-- the double next above one. -/
theorem double_gt_one {q : ℚ} (h : IsDouble q) (h1 : 1 < q) : 1 + 1 / 2 ^ 52 ≤ q := by
  obtain ⟨k, hk⟩ := h.multiple (L := 0) (by simpa using h1.le)
  have e : (2:ℚ) ^ ((0 : Int) - 52) = 1 / 2 ^ 52 := by norm_num
  rw [e] at hk
  have h2 : ((2 ^ 52 : ℤ) : ℚ) < k := by
    rw [hk] at h1
    push_cast
    have := mul_lt_mul_of_pos_right h1 (show (0:ℚ) < 2 ^ 52 by positivity)
    rw [one_mul, mul_assoc, one_div, inv_mul_cancel₀ (by positivity), mul_one] at this
    exact this
  have h3 : (2 ^ 52 : ℤ) + 1 ≤ k := by exact_mod_cast h2
  have h4 : ((2 ^ 52 : ℤ) : ℚ) + 1 ≤ k := by exact_mod_cast h3
  rw [hk]
  push_cast at h4
  have := mul_le_mul_of_nonneg_right h4 (show (0:ℚ) ≤ 1 / 2 ^ 52 by positivity)
  refine le_trans (le_of_eq ?_) this
  norm_num

theorem mE_bounds : (5 / 2 : ℚ) ≤ mE ∧ mE ≤ 3 ∧ IsDouble mE := by
  have h := fl53_rel (27182818284590452354 / 10 ^ 19)
  obtain ⟨h1, h2⟩ := abs_le.1 h
  rw [abs_of_pos (by norm_num)] at h1 h2
  refine ⟨?_, ?_, (fl53_nearest _).1⟩
  · unfold mE; norm_num at h1 ⊢; linarith
  · unfold mE; norm_num at h2 ⊢; linarith

/-- the factor `b`. -/
theorem gammaB_bounds {f : ℚ} (h0 : 0 ≤ f) : 1 ≤ gammaB f ∧ IsDouble (gammaB f) ∧
    gammaB f ≤ (1 + f / (5 / 2)) * (1 + 1 / 2 ^ 53) ^ 2 ∧ (1 + f / 3) * (1 - 1 / 2 ^ 53) ^ 2 ≤ gammaB f := by
  obtain ⟨e1, e2, e3⟩ := mE_bounds
  have e0 : (0:ℚ) < mE := by linarith
  have s1 : mE ≤ fl53 (mE + f) := by
    have := fl53_mono (show mE ≤ mE + f by linarith)
    rwa [fl53_fix e3] at this
  have q1 : 1 ≤ fl53 (mE + f) / mE := by rwa [one_le_div e0]
  have r1 := fl53_rel (mE + f)
  rw [abs_of_nonneg (show 0 ≤ mE + f by linarith)] at r1
  obtain ⟨r2, r3⟩ := abs_le.1 r1
  have t1 := fl53_rel (fl53 (mE + f) / mE)
  rw [abs_of_nonneg (show 0 ≤ fl53 (mE + f) / mE by linarith)] at t1
  obtain ⟨t2, t3⟩ := abs_le.1 t1
  have d1 : fl53 (mE + f) / mE ≤ (1 + f / mE) * (1 + 1 / 2 ^ 53) := by
    rw [div_le_iff₀ e0]
    have : (1 + f / mE) * (1 + 1 / 2 ^ 53) * mE = (mE + f) * (1 + 1 / 2 ^ 53) := by field_simp
    rw [this]; linarith
  have d2 : (1 + f / mE) * (1 - 1 / 2 ^ 53) ≤ fl53 (mE + f) / mE := by
    rw [le_div_iff₀ e0]
    have : (1 + f / mE) * (1 - 1 / 2 ^ 53) * mE = (mE + f) * (1 - 1 / 2 ^ 53) := by field_simp
    rw [this]; linarith
  have g1 : f / mE ≤ f / (5 / 2) := div_le_div_of_nonneg_left h0 (by norm_num) e1
  have g2 : f / 3 ≤ f / mE := div_le_div_of_nonneg_left h0 e0 e2
  refine ⟨?_, (fl53_nearest _).1, ?_, ?_⟩
  · have := fl53_mono q1
    rwa [fl53_one] at this
  · have a1 : gammaB f ≤ fl53 (mE + f) / mE * (1 + 1 / 2 ^ 53) := by unfold gammaB; linarith
    have a2 := mul_le_mul_of_nonneg_right d1 (show (0:ℚ) ≤ 1 + 1 / 2 ^ 53 by norm_num)
    have a3 := mul_le_mul_of_nonneg_right (show 1 + f / mE ≤ 1 + f / (5 / 2) by linarith) (show (0:ℚ) ≤ (1 + 1 / 2 ^ 53) ^ 2 by norm_num)
    calc _ ≤ _ := a1
      _ ≤ (1 + f / mE) * (1 + 1 / 2 ^ 53) * (1 + 1 / 2 ^ 53) := a2
      _ = (1 + f / mE) * (1 + 1 / 2 ^ 53) ^ 2 := by ring
      _ ≤ _ := a3
  · have a1 : fl53 (mE + f) / mE * (1 - 1 / 2 ^ 53) ≤ gammaB f := by unfold gammaB; linarith
    have a2 := mul_le_mul_of_nonneg_right d2 (show (0:ℚ) ≤ 1 - 1 / 2 ^ 53 by norm_num)
    have a3 := mul_le_mul_of_nonneg_right (show 1 + f / 3 ≤ 1 + f / mE by linarith) (show (0:ℚ) ≤ (1 - 1 / 2 ^ 53) ^ 2 by norm_num)
    calc _ ≤ _ := a3
      _ = (1 + f / mE) * (1 - 1 / 2 ^ 53) * (1 - 1 / 2 ^ 53) := by ring
      _ ≤ _ := a2
      _ ≤ _ := a1

theorem unitD_bounds {r : ℕ} (hr : r ≤ 2147483647) : 0 ≤ unitD r ∧ unitD r ≤ 1 := by
  have h2 : (r : ℚ) ≤ 2147483647 := by exact_mod_cast hr
  refine ⟨fl53_nonneg (by positivity), ?_⟩
  have := fl53_mono (show (r : ℚ) / 2147483647 ≤ 1 by rw [div_le_one (by norm_num)]; exact h2)
  rwa [fl53_one] at this

/-- the arguments of one round of the rejection loop: the base of the power is in `[0, 1]`, the argument of the logarithm in `[0, 1/2]`. -/
theorem round_domain {f : ℚ} (hf : IsDouble f) (h0 : 1 / 2 ^ 52 < f) {r : ℕ} (hr : r ≤ 2147483647) :
    0 ≤ fl53 (gammaB f * unitD r) ∧
    (1 < fl53 (gammaB f * unitD r) → 0 ≤ fl53 (fl53 (gammaB f - fl53 (gammaB f * unitD r)) / f) ∧
      fl53 (fl53 (gammaB f - fl53 (gammaB f * unitD r)) / f) ≤ 1 / 2) := by
  have hfp : 0 < f := lt_trans (by norm_num) h0
  obtain ⟨b1, b2, b3, -⟩ := gammaB_bounds hfp.le
  obtain ⟨u1, u2⟩ := unitD_bounds hr
  have hb0 : 0 ≤ gammaB f := by linarith
  have hp0 : 0 ≤ fl53 (gammaB f * unitD r) := fl53_nonneg (mul_nonneg hb0 u1)
  refine ⟨hp0, fun hp => ?_⟩
  have hp1 := double_gt_one (fl53_nearest _).1 hp
  have hpb : fl53 (gammaB f * unitD r) ≤ gammaB f := by
    have := fl53_mono (mul_le_of_le_one_right hb0 u2)
    rwa [fl53_fix b2] at this
  have hhalf : IsDouble (f / 2) := by
    obtain ⟨m, e, h1, rfl⟩ := hf
    refine ⟨m, e - 1, h1, ?_⟩
    rw [zpow_sub_one₀ (by norm_num)]; ring
  have hw : gammaB f - fl53 (gammaB f * unitD r) ≤ f / 2 := by
    norm_num at b3 hp1 h0
    linarith
  have hd0 : 0 ≤ fl53 (gammaB f - fl53 (gammaB f * unitD r)) := fl53_nonneg (by linarith)
  have hd1 : fl53 (gammaB f - fl53 (gammaB f * unitD r)) ≤ f / 2 := by
    have := fl53_mono hw
    rwa [fl53_fix hhalf] at this
  refine ⟨fl53_nonneg (div_nonneg hd0 hfp.le), ?_⟩
  have h3 : fl53 (gammaB f - fl53 (gammaB f * unitD r)) / f ≤ 1 / 2 := by
    rw [div_le_iff₀ hfp]; linarith
  have := fl53_mono h3
  rwa [fl53_fix (show IsDouble (1 / 2) from ⟨1, -1, by norm_num, by norm_num⟩)] at this

/-- `z` of a round is not negative. -/
theorem z_nonneg {C : CMath} (hlog : LogAccurate C.log) (hpow : ∀ x y, 0 ≤ x → 0 ≤ C.pow x y) {f : ℚ} (hf : IsDouble f)
    (h0 : 1 / 2 ^ 52 < f) {r : ℕ} (hr : r ≤ 2147483647) {z : ℚ} (hz : gammaZD C f r = some z) : 0 ≤ z := by
  obtain ⟨d1, d2⟩ := round_domain hf h0 hr
  unfold gammaZD at hz
  simp only [] at hz
  split_ifs at hz with h1 h2
  · obtain ⟨d3, d4⟩ := d2 h1
    simp only [Option.some.injEq] at hz
    rw [← hz]
    have := (log_bounds hlog (lt_of_le_of_ne d3 (Ne.symm h2)) (by linarith)).1
    have h5 := (log_bounds hlog (lt_of_le_of_ne d3 (Ne.symm h2)) (by linarith)).2.2
    have h6 : (0:ℝ) ≤ ((-C.log _ : ℚ) : ℝ) := le_trans (mul_nonneg h5 (by norm_num)) this
    exact_mod_cast h6
  · simp only [Option.some.injEq] at hz
    rw [← hz]
    exact hpow _ _ d1

/-- **C152** (rejections): shapes and inverse scales that are not positive are rejected without a draw. -/
theorem C152_rejected (C : CMath) (rand : ℕ → ℕ) (shape inv : ℚ) (n : ℕ) (h : shape ≤ 0 ∨ inv ≤ 0) :
    gammaD C rand shape inv n = .throw .badArgument n := by
  unfold gammaD
  by_cases hs : shape ≤ 0
  · rw [if_pos hs]
  · rw [if_neg hs, if_pos (h.resolve_left hs)]

/-- **C152** (partial): for positive shapes below `2^49`: if the
fractional part of the shape is at most `2^-52`, the sample is minus the sum of the logarithms of as many uniform draws (zeros are skipped) as
the integral part of the shape says, divided by the inverse scale, up to a relative error of `(k + 3) 2^-50`, `k` being the integral part.  If not, a
number `z`, which is not negative, is added, that of the first accepted round of the rejection loop.  The arguments of `log` and `pow` are in their
domains in every round, in which `z` is either that logarithm or that power.  Missing: infinite samples, shapes of `2^64` and more (see below), that a round is
accepted at all. -/
theorem C152_gamma_partial (C : CMath) (hlog : LogAccurate C.log) (hpow : ∀ x y, 0 ≤ x → 0 ≤ C.pow x y) (rand : ℕ → ℕ)
    (hr : ∀ i, rand i ≤ 2147483647) (shape inv : ℚ) (n n' : ℕ) (rs : List ℕ) (hN : Nonzero rand n rs n') (hk : (rs.length : ℤ) = ⌊shape⌋)
    (hsmall : shape < 2 ^ 49) :
    (0 < shape → 0 < inv → fl53 (shape - rs.length) ≤ 1 / 2 ^ 52 → ∃ (x : ℚ) (us : List ℚ),
      gammaD C rand shape inv n = .ok (some x) n' ∧ 0 ≤ x ∧ List.Forall₂ IsDraw rs us ∧
      |(x : ℝ) * inv - negLogs us| ≤ (rs.length + 3 : ℕ) / 2 ^ 50 * negLogs us) ∧
    (0 < shape → 0 < inv → 1 / 2 ^ 52 < fl53 (shape - rs.length) → ∀ (j : ℕ) (z : ℚ),
      (∀ i < j, ¬ gammaAcceptD C (fl53 (shape - rs.length)) (rand (n' + 2 * i)) (rand (n' + 2 * i + 1))) →
      gammaAcceptD C (fl53 (shape - rs.length)) (rand (n' + 2 * j)) (rand (n' + 2 * j + 1)) →
      gammaZD C (fl53 (shape - rs.length)) (rand (n' + 2 * j)) = some z →
      ∃ (x : ℚ) (us : List ℚ), gammaD C rand shape inv n = .ok (some x) (n' + 2 * j + 2) ∧ 0 ≤ x ∧ 0 ≤ z ∧ List.Forall₂ IsDraw rs us ∧
        |(x : ℝ) * inv - (negLogs us + z)| ≤ (rs.length + 3 : ℕ) / 2 ^ 50 * (negLogs us + z)) ∧
    (1 / 2 ^ 52 < fl53 (shape - rs.length) → ∀ i, 0 ≤ fl53 (gammaB (fl53 (shape - rs.length)) * unitD (rand i)) ∧
      (1 < fl53 (gammaB (fl53 (shape - rs.length)) * unitD (rand i)) →
        0 ≤ fl53 (fl53 (gammaB (fl53 (shape - rs.length)) - fl53 (gammaB (fl53 (shape - rs.length)) * unitD (rand i))) / fl53 (shape - rs.length)) ∧
        fl53 (fl53 (gammaB (fl53 (shape - rs.length)) - fl53 (gammaB (fl53 (shape - rs.length)) * unitD (rand i))) / fl53 (shape - rs.length))
          ≤ 1 / 2)) := by
  have hfd : IsDouble (fl53 (shape - rs.length)) := (fl53_nearest _).1
  have hkn : ⌊shape⌋.toNat = rs.length := by rw [← hk]; simp
  have hf0 : 0 ≤ fl53 (shape - rs.length) := by
    refine fl53_nonneg ?_
    have := Int.floor_le shape
    rw [← hk] at this
    push_cast at this
    linarith
  have hlt : (rs.length : ℤ) < 2 ^ 49 := by
    have h1 := Int.floor_le shape
    rw [← hk] at h1
    have h2 : ((rs.length : ℤ) : ℚ) < ((2 ^ 49 : ℤ) : ℚ) := by push_cast at h1 ⊢; linarith
    exact_mod_cast h2
  have hlen : rs.length + 3 ≤ 2 ^ 50 := by norm_num at hlt ⊢; omega
  have hno : ¬ (2:ℤ) ^ 64 ≤ ⌊shape⌋ := by rw [← hk]; norm_num at hlt ⊢; omega
  obtain ⟨y, us, e1, e2, e3⟩ := expSum_RR hlog hr rs n n' 0 0 1 hN le_rfl (show RR 1 0 ((0:ℚ) : ℝ) by
    rw [Rat.cast_zero]; exact (RR.refl le_rfl).mono (by omega))
  rw [zero_add] at e3
  have hbody : 0 < shape → 0 < inv → gammaD C rand shape inv n =
      if |fl53 (shape - rs.length)| > 1 / 2 ^ 52 then
        (gammaLoop C (fl53 (shape - rs.length)) rand n').bind fun z n'' => .ok (z.map fun z => fl53 (fl53 (y + z) / inv)) n''
      else .ok (some (fl53 (fl53 (y + 0) / inv))) n' := by
    intro h1 h2
    unfold gammaD
    rw [if_neg (not_le.2 h1), if_neg (not_le.2 h2), if_neg hno, hkn, e1]
    rfl
  have hfin : ∀ z : ℚ, 0 ≤ z → 0 < inv → 0 ≤ fl53 (fl53 (y + z) / inv) ∧
      |((fl53 (fl53 (y + z) / inv) : ℚ) : ℝ) * inv - (negLogs us + z)| ≤ (rs.length + 3 : ℕ) / 2 ^ 50 * (negLogs us + z) := by
    intro z hz hi
    have hzR : (0:ℝ) ≤ z := by exact_mod_cast hz
    have h1 : RR (1 + rs.length) (negLogs us + z) ((y + z : ℚ) : ℝ) := by
      push_cast
      exact e3.add ((RR.refl hzR).mono (by omega))
    obtain ⟨g1, g2⟩ := finish_RR h1 hi
    refine ⟨g1, ?_⟩
    have e : 1 + rs.length + 2 = rs.length + 3 := by omega
    rw [e] at g2
    exact g2.abs hlen
  refine ⟨?_, ?_, ?_⟩
  · intro h1 h2 h3
    rw [hbody h1 h2, if_neg (by rw [abs_of_nonneg hf0]; exact not_lt.2 h3)]
    obtain ⟨g1, g2⟩ := hfin 0 le_rfl h2
    rw [show negLogs us + ((0:ℚ) : ℝ) = negLogs us by rw [Rat.cast_zero, add_zero]] at g2
    exact ⟨_, us, rfl, g1, e2, g2⟩
  · intro h1 h2 h3 j z hrej hacc hz
    have hz0 := z_nonneg hlog hpow hfd h3 (hr _) hz
    obtain ⟨g1, g2⟩ := hfin z hz0 h2
    refine ⟨_, us, ?_, g1, hz0, e2, g2⟩
    rw [hbody h1 h2, if_pos (by rw [abs_of_nonneg hf0]; exact h3)]
    have hex : ∃ j, gammaAcceptD C (fl53 (shape - rs.length)) (rand (n' + 2 * j)) (rand (n' + 2 * j + 1)) := ⟨j, hacc⟩
    classical
    have hj : Nat.find hex = j := by
      rw [Nat.find_eq_iff]
      exact ⟨hacc, hrej⟩
    unfold gammaLoop
    rw [dif_pos hex]
    simp only [hj, hz, Res.bind, Option.map]
  · intro h i
    exact round_domain hfd h (hr i)

/-- **C152** (what is wrong): with the largest raw number followed by a zero the sample of a shape in `[2^-50, 1)` is infinite; from a shape of
`2^64` on the call is undefined. -/
theorem C152_infinite (C : CMath) (rand : ℕ → ℕ) (shape inv : ℚ) (n : ℕ) (hs : IsDouble shape) (hi : 0 < inv) :
    (1 / 2 ^ 50 ≤ shape → shape < 1 → rand n = 2147483647 → rand (n + 1) = 0 → gammaD C rand shape inv n = .ok none (n + 2)) ∧
    (2 ^ 64 ≤ shape → gammaD C rand shape inv n = .ub) := by
  refine ⟨fun h0 h1 hr0 hr1 => ?_, fun h => ?_⟩
  · have hp : 0 < shape := lt_of_lt_of_le (by norm_num) h0
    have hfl : ⌊shape⌋ = 0 := by rw [Int.floor_eq_iff]; constructor <;> push_cast <;> linarith
    have hf : fl53 (shape - ((0 : ℕ) : ℚ)) = shape := by rw [Nat.cast_zero, sub_zero]; exact fl53_fix hs
    obtain ⟨b1, b2, -, b4⟩ := gammaB_bounds hp.le
    have hb : 1 < gammaB shape := by norm_num at b4 h0 ⊢; linarith
    have hu : unitD 2147483647 = 1 := by
      unfold unitD
      rw [show ((2147483647 : ℕ) : ℚ) / 2147483647 = 1 by norm_num, fl53_one]
    have hpp : fl53 (gammaB shape * unitD (rand n)) = gammaB shape := by rw [hr0, hu, mul_one, fl53_fix b2]
    have hz : gammaZD C shape (rand n) = none := by
      unfold gammaZD
      simp only [hpp, if_pos hb, sub_self, fl53_zero, zero_div, if_true]
    have hacc : gammaAcceptD C shape (rand (n + 2 * 0)) (rand (n + 2 * 0 + 1)) := by
      unfold gammaAcceptD
      rw [mul_zero, add_zero, hpp, if_pos hb, hz, hr1]
      simp only []
      unfold unitD
      rw [Nat.cast_zero, zero_div, fl53_zero]
      norm_num
    unfold gammaD
    rw [if_neg (not_le.2 hp), if_neg (not_le.2 hi), hfl, if_neg (by norm_num)]
    simp only [Int.toNat_zero, expSumD, Res.bind, hf]
    rw [if_pos (by rw [abs_of_pos hp]; exact lt_of_lt_of_le (by norm_num) h0)]
    have hex : ∃ j, gammaAcceptD C shape (rand (n + 2 * j)) (rand (n + 2 * j + 1)) := ⟨0, hacc⟩
    classical
    have hj : Nat.find hex = 0 := by rw [Nat.find_eq_zero]; exact hacc
    unfold gammaLoop
    rw [dif_pos hex]
    simp only [hj, mul_zero, add_zero, hz, Option.map]
  · have hp : 0 < shape := lt_of_lt_of_le (by norm_num) h
    have hfl : (2:ℤ) ^ 64 ≤ ⌊shape⌋ := by rw [Int.le_floor]; push_cast; exact h
    unfold gammaD
    rw [if_neg (not_le.2 hp), if_neg (not_le.2 hi), if_pos hfl]

/-- non-vacuity: a shape of two, after a zero; a shape of 3/2 whose first round is accepted; an infinite sample. -/
example : ∃ C : CMath, LogAccurate C.log ∧
    (∃ x, gammaD C (fun i => if i = 0 then 0 else 1000) 2 3 0 = .ok (some x) 3) ∧
    (∃ x, gammaD C (fun i => if i = 0 then 1000 else 0) (3 / 2) 3 0 = .ok (some x) 3) ∧
    gammaD C (fun i => if i = 0 then 2147483647 else 0) (1 / 2) 3 0 = .ok none 2 := by
  obtain ⟨logD, h⟩ := logAccurate_exists
  refine ⟨⟨logD, fun _ _ => 0, fun _ => 1⟩, h, ?_, ?_, ?_⟩
  · have hN : Nonzero (fun i => if i = 0 then 0 else 1000) 0 [1000, 1000] 3 :=
      .skip rfl (.take (rand := fun i => if i = 0 then 0 else 1000) (n := 1) (by norm_num)
        (.take (rand := fun i => if i = 0 then 0 else 1000) (n := 2) (by norm_num) (.done _)))
    obtain ⟨h2, -⟩ := C152_gamma_partial ⟨logD, fun _ _ => 0, fun _ => 1⟩ h (fun _ _ _ => le_rfl) _
      (by intro i; by_cases h : i = 0 <;> simp [h]) 2 3 0 3 _ hN (by norm_num) (by norm_num)
    obtain ⟨x, -, hx, -⟩ := h2 (by norm_num) (by norm_num) (by norm_num [fl53_zero])
    exact ⟨x, hx⟩
  · have hN : Nonzero (fun i => if i = 0 then 1000 else 0) 0 [1000] 1 :=
      .take (rand := fun i => if i = 0 then 1000 else 0) (n := 0) (by norm_num) (.done _)
    have hf : fl53 (3 / 2 - (([1000] : List ℕ).length : ℚ)) = 1 / 2 := by
      rw [show (3 / 2 - (([1000] : List ℕ).length : ℚ)) = 1 / 2 by norm_num]
      exact fl53_fix ⟨1, -1, by norm_num, by norm_num⟩
    obtain ⟨-, h3, -⟩ := C152_gamma_partial ⟨logD, fun _ _ => 0, fun _ => 1⟩ h (fun _ _ _ => le_rfl) _
      (by intro i; by_cases h : i = 0 <;> simp [h]) (3 / 2) 3 0 1 _ hN (by norm_num) (by norm_num)
    rw [hf] at h3
    have hp : fl53 (gammaB (1 / 2) * unitD 0) = 0 := by
      unfold unitD; rw [Nat.cast_zero, zero_div, fl53_zero, mul_zero, fl53_zero]
    obtain ⟨x, -, hx, -⟩ := h3 (by norm_num) (by norm_num) (by norm_num) 0 0 (by intro i hi; omega)
      (by
        show gammaAcceptD _ _ 0 0
        unfold gammaAcceptD gammaZD
        simp only [hp]
        norm_num
        unfold unitD
        rw [Nat.cast_zero, zero_div, fl53_zero]
        norm_num)
      (by
        show gammaZD _ _ 0 = _
        unfold gammaZD
        simp only [hp]
        norm_num)
    exact ⟨x, hx⟩
  · exact (C152_infinite _ _ (1 / 2) 3 0 ⟨1, -1, by norm_num, by norm_num⟩ (by norm_num)).1 (by norm_num) (by norm_num) rfl rfl

end Dbl
end Verif
