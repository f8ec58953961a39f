import Verif.Model.DoubleSumLog
import Verif.Model.DoubleGain
import Verif.Lemmas.DoubleSegments
import Verif.Lemmas.DoubleLoops
import Verif.Props.DoubleGain
import Mathlib.Analysis.SpecialFunctions.Log.Base
import Mathlib.Analysis.Complex.ExponentialBounds

/-!
# C153: the sum of the logs of a diagonal in double arithmetic
-/

namespace Verif

/-- `log2` is accurate to the last bit. -/
def Log2Accurate (log2D : ℚ → ℚ) : Prop :=
  ∀ x : ℚ, 0 < x → |(log2D x : ℝ) - Real.logb 2 x| ≤ |Real.logb 2 x| / 2 ^ (52 : ℕ)

/-- `log2` of a power of two is its exponent. -/
def Log2Exact (log2D : ℚ → ℚ) : Prop := ∀ k : ℤ, log2D ((2 : ℚ) ^ k) = k

/-- such a logarithm exists. -/
theorem exists_log2 : ∃ l, Log2Accurate l ∧ Log2Exact l := by
  have : ∀ x : ℚ, ∃ q : ℚ, (0 < x → |(q : ℝ) - Real.logb 2 x| ≤ |Real.logb 2 x| / 2 ^ (52 : ℕ)) ∧ ∀ k : ℤ, x = 2 ^ k → q = k := by
    intro x
    by_cases h : ∃ k : ℤ, x = 2 ^ k
    · obtain ⟨k, rfl⟩ := h
      refine ⟨k, fun _ => ?_, fun j hj => ?_⟩
      · have : Real.logb 2 (((2:ℚ) ^ k : ℚ) : ℝ) = k := by
          push_cast
          rw [← Real.rpow_intCast, Real.logb_rpow (by norm_num) (by norm_num)]
        rw [this]
        simp only [Rat.cast_intCast, sub_self, abs_zero]
        positivity
      · have := zpow_right_injective₀ (a := (2:ℚ)) (by norm_num) (by norm_num) hj
        rw [this]
    · by_cases hx : 0 < x
      · by_cases h0 : Real.logb 2 x = 0
        · refine ⟨0, fun _ => by rw [h0]; simp, fun k hk => absurd ⟨k, hk⟩ h⟩
        · have hp : 0 < |Real.logb 2 (x:ℝ)| / 2 ^ (52 : ℕ) := by positivity
          obtain ⟨q, h1, h2⟩ := exists_rat_btwn (show Real.logb 2 (x:ℝ) < Real.logb 2 x + |Real.logb 2 (x:ℝ)| / 2 ^ (52 : ℕ) by linarith)
          refine ⟨q, fun _ => ?_, fun k hk => absurd ⟨k, hk⟩ h⟩
          rw [abs_le]; constructor <;> linarith
      · exact ⟨0, fun h => absurd h hx, fun k hk => absurd ⟨k, hk⟩ h⟩
  choose l hl using this
  exact ⟨l, fun x hx => (hl x).1 hx, fun k => (hl _).2 k rfl⟩

/-- the logarithm of an entry as `computeSumLogDiagR` counts it. -/
noncomputable def entryLog (x : ℝ) : ℝ := if |x| > 1 / 2 ^ (52 : ℕ) then Real.logb 2 |x| else 0

theorem flR (x : ℚ) : |((fl53 x : ℚ) : ℝ) - x| ≤ |(x : ℝ)| / 2 ^ (53 : ℕ) := by
  have := fl53_rel x
  have h : (((|fl53 x - x| : ℚ)) : ℝ) ≤ ((|x| / 2 ^ 53 : ℚ) : ℝ) := by exact_mod_cast this
  push_cast at h
  exact h

/-- one addition. -/
theorem step_err {s l : ℚ} {S L E A : ℝ} (hs : |(s : ℝ) - S| ≤ E) (hl : |(l : ℝ) - L| ≤ |L| / 2 ^ (52 : ℕ))
    (hS : |S| + |L| ≤ A) (hE : E ≤ A / 2) : |((fl53 (s + l) : ℚ) : ℝ) - (S + L)| ≤ E + A / 2 ^ (51 : ℕ) := by
  have h := flR (s + l)
  push_cast at h
  have hs' := abs_le.1 hs
  have hl' := abs_le.1 hl
  have hL : |L| ≤ A := by linarith [abs_nonneg S]
  have h2 : |(s : ℝ) + l| ≤ 2 * A := by
    have a := abs_add_le (s : ℝ) l
    have b : |(s : ℝ)| ≤ |S| + E := by have := abs_sub_abs_le_abs_sub (s : ℝ) S; linarith
    have c : |(l : ℝ)| ≤ |L| + |L| / 2 ^ (52 : ℕ) := by have := abs_sub_abs_le_abs_sub (l : ℝ) L; linarith
    have d : |L| / 2 ^ (52 : ℕ) ≤ A / 2 := by
      rw [div_le_iff₀ (by positivity)]; norm_num; linarith [abs_nonneg L, abs_nonneg S]
    linarith
  have h3 : |(s : ℝ) + l| / 2 ^ (53 : ℕ) ≤ A / 2 ^ (52 : ℕ) := by
    rw [div_le_div_iff₀ (by positivity) (by positivity)]; norm_num; linarith
  have h4 : |L| / 2 ^ (52 : ℕ) ≤ A / 2 ^ (52 : ℕ) := by gcongr
  have h5 : A / 2 ^ (51 : ℕ) = A / 2 ^ (52 : ℕ) + A / 2 ^ (52 : ℕ) := by ring
  have h' := abs_le.1 h
  rw [abs_le]; constructor <;> linarith

theorem sumLogLoopD_err {log2D : ℚ → ℚ} (hlog : Log2Accurate log2D) (R : Nat → Nat → ℚ) (rows : Nat) (b n : Nat) (hn : n ≤ 2 ^ 50) {A : ℝ}
    (hA : ∑ j ∈ Finset.Ico b (b + n), |entryLog (R j j)| ≤ A) :
    ∀ (k i : Nat) (s : ℚ), i + k ≤ rows → b ≤ i → i + k = b + n →
    |(s : ℝ) - ∑ j ∈ Finset.Ico b i, entryLog (R j j)| ≤ (i - b : ℕ) * (A / 2 ^ (51 : ℕ)) →
    ∃ s', sumLogLoopD log2D R rows k i s = .ok s' () ∧
      |(s' : ℝ) - ∑ j ∈ Finset.Ico b (b + n), entryLog (R j j)| ≤ n * (A / 2 ^ (51 : ℕ)) := by
  have hA0 : 0 ≤ A := le_trans (Finset.sum_nonneg fun _ _ => abs_nonneg _) hA
  intro k
  induction k with
  | zero =>
    intro i s h1 h2 h3 h4
    refine ⟨s, rfl, ?_⟩
    obtain rfl : i = b + n := by omega
    rwa [Nat.add_sub_cancel_left] at h4
  | succ k ih =>
    intro i s h1 h2 h3 h4
    have hsum : ∑ j ∈ Finset.Ico b (i + 1), entryLog (R j j) = ∑ j ∈ Finset.Ico b i, entryLog (R j j) + entryLog (R i i) :=
      Finset.sum_Ico_succ_top h2 _
    have hc : (i + 1 - b : ℕ) = (i - b : ℕ) + 1 := by omega
    have hbound : |∑ j ∈ Finset.Ico b i, entryLog (R j j)| + |entryLog (R i i)| ≤ A := by
      refine le_trans ?_ hA
      refine le_trans (add_le_add_left (Finset.abs_sum_le_sum_abs _ _) _) ?_
      rw [← Finset.sum_Ico_succ_top h2 (fun j => |entryLog (R j j)|)]
      exact Finset.sum_le_sum_of_subset_of_nonneg (Finset.Ico_subset_Ico le_rfl (by omega)) fun _ _ _ => abs_nonneg _
    have hstep : (0:ℝ) ≤ A / 2 ^ (51 : ℕ) := by positivity
    rw [sumLogLoopD, if_pos (by omega)]
    by_cases hx : |R i i| > 1 / 2 ^ 52
    · rw [if_pos hx]
      refine ih (i + 1) _ (by omega) (by omega) (by omega) ?_
      have hxR : |((R i i : ℚ) : ℝ)| > 1 / 2 ^ (52 : ℕ) := by
        have : ((1 / 2 ^ 52 : ℚ) : ℝ) < ((|R i i| : ℚ) : ℝ) := by exact_mod_cast hx
        push_cast at this; exact this
      have he : entryLog (R i i) = Real.logb 2 ((|R i i| : ℚ) : ℝ) := by
        rw [entryLog, if_pos hxR]; push_cast; rfl
      have hl := hlog |R i i| (lt_trans (by norm_num) hx)
      rw [← he] at hl
      rw [hsum, hc]
      push_cast
      rw [add_mul, one_mul]
      refine step_err h4 hl hbound ?_
      have : ((i - b : ℕ) : ℝ) ≤ 2 ^ (50 : ℕ) := by exact_mod_cast (show i - b ≤ 2 ^ 50 by omega)
      calc ((i - b : ℕ) : ℝ) * (A / 2 ^ (51 : ℕ)) ≤ 2 ^ (50 : ℕ) * (A / 2 ^ (51 : ℕ)) := by gcongr
        _ = A / 2 := by ring
    · rw [if_neg hx]
      refine ih (i + 1) _ (by omega) (by omega) (by omega) ?_
      have hxR : ¬ |((R i i : ℚ) : ℝ)| > 1 / 2 ^ (52 : ℕ) := by
        intro h
        apply hx
        have : ((1 / 2 ^ 52 : ℚ) : ℝ) < ((|R i i| : ℚ) : ℝ) := by push_cast; exact h
        exact_mod_cast this
      rw [hsum, hc, show entryLog (R i i) = 0 by rw [entryLog, if_neg hxR], add_zero]
      push_cast
      rw [add_mul, one_mul]
      linarith

/-- **C153** for matrices with at least as many rows as columns and at most `2^50` columns: an invalid column range is rejected; for a valid one the number computed with
doubles differs from the exact sum of the logs of the entries above machine epsilon by at most one part in `2^51` of the sum of their magnitudes per column. -/
theorem C153_error_partial {log2D : ℚ → ℚ} (hlog : Log2Accurate log2D) (R : Nat → Nat → ℚ) (rows cols b e : Nat) (hr : cols ≤ rows)
    (hc : cols ≤ 2 ^ 50) :
    (b < e ∧ e < cols → ∃ s, computeSumLogDiagRD log2D R rows cols b e = .ok s () ∧
      |(s : ℝ) - ∑ j ∈ Finset.Icc b e, (if |(R j j : ℝ)| > 1 / 2 ^ (52 : ℕ) then Real.logb 2 |(R j j : ℝ)| else 0)| ≤
        (e + 1 - b : ℕ) / 2 ^ (51 : ℕ) * ∑ j ∈ Finset.Icc b e, |if |(R j j : ℝ)| > 1 / 2 ^ (52 : ℕ) then Real.logb 2 |(R j j : ℝ)| else 0|) ∧
    (¬ (b < e ∧ e < cols) → computeSumLogDiagRD log2D R rows cols b e = .throw .outOfBound ()) := by
  constructor
  · rintro ⟨h1, h2⟩
    obtain ⟨s, hs, he⟩ := sumLogLoopD_err hlog R rows b (e + 1 - b) (by omega) le_rfl (e + 1 - b) b 0 (by omega) le_rfl rfl (by simp)
    refine ⟨s, by rw [computeSumLogDiagRD, if_neg (by omega), if_neg (by omega), hs], ?_⟩
    have : b + (e + 1 - b) = e + 1 := by omega
    rw [this] at he
    rw [show ∀ x y : ℝ, x / 2 ^ (51 : ℕ) * y = x * (y / 2 ^ (51 : ℕ)) from fun x y => by ring]
    exact he
  · intro h
    rw [computeSumLogDiagRD]
    split_ifs with h1 h2
    · rfl
    · rfl
    · exact absurd ⟨by omega, by omega⟩ h

example : ∃ l : ℚ → ℚ, Log2Accurate l ∧ ∃ s, computeSumLogDiagRD l (fun _ _ => 3) 4 4 1 3 = .ok s () := by
  obtain ⟨l, hl, -⟩ := exists_log2
  obtain ⟨s, hs, -⟩ := (C153_error_partial hl (fun _ _ => 3) 4 4 1 3 le_rfl (by norm_num)).1 ⟨by norm_num, by norm_num⟩
  exact ⟨l, hl, s, hs⟩

theorem sumLogLoopD_pow {log2D : ℚ → ℚ} (hlog : Log2Exact log2D) (R : Nat → Nat → ℚ) (rows : Nat) (p : Nat → ℤ)
    (M : ℤ) (hM : M ≤ 2 ^ 53) : ∀ (k i : Nat) (s : ℤ), i + k ≤ rows →
    (∀ j, i ≤ j → j < i + k → |R j j| = 2 ^ p j ∧ -52 < p j) → |s| + ∑ j ∈ Finset.Ico i (i + k), |p j| ≤ M →
    sumLogLoopD log2D R rows k i s = .ok (s + ∑ j ∈ Finset.Ico i (i + k), p j : ℤ) () := by
  intro k
  induction k with
  | zero => intro i s _ _ _; simp [sumLogLoopD]
  | succ k ih =>
    intro i s h1 h2 h3
    have e : i + (k + 1) = i + 1 + k := by omega
    obtain ⟨a1, a2⟩ := h2 i le_rfl (by omega)
    rw [Finset.sum_eq_sum_Ico_succ_bot (by omega), e] at h3
    have hg : |R i i| > 1 / 2 ^ 52 := by
      rw [a1, show (1:ℚ) / 2 ^ 52 = 2 ^ (-52 : ℤ) by norm_num]
      exact zpow_lt_zpow_right₀ (by norm_num) a2
    rw [sumLogLoopD, if_pos (by omega), if_pos hg, a1, hlog]
    have hb : |s + p i| ≤ |s| + |p i| := abs_add_le _ _
    have hnn : 0 ≤ ∑ j ∈ Finset.Ico (i + 1) (i + 1 + k), |p j| := Finset.sum_nonneg fun _ _ => abs_nonneg _
    have hf : fl53 ((s : ℚ) + (p i : ℚ)) = ((s + p i : ℤ) : ℚ) := by
      have := Dbl.fl53_int (m := s + p i) (by linarith)
      push_cast at this ⊢; exact this
    rw [hf, ih (i + 1) (s + p i) (by omega) (fun j h4 h5 => h2 j (by omega) (by omega)) (by linarith),
      Finset.sum_eq_sum_Ico_succ_bot (show i < i + (k + 1) by omega), e, add_assoc]

/-- **C153** (powers of two): if the entries are powers of two above machine epsilon, up to sign, the computed sum is exact. -/
theorem C153_powers_of_two {log2D : ℚ → ℚ} (hlog : Log2Exact log2D) (R : Nat → Nat → ℚ) {rows cols b e : Nat} (hr : cols ≤ rows)
    (hbe : b < e) (hec : e < cols) (p : Nat → ℤ) (hp : ∀ j, b ≤ j → j ≤ e → |R j j| = 2 ^ p j ∧ -52 < p j)
    (hM : ∑ j ∈ Finset.Icc b e, |p j| ≤ 2 ^ 53) :
    computeSumLogDiagRD log2D R rows cols b e = .ok (∑ j ∈ Finset.Icc b e, p j : ℤ) () := by
  have h := sumLogLoopD_pow hlog R rows p (2 ^ 53) le_rfl (e + 1 - b) b 0 (by omega) (fun j h1 h2 => hp j h1 (by omega))
  have hi : Finset.Ico b (b + (e + 1 - b)) = Finset.Icc b e := by ext j; simp only [Finset.mem_Ico, Finset.mem_Icc]; omega
  rw [hi] at h
  rw [computeSumLogDiagRD, if_neg (by omega), if_neg (by omega)]
  have := h (by simpa using hM)
  simpa using this

example : ∃ l : ℚ → ℚ, Log2Exact l ∧ computeSumLogDiagRD l (fun _ _ => -8) 4 4 1 3 = .ok 9 () := by
  obtain ⟨l, -, hl⟩ := exists_log2
  have := C153_powers_of_two hl (fun _ _ => -8) (le_refl 4) (show 1 < 3 by norm_num) (by norm_num) (fun _ => 3)
    (fun _ _ _ => by norm_num) (by norm_num)
  refine ⟨l, hl, ?_⟩
  rw [this]; norm_num

/-- **C153** (gain): half the difference of two such sums, computed with doubles, is within one part in `2^52` per column (and one more) of the exact gain, relative to the
magnitudes of the logs. -/
theorem C153_gain {log2D : ℚ → ℚ} (hlog : Log2Accurate log2D) (R R' : Nat → Nat → ℚ) {rows rows' cols b e : Nat} (hr : cols ≤ rows)
    (hr' : cols ≤ rows') (hc : cols ≤ 2 ^ 50) (hbe : b < e) (hec : e < cols) :
    ∃ s s', computeSumLogDiagRD log2D R rows cols b e = .ok s () ∧ computeSumLogDiagRD log2D R' rows' cols b e = .ok s' () ∧
      |(dblRounded.halfDiff s' s : ℝ) - 1 / 2 * (∑ j ∈ Finset.Icc b e, entryLog (R' j j) - ∑ j ∈ Finset.Icc b e, entryLog (R j j))| ≤
        (e + 2 - b : ℕ) / 2 ^ (52 : ℕ) * (∑ j ∈ Finset.Icc b e, |entryLog (R' j j)| + ∑ j ∈ Finset.Icc b e, |entryLog (R j j)|) := by
  obtain ⟨s, h1, h2⟩ := (C153_error_partial hlog R rows cols b e hr hc).1 ⟨hbe, hec⟩
  obtain ⟨s', h1', h2'⟩ := (C153_error_partial hlog R' rows' cols b e hr' hc).1 ⟨hbe, hec⟩
  refine ⟨s, s', h1, h1', ?_⟩
  have a : |∑ j ∈ Finset.Icc b e, entryLog (R j j)| ≤ ∑ j ∈ Finset.Icc b e, |entryLog (R j j)| := Finset.abs_sum_le_sum_abs _ _
  have a' : |∑ j ∈ Finset.Icc b e, entryLog (R' j j)| ≤ ∑ j ∈ Finset.Icc b e, |entryLog (R' j j)| := Finset.abs_sum_le_sum_abs _ _
  have hn : ((e + 1 - b : ℕ) : ℝ) ≤ 2 ^ (50 : ℕ) := by exact_mod_cast (show e + 1 - b ≤ 2 ^ 50 by omega)
  have hn' : ((e + 2 - b : ℕ) : ℝ) = (e + 1 - b : ℕ) + 1 := by exact_mod_cast (show e + 2 - b = e + 1 - b + 1 by omega)
  change |(s : ℝ) - ∑ j ∈ Finset.Icc b e, entryLog (R j j)| ≤ (e + 1 - b : ℕ) / 2 ^ (51 : ℕ) * ∑ j ∈ Finset.Icc b e, |entryLog (R j j)| at h2
  change |(s' : ℝ) - ∑ j ∈ Finset.Icc b e, entryLog (R' j j)| ≤ (e + 1 - b : ℕ) / 2 ^ (51 : ℕ) * ∑ j ∈ Finset.Icc b e, |entryLog (R' j j)| at h2'
  rw [hn']
  generalize (∑ j ∈ Finset.Icc b e, entryLog (R j j)) = S at *
  generalize (∑ j ∈ Finset.Icc b e, entryLog (R' j j)) = S' at *
  generalize (∑ j ∈ Finset.Icc b e, |entryLog (R j j)|) = A at *
  generalize (∑ j ∈ Finset.Icc b e, |entryLog (R' j j)|) = A' at *
  generalize ((e + 1 - b : ℕ) : ℝ) = n at *
  have hA : 0 ≤ A := le_trans (abs_nonneg _) a
  have hA' : 0 ≤ A' := le_trans (abs_nonneg _) a'
  have hf := flR (s' - s)
  push_cast at hf
  have hd : ((dblRounded.halfDiff s' s : ℚ) : ℝ) = (fl53 (s' - s) : ℚ) / 2 := by rw [halfDiff_eq]; push_cast; rfl
  rw [hd]
  have k : n / 2 ^ (51 : ℕ) ≤ 1 / 2 := by
    rw [div_le_iff₀ (by positivity)]; norm_num at hn ⊢; linarith
  have k1 : n / 2 ^ (51 : ℕ) * A ≤ 1 / 2 * A := by gcongr
  have k2 : n / 2 ^ (51 : ℕ) * A' ≤ 1 / 2 * A' := by gcongr
  have hs : |(s' : ℝ) - s| ≤ 2 * (A + A') := by
    have q := abs_le.1 h2
    have q' := abs_le.1 h2'
    have p := abs_le.1 a
    have p' := abs_le.1 a'
    rw [abs_le]; constructor <;> linarith
  have hs2 : |(s' : ℝ) - s| / 2 ^ (53 : ℕ) ≤ (A + A') / 2 ^ (52 : ℕ) := by
    rw [div_le_div_iff₀ (by positivity) (by positivity)]; norm_num; linarith
  have q := abs_le.1 h2
  have q' := abs_le.1 h2'
  have qf := abs_le.1 hf
  have e1 : (n + 1) / 2 ^ (52 : ℕ) * (A' + A) = 1 / 2 * (n / 2 ^ (51 : ℕ) * A) + 1 / 2 * (n / 2 ^ (51 : ℕ) * A') + (A + A') / 2 ^ (52 : ℕ) := by ring
  have e2 : 0 ≤ (A + A') / 2 ^ (52 : ℕ) := by positivity
  rw [e1, abs_le]
  constructor <;> linarith

example : ∃ l : ℚ → ℚ, Log2Accurate l ∧ ∃ s s', computeSumLogDiagRD l (fun _ _ => 3) 4 4 1 3 = .ok s () ∧
    computeSumLogDiagRD l (fun i j => if i = j then 5 else 0) 9 4 1 3 = .ok s' () := by
  obtain ⟨l, hl, -⟩ := exists_log2
  obtain ⟨s, s', h, h', -⟩ := C153_gain hl (fun _ _ => 3) (fun i j => if i = j then 5 else 0) (le_refl 4) (show 4 ≤ 9 by norm_num)
    (by norm_num) (show 1 < 3 by norm_num) (by norm_num)
  exact ⟨l, hl, s, s', h, h'⟩

/-- the logarithm of the double after one. -/
theorem log2_near_one {log2D : ℚ → ℚ} (hlog : Log2Accurate log2D) :
    144 / 100 / 2 ^ 52 ≤ log2D (1 + 1 / 2 ^ 52) ∧ log2D (1 + 1 / 2 ^ 52) ≤ 145 / 100 / 2 ^ 52 := by
  have h := hlog (1 + 1 / 2 ^ 52) (by norm_num)
  have hu : Real.log (1 + 1 / 2 ^ (52 : ℕ)) ≤ 1 / 2 ^ (52 : ℕ) := by
    have := Real.log_le_sub_one_of_pos (x := 1 + 1 / 2 ^ (52 : ℕ)) (by positivity); linarith
  have hl : 999 / 1000 / 2 ^ (52 : ℕ) ≤ Real.log (1 + 1 / 2 ^ (52 : ℕ)) := by
    have := Real.one_sub_inv_le_log_of_pos (x := 1 + 1 / 2 ^ (52 : ℕ)) (by positivity)
    refine le_trans ?_ this
    norm_num
  have g1 := Real.log_two_gt_d9
  have g2 := Real.log_two_lt_d9
  have hL : Real.logb 2 (((1 + 1 / 2 ^ 52 : ℚ)) : ℝ) = Real.log (1 + 1 / 2 ^ (52 : ℕ)) / Real.log 2 := by
    rw [Real.logb]; push_cast; rfl
  rw [hL] at h
  have b1 : 1441 / 1000 / 2 ^ (52 : ℕ) ≤ Real.log (1 + 1 / 2 ^ (52 : ℕ)) / Real.log 2 := by
    rw [le_div_iff₀ (by linarith)]
    refine le_trans ?_ hl
    nlinarith
  have b2 : Real.log (1 + 1 / 2 ^ (52 : ℕ)) / Real.log 2 ≤ 1443 / 1000 / 2 ^ (52 : ℕ) := by
    rw [div_le_iff₀ (by linarith)]
    refine le_trans hu ?_
    nlinarith
  rw [abs_of_nonneg (le_trans (by positivity) b1)] at h
  have h' := abs_le.1 h
  have b3 : Real.log (1 + 1 / 2 ^ (52 : ℕ)) / Real.log 2 / 2 ^ (52 : ℕ) ≤ 1443 / 1000 / 2 ^ (52 : ℕ) / 2 ^ (52 : ℕ) := by gcongr
  have c1 : (144 / 100 / 2 ^ (52 : ℕ) : ℝ) ≤ (log2D (1 + 1 / 2 ^ 52) : ℝ) := by norm_num at b1 b3 h' ⊢; linarith [h'.1]
  have c2 : (log2D (1 + 1 / 2 ^ 52) : ℝ) ≤ (145 / 100 / 2 ^ (52 : ℕ) : ℝ) := by norm_num at b2 b3 h' ⊢; linarith [h'.2]
  constructor
  · have : ((144 / 100 / 2 ^ 52 : ℚ) : ℝ) ≤ (log2D (1 + 1 / 2 ^ 52) : ℝ) := by push_cast; exact c1
    exact_mod_cast this
  · have : (log2D (1 + 1 / 2 ^ 52) : ℝ) ≤ ((145 / 100 / 2 ^ 52 : ℚ) : ℝ) := by push_cast; exact c2
    exact_mod_cast this

/-- The full C153 – the number depends on the diagonal but not on the order of the columns – is **false**: with every accurate logarithm the diagonals
`4, 1 + 2^-52, 1 + 2^-52` and `1 + 2^-52, 1 + 2^-52, 4` have different sums. -/
theorem C153_order_matters {log2D : ℚ → ℚ} (hlog : Log2Accurate log2D) (hex : Log2Exact log2D) :
    computeSumLogDiagRD log2D (fun i _ => if i = 0 then 4 else 1 + 1 / 2 ^ 52) 3 3 0 2 = .ok (2 + 1 / 2 ^ 50) () ∧
    computeSumLogDiagRD log2D (fun i _ => if i = 2 then 4 else 1 + 1 / 2 ^ 52) 3 3 0 2 = .ok (2 + 1 / 2 ^ 51) () := by
  obtain ⟨h1, h2⟩ := log2_near_one hlog
  have h4 : log2D 4 = 2 := by have := hex 2; norm_num at this; exact this
  have e2 : fl53 2 = 2 := by
    have := Dbl.fl53_int (m := 2) (by norm_num)
    push_cast at this; exact this
  have g : |(1 + 1 / 2 ^ 52 : ℚ)| = 1 + 1 / 2 ^ 52 := abs_of_pos (by norm_num)
  have g4 : |(4 : ℚ)| = 4 := abs_of_pos (by norm_num)
  generalize hl : log2D (1 + 1 / 2 ^ 52) = l at h1 h2
  have a1 : fl53 (2 + l) = 2 + 1 / 2 ^ 51 := by
    rw [Dbl.fl53_eval2 (x := 2 + l) (2 ^ 52 + 1) (l * 2 ^ 51 - 1) (-51) (by norm_num) (by norm_num) (by norm_num at h1 ⊢; linarith)
      (by norm_num at h2 ⊢; linarith) (.inr ⟨by norm_num at h1 ⊢; linarith, by norm_num at h2 ⊢; linarith⟩) (by push_cast; norm_num; ring)]
    norm_num
  have a2 : fl53 (2 + 1 / 2 ^ 51 + l) = 2 + 1 / 2 ^ 50 := by
    rw [Dbl.fl53_eval2 (x := 2 + 1 / 2 ^ 51 + l) (2 ^ 52 + 2) (l * 2 ^ 51 - 1) (-51) (by norm_num) (by norm_num) (by norm_num at h1 ⊢; linarith)
      (by norm_num at h2 ⊢; linarith) (.inr ⟨by norm_num at h1 ⊢; linarith, by norm_num at h2 ⊢; linarith⟩) (by push_cast; norm_num; ring)]
    norm_num
  have b1 : |fl53 l - l| ≤ 1 / 100 / 2 ^ 52 := by
    have := fl53_rel l
    rw [abs_of_nonneg (le_trans (by norm_num) h1)] at this
    refine le_trans this ?_
    norm_num at h2 ⊢; linarith
  have b2 : |fl53 (fl53 l + l) - (fl53 l + l)| ≤ 1 / 100 / 2 ^ 52 := by
    have := fl53_rel (fl53 l + l)
    have b1' := abs_le.1 b1
    rw [abs_of_nonneg (show 0 ≤ fl53 l + l by norm_num at b1' h1 ⊢; linarith [b1'.1])] at this
    refine le_trans this ?_
    norm_num at b1' h2 ⊢; linarith [b1'.2]
  have b3 : fl53 (fl53 (fl53 l + l) + 2) = 2 + 1 / 2 ^ 51 := by
    have b1' := abs_le.1 b1
    have b2' := abs_le.1 b2
    generalize fl53 (fl53 l + l) = t at *
    generalize fl53 l = u at *
    have t1 : 28 / 10 / 2 ^ 52 ≤ t := by norm_num at *; linarith [b1'.1, b2'.1]
    have t2 : t ≤ 295 / 100 / 2 ^ 52 := by norm_num at *; linarith [b1'.2, b2'.2]
    rw [Dbl.fl53_eval2 (x := t + 2) (2 ^ 52 + 1) (t * 2 ^ 51 - 1) (-51) (by norm_num) (by norm_num) (by norm_num at t1 ⊢; linarith)
      (by norm_num at t2 ⊢; linarith) (.inr ⟨by norm_num at t1 ⊢; linarith, by norm_num at t2 ⊢; linarith⟩) (by push_cast; norm_num; ring)]
    norm_num
  have q1 : (1:ℚ) + 1 / 2 ^ 52 > 1 / 2 ^ 52 := by norm_num
  have q4 : (4:ℚ) > 1 / 2 ^ 52 := by norm_num
  simp only [one_div, gt_iff_lt] at g q1 q4 hl a1 a2 b3
  constructor
  · simp only [computeSumLogDiagRD, sumLogLoopD]
    simp [g, g4, h4, hl, q1, q4, e2, a1, a2]
  · simp only [computeSumLogDiagRD, sumLogLoopD]
    simp [g, g4, h4, hl, q1, q4, b3]

example : ∃ l : ℚ → ℚ, Log2Accurate l ∧ computeSumLogDiagRD l (fun i _ => if i = 0 then 4 else 1 + 1 / 2 ^ 52) 3 3 0 2 ≠
    computeSumLogDiagRD l (fun i _ => if i = 2 then 4 else 1 + 1 / 2 ^ 52) 3 3 0 2 := by
  obtain ⟨l, h1, h2⟩ := exists_log2
  obtain ⟨a, b⟩ := C153_order_matters h1 h2
  refine ⟨l, h1, ?_⟩
  rw [a, b]
  intro h
  norm_num at h

end Verif
