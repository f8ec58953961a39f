import Verif.Model.Small
import Verif.Lemmas.Grid
import Mathlib.Algebra.BigOperators.Intervals
import Mathlib.Algebra.BigOperators.Group.Finset.Basic
import Mathlib.Tactic.NormNum
import Mathlib.Data.Prod.Lex

/-! Properties C32, C42, C43, C44, C47, C54. -/

namespace Verif

/-! ## C32 -/

namespace VecDV
variable {D : Type}

/-- the public operations that change a design variable. -/
inductive Op (D : Type) where
  | setValue (v : List D)
  | update (dp : List D)
  | revert
  | setParameters (rows : Nat) (m : List (List D))

/-- effect of one operation. -/
def Op.run (add : D → D → D) (s : VecDV D) : Op D → Res (VecDV D) Unit
  | .setValue v => .ok () (s.setValue v)
  | .update dp => s.update add dp
  | .revert => .ok () s.revert
  | .setParameters r m => s.setParameters r m

/-- states reachable from construction by any history of calls. -/
inductive Reach (add : D → D → D) : VecDV D → Prop
  | init (v : List D) : Reach add (mk0 v)
  | step {s s' : VecDV D} (o : Op D) : Reach add s → (o.run add s).state? = some s' → Reach add s'

/-- **C32**: after any history, with any arithmetic on the entries (in particular floating point): a successful
update, `setValue` or `setParameters` followed by a revert gives back exactly the value before it; a second revert
changes nothing. -/
theorem C32_revert_restores (add : D → D → D) (s s1 : VecDV D) (_ : Reach add s) (o : Op D)
    (hne : o ≠ .revert) (h : o.run add s = .ok () s1) :
    s1.revert.value = s.value ∧ s1.revert.revert = s1.revert := by
  refine ⟨?_, rfl⟩
  cases o with
  | setValue v => simp only [Op.run, Res.ok.injEq, true_and] at h; subst h; rfl
  | update dp =>
    simp only [Op.run, update] at h
    split at h
    · simp only [Res.ok.injEq, true_and] at h; subst h; rfl
    · exact absurd h (by simp)
  | revert => exact absurd rfl hne
  | setParameters r m =>
    simp only [Op.run, setParameters] at h
    split at h
    · exact absurd h (by simp)
    · simp only [Res.ok.injEq, true_and] at h; subst h; rfl

/-- non-vacuity: update then revert after a history. -/
example : (Op.update [5, 7]).run (· + ·) (⟨[1, 2], [0, 0]⟩ : VecDV Int) = .ok () ⟨[6, 9], [1, 2]⟩ := by decide
example : Reach (· + ·) (⟨[1, 2], [0, 0]⟩ : VecDV Int) :=
  .step (.setValue [1, 2]) (.init [0, 0]) rfl

/-- **C32**: an update adds entry by entry and keeps the dimension; two updates in a row add up. -/
theorem C32_updates_add (add : D → D → D) (s s1 s2 : VecDV D) (d1 d2 : List D)
    (h1 : s.update add d1 = .ok () s1) (h2 : s1.update add d2 = .ok () s2) :
    s1.value.length = s.value.length ∧
    (∀ (i : Nat) (x d : D), s.value[i]? = some x → d1[i]? = some d → s1.value[i]? = some (add x d)) ∧
    (∀ (i : Nat) (x d d' : D), s.value[i]? = some x → d1[i]? = some d → d2[i]? = some d' →
      s2.value[i]? = some (add (add x d) d')) := by
  unfold update at h1
  split at h1
  · rename_i e1
    simp only [Res.ok.injEq, true_and] at h1
    subst h1
    unfold update at h2
    split at h2
    · rename_i e2
      simp only [Res.ok.injEq, true_and] at h2
      subst h2
      refine ⟨by simp [e1], ?_, ?_⟩
      · intro i x d hx hd; simp [List.getElem?_zipWith, hx, hd]
      · intro i x d d' hx hd hd'; simp [List.getElem?_zipWith, hx, hd, hd']
    · exact absurd h2 (by simp)
  · exact absurd h1 (by simp)

example : (⟨[1, 2], [1, 2]⟩ : VecDV Int).update (· + ·) [3, 4] = .ok () ⟨[4, 6], [1, 2]⟩ ∧
    (⟨[4, 6], [1, 2]⟩ : VecDV Int).update (· + ·) [10, 20] = .ok () ⟨[14, 26], [4, 6]⟩ := by decide

/-- **C32**: `setParameters(getParameters())` of another variable of the same dimension copies its value; a matrix
of other dimensions is rejected and nothing changes. -/
theorem C32_parameters_roundtrip (s t : VecDV D) :
    (t.value.length = s.value.length →
      ∃ s', s.setParameters t.value.length t.getParameters = .ok () s' ∧ s'.value = t.value ∧
        s'.getParameters = t.getParameters) ∧
    (∀ rows m, (rows ≠ s.value.length ∨ m.length ≠ 1) → s.setParameters rows m = .throw .outOfBound s) := by
  constructor
  · intro h
    exact ⟨⟨t.value, s.value⟩, by simp [setParameters, getParameters, h], rfl, rfl⟩
  · intro rows m h
    rw [setParameters, if_pos (Or.comm.1 h)]

example : (⟨[1, 2], [1, 2]⟩ : VecDV Int).setParameters 3 [[1, 2, 3]] = .throw .outOfBound ⟨[1, 2], [1, 2]⟩ := by
  decide

end VecDV

/-! ## C42 -/

theorem categoricalLoop_spec (u : ℚ) : ∀ (ps pre : List ℚ) (p : ℚ), (∀ q ∈ ps, 0 ≤ q) → pre.sum < u →
    let k := categoricalLoop u ps (pre.sum + p) (pre.length + 1)
    k < (pre ++ p :: ps).length ∧ ((pre ++ p :: ps).take k).sum < u ∧
      (u ≤ ((pre ++ p :: ps).take (k + 1)).sum ∨ k + 1 = (pre ++ p :: ps).length) := by
  intro ps
  induction ps with
  | nil =>
    intro pre p _ hu
    simp only [categoricalLoop, Nat.add_sub_cancel]
    refine ⟨by simp, ?_, by simp⟩
    simpa using hu
  | cons q ps ih =>
    intro pre p hq hu
    simp only [categoricalLoop]
    split_ifs with h
    · have := ih (pre ++ [p]) q (fun r hr => hq r (by simp [hr])) (by simpa using h)
      simpa [List.append_assoc] using this
    · simp only [Nat.add_sub_cancel]
      refine ⟨by simp, by simpa using hu, Or.inl ?_⟩
      have : (pre ++ p :: q :: ps).take (pre.length + 1) = pre ++ [p] := by
        rw [List.take_append]; simp
      rw [this]; simpa using h

theorem take_sum_mono {ps : List ℚ} (h : ∀ p ∈ ps, 0 ≤ p) {a b : Nat} (hab : a ≤ b) :
    (ps.take a).sum ≤ (ps.take b).sum := by
  have : ps.take b = ps.take a ++ (ps.take b).drop a := by
    conv_lhs => rw [← List.take_append_drop a (ps.take b)]
    rw [List.take_take, min_eq_left hab]
  rw [this, List.sum_append]
  have : 0 ≤ ((ps.take b).drop a).sum :=
    List.sum_nonneg fun x hx => h x (List.mem_of_mem_take (List.mem_of_mem_drop hx))
  linarith

/-- **C42**: for every vector of non-negative probabilities with sum one and every draw `u` in `(0, 1]`, category `k`
is returned exactly when `u` lies in `(p_0+..+p_(k-1), p_0+..+p_k]`; so a category is always returned, and never one
of probability zero. -/
theorem C42_categorical_partial (ps : List ℚ) (u : ℚ) (h0 : ∀ p ∈ ps, 0 ≤ p) (h1 : ps.sum = 1) (hu : 0 < u)
    (hu1 : u ≤ 1) :
    ∃ k p, sampleCategorical ps u = .ok k () ∧ ps[k]? = some p ∧ 0 < p ∧
      ∀ j, j < ps.length → (j = k ↔ (ps.take j).sum < u ∧ u ≤ (ps.take (j + 1)).sum) := by
  rcases ps with _ | ⟨p0, ps⟩
  · simp at h1
  have hany : (p0 :: ps).any (fun p => decide (p < 0)) = false := by
    rw [List.any_eq_false]
    intro p hp; simpa using h0 p hp
  have hs : sampleCategorical (p0 :: ps) u = .ok (categoricalLoop u ps p0 1) () := by
    unfold sampleCategorical
    rw [if_neg]
    rw [h1, hany]; norm_num
  have hsp := categoricalLoop_spec u ps [] p0 (fun q hq => h0 q (by simp [hq])) (by simpa using hu)
  simp only [List.sum_nil, zero_add, List.length_nil, List.nil_append] at hsp
  set k := categoricalLoop u ps p0 1
  obtain ⟨hk, hlt, hle⟩ := hsp
  have hle' : u ≤ ((p0 :: ps).take (k + 1)).sum := by
    rcases hle with h | h
    · exact h
    · rw [h, List.take_length, h1]; exact hu1
  refine ⟨k, (p0 :: ps)[k], hs, by simp [hk], ?_, ?_⟩
  · rw [List.take_add_one, List.sum_append, List.getElem?_eq_getElem hk] at hle'
    simp only [Option.toList_some, List.sum_singleton] at hle'
    linarith
  · intro j _
    constructor
    · rintro rfl; exact ⟨hlt, hle'⟩
    · rintro ⟨j1, j2⟩
      rcases lt_trichotomy j k with h | h | h
      · have := take_sum_mono h0 (show j + 1 ≤ k by omega); linarith
      · exact h
      · have := take_sum_mono h0 (show k + 1 ≤ j by omega); linarith

example : sampleCategorical [1/2, 0, 1/3, 1/6] (3/4) = .ok 2 () ∧ ([1/2, 0, 1/3, 1/6] : List ℚ).sum = 1 := by
  constructor <;> decide +kernel

/-- The full C42 is **false** for the draw 0, which `random()` can produce: a first category of probability zero is
returned. -/
theorem C42_zero_draw_returns_impossible_category :
    uniformDraw 0 = 0 ∧ sampleCategorical [0, 1] (uniformDraw 0) = .ok 0 () := by
  constructor <;> decide +kernel

/-- Bad probability vectors are rejected, whatever the draw. -/
theorem C42_bad_probabilities_rejected (ps : List ℚ) (u : ℚ)
    (h : 1 / 1000000000000 < |ps.sum - 1| ∨ ∃ p ∈ ps, p < 0) :
    sampleCategorical ps u = .throw .badArgument () := by
  unfold sampleCategorical
  rw [if_pos]
  rcases h with h | ⟨p, hp, hn⟩
  · exact Or.inl h
  · exact Or.inr (List.any_eq_true.2 ⟨p, hp, by simpa using hn⟩)

example : (1:ℚ) / 1000000000000 < |([1/2, 1/4] : List ℚ).sum - 1| := by norm_num [abs_of_neg]

/-! ## C54: uniform sampling -/

/-- **C54** (real types): for every raw random number the sample lies in the support; both ends are attained. -/
theorem C54_uniform_real (a b : ℚ) (hab : a < b) :
    (∀ r ≤ 2147483647, ∃ x, sampleUniformReal r a b = .ok x () ∧ a ≤ x ∧ x ≤ b) ∧
    sampleUniformReal 0 a b = .ok a () ∧ sampleUniformReal 2147483647 a b = .ok b () := by
  have hn : ¬ a ≥ b := not_le.2 hab
  refine ⟨?_, ?_, ?_⟩
  · intro r hr
    refine ⟨_, by rw [sampleUniformReal, if_neg hn], ?_, ?_⟩
    · have : 0 ≤ uniformDraw r := by unfold uniformDraw; positivity
      nlinarith
    · have : uniformDraw r ≤ 1 := by
        unfold uniformDraw
        rw [div_le_one (by norm_num)]
        exact_mod_cast hr
      nlinarith
  · rw [sampleUniformReal, if_neg hn]; simp [uniformDraw]
  · rw [sampleUniformReal, if_neg hn]
    have : uniformDraw 2147483647 = 1 := by norm_num [uniformDraw]
    rw [this]; simp

/-- **C54** (integer types): for every raw random number the sample lies in the support. -/
theorem C54_uniform_int_range (a b : Int) (hab : a < b) (r : Nat) (hr : r ≤ 2147483647) :
    ∃ x, sampleUniformInt r a b = .ok x () ∧ a ≤ x ∧ x ≤ b := by
  refine ⟨_, by rw [sampleUniformInt, if_neg (by omega)], ?_, ?_⟩
  · have h0 : 0 ≤ uniformDraw r := by unfold uniformDraw; positivity
    have h1 : (0:ℚ) ≤ ((b - a : Int) : ℚ) := by exact_mod_cast (by omega : (0:Int) ≤ b - a)
    have : 0 ≤ roundHalfUp (uniformDraw r * ((b - a : Int) : ℚ)) := Int.floor_nonneg.2 (by positivity)
    omega
  · have h1 : uniformDraw r ≤ 1 := by
      unfold uniformDraw
      rw [div_le_one (by norm_num)]
      exact_mod_cast hr
    have h2 : (0:ℚ) ≤ ((b - a : Int) : ℚ) := by exact_mod_cast (by omega : (0:Int) ≤ b - a)
    have : roundHalfUp (uniformDraw r * ((b - a : Int) : ℚ)) ≤ b - a := by
      unfold roundHalfUp
      rw [← Int.lt_add_one_iff, Int.floor_lt]
      push_cast
      push_cast at h2
      nlinarith
    omega

example : (3 : Int) < 9 ∧ (5 : Nat) ≤ 2147483647 := by decide

/-- **C54**: an empty or single-valued support is rejected, for real and integer types. -/
theorem C54_empty_support_rejected (r : Nat) :
    (∀ a b : ℚ, sampleUniformReal r a b = .throw .badArgument () ↔ b ≤ a) ∧
    (∀ a b : Int, sampleUniformInt r a b = .throw .badArgument () ↔ b ≤ a) := by
  constructor <;> intro a b <;> constructor <;> intro h
  · by_contra hc
    rw [sampleUniformReal, if_neg hc] at h; cases h
  · rw [sampleUniformReal, if_pos h]
  · by_contra hc
    rw [sampleUniformInt, if_neg hc] at h; cases h
  · rw [sampleUniformInt, if_pos h]

/-- The claim that integer sampling is uniform is **false**: on `{0, 1, 2}` the middle value is produced by
`2^30` of the `2^31` raw random numbers, each end by half as many. -/
theorem C54_uniform_int_biased (r : Nat) (hr : r ≤ 2147483647) :
    (sampleUniformInt r 0 2 = .ok 0 () ↔ r < 536870912) ∧
    (sampleUniformInt r 0 2 = .ok 1 () ↔ 536870912 ≤ r ∧ r < 1610612736) ∧
    (sampleUniformInt r 0 2 = .ok 2 () ↔ 1610612736 ≤ r) := by
  have hv : ∀ k : Int, roundHalfUp (uniformDraw r * ((2 - 0 : Int) : ℚ)) = k ↔
      (k * 4294967294 - 2147483647 ≤ 4 * (r : Int) ∧ 4 * (r : Int) < (k + 1) * 4294967294 - 2147483647) := by
    intro k
    unfold roundHalfUp uniformDraw
    rw [Int.floor_eq_iff]
    have e1 : ((k:ℚ) ≤ (r:ℚ) / 2147483647 * ((2 - 0 : Int) : ℚ) + 1 / 2) ↔
        ((k * 4294967294 - 2147483647 : Int) : ℚ) ≤ ((4 * (r : Int) : Int) : ℚ) := by
      push_cast
      constructor <;> intro h <;> linarith
    have e2 : ((r:ℚ) / 2147483647 * ((2 - 0 : Int) : ℚ) + 1 / 2 < k + 1) ↔
        ((4 * (r : Int) : Int) : ℚ) < (((k + 1) * 4294967294 - 2147483647 : Int) : ℚ) := by
      push_cast
      constructor <;> intro h <;> linarith
    rw [e1, e2, Int.cast_le, Int.cast_lt]
  have hs : ∀ k : Int, sampleUniformInt r 0 2 = .ok k () ↔
      roundHalfUp (uniformDraw r * ((2 - 0 : Int) : ℚ)) = k := by
    intro k
    rw [sampleUniformInt, if_neg (by decide)]
    simp
  rw [hs, hs, hs, hv, hv, hv]
  omega

/-! ## C43 -/

theorem logFactLoop_eq : ∀ (k x : Nat) (v : ℝ),
    logFactLoop k x v = v + Real.log ((x + k).factorial) - Real.log (x.factorial) := by
  intro k
  induction k with
  | zero => intro x v; simp [logFactLoop]
  | succ k ih =>
    intro x v
    rw [logFactLoop, ih, Nat.factorial_succ x]
    have : x + 1 + k = x + (k + 1) := by ring
    rw [this]
    push_cast
    rw [Real.log_mul (by positivity) (by positivity)]
    ring

/-- **C43**: the log-factorial function returns the logarithm of the factorial for every argument; the log-gamma
function on naturals returns `log((n-1)!)` and rejects zero. -/
theorem C43_log_factorial (n : Nat) :
    logFactorial n = Real.log n.factorial ∧
    logGammaNat (n + 1) = .ok (Real.log n.factorial) () ∧ logGammaNat 0 = .throw .badArgument () := by
  have h : ∀ m, logFactorial m = Real.log m.factorial := by
    intro m
    rcases m with _ | m
    · simp [logFactorial]
    · rw [logFactorial, if_pos (by omega), logFactLoop_eq]
      simp [Nat.add_comm]
  exact ⟨h n, by simp [logGammaNat, h], by simp [logGammaNat]⟩

/-! ## C44 -/

theorem truncQ_mono : Monotone truncQ := by
  intro x y h
  unfold truncQ
  split_ifs with h1 h2 h2
  · exact Int.floor_mono h
  · exact absurd (le_trans h1 h) h2
  · have : ⌈x⌉ ≤ 0 := Int.ceil_le.2 (by push_cast; linarith)
    have := Int.floor_nonneg.2 h2
    omega
  · exact Int.ceil_mono h

/-- **C44**: conversion of a time stamp to `(seconds, nanoseconds)` is monotone with respect to the lexicographic
order. -/
theorem C44_timespec_monotone (s t : ℚ) (h : s ≤ t) : toLex (toTimespec s) ≤ toLex (toTimespec t) := by
  rw [Prod.Lex.toLex_le_toLex]
  rcases lt_or_eq_of_le (truncQ_mono h) with hlt | heq
  · exact Or.inl hlt
  · refine Or.inr ⟨heq, ?_⟩
    simp only [toTimespec]
    apply truncQ_mono
    rw [heq]
    linarith

/-- **C44**: for a non-negative time stamp the parts are in range and denote the time stamp up to one nanosecond. -/
theorem C44_timespec_value_partial (s : ℚ) (h : 0 ≤ s) :
    0 ≤ (toTimespec s).1 ∧ 0 ≤ (toTimespec s).2 ∧ (toTimespec s).2 < 1000000000 ∧
    ((toTimespec s).1 : ℚ) + (toTimespec s).2 / 1000000000 ≤ s ∧
    s < ((toTimespec s).1 : ℚ) + ((toTimespec s).2 + 1) / 1000000000 := by
  have hfl := Int.floor_le s
  have hlt := Int.lt_floor_add_one s
  have hn : 0 ≤ (s - (⌊s⌋ : ℚ)) * 1000000000 := by
    apply mul_nonneg <;> linarith
  simp only [toTimespec, truncQ_of_nonneg h, truncQ_of_nonneg hn]
  have a := Int.floor_le ((s - (⌊s⌋ : ℚ)) * 1000000000)
  have b := Int.lt_floor_add_one ((s - (⌊s⌋ : ℚ)) * 1000000000)
  refine ⟨Int.floor_nonneg.2 h, Int.floor_nonneg.2 hn, ?_, by linarith, by linarith⟩
  rw [Int.floor_lt]; push_cast; linarith

example : toTimespec (13 / 4) = (3, 250000000) := by decide +kernel

/-- For negative time stamps the nanoseconds are negative (POSIX requires `0 <= tv_nsec`). -/
theorem C44_negative_timespec : toTimespec (-13 / 4) = (-3, -250000000) := by decide +kernel

/-! ## C47 -/

theorem sumLogLoop_eq (R : Nat → Nat → ℝ) (rows : Nat) : ∀ (k i : Nat) (s : ℝ), i + k ≤ rows →
    sumLogLoop R rows k i s =
      .ok (s + ∑ j ∈ Finset.Ico i (i + k), if |R j j| > 1 / 2 ^ 52 then Real.logb 2 |R j j| else 0) () := by
  intro k
  induction k with
  | zero => intro i s _; simp [sumLogLoop]
  | succ k ih =>
    intro i s h
    rw [sumLogLoop, if_pos (by omega), Finset.sum_eq_sum_Ico_succ_bot (by omega)]
    have e : i + (k + 1) = i + 1 + k := by omega
    rw [e]
    split_ifs with hc
    · rw [ih _ _ (by omega)]; congr 1; ring
    · rw [ih _ _ (by omega)]; congr 1; ring

/-- **C47** for matrices with at least as many rows as columns: an invalid column range is rejected, a valid one
gives the sum of `log2 |R(i,i)|` over `b <= i <= e`, leaving out entries not larger than machine epsilon. -/
theorem C47_sum_log_diag_partial (R : Nat → Nat → ℝ) (rows cols b e : Nat) (hr : cols ≤ rows) :
    (b < e ∧ e < cols → computeSumLogDiagR R rows cols b e =
      .ok (∑ j ∈ Finset.Icc b e, if |R j j| > 1 / 2 ^ 52 then Real.logb 2 |R j j| else 0) ()) ∧
    (¬ (b < e ∧ e < cols) → computeSumLogDiagR R rows cols b e = .throw .outOfBound ()) := by
  constructor
  · rintro ⟨h1, h2⟩
    rw [computeSumLogDiagR, if_neg (by omega), if_neg (by omega), sumLogLoop_eq R rows _ _ _ (by omega)]
    have : b + (e + 1 - b) = e + 1 := by omega
    rw [this, zero_add]
    rfl
  · intro h
    rw [computeSumLogDiagR]
    split_ifs with h1 h2
    · rfl
    · rfl
    · exact absurd ⟨by omega, by omega⟩ h

example : (3 : Nat) ≤ 3 ∧ (0 : Nat) < 2 ∧ (2 : Nat) < 3 := by decide

/-- The full C47 is **false** for a matrix with fewer rows than columns: the row index is not checked and the read
is out of the matrix. -/
theorem C47_wide_matrix_reads_outside (R : Nat → Nat → ℝ) : computeSumLogDiagR R 1 3 0 2 = .ub := by
  simp only [computeSumLogDiagR, sumLogLoop]
  norm_num

/-- A single column cannot be asked for: the range `[i, i]` is always rejected. -/
theorem C47_single_column_rejected (R : Nat → Nat → ℝ) (rows cols i : Nat) :
    computeSumLogDiagR R rows cols i i = .throw .outOfBound () := by
  simp [computeSumLogDiagR]

end Verif
