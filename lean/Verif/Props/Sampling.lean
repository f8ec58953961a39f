import Verif.Model.Sampling
import Mathlib.Tactic.Linarith
import Mathlib.Tactic.Positivity
import Mathlib.Tactic.NormNum
import Mathlib.Tactic.FieldSimp
import Mathlib.Algebra.BigOperators.Intervals
import Mathlib.Analysis.SpecialFunctions.Complex.Arg
import Mathlib.Data.Int.Interval
import Mathlib.Data.Rat.Floor
import Mathlib.LinearAlgebra.Matrix.NonsingularInverse

/-! Properties C67 (the samplers follow their distributions) and C68 (seeding). -/

namespace Verif
namespace Sampling

/-- the largest raw random number, `RAND_MAX`. -/
abbrev RM : Nat := 2147483647

theorem unit_real_eq (r : Nat) : ((unit .real r : ℚ) : ℝ) = (r : ℝ) / RM := by
  unfold unit uniformDraw; push_cast; norm_num

theorem unit_real_ne {r : Nat} : unit .real r ≠ 0 ↔ r ≠ 0 := by
  simp [unit, uniformDraw]

theorem unit_nonneg (k : Kind) (r : Nat) : 0 ≤ unit k r := by
  cases k with
  | real => unfold unit uniformDraw; positivity
  | integer =>
    have : (0:ℚ) ≤ uniformDraw r * 1 + 1 / 2 := by unfold uniformDraw; positivity
    have h := Int.floor_nonneg.2 this
    show (0:ℚ) ≤ ((⌊uniformDraw r * 1 + 1 / 2⌋ : ℤ) : ℚ)
    exact_mod_cast h

theorem uniformDraw_le {r : Nat} (h : r ≤ RM) : uniformDraw r ≤ 1 := by
  unfold uniformDraw
  rw [div_le_one (by norm_num)]
  exact_mod_cast h

/-- an integer uniform draw is zero or one. -/
theorem unit_integer {r : Nat} (h : r ≤ RM) : unit .integer r = 0 ∨ unit .integer r = 1 := by
  have h0 : (0:ℚ) ≤ ((⌊uniformDraw r * 1 + 1 / 2⌋ : ℤ) : ℚ) := unit_nonneg .integer r
  have h1 := uniformDraw_le h
  show ((⌊uniformDraw r * 1 + 1 / 2⌋ : ℤ) : ℚ) = 0 ∨ ((⌊uniformDraw r * 1 + 1 / 2⌋ : ℤ) : ℚ) = 1
  have : ⌊uniformDraw r * 1 + 1 / 2⌋ < 2 := by rw [Int.floor_lt]; push_cast; linarith
  have h0' : 0 ≤ ⌊uniformDraw r * 1 + 1 / 2⌋ := by exact_mod_cast h0
  have : ⌊uniformDraw r * 1 + 1 / 2⌋ = 0 ∨ ⌊uniformDraw r * 1 + 1 / 2⌋ = 1 := by omega
  rcases this with e | e <;> rw [e] <;> simp

theorem unit_le (k : Kind) {r : Nat} (h : r ≤ RM) : unit k r ≤ 1 := by
  cases k with
  | real => exact uniformDraw_le h
  | integer => rcases unit_integer h with e | e <;> rw [e] <;> norm_num

theorem firstRound_some {step : Nat} {acc : Nat → Prop} {n i : Nat} (h : firstRound step acc n = some i) :
    ∃ k, i = n + step * k ∧ acc i ∧ ∀ j < k, ¬ acc (n + step * j) := by
  classical
  unfold firstRound at h
  split at h
  next hx =>
    refine ⟨Nat.find hx, by simpa using h.symm, ?_, fun j hj => Nat.find_min hx hj⟩
    have := Nat.find_spec hx
    simp only [Option.some.injEq] at h
    rwa [← h]
  · cases h

theorem firstRound_none {step : Nat} {acc : Nat → Prop} {n : Nat} :
    firstRound step acc n = none ↔ ∀ k, ¬ acc (n + step * k) := by
  classical
  unfold firstRound
  split
  next hx => simp only [reduceCtorEq, false_iff]; push Not; exact hx
  next hx => simp only [true_iff]; push Not at hx; exact hx

theorem firstRound_zero {step : Nat} {acc : Nat → Prop} {n : Nat} (h : acc n) : firstRound step acc n = some n := by
  classical
  have hx : ∃ k, acc (n + step * k) := ⟨0, by simpa using h⟩
  have : Nat.find hx = 0 := by rw [Nat.find_eq_zero]; simpa using h
  unfold firstRound
  rw [dif_pos hx, this]; simp

/-! ## C67: exponential and geometric -/

/-- The exponential sampler returns a value determined by the first non-zero raw number alone; it comes back exactly if
there is one, and rejects exactly non-positive rates. -/
theorem C67_exponential_first_nonzero (rand : Nat → Nat) (rate : ℝ) (n : Nat) :
    (rate ≤ 0 → exponential .real rand rate n = .throw .badArgument n) ∧
    (0 < rate → (∀ i ≥ n, rand i = 0) → exponential .real rand rate n = .diverge) ∧
    (0 < rate → ∀ i ≥ n, rand i ≠ 0 → (∀ j, n ≤ j → j < i → rand j = 0) → ∃ x,
      exponential .real rand rate n = .ok x (i + 1) ∧ exponential .real (fun _ => rand i) rate 0 = .ok x 1) := by
  refine ⟨fun h => by rw [exponential, if_pos h], fun h hz => ?_, fun h i hi hne hz => ?_⟩
  · have : firstRound 1 (fun i => unit .real (rand i) ≠ 0) n = none := by
      rw [firstRound_none]; intro k; rw [unit_real_ne]; simp [hz (n + k) (by omega)]
    rw [exponential, if_neg (not_le.2 h), this]
  · have e0 : firstRound 1 (fun _ => unit .real (rand i) ≠ 0) 0 = some 0 := firstRound_zero (unit_real_ne.2 hne)
    refine ⟨-Real.log (unit .real (rand i) : ℚ) / rate, ?_, by rw [exponential, if_neg (not_le.2 h), e0]⟩
    have : firstRound 1 (fun i => unit .real (rand i) ≠ 0) n = some i := by
      cases hf : firstRound 1 (fun i => unit .real (rand i) ≠ 0) n with
      | none =>
        exfalso
        have := firstRound_none.1 hf (i - n)
        rw [unit_real_ne, show n + 1 * (i - n) = i by omega] at this
        exact this hne
      | some m =>
        obtain ⟨k, e, ha, hb⟩ := firstRound_some hf
        rw [unit_real_ne] at ha
        by_contra hc
        have hmi : m ≠ i := fun h => hc (by rw [h])
        rcases lt_or_gt_of_ne hmi with hlt | hgt
        · exact ha (hz m (by omega) hlt)
        · have := hb (i - n) (by omega)
          rw [unit_real_ne, show n + 1 * (i - n) = i by omega] at this
          exact this hne
    rw [exponential, if_neg (not_le.2 h), this]

example : (0:ℝ) < 2 ∧ (fun i => if i = 3 then 7 else 0 : Nat → Nat) 3 ≠ 0 ∧
    (∀ j, 0 ≤ j → j < 3 → (fun i => if i = 3 then 7 else 0 : Nat → Nat) j = 0) := by
  refine ⟨by norm_num, by decide, ?_⟩
  intro j _ h
  simp [show j ≠ 3 by omega]

/-- counting the raw numbers below a real threshold. -/
theorem card_lt (t : ℝ) (h1 : t ≤ 1) :
    ((Finset.Icc 1 RM).filter fun r : Nat => (r : ℝ) / RM < t).card = ⌈t * RM⌉₊ - 1 := by
  have hRM : (0:ℝ) < RM := by norm_num
  have hc : ⌈t * RM⌉₊ ≤ RM := by
    rw [Nat.ceil_le]; nlinarith
  have : (Finset.Icc 1 RM).filter (fun r : Nat => (r : ℝ) / RM < t) = Finset.Icc 1 (⌈t * RM⌉₊ - 1) := by
    ext r
    simp only [Finset.mem_filter, Finset.mem_Icc]
    rw [div_lt_iff₀ hRM, ← Nat.lt_ceil]
    omega
  rw [this, Nat.card_Icc]; omega

theorem card_le (t : ℝ) (h0 : 0 ≤ t) (h1 : t ≤ 1) :
    ((Finset.Icc 1 RM).filter fun r : Nat => (r : ℝ) / RM ≤ t).card = ⌊t * RM⌋₊ := by
  have hRM : (0:ℝ) < RM := by norm_num
  have hc : ⌊t * RM⌋₊ ≤ RM := by
    apply Nat.floor_le_of_le; nlinarith
  have : (Finset.Icc 1 RM).filter (fun r : Nat => (r : ℝ) / RM ≤ t) = Finset.Icc 1 ⌊t * RM⌋₊ := by
    ext r
    simp only [Finset.mem_filter, Finset.mem_Icc]
    rw [div_le_iff₀ hRM, ← Nat.le_floor_iff (by positivity)]
    omega
  rw [this, Nat.card_Icc]; omega

theorem frac_lt (t : ℝ) (h0 : 0 < t) (h1 : t ≤ 1) :
    |(((Finset.Icc 1 RM).filter fun r : Nat => (r : ℝ) / RM < t).card : ℝ) / RM - t| ≤ 1 / RM := by
  have hRM : (0:ℝ) < RM := by norm_num
  rw [card_lt t h1]
  have hp : 1 ≤ ⌈t * RM⌉₊ := Nat.one_le_iff_ne_zero.2 (by rw [Ne, Nat.ceil_eq_zero, not_le]; positivity)
  have a1 := Nat.le_ceil (t * RM)
  have a2 := Nat.ceil_lt_add_one (show 0 ≤ t * RM by positivity)
  rw [Nat.cast_sub hp, abs_le, Nat.cast_one]
  constructor
  · rw [neg_le_sub_iff_le_add, ← add_div, le_div_iff₀ hRM]; linarith
  · rw [sub_le_iff_le_add, div_le_iff₀ hRM, add_mul, div_mul_cancel₀ _ hRM.ne']; linarith

theorem frac_le (t : ℝ) (h0 : 0 ≤ t) (h1 : t ≤ 1) :
    |(((Finset.Icc 1 RM).filter fun r : Nat => (r : ℝ) / RM ≤ t).card : ℝ) / RM - t| ≤ 1 / RM := by
  have hRM : (0:ℝ) < RM := by norm_num
  rw [card_le t h0 h1]
  have a1 := Nat.floor_le (show 0 ≤ t * RM by positivity)
  have a2 := Nat.lt_floor_add_one (t * RM)
  rw [abs_le]
  constructor
  · rw [neg_le_sub_iff_le_add, ← add_div, le_div_iff₀ hRM]; linarith
  · rw [sub_le_iff_le_add, div_le_iff₀ hRM, add_mul, div_mul_cancel₀ _ hRM.ne']; linarith

open Classical in
/-- **C67** (exponential): among the `RAND_MAX` raw numbers the sampler does not discard, the fraction for which it returns
more than `x` is the tail `exp(-rate x)` of the exponential distribution up to `1 / RAND_MAX`; no sample is negative. -/
theorem C67_exponential_tail (rate x : ℝ) (hr : 0 < rate) (hx : 0 ≤ x) :
    |(((Finset.Icc 1 RM).filter fun r : Nat =>
        ∃ y, exponential .real (fun _ => r) rate 0 = .ok y 1 ∧ x < y).card : ℝ) / RM - Real.exp (-rate * x)| ≤ 1 / RM ∧
    ∀ r ∈ Finset.Icc 1 RM, ∃ y, exponential .real (fun _ => r) rate 0 = .ok y 1 ∧ 0 ≤ y := by
  have hval : ∀ r : Nat, 1 ≤ r → exponential .real (fun _ => r) rate 0 = .ok (-Real.log ((r:ℝ) / RM) / rate) 1 := by
    intro r h1
    have e0 : firstRound 1 (fun _ => unit .real r ≠ 0) 0 = some 0 := firstRound_zero (unit_real_ne.2 (by omega))
    rw [exponential, if_neg (not_le.2 hr), e0, ← unit_real_eq]
  have hRM : (0:ℝ) < RM := by norm_num
  constructor
  · have : (Finset.Icc 1 RM).filter (fun r : Nat => ∃ y, exponential .real (fun _ => r) rate 0 = .ok y 1 ∧ x < y) =
        (Finset.Icc 1 RM).filter fun r : Nat => (r : ℝ) / RM < Real.exp (-rate * x) := by
      apply Finset.filter_congr
      intro r hm
      have h1 : 1 ≤ r := (Finset.mem_Icc.1 hm).1
      have hpos : (0:ℝ) < (r:ℝ) / RM := by positivity
      rw [hval r h1]
      simp only [Res.ok.injEq, and_true, exists_eq_left']
      rw [lt_div_iff₀ hr, ← Real.log_lt_iff_lt_exp hpos]
      constructor <;> intro h <;> linarith
    rw [this]
    apply frac_lt _ (Real.exp_pos _)
    rw [Real.exp_le_one_iff]; nlinarith
  · intro r hm
    obtain ⟨h1, h2⟩ := Finset.mem_Icc.1 hm
    refine ⟨_, hval r h1, ?_⟩
    have hle : (r:ℝ) / RM ≤ 1 := by rw [div_le_one hRM]; exact_mod_cast h2
    have := Real.log_nonpos (by positivity) hle
    apply div_nonneg _ hr.le; linarith

example : (0:ℝ) < 3 ∧ (0:ℝ) ≤ 2 := by norm_num

/-- The geometric sampler depends on the first non-zero raw number alone and rejects exactly probabilities outside `(0, 1]`. -/
theorem C67_geometric_first_nonzero (rand : Nat → Nat) (p : ℝ) (n : Nat) :
    (p ≤ 0 ∨ p > 1 → geometric .real rand p n = .throw .badArgument n) ∧
    (¬ (p ≤ 0 ∨ p > 1) → (∀ i ≥ n, rand i = 0) → geometric .real rand p n = .diverge) ∧
    (¬ (p ≤ 0 ∨ p > 1) → ∀ i ≥ n, rand i ≠ 0 → (∀ j, n ≤ j → j < i → rand j = 0) → ∃ x,
      geometric .real rand p n = .ok x (i + 1) ∧ geometric .real (fun _ => rand i) p 0 = .ok x 1) := by
  refine ⟨fun h => by rw [geometric, if_pos h], fun h hz => ?_, fun h i hi hne hz => ?_⟩
  · have : firstRound 1 (fun i => unit .real (rand i) ≠ 0) n = none := by
      rw [firstRound_none]; intro k; rw [unit_real_ne]; simp [hz (n + k) (by omega)]
    rw [geometric, if_neg h, this]
  · have e0 : firstRound 1 (fun _ => unit .real (rand i) ≠ 0) 0 = some 0 := firstRound_zero (unit_real_ne.2 hne)
    obtain ⟨x, hx, _⟩ := (C67_exponential_first_nonzero rand 1 n).2.2 one_pos i hi hne hz
    have : firstRound 1 (fun i => unit .real (rand i) ≠ 0) n = some i := by
      rw [exponential, if_neg (by norm_num)] at hx
      split at hx
      · cases hx
      next m hm =>
        simp only [Res.ok.injEq, Nat.add_right_cancel_iff] at hx
        rw [hm, hx.2]
    exact ⟨_, by rw [geometric, if_neg h, this], by rw [geometric, if_neg h, e0]⟩

example : ¬ ((1:ℝ)/2 ≤ 0 ∨ (1:ℝ)/2 > 1) ∧ (fun i => if i = 3 then 7 else 0 : Nat → Nat) 3 ≠ 0 := by
  constructor
  · norm_num
  · decide

open Classical in
/-- **C67** (geometric): among the raw numbers the sampler does not discard, the fraction for which it returns at least `m`
is the probability `(1 - p)^m` of `m` initial failures up to `1 / RAND_MAX`. -/
theorem C67_geometric_tail (p : ℝ) (h0 : 0 < p) (h1 : p ≤ 1) (m : Nat) :
    |(((Finset.Icc 1 RM).filter fun r : Nat =>
        ∃ y, geometric .real (fun _ => r) p 0 = .ok y 1 ∧ m ≤ y).card : ℝ) / RM - (1 - p) ^ m| ≤ 1 / RM := by
  have hval : ∀ r : Nat, 1 ≤ r → geometric .real (fun _ => r) p 0 =
      .ok (if p = 1 then 0 else ⌊Real.log ((r:ℝ) / RM) / Real.log (1 - p)⌋.toNat) 1 := by
    intro r hr
    have e0 : firstRound 1 (fun _ => unit .real r ≠ 0) 0 = some 0 := firstRound_zero (unit_real_ne.2 (by omega))
    rw [geometric, if_neg (by push Not; exact ⟨h0, h1⟩), e0, ← unit_real_eq]
  have hRM : (0:ℝ) < RM := by norm_num
  have : (Finset.Icc 1 RM).filter (fun r : Nat => ∃ y, geometric .real (fun _ => r) p 0 = .ok y 1 ∧ m ≤ y) =
      (Finset.Icc 1 RM).filter fun r : Nat => (r : ℝ) / RM ≤ (1 - p) ^ m := by
    apply Finset.filter_congr
    intro r hm
    obtain ⟨hr, hr2⟩ := Finset.mem_Icc.1 hm
    have hpos : (0:ℝ) < (r:ℝ) / RM := by positivity
    have hle : (r:ℝ) / RM ≤ 1 := by rw [div_le_one hRM]; exact_mod_cast hr2
    rw [hval r hr]
    simp only [Res.ok.injEq, and_true, exists_eq_left']
    split
    next hp =>
      subst hp
      rcases Nat.eq_zero_or_pos m with rfl | hmp
      · rw [pow_zero]; exact ⟨fun _ => hle, fun _ => Nat.zero_le _⟩
      · simp only [sub_self, zero_pow hmp.ne']
        constructor
        · intro h; omega
        · intro h; exact absurd h (not_le.2 hpos)
    next hp =>
      have hq : 0 < 1 - p := by
        have : p < 1 := lt_of_le_of_ne h1 hp
        linarith
      have hlog : Real.log (1 - p) < 0 := Real.log_neg hq (by linarith)
      have hnum := Real.log_nonpos hpos.le hle
      have hnn : 0 ≤ Real.log ((r:ℝ) / RM) / Real.log (1 - p) := div_nonneg_of_nonpos hnum hlog.le
      have hfl := Int.floor_nonneg.2 hnn
      rw [show (m ≤ ⌊Real.log ((r:ℝ) / RM) / Real.log (1 - p)⌋.toNat) ↔
          ((m:Int) ≤ ⌊Real.log ((r:ℝ) / RM) / Real.log (1 - p)⌋) by omega, Int.le_floor, le_div_iff_of_neg hlog,
        ← Real.log_le_log_iff hpos (by positivity), Real.log_pow]
      simp
  rw [this]
  exact frac_le _ (by have : 0 ≤ 1 - p := by linarith
                      positivity) (pow_le_one₀ (by linarith) (by linarith))

example : (0:ℝ) < 1/3 ∧ (1:ℝ)/3 ≤ 1 := by norm_num

/-! ## C67: Poisson -/

theorem prodFrom_eq (k : Kind) (rand : Nat → Nat) (n j : Nat) :
    prodFrom k rand n j = ∏ i ∈ Finset.range j, unit k (rand (n + i)) := by
  induction j with
  | zero => simp [prodFrom]
  | succ j ih => rw [prodFrom, Finset.prod_range_succ, ih]

theorem prodFrom_anti (k : Kind) (rand : Nat → Nat) (hr : ∀ i, rand i ≤ RM) (n : Nat) {a b : Nat} (h : a ≤ b) :
    prodFrom k rand n b ≤ prodFrom k rand n a := by
  induction b, h using Nat.le_induction with
  | base => exact le_rfl
  | succ b hb ih =>
    have h0 : 0 ≤ prodFrom k rand n b := by
      rw [prodFrom_eq]; exact Finset.prod_nonneg fun i _ => unit_nonneg k _
    have := unit_le k (hr (n + b))
    rw [prodFrom]; nlinarith [unit_nonneg k (rand (n + b))]

/-- **C67** (Poisson): `samplePoisson(mean)` returns `m` exactly if the product of the next `m` uniform draws in `[0, 1]`
still exceeds `exp(-mean)` and the product of the next `m + 1` does not, that is if exactly `m` arrivals with independent
unit-rate exponential gaps `-log u` fall into `[0, mean)`; it consumes `m + 1` draws, never comes back exactly if no product
ever gets that small, and rejects exactly non-positive means. -/
theorem C67_poisson (rand : Nat → Nat) (hr : ∀ i, rand i ≤ RM) (mean : ℝ) (n : Nat) :
    (mean ≤ 0 → poisson .real rand mean n = .throw .badArgument n) ∧
    (0 < mean → ∀ m, poisson .real rand mean n = .ok m (n + m + 1) ↔
      Real.exp (-mean) < ∏ i ∈ Finset.range m, ((rand (n + i) : ℝ) / RM) ∧
      ∏ i ∈ Finset.range (m + 1), ((rand (n + i) : ℝ) / RM) ≤ Real.exp (-mean)) ∧
    (0 < mean → (poisson .real rand mean n = .diverge ↔
      ∀ m, Real.exp (-mean) < ∏ i ∈ Finset.range m, ((rand (n + i) : ℝ) / RM))) := by
  classical
  have hprod : ∀ j, ((prodFrom .real rand n j : ℚ) : ℝ) = ∏ i ∈ Finset.range j, ((rand (n + i) : ℝ) / RM) := by
    intro j
    rw [prodFrom_eq]; push_cast
    exact Finset.prod_congr rfl fun i _ => unit_real_eq _
  refine ⟨fun h => by rw [poisson, if_pos h], fun h m => ?_, fun h => ?_⟩
  · rw [poisson, if_neg (not_le.2 h)]
    constructor
    · intro hp
      split at hp
      next hx =>
        simp only [Res.ok.injEq] at hp
        obtain ⟨rfl, -⟩ := hp
        have h1 := Nat.find_spec hx
        rw [not_lt, hprod] at h1
        refine ⟨?_, h1⟩
        rcases Nat.eq_zero_or_pos (Nat.find hx) with e | e
        · rw [e]; simp only [Finset.range_zero, Finset.prod_empty]
          rw [← Real.exp_zero]; exact Real.exp_lt_exp.2 (by linarith)
        · have h2 := Nat.find_min hx (m := Nat.find hx - 1) (by omega)
          rw [not_not, hprod, show Nat.find hx - 1 + 1 = Nat.find hx by omega] at h2
          exact h2
      · cases hp
    · rintro ⟨h1, h2⟩
      have hx : ∃ m, ¬ ((prodFrom .real rand n (m + 1) : ℚ) : ℝ) > Real.exp (-mean) :=
        ⟨m, by rw [hprod, gt_iff_lt, not_lt]; exact h2⟩
      have hm : Nat.find hx = m := by
        rw [Nat.find_eq_iff]
        refine ⟨by rw [hprod, gt_iff_lt, not_lt]; exact h2, fun j hj => ?_⟩
        rw [not_not]
        refine lt_of_lt_of_le h1 ?_
        rw [← hprod]
        exact_mod_cast prodFrom_anti .real rand hr n (show j + 1 ≤ m by omega)
      rw [dif_pos hx, hm]
  · rw [poisson, if_neg (not_le.2 h)]
    constructor
    · intro hp
      split at hp
      · cases hp
      next hx =>
        push Not at hx
        intro m
        cases m with
        | zero =>
          simp only [Finset.range_zero, Finset.prod_empty]
          rw [← Real.exp_zero]; exact Real.exp_lt_exp.2 (by linarith)
        | succ m => rw [← hprod]; exact hx m
    · intro hp
      rw [dif_neg]
      push Not
      intro m; rw [hprod]; exact hp (m + 1)

example : (∀ i : Nat, (fun _ => 1000000000 : Nat → Nat) i ≤ RM) ∧ (0:ℝ) < 1 := by
  refine ⟨fun i => ?_, one_pos⟩
  norm_num

/-! ## C67: normal -/

theorem polar_bd (rand : Nat → Nat) (hr : ∀ i, rand i ≤ RM) (k : Kind) (i : Nat) :
    -1 ≤ polarU k rand i ∧ polarU k rand i ≤ 1 := by
  have := unit_nonneg k (rand i)
  have := unit_le k (hr i)
  unfold polarU; constructor <;> linarith

/-- **C67** (normal): `sampleNormal(mean, variance)` of a real type is the Box-Muller transform
`mean + sqrt(variance) * sqrt(-2 log s) * cos(theta)` of the polar coordinates `(sqrt s, theta)` of the first point of the
stream of pairs of uniform draws in `[-1, 1]²` that falls into the open unit disc without its centre; it never returns
exactly if no pair does, and rejects exactly non-positive variances. -/
theorem C67_normal (rand : Nat → Nat) (mean variance : ℝ) (n : Nat) :
    (variance ≤ 0 → normal .real rand mean variance n = .throw .badArgument n) ∧
    (0 < variance → ∀ x m, normal .real rand mean variance n = .ok x m → ∃ k, m = n + 2 * k + 2 ∧
      ∃ u v s θ : ℝ, u = 2 * ((rand (n + 2 * k) : ℝ) / RM) - 1 ∧ v = 2 * ((rand (n + 2 * k + 1) : ℝ) / RM) - 1 ∧
        0 < s ∧ s < 1 ∧ u = √s * Real.cos θ ∧ v = √s * Real.sin θ ∧
        x = mean + √variance * (√(-2 * Real.log s) * Real.cos θ) ∧
        ∀ j < k, let a : ℝ := 2 * ((rand (n + 2 * j) : ℝ) / RM) - 1
          let b : ℝ := 2 * ((rand (n + 2 * j + 1) : ℝ) / RM) - 1
          1 ≤ a * a + b * b ∨ a * a + b * b = 0) ∧
    (0 < variance → (normal .real rand mean variance n = .diverge ↔
      ∀ j, let a : ℝ := 2 * ((rand (n + 2 * j) : ℝ) / RM) - 1
        let b : ℝ := 2 * ((rand (n + 2 * j + 1) : ℝ) / RM) - 1
        1 ≤ a * a + b * b ∨ a * a + b * b = 0)) := by
  have hU : ∀ i, ((polarU .real rand i : ℚ) : ℝ) = 2 * ((rand i : ℝ) / RM) - 1 := by
    intro i; unfold polarU; rw [Rat.cast_sub, Rat.cast_mul, unit_real_eq]; norm_num
  have hS : ∀ i, ((polarS .real rand i : ℚ) : ℝ) = (2 * ((rand i : ℝ) / RM) - 1) * (2 * ((rand i : ℝ) / RM) - 1) +
      (2 * ((rand (i+1) : ℝ) / RM) - 1) * (2 * ((rand (i+1) : ℝ) / RM) - 1) := by
    intro i; unfold polarS; rw [Rat.cast_add, Rat.cast_mul, Rat.cast_mul, hU, hU]
  have hacc : ∀ i, (polarS .real rand i ≥ 1 ∨ polarS .real rand i = 0) ↔
      (1 ≤ ((polarS .real rand i : ℚ) : ℝ) ∨ ((polarS .real rand i : ℚ) : ℝ) = 0) := by
    intro i
    norm_cast
  refine ⟨fun h => by rw [normal, if_pos h], fun h x m hx => ?_, fun h => ?_⟩
  · rw [normal, if_neg (not_le.2 h)] at hx
    split at hx
    · cases hx
    next i hi =>
      obtain ⟨k, rfl, ha, hb⟩ := firstRound_some hi
      simp only [Res.ok.injEq] at hx
      obtain ⟨rfl, rfl⟩ := hx
      rw [hacc] at ha
      push Not at ha
      set u : ℝ := 2 * ((rand (n + 2 * k) : ℝ) / RM) - 1 with hu
      set v : ℝ := 2 * ((rand (n + 2 * k + 1) : ℝ) / RM) - 1 with hv
      set s : ℝ := ((polarS .real rand (n + 2 * k) : ℚ) : ℝ) with hs
      have hsuv : s = u * u + v * v := by rw [hs, hS]
      have hs0 : 0 < s := lt_of_le_of_ne (by rw [hsuv]; nlinarith [mul_self_nonneg u, mul_self_nonneg v]) (Ne.symm ha.2)
      have hz : (⟨u, v⟩ : ℂ) ≠ 0 := by
        intro h0
        have h1 := congrArg Complex.re h0
        have h2 := congrArg Complex.im h0
        simp only [Complex.zero_re, Complex.zero_im] at h1 h2
        rw [h1, h2] at hsuv; simp at hsuv; linarith
      have hnorm : ‖(⟨u, v⟩ : ℂ)‖ = √s := by
        rw [Complex.norm_def, Complex.normSq_mk, hsuv]
      refine ⟨k, rfl, u, v, s, Complex.arg ⟨u, v⟩, rfl, rfl, hs0, ha.1, ?_, ?_, ?_, ?_⟩
      · rw [Complex.cos_arg hz, hnorm]
        have : √s ≠ 0 := (Real.sqrt_pos.2 hs0).ne'
        field_simp
      · rw [Complex.sin_arg, hnorm]
        have : √s ≠ 0 := (Real.sqrt_pos.2 hs0).ne'
        field_simp
      · rw [Complex.cos_arg hz, hnorm, hU, ← hu, Real.sqrt_div' _ hs0.le]
        simp only
        ring
      · intro j hj
        have := hb j hj
        rw [not_not, hacc, hS] at this
        exact this
  · rw [normal, if_neg (not_le.2 h)]
    have : firstRound 2 (fun i => ¬ (polarS .real rand i ≥ 1 ∨ polarS .real rand i = 0)) n = none ↔
        ∀ j, let a : ℝ := 2 * ((rand (n + 2 * j) : ℝ) / RM) - 1
          let b : ℝ := 2 * ((rand (n + 2 * j + 1) : ℝ) / RM) - 1
          1 ≤ a * a + b * b ∨ a * a + b * b = 0 := by
      rw [firstRound_none]
      apply forall_congr'
      intro j
      rw [not_not, hacc, hS]
    rw [← this]
    split
    next e => exact ⟨fun _ => e, fun _ => rfl⟩
    next i e => rw [e]; exact ⟨fun h => (nomatch h), fun h => (nomatch h)⟩

/-- non-vacuity: a stream with an accepted pair. -/
example : ∃ x m, normal .real (fun _ => 1500000000) 0 1 0 = .ok x m := by
  have hacc : ¬ (polarS .real (fun _ => 1500000000) 0 ≥ 1 ∨ polarS .real (fun _ => 1500000000) 0 = 0) := by
    unfold polarS polarU unit uniformDraw
    norm_num
  have := firstRound_zero (step := 2) (acc := fun i => ¬ (polarS .real (fun _ => 1500000000) i ≥ 1 ∨
    polarS .real (fun _ => 1500000000) i = 0)) (n := 0) hacc
  rw [normal, if_neg (by norm_num), this]
  exact ⟨_, _, rfl⟩

/-- Specification: the numbers are standard normal samples drawn one after the other, each from where the one before
stopped in the stream of raw numbers. -/
inductive DrawnInTurn (rand : Nat → Nat) : Nat → List ℝ → Nat → Prop
  | nil (n : Nat) : DrawnInTurn rand n [] n
  | cons {n n' n'' : Nat} {z : ℝ} {zs : List ℝ} (h : normal .real rand 0 1 n = .ok z n')
      (t : DrawnInTurn rand n' zs n'') : DrawnInTurn rand n (z :: zs) n''

/-- the length and consumption of the loop over the coordinates. -/
theorem normals_length (rand : Nat → Nat) (m n : Nat) (zs : List ℝ) (n' : Nat) (h : normals rand m n = .ok zs n') :
    zs.length = m ∧ DrawnInTurn rand n zs n' := by
  induction m generalizing n zs with
  | zero => simp only [normals, Res.ok.injEq] at h; rw [← h.1, ← h.2]; exact ⟨rfl, .nil n⟩
  | succ m ih =>
    rw [normals] at h
    cases e : normal .real rand 0 1 n with
    | ok x n1 =>
      rw [e] at h
      simp only [Res.bind] at h
      cases e2 : normals rand m n1 with
      | ok xs n2 =>
        rw [e2] at h
        simp only [Res.ok.injEq] at h
        obtain ⟨i1, i2⟩ := ih n1 xs (by rw [e2, h.2])
        rw [← h.1]
        exact ⟨by rw [List.length_cons, i1], .cons e i2⟩
      | throw _ _ => rw [e2] at h; cases h
      | ub => rw [e2] at h; cases h
      | diverge => rw [e2] at h; cases h
    | throw _ _ => rw [e] at h; cases h
    | ub => rw [e] at h; cases h
    | diverge => rw [e] at h; cases h

/-- **C67** (multivariate normal): the squared Mahalanobis distance of a multivariate sample from the mean, with the
precision belonging to the covariance `L Lᵀ`, is the sum of the squares of the `d` standard normal samples drawn for it. -/
theorem C67_normal_mv {d : Nat} (rand : Nat → Nat) (mean : Fin d → ℝ) (L P : Matrix (Fin d) (Fin d) ℝ)
    (hP : P * (L * L.transpose) = 1) (n : Nat) (y : Fin d → ℝ) (m : Nat)
    (h : normalMv rand mean L n = .ok y m) :
    ∃ zs : List ℝ, DrawnInTurn rand n zs m ∧ zs.length = d ∧
      dotProduct (y - mean) (P.mulVec (y - mean)) = (zs.map fun z => z ^ 2).sum := by
  rw [normalMv] at h
  cases e : normals rand d n with
  | throw _ _ => rw [e] at h; cases h
  | ub => rw [e] at h; cases h
  | diverge => rw [e] at h; cases h
  | ok zs n' =>
    rw [e] at h
    simp only [Res.bind, Res.ok.injEq] at h
    obtain ⟨rfl, rfl⟩ := h
    obtain ⟨hl, hd⟩ := normals_length rand d n zs n' e
    refine ⟨zs, hd, hl, ?_⟩
    set z : Fin d → ℝ := fun j => zs.getD j 0 with hz
    have e1 : (fun i => mean i + L.mulVec z i) - mean = L.mulVec z := by ext i; simp
    rw [e1, Matrix.mulVec_mulVec]
    have h1 : (P * L) * L.transpose = 1 := by rw [Matrix.mul_assoc]; exact hP
    have h2 : L.transpose * (P * L) = 1 := mul_eq_one_comm.1 h1
    rw [Matrix.dotProduct_mulVec, ← Matrix.mulVec_transpose, Matrix.mulVec_mulVec]
    have h3 : (P * L).transpose * L = 1 := by
      rw [← Matrix.transpose_transpose L, ← Matrix.transpose_mul, Matrix.transpose_transpose, h2,
        Matrix.transpose_one]
    rw [h3, Matrix.one_mulVec, dotProduct]
    have : (zs.map fun z => z ^ 2).sum = ∑ j : Fin d, (zs.getD j 0) ^ 2 := by
      subst hl
      rw [← Fin.sum_univ_getElem]
      simp only [List.getElem_map, List.length_map]
      apply Finset.sum_equiv (finCongr (by simp))
      · simp
      · intro i _
        have hi : (i : Nat) < zs.length := by have := i.2; simpa using this
        simp [List.getElem?_eq_getElem hi]
    rw [this]
    exact Finset.sum_congr rfl fun j _ => by simp [hz, pow_two]

example : (1 : Matrix (Fin 2) (Fin 2) ℝ) * (1 * (1 : Matrix (Fin 2) (Fin 2) ℝ).transpose) = 1 := by simp

/-! ## C67: randomizers of integer type -/

/-- The claim that every randomizer samples its distributions is **false** for integer types: `sampleNormal` never returns,
whatever the random numbers. -/
theorem C67_integer_normal_never_returns (rand : Nat → Nat) (hr : ∀ i, rand i ≤ RM) (mean variance : ℝ)
    (hv : 0 < variance) (n : Nat) : normal .integer rand mean variance n = .diverge := by
  have hu : ∀ i, polarU .integer rand i * polarU .integer rand i = 1 := by
    intro i
    unfold polarU
    rcases unit_integer (hr i) with e | e <;> rw [e] <;> norm_num
  have : firstRound 2 (fun i => ¬ (polarS .integer rand i ≥ 1 ∨ polarS .integer rand i = 0)) n = none := by
    rw [firstRound_none]
    intro k
    rw [not_not]; left
    unfold polarS; rw [hu, hu]; norm_num
  rw [normal, if_neg (not_le.2 hv), this]

/-- ... `sampleExponential` returns nothing but zero, ... -/
theorem C67_integer_exponential_zero (rand : Nat → Nat) (hr : ∀ i, rand i ≤ RM) (rate : ℝ) (hp : 0 < rate) (n : Nat) :
    exponential .integer rand rate n = .diverge ∨ ∃ m, exponential .integer rand rate n = .ok 0 m := by
  rw [exponential, if_neg (not_le.2 hp)]
  cases hf : firstRound 1 (fun i => unit .integer (rand i) ≠ 0) n with
  | none => left; rfl
  | some i =>
    right
    obtain ⟨k, -, ha, -⟩ := firstRound_some hf
    rcases unit_integer (hr i) with e | e
    · exact absurd e ha
    · exact ⟨i + 1, by simp [e]⟩

/-- ... and `samplePoisson` does not depend on the mean. -/
theorem C67_integer_poisson_ignores_mean (rand : Nat → Nat) (hr : ∀ i, rand i ≤ RM) (m1 m2 : ℝ) (h1 : 0 < m1)
    (h2 : 0 < m2) (n : Nat) : poisson .integer rand m1 n = poisson .integer rand m2 n := by
  classical
  have h01 : ∀ j, prodFrom .integer rand n j = 0 ∨ prodFrom .integer rand n j = 1 := by
    intro j
    induction j with
    | zero => right; rfl
    | succ j ih =>
      rw [prodFrom]
      rcases ih with e | e <;> rcases unit_integer (hr (n + j)) with e' | e' <;> rw [e, e'] <;> simp
  have key : ∀ m : ℝ, 0 < m → (fun j => ¬ ((prodFrom .integer rand n (j + 1) : ℚ) : ℝ) > Real.exp (-m)) =
      fun j => prodFrom .integer rand n (j + 1) = 0 := by
    intro m hm
    funext j
    have he : Real.exp (-m) < 1 := by rw [← Real.exp_zero]; exact Real.exp_lt_exp.2 (by linarith)
    rcases h01 (j + 1) with e | e <;> rw [e]
    · simp [(Real.exp_pos (-m)).le]
    · simp [he]
  rw [poisson, poisson, if_neg (not_le.2 h1), if_neg (not_le.2 h2)]
  have e1 := key m1 h1
  have e2 := key m2 h2
  simp only [e1, e2]

example : ∀ i : Nat, (fun i => i % 2147483648 : Nat → Nat) i ≤ RM := by
  intro i
  have := Nat.mod_lt i (show 2147483648 > 0 by norm_num)
  show i % 2147483648 ≤ 2147483647
  omega

/-! ## C67: gamma -/

theorem expSum_nonneg (rand : Nat → Nat) (hr : ∀ i, rand i ≤ RM) (m : Nat) (y : ℝ) (hy : 0 ≤ y) (n : Nat) (r : ℝ) (n' : Nat)
    (h : expSum .real rand m y n = .ok r n') : 0 ≤ r := by
  induction m generalizing y n with
  | zero => simp only [expSum, Res.ok.injEq] at h; rw [← h.1]; exact hy
  | succ m ih =>
    rw [expSum] at h
    cases e : exponential .real rand 1 n with
    | throw _ _ => rw [e] at h; cases h
    | ub => rw [e] at h; cases h
    | diverge => rw [e] at h; cases h
    | ok x n1 =>
      rw [e] at h
      refine ih _ ?_ _ h
      rw [exponential, if_neg (by norm_num)] at e
      split at e
      · cases e
      next i hi =>
        simp only [Res.ok.injEq] at e
        rw [← e.1, unit_real_eq]
        have hRM : (0:ℝ) < RM := by norm_num
        have : Real.log ((rand i : ℝ) / RM) ≤ 0 :=
          Real.log_nonpos (by positivity) (by rw [div_le_one hRM]; exact_mod_cast hr i)
        simp only [div_one]; linarith

theorem expSum_no_throw (rand : Nat → Nat) (m : Nat) (y : ℝ) (n : Nat) :
    expSum .real rand m y n = .diverge ∨ ∃ r n', expSum .real rand m y n = .ok r n' := by
  induction m generalizing y n with
  | zero => exact .inr ⟨_, _, rfl⟩
  | succ m ih =>
    rw [expSum, exponential, if_neg (by norm_num)]
    split
    · left; rfl
    · exact ih _ _

/-- **C67** (gamma, partial): `sampleGamma` rejects exactly non-positive parameters, and whatever it returns is not negative
(or infinite, see below).  Missing: that the samples follow the gamma distribution. -/
theorem C67_gamma_nonneg_partial (rand : Nat → Nat) (hr : ∀ i, rand i ≤ RM) (shape invScale : ℝ) (n : Nat) :
    ((shape ≤ 0 ∨ invScale ≤ 0) ↔ ∃ e s, gamma rand shape invScale n = .throw e s) ∧
    ∀ x m, gamma rand shape invScale n = .ok (some x) m → 0 ≤ x := by
  by_cases hs : shape ≤ 0
  · rw [gamma, if_pos hs]
    exact ⟨⟨fun _ => ⟨_, _, rfl⟩, fun _ => .inl hs⟩, fun x m h => by cases h⟩
  by_cases hi : invScale ≤ 0
  · rw [gamma, if_neg hs, if_pos hi]
    exact ⟨⟨fun _ => ⟨_, _, rfl⟩, fun _ => .inr hi⟩, fun x m h => by cases h⟩
  have hi' : 0 < invScale := not_le.1 hi
  rw [gamma, if_neg hs, if_neg hi]
  rcases expSum_no_throw rand ⌊shape⌋.toNat 0 n with e | ⟨y, n', e⟩
  · rw [e]
    exact ⟨⟨fun h => by rcases h with h | h <;> contradiction, fun ⟨_, _, h⟩ => by cases h⟩, fun x m h => by cases h⟩
  · have hy := expSum_nonneg rand hr _ 0 le_rfl n y n' e
    rw [e]
    simp only [Res.bind]
    set f : ℝ := shape - (⌊shape⌋.toNat : ℝ) with hf
    have hfl : 0 ≤ ⌊shape⌋ := Int.floor_nonneg.2 (by linarith)
    have hf0 : 0 ≤ f := by
      have h1 := Int.floor_le shape
      have : ((⌊shape⌋.toNat : ℤ) : ℝ) = ⌊shape⌋ := by rw [Int.toNat_of_nonneg hfl]
      rw [hf]; push_cast at this; rw [this]; linarith
    by_cases hc : |f| > 1 / 2 ^ 52
    · rw [if_pos hc]
      have hf1 : 0 < f := by
        rw [abs_of_nonneg hf0] at hc
        exact lt_trans (by positivity) hc
      constructor
      · refine ⟨fun h => by rcases h with h | h <;> contradiction, fun ⟨_, _, h⟩ => ?_⟩
        split at h <;> cases h
      · intro x m h
        split at h
        · cases h
        next i hacc =>
          simp only [Res.ok.injEq, Option.map_eq_some_iff] at h
          obtain ⟨⟨z, hz, rfl⟩, -⟩ := h
          have hz0 : 0 ≤ z := by
            rw [gammaZ] at hz
            have hq1 : ((unit .real (rand i) : ℚ) : ℝ) ≤ 1 := by exact_mod_cast unit_le .real (hr i)
            have hq0 : 0 ≤ ((unit .real (rand i) : ℚ) : ℝ) := by exact_mod_cast unit_nonneg .real (rand i)
            set q := ((unit .real (rand i) : ℚ) : ℝ)
            have hE := Real.exp_pos 1
            set b := (Real.exp 1 + f) / Real.exp 1 with hb
            have hb0 : 0 < b := by positivity
            split at hz
            next hp =>
              split at hz
              · cases hz
              · simp only [Option.some.injEq] at hz
                rw [← hz]
                have hbf : b = 1 + f / Real.exp 1 := by rw [hb]; field_simp
                have hE1 : 1 ≤ Real.exp 1 := Real.one_le_exp zero_le_one
                have hlt : b - b * q ≤ f := by
                  have : f / Real.exp 1 ≤ f := div_le_self hf0 hE1
                  linarith
                have hnn : 0 ≤ b - b * q := by nlinarith
                have := Real.log_nonpos (x := (b - b * q) / f) (by positivity) (by rw [div_le_one hf1]; exact hlt)
                linarith
            · simp only [Option.some.injEq] at hz
              rw [← hz]; positivity
          apply div_nonneg _ hi'.le; linarith
    · rw [if_neg hc]
      refine ⟨⟨fun h => by rcases h with h | h <;> contradiction, fun ⟨_, _, h⟩ => by cases h⟩, ?_⟩
      intro x m h
      simp only [Res.ok.injEq, Option.some.injEq] at h
      rw [← h.1]; apply div_nonneg _ hi'.le; linarith

/-- The claim that gamma samples are numbers is **false**: for shape one half the raw numbers `RAND_MAX`, `0` make the
sampler return infinity. -/
theorem C67_gamma_infinite : gamma (fun i => if i = 0 then RM else 0) (1 / 2) 1 0 = .ok none 2 := by
  have hfl : ⌊(1/2 : ℝ)⌋ = 0 := by norm_num
  have hu : ((unit .real (if (0:Nat) = 0 then RM else 0) : ℚ) : ℝ) = 1 := by
    rw [unit_real_eq]; norm_num
  have hu1 : ((unit .real (if (0+1:Nat) = 0 then RM else 0) : ℚ) : ℝ) = 0 := by
    rw [unit_real_eq]; norm_num
  have hE := Real.exp_pos 1
  have hb : (Real.exp 1 + (1/2 : ℝ)) / Real.exp 1 * 1 > 1 := by
    rw [mul_one, gt_iff_lt, lt_div_iff₀ hE]; linarith
  have hz : gammaZ (1/2) 1 = none := by
    rw [gammaZ, if_pos hb]; simp
  have hacc : gammaAccept (1/2) ((unit .real (if (0:Nat) = 0 then RM else 0) : ℚ) : ℝ)
      ((unit .real (if (0+1:Nat) = 0 then RM else 0) : ℚ) : ℝ) := by
    rw [hu, hu1, gammaAccept, if_pos hb, hz]
    simp
  have hr := firstRound_zero (step := 2) (n := 0) (acc := fun i =>
    gammaAccept (1/2) ((unit .real (if i = 0 then RM else 0) : ℚ) : ℝ)
      ((unit .real (if i+1 = 0 then RM else 0) : ℚ) : ℝ)) hacc
  rw [gamma, if_neg (by norm_num), if_neg (by norm_num), hfl]
  simp only [Int.toNat_zero, expSum, Res.bind, Nat.cast_zero, sub_zero]
  rw [if_pos (by norm_num [abs_of_pos])]
  rw [hr]
  have hu' : ((unit .real (if True then RM else 0) : ℚ) : ℝ) = 1 := by simpa using hu
  simp only [hu', hz, Option.map_none]

/-! ## C68: seeding -/

/-- every static randomizer the actions may construct belongs to an instance that has been seeded before. -/
def AllSeeded {G : Type} (p : Proc G) (as : List (Nat × Act)) : Prop :=
  ∀ c a, (c, a) ∈ as → match a with
    | .constructDefault i => p.seeded i = true
    | .getSample _ i => p.seeded i = true
    | _ => True

theorem runActs_congr {G : Type} (lib : Lib G) (as bs : List (Nat × Act)) (hab : as.map Prod.snd = bs.map Prod.snd)
    (p q : Proc G) (hg : p.gen = q.gen) (hs : p.seeded = q.seeded) (hi : p.inited = q.inited)
    (ha : AllSeeded p as) : runActs lib as p = runActs lib bs q := by
  have hpq : p = q := by cases p; cases q; simp_all
  subst hpq
  clear hg hs hi
  induction as generalizing bs p with
  | nil =>
    cases bs with
    | nil => rfl
    | cons b bs => cases hab
  | cons a as ih =>
    cases bs with
    | nil => cases hab
    | cons b bs =>
      obtain ⟨c, a⟩ := a
      obtain ⟨c', b⟩ := b
      simp only [List.map_cons, List.cons.injEq] at hab
      obtain ⟨rfl, hab⟩ := hab
      have h1 := ha c a List.mem_cons_self
      have hrun : a.run lib c p = a.run lib c' p := by
        cases a with
        | construct _ _ => rfl
        | constructDefault i => simp only at h1; simp [Act.run, getSeed, h1]
        | setSeed _ _ => rfl
        | draw _ => rfl
        | getSample d i => simp only at h1; simp [Act.run, getSeed, h1]
      have hseed : ∀ i, p.seeded i = true → (a.run lib c p).2.seeded i = true := by
        intro i hi
        cases a with
        | construct _ _ => exact hi
        | constructDefault i => simp only at h1; simp [Act.run, getSeed, h1, hi]
        | setSeed _ _ => exact hi
        | draw _ => exact hi
        | getSample d i => simp only at h1; simp only [Act.run, getSeed, h1]; split <;> simp [hi]
      rw [runActs, runActs, ← hrun, ih bs hab]
      intro c0 a0 hm
      have := ha c0 a0 (List.mem_cons_of_mem _ hm)
      revert this
      cases a0 with
      | construct _ _ => exact fun h => h
      | constructDefault i => exact fun h => hseed _ h
      | setSeed _ _ => exact fun h => h
      | draw _ => exact fun h => h
      | getSample d i => exact fun h => hseed _ h

/-- **C68** (partial): after `setSeed(s)`, the random numbers drawn by any program that uses only randomizer instances that
have been seeded before are a function of `s` and the program: neither the state of the generator before nor the clock
matters.  Missing: programs that draw from an instance for the first time, see below. -/
theorem C68_reproducible_partial {G : Type} (lib : Lib G) (i s : Nat) (c c' : Nat) (as bs : List (Nat × Act))
    (hab : as.map Prod.snd = bs.map Prod.snd) (p q : Proc G) (hs : p.seeded = q.seeded) (hi : p.inited = q.inited)
    (ha : AllSeeded p as) :
    runActs lib ((c, .setSeed i s) :: as) p = runActs lib ((c', .setSeed i s) :: bs) q := by
  simp only [runActs, Act.run, Option.toList_none, List.nil_append]
  exact runActs_congr lib as bs hab _ _ rfl hs hi ha

/-- a concrete generator for the witnesses: a counter. -/
def counterLib : Lib Nat := ⟨fun s => s, fun g => (g % 2147483648, g + 1)⟩

/-- the process at start-up. -/
def startProc : Proc Nat := ⟨1, fun _ => false, fun _ => false⟩

example : AllSeeded { startProc with seeded := fun _ => true } [(0, .getSample 3 0), (7, .draw 0)] := by
  intro c a h
  simp only [List.mem_cons, Prod.mk.injEq, List.not_mem_nil, or_false] at h
  rcases h with ⟨-, rfl⟩ | ⟨-, rfl⟩ <;> simp

/-- The full claim is **false**: the first `getSample()` of a distribution constructs its static randomizer, which seeds the
generator again from the clock; after `setSeed(5)` the sample depends on the time. -/
theorem C68_set_seed_overridden :
    runActs counterLib [(0, .setSeed 0 5), (1000, .getSample 0 0)] startProc ≠
    runActs counterLib [(0, .setSeed 0 5), (2000, .getSample 0 0)] startProc := by
  decide

/-- ... also if a randomizer of another type has been constructed and drawn from before. -/
theorem C68_set_seed_overridden_late :
    runActs counterLib [(0, .constructDefault 1), (0, .setSeed 1 5), (0, .draw 1), (1000, .getSample 0 0), (1000, .draw 1)]
      startProc ≠
    runActs counterLib [(0, .constructDefault 1), (0, .setSeed 1 5), (0, .draw 1), (2000, .getSample 0 0), (2000, .draw 1)]
      startProc := by
  decide

/-- The seed given to the constructor of a randomizer has no effect at all on what any program draws. -/
theorem C68_constructor_seed_ignored {G : Type} (lib : Lib G) (pre post : List (Nat × Act)) (c i s t : Nat) (p : Proc G) :
    runActs lib (pre ++ (c, .construct i s) :: post) p = runActs lib (pre ++ (c, .construct i t) :: post) p := by
  induction pre generalizing p with
  | nil => rfl
  | cons a pre ih =>
    obtain ⟨c0, a0⟩ := a
    simp only [List.cons_append, runActs]
    rw [ih]

/-- ... so two randomizers constructed with different seeds continue one common stream, and two constructed with the same
seed do not repeat each other. -/
theorem C68_same_seed_different_draws :
    runActs counterLib [(0, .construct 0 42), (0, .draw 0)] startProc ≠
    (runActs counterLib [(0, .construct 0 42), (0, .draw 0), (0, .construct 0 42), (0, .draw 0)] startProc).drop 1 := by
  decide

end Sampling
end Verif
