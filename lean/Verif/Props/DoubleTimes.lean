import Verif.Lemmas.DoubleLoops
import Verif.Props.Lrf
import Verif.Lemmas.Stats
import Mathlib.Data.Real.Archimedean

/-!
# C132: loops over time in double arithmetic

The simulations step a `double` from one step to the next until it reaches an end time.  Here every addition is rounded to a
double (`fl53_nearest`: to the nearest one).
-/

namespace Verif
open Dbl

/-- **C132, rounding.**  The rounding used here gives a double, and no double is closer. -/
theorem C132_rounding (x : ℚ) : NearestDouble x (fl53 x) := fl53_nearest x

/-- **C132, exact arithmetic** for comparison: one round for each multiple of the step before the end. -/
theorem C132_exact {dt stop : ℚ} (hd : 0 < dt) :
    ∃ n t, timeLoop id dt dt stop = .ok () (t, n) ∧ ∀ k : ℕ, 1 ≤ k → ((k : ℚ) * dt < stop ↔ k ≤ n) := by
  obtain ⟨m, hm⟩ := exists_nat_gt (stop / dt)
  have hstop : stop ≤ times id dt dt m := by
    rw [times_id]
    have := (div_lt_iff₀ hd).mp hm
    linarith
  obtain ⟨n, h1, h2, h3⟩ := timeLoop_first ⟨m, hstop⟩
  refine ⟨n, _, h1, fun k hk => ⟨fun h => ?_, fun h => ?_⟩⟩
  · by_contra hn
    push Not at hn
    rw [times_id] at h3
    have : ((n : ℚ) + 1) * dt ≤ k * dt := by
      have : (n : ℚ) + 1 ≤ k := by exact_mod_cast hn
      gcongr
    linarith
  · have := h2 (k - 1) (by omega)
    rw [times_id] at this
    have e : ((k - 1 : ℕ) : ℚ) = k - 1 := by push_cast [Nat.cast_sub hk]; ring
    rw [e] at this
    linarith

/-- **C132, number of rounds.**  With a positive step, up to `2^26` (67 million) steps: in double arithmetic the loop ends
too, and the number of rounds differs by at most one from the number in exact arithmetic. -/
theorem C132_rounds_partial {dt stop : ℚ} (hd : 0 < dt) (hs : stop ≤ 2 ^ 26 * dt) :
    ∃ n n' t t', timeLoop fl53 dt dt stop = .ok () (t, n) ∧ timeLoop id dt dt stop = .ok () (t', n') ∧
      n ≤ n' + 1 ∧ n' ≤ n + 1 := by
  have he := times_err hd hd.le le_rfl (2 ^ 26 + 2) (by norm_num)
  have near : ∀ k : ℕ, k ≤ 2 ^ 26 + 2 → (k : ℚ) * dt < times fl53 dt dt k ∧ times fl53 dt dt k < (k + 2) * dt := by
    intro k hk
    have h := abs_le.mp (he k hk)
    have hb : (k : ℚ) * (((2 ^ 26 + 2 : ℕ) : ℚ) + 3) / 2 ^ 53 * dt < dt := by
      have hkq : (k : ℚ) ≤ 2 ^ 26 + 2 := by exact_mod_cast hk
      have : (k : ℚ) * (((2 ^ 26 + 2 : ℕ) : ℚ) + 3) / 2 ^ 53 < 1 := by
        rw [div_lt_one (by norm_num)]
        push_cast
        nlinarith
      nlinarith
    constructor <;> linarith [h.1, h.2]
  obtain ⟨n', t', h1', h2'⟩ := C132_exact (stop := stop) hd
  have hn' : n' ≤ 2 ^ 26 := by
    by_contra hc
    push Not at hc
    have := (h2' n' (by omega)).mpr le_rfl
    have hq : (2 ^ 26 : ℚ) + 1 ≤ n' := by exact_mod_cast hc
    nlinarith
  have hend : stop ≤ times fl53 dt dt (n' + 1) := by
    have h := (near (n' + 1) (by omega)).1
    have h3 : ¬ ((n' + 1 : ℕ) : ℚ) * dt < stop := fun hc => by have := (h2' (n' + 1) (by omega)).mp hc; omega
    push Not at h3
    linarith
  obtain ⟨n, h1, h2, h3⟩ := timeLoop_first ⟨n' + 1, hend⟩
  refine ⟨n, n', _, t', h1, h1', ?_, ?_⟩
  · by_contra hc
    exact absurd (h2 (n' + 1) (by omega)) (not_lt.mpr hend)
  · by_contra hc
    push Not at hc
    have hl := (near n (by omega)).2
    have := (h2' (n + 2) (by omega)).mpr (by omega)
    push_cast at this
    linarith

/-- the double nearest to one tenth. -/
def tenth : ℚ := 7205759403792794 * (2:ℚ) ^ (-56 : Int)

theorem tenth_double : NearestDouble (1 / 10) tenth := by
  have : fl53 (1 / 10) = tenth := by
    rw [fl53_eval2 7205759403792794 (-(2 / 5)) (-56) (by norm_num) (by norm_num) (by norm_num) (by norm_num) (Or.inl (by norm_num))
      (by norm_num)]
    norm_num [tenth]
  rw [← this]
  exact fl53_nearest _

/-- the first eleven sums of one tenth in double arithmetic, from zero. -/
theorem tenth_sums : fl53 (0 + tenth) = tenth ∧ fl53 (tenth + tenth) = 7205759403792794 * (2:ℚ) ^ (-55 : Int) ∧
    fl53 (7205759403792794 * (2:ℚ) ^ (-55 : Int) + tenth) = 5404319552844596 * (2:ℚ) ^ (-54 : Int) ∧
    fl53 (5404319552844596 * (2:ℚ) ^ (-54 : Int) + tenth) = 7205759403792794 * (2:ℚ) ^ (-54 : Int) ∧
    fl53 (7205759403792794 * (2:ℚ) ^ (-54 : Int) + tenth) = 4503599627370496 * (2:ℚ) ^ (-53 : Int) ∧
    fl53 (4503599627370496 * (2:ℚ) ^ (-53 : Int) + tenth) = 5404319552844595 * (2:ℚ) ^ (-53 : Int) ∧
    fl53 (5404319552844595 * (2:ℚ) ^ (-53 : Int) + tenth) = 6305039478318694 * (2:ℚ) ^ (-53 : Int) ∧
    fl53 (6305039478318694 * (2:ℚ) ^ (-53 : Int) + tenth) = 7205759403792793 * (2:ℚ) ^ (-53 : Int) ∧
    fl53 (7205759403792793 * (2:ℚ) ^ (-53 : Int) + tenth) = 8106479329266892 * (2:ℚ) ^ (-53 : Int) ∧
    fl53 (8106479329266892 * (2:ℚ) ^ (-53 : Int) + tenth) = 9007199254740991 * (2:ℚ) ^ (-53 : Int) ∧
    fl53 (9007199254740991 * (2:ℚ) ^ (-53 : Int) + tenth) = 4953959590107545 * (2:ℚ) ^ (-52 : Int) := by
  refine ⟨?_, ?_, ?_, ?_, ?_, ?_, ?_, ?_, ?_, ?_, ?_⟩
  · rw [zero_add]; exact fl53_fix tenth_double.1
  · exact_mod_cast fl53_eval2 7205759403792794 0 (-55) (by norm_num) (by norm_num) (by norm_num) (by norm_num)
      (Or.inl (by norm_num)) (by norm_num [tenth])
  · exact_mod_cast fl53_eval2 5404319552844596 (-(1 / 2)) (-54) (by norm_num) (by norm_num) (by norm_num) (by norm_num)
      (Or.inl (by norm_num)) (by norm_num [tenth])
  · exact_mod_cast fl53_eval2 7205759403792794 (1 / 2) (-54) (by norm_num) (by norm_num) (by norm_num) (by norm_num)
      (Or.inl (by norm_num)) (by norm_num [tenth])
  · exact_mod_cast fl53_eval 4503599627370496 (1 / 4) (-53) (by norm_num) (by norm_num) (by norm_num) (by norm_num)
      (by norm_num [tenth])
  · exact_mod_cast fl53_eval2 5404319552844595 (1 / 4) (-53) (by norm_num) (by norm_num) (by norm_num) (by norm_num)
      (Or.inr (by norm_num)) (by norm_num [tenth])
  · exact_mod_cast fl53_eval2 6305039478318694 (1 / 4) (-53) (by norm_num) (by norm_num) (by norm_num) (by norm_num)
      (Or.inr (by norm_num)) (by norm_num [tenth])
  · exact_mod_cast fl53_eval2 7205759403792793 (1 / 4) (-53) (by norm_num) (by norm_num) (by norm_num) (by norm_num)
      (Or.inr (by norm_num)) (by norm_num [tenth])
  · exact_mod_cast fl53_eval2 8106479329266892 (1 / 4) (-53) (by norm_num) (by norm_num) (by norm_num) (by norm_num)
      (Or.inr (by norm_num)) (by norm_num [tenth])
  · exact_mod_cast fl53_eval2 9007199254740991 (1 / 4) (-53) (by norm_num) (by norm_num) (by norm_num) (by norm_num)
      (Or.inr (by norm_num)) (by norm_num [tenth])
  · exact_mod_cast fl53_eval2 4953959590107545 (1 / 8) (-52) (by norm_num) (by norm_num) (by norm_num) (by norm_num)
      (Or.inr (by norm_num)) (by norm_num [tenth])

/-- **C132 (negation).**  The numbers of rounds do differ: with a step of `0.1` and an end time of `1` there are nine rounds in
exact arithmetic and ten in double arithmetic. -/
theorem C132_one_more : (∃ t, timeLoop fl53 tenth tenth 1 = .ok () (t, 10)) ∧ ∃ t, timeLoop id tenth tenth 1 = .ok () (t, 9) := by
  obtain ⟨-, h2, h3, h4, h5, h6, h7, h8, h9, h10, h11⟩ := tenth_sums
  constructor
  · refine ⟨_, timeLoop_ok 10 (fun k hk => ?_) ?_⟩
    · interval_cases k <;> simp only [times, h2, h3, h4, h5, h6, h7, h8, h9, h10] <;> norm_num [tenth]
    · simp only [times, h2, h3, h4, h5, h6, h7, h8, h9, h10, h11]
      norm_num
  · refine ⟨_, timeLoop_ok 9 (fun k hk => ?_) ?_⟩
    · rw [times_id]
      interval_cases k <;> norm_num [tenth]
    · rw [times_id]; norm_num [tenth]

/-- **C132 (negation: the loop need not end).**  A positive step that is too small for the end time: from `2^53` on, adding one
changes nothing. -/
theorem C132_stalls : timeLoop fl53 1 1 (2 ^ 54) = .diverge := by
  apply timeLoop_diverge
  intro k
  have : times fl53 1 1 k ≤ 2 ^ 53 := by
    induction k with
    | zero => norm_num [times]
    | succ k ih =>
      have h : fl53 ((2:ℚ) ^ 53 + 1) = 2 ^ 53 := by
        have := fl53_rel ((2:ℚ) ^ 53 + 1)
        have hd := (fl53_nearest ((2:ℚ) ^ 53 + 1)).1
        have hlog : Int.log 2 ((2:ℚ) ^ 53 + 1) = 53 := by
          have a1 := (Int.zpow_le_iff_le_log (b := 2) (R := ℚ) (x := 53) (r := 2 ^ 53 + 1) (by norm_num) (by norm_num)).1
            (by norm_num)
          have a2 := (Int.lt_zpow_iff_log_lt (b := 2) (R := ℚ) (x := 54) (r := 2 ^ 53 + 1) (by norm_num) (by norm_num)).1
            (by norm_num)
          omega
        unfold fl53 fl53pos
        rw [if_pos (by norm_num), hlog]
        have hr : roundEven (((2:ℚ) ^ 53 + 1) / 2 ^ ((53:Int) - 52)) = 2 ^ 52 := by
          have hx : ((2:ℚ) ^ 53 + 1) / 2 ^ ((53:Int) - 52) = ((2 ^ 52 : Int) : ℚ) + 1 / 2 := by norm_num
          have hfl : ⌊((2 ^ 52 : Int) : ℚ) + 1 / 2⌋ = 2 ^ 52 := by
            rw [Int.floor_eq_iff]; norm_num
          rw [hx]
          unfold roundEven
          rw [Int.fract, hfl]
          norm_num
        rw [hr]; norm_num
      simp only [times]
      calc fl53 (times fl53 1 1 k + 1) ≤ fl53 (2 ^ 53 + 1) := fl53_mono (by linarith)
        _ = 2 ^ 53 := h
  calc times fl53 1 1 k ≤ 2 ^ 53 := this
    _ < 2 ^ 54 := by norm_num

/-! ## The path of the laser example -/

/-- operations on reals that are those of doubles wherever these are defined. -/
structure DoubleOps (add mul : ℝ → ℝ → ℝ) : Prop where
  add : ∀ a b : ℚ, add a b = ((fl53 (a + b) : ℚ) : ℝ)
  mul : ∀ a b : ℚ, mul a b = ((fl53 (a * b) : ℚ) : ℝ)

theorem timeAt_double {add mul : ℝ → ℝ → ℝ} (h : DoubleOps add mul) (T : ℚ) (k : ℕ) :
    Lrf.timeAt add T k = ((times fl53 0 T k : ℚ) : ℝ) := by
  induction k with
  | zero => simp [Lrf.timeAt, times]
  | succ k ih => rw [Lrf.timeAt, ih, h.add]; rfl

/-- **C132, the path generator.**  For up to `2^25` (33 million) steps of a positive length, in double arithmetic the path
generator of the laser example returns at least the number of inputs asked for, so that the programs, which read that many, do
not read beyond its end, and at most one more. -/
theorem C132_path {add mul : ℝ → ℝ → ℝ} (h : DoubleOps add mul) (u0 : List Lrf.V3) (steps : ℕ) (A f : ℝ) (T : ℚ) (hT : 0 < T)
    (h1 : 1 ≤ steps) (h2 : steps ≤ 2 ^ 25) :
    ∃ u, Lrf.genSineWavePath add mul u0 steps A f T = .ok () u ∧ (u.length = steps ∨ u.length = steps + 1) := by
  have hsq : (steps : ℚ) ≤ 2 ^ 25 := by exact_mod_cast h2
  have hs0 : (0:ℚ) ≤ steps := Nat.cast_nonneg _
  have he := times_err hT le_rfl hT.le (2 ^ 25 + 1) (by norm_num)
  refine Lrf.C94_count_rounded (δ := ((T / 4 : ℚ) : ℝ)) h1 ?_ ?_ ?_
  · push_cast
    have : (0:ℝ) < T := by exact_mod_cast hT
    linarith
  · have e : ((steps : ℕ) : ℝ) = ((steps : ℚ) : ℝ) := by push_cast; rfl
    rw [e, h.mul]
    have := fl53_rel ((steps : ℚ) * T)
    rw [abs_of_nonneg (by positivity : (0:ℚ) ≤ steps * T)] at this
    have hq : |fl53 ((steps : ℚ) * T) - steps * T| ≤ T / 4 := by
      refine this.trans ?_
      rw [div_le_div_iff₀ (by norm_num) (by norm_num)]
      nlinarith
    exact_mod_cast hq
  · intro k hk
    rw [timeAt_double h]
    have hkq : (k : ℚ) ≤ 2 ^ 25 + 1 := by
      have : k ≤ 2 ^ 25 + 1 := by omega
      exact_mod_cast this
    have hq : |times fl53 0 T k - k * T| ≤ T / 4 := by
      have := he k (by omega)
      rw [zero_add] at this
      refine this.trans ?_
      have h3 : (k : ℚ) * (((2 ^ 25 + 1 : ℕ) : ℚ) + 3) / 2 ^ 53 ≤ 1 / 4 := by
        rw [div_le_div_iff₀ (by norm_num) (by norm_num)]
        push_cast
        nlinarith
      nlinarith
    have hr : ((|times fl53 0 T k - k * T| : ℚ) : ℝ) ≤ ((T / 4 : ℚ) : ℝ) := by exact_mod_cast hq
    push_cast at hr ⊢
    exact hr

/-- such operations exist. -/
theorem DoubleOps.exist : ∃ add mul : ℝ → ℝ → ℝ, DoubleOps add mul := by
  classical
  refine ⟨fun x y => if h : ∃ q : ℚ, (q : ℝ) = x + y then ((fl53 (Classical.choose h) : ℚ) : ℝ) else 0,
    fun x y => if h : ∃ q : ℚ, (q : ℝ) = x * y then ((fl53 (Classical.choose h) : ℚ) : ℝ) else 0, ?_, ?_⟩
  · intro a b
    have h : ∃ q : ℚ, (q : ℝ) = (a : ℝ) + b := ⟨a + b, by push_cast; rfl⟩
    rw [dif_pos h]
    have := Classical.choose_spec h
    have e : Classical.choose h = a + b := by exact_mod_cast this
    rw [e]
  · intro a b
    have h : ∃ q : ℚ, (q : ℝ) = (a : ℝ) * b := ⟨a * b, by push_cast; rfl⟩
    rw [dif_pos h]
    have := Classical.choose_spec h
    have e : Classical.choose h = a * b := by exact_mod_cast this
    rw [e]

/-- **C132 (negation).**  The path generator does return one input more than asked for in double arithmetic: ten steps of
`0.1`. -/
theorem C132_path_one_more {add mul : ℝ → ℝ → ℝ} (h : DoubleOps add mul) (A f : ℝ) :
    ∃ u, Lrf.genSineWavePath add mul [] 10 A f tenth = .ok () u ∧ u.length = 11 := by
  obtain ⟨h1, h2, h3, h4, h5, h6, h7, h8, h9, h10, h11⟩ := tenth_sums
  have hstop : mul ((10 : ℕ) : ℝ) tenth = ((1 : ℚ) : ℝ) := by
    have e : ((10 : ℕ) : ℝ) = (((10 : ℚ)) : ℝ) := by push_cast; rfl
    rw [e, h.mul]
    congr 1
    have := fl53_eval (x := 10 * tenth) 4503599627370496 (1 / 4) (-52) (by norm_num) (by norm_num) (by norm_num) (by norm_num)
      (by norm_num [tenth])
    rw [this]; norm_num
  obtain ⟨u, hu, hlen, _⟩ := Lrf.genSineWavePath_ok (add := add) (mul := mul) (u0 := []) (steps := 10) (A := A) (f := f)
    (T := tenth) (n := 11)
    (fun k hk => by
      rw [hstop, timeAt_double h]
      have : times fl53 0 tenth k < 1 := by
        interval_cases k <;> simp only [times, h1, h2, h3, h4, h5, h6, h7, h8, h9, h10] <;> norm_num [tenth]
      exact_mod_cast this)
    (by
      rw [hstop, timeAt_double h]
      have : (1:ℚ) ≤ times fl53 0 tenth 11 := by
        simp only [times, h1, h2, h3, h4, h5, h6, h7, h8, h9, h10, h11]; norm_num
      exact_mod_cast this)
  exact ⟨u, hu, by rw [hlen]; rfl⟩

/-- Non-vacuity: the configuration of the laser example, 5000 steps of a tenth. -/
example : ∃ (add mul : ℝ → ℝ → ℝ) (u : List Lrf.V3), DoubleOps add mul ∧ Lrf.genSineWavePath add mul [] 5000 1 (1 / 100) tenth = .ok () u ∧
    5000 ≤ u.length := by
  obtain ⟨add, mul, h⟩ := DoubleOps.exist
  obtain ⟨u, h1, h2⟩ := C132_path h [] 5000 1 (1 / 100) tenth (by norm_num [tenth]) (by norm_num) (by norm_num)
  exact ⟨add, mul, u, h, h1, by omega⟩

/-- Non-vacuity: the default parameters of the time delay simulation, a hundred seconds in steps of a hundredth. -/
example : (100 : ℚ) ≤ 2 ^ 26 * fl53 (1 / 100) := by
  have := abs_le.mp (fl53_rel (1 / 100))
  rw [abs_of_pos (by norm_num)] at this
  linarith [this.1]

end Verif
