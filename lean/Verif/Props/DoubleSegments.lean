import Verif.Lemmas.DoubleSegments
import Verif.Lemmas.DoubleLoops

/-!
# C139: the number of spline segments in double arithmetic

`knots` is the option of knots per second, `n` the number of poses, `d` the time between the first and the last in
nanoseconds.  The programs compute with doubles: `d / 1e9`, `n / elapsedTime` and `knots * elapsedTime` are rounded.
-/

namespace Verif
namespace Dbl

/-- the rate fits an `int`. -/
theorem measPerSec_range {n : ℕ} {d : Int} (hn : 0 < n) (hd : 0 < d) (hd53 : d ≤ 2 ^ 50) (hr : n * 10 ^ 9 ≤ 2 ^ 30 * d) :
    0 ≤ measPerSec n d ∧ measPerSec n d ≤ 2147483647 := by
  have hn2 : n ≤ 2 ^ 53 := by
    have : (n : Int) * 10 ^ 9 ≤ 2 ^ 30 * 2 ^ 50 := hr.trans (by nlinarith)
    have : (n : Int) ≤ 2 ^ 53 := by norm_num at this ⊢; omega
    exact_mod_cast this
  obtain ⟨h1, h2⟩ := rate_bounds hn hn2 hd (hd53.trans (by norm_num))
  have hdq : (0:ℚ) < d := by exact_mod_cast hd
  have hnq : (0:ℚ) < n := by exact_mod_cast hn
  have hR : 0 ≤ fl53 (fl53 n / elapsedTime d) := by
    refine le_trans ?_ h1
    have : (0:ℚ) ≤ 1 - 3 / 2 ^ 53 := by norm_num
    positivity
  have hrq : (n : ℚ) * 10 ^ 9 ≤ 2 ^ 30 * d := by exact_mod_cast hr
  have hx : (n : ℚ) / (d / 1000000000) ≤ 2 ^ 30 := by
    rw [div_le_iff₀ (by positivity)]
    linarith
  constructor
  · have := (roundQ_gt hR (-1)).mpr (by push_cast; linarith)
    unfold measPerSec
    omega
  · by_contra hc
    push Not at hc
    rw [measPerSec, roundQ_gt hR] at hc
    push_cast at hc
    have h3 : (n : ℚ) / (d / 1000000000) * (1 + 3 / 2 ^ 53) ≤ 2 ^ 30 * (1 + 3 / 2 ^ 53) :=
      mul_le_mul_of_nonneg_right hx (by norm_num)
    norm_num at hc h3 h2
    linarith

/-- ceiling of `knots * d / 1e9` in integers. -/
theorem ceil_spec {k d : Int} : (10 ^ 9 * (⌈(k : ℚ) * (d / 1000000000)⌉ - 1) < k * d) ∧ k * d ≤ 10 ^ 9 * ⌈(k : ℚ) * (d / 1000000000)⌉ := by
  have n1 := Int.le_ceil ((k : ℚ) * (d / 1000000000))
  have n2 := Int.ceil_lt_add_one ((k : ℚ) * (d / 1000000000))
  set N := ⌈(k : ℚ) * (d / 1000000000)⌉
  have e : (k : ℚ) * (d / 1000000000) = k * d / 1000000000 := by ring
  rw [e] at n1 n2
  rw [div_le_iff₀ (by norm_num)] at n1
  have n3 : (N : ℚ) - 1 < k * d / 1000000000 := by linarith
  rw [lt_div_iff₀ (by norm_num)] at n3
  constructor
  · have : (((N - 1) * 1000000000 : Int) : ℚ) < ((k * d : Int) : ℚ) := by push_cast; exact n3
    have := Int.cast_lt.mp this
    linarith
  · have : ((k * d : Int) : ℚ) ≤ ((N * 1000000000 : Int) : ℚ) := by push_cast; exact n1
    have := Int.cast_le.mp this
    linarith

/-- knots small enough for an `int`. -/
theorem knotsFor_range {k d : Int} (hk : 0 < k) (hd : 0 < d) (hb : d * (2 * k + 1) ≤ 2 ^ 50) :
    1 ≤ knotsFor k d ∧ knotsFor k d ≤ 2147483647 := by
  obtain ⟨c1, c2⟩ := ceil_spec (k := k) (d := d)
  have hkd : 0 < k * d := by positivity
  have : 2 * (k * d) ≤ 2 ^ 50 := by nlinarith
  have hc := knots_eq hk hd hb
  generalize ⌈(k : ℚ) * (d / 1000000000)⌉ = N at c1 c2 hc
  norm_num at this c1 c2
  rcases hc with h | ⟨_, h⟩ <;> rw [h] <;> omega

/-- C139 (partial): with a positive number of knots per second, at least one pose and a positive duration, as long as duration
times knots is below 2^49 ns (about 6 days times a knot per second) and there are at most 2^30 poses per second, the number of
segments is computed without undefined behaviour; if the poses come faster than the knots it is the duration times the knots
rounded up, possibly one too many if this product is an integer; if they come slower it is the number of poses; at a rate just
half a pose above the number of knots, it is one or the other.  Missing: it is not always the value of exact arithmetic
(`C139_one_more`, `C139_tie`). -/
theorem C139_segments_partial (knots : Int) (n : ℕ) (d : Int) (hk : 0 < knots) (hn : 0 < n) (hd : 0 < d)
    (hb : d * (2 * knots + 1) ≤ 2 ^ 50) (hr : n * 10 ^ 9 ≤ 2 ^ 30 * d) :
    ∃ q : Int, segments knots n d = some q ∧ segmentsLong knots n d = some q ∧ 1 ≤ q ∧
      let ByKnots : Prop := (10 ^ 9 * (q - 1) < knots * d ∧ knots * d ≤ 10 ^ 9 * q) ∨ knots * d = 10 ^ 9 * (q - 1)
      ((2 * knots + 1) * d < 2 * n * 10 ^ 9 → ByKnots) ∧ (2 * n * 10 ^ 9 < (2 * knots + 1) * d → q = n) ∧
      (ByKnots ∨ q = n) := by
  have hd50 : d ≤ 2 ^ 50 := by nlinarith
  have hn2 : n ≤ 2 ^ 53 := by
    have : (n : Int) * 10 ^ 9 ≤ 2 ^ 30 * 2 ^ 50 := hr.trans (by nlinarith)
    have : (n : Int) ≤ 2 ^ 53 := by norm_num at this ⊢; omega
    exact_mod_cast this
  obtain ⟨r1, r2⟩ := measPerSec_range hn hd hd50 hr
  obtain ⟨g1, g2⟩ := rate_gt hk.le hn hn2 hd hb
  obtain ⟨k1, k2⟩ := knotsFor_range hk hd hb
  obtain ⟨c1, c2⟩ := ceil_spec (k := knots) (d := d)
  have hE : elapsedTime d ≠ 0 := (elapsed_bounds hd (hd50.trans (by norm_num))).2.2.ne'
  have t1 : CarCal.toInt32 (measPerSec n d) = some (measPerSec n d) := by unfold CarCal.toInt32; rw [if_pos (by omega)]
  have t2 : CarCal.toInt32 (knotsFor knots d) = some (knotsFor knots d) := by unfold CarCal.toInt32; rw [if_pos (by omega)]
  have t3 : Ego.toInt32 (knotsFor knots d) = some (knotsFor knots d) := by unfold Ego.toInt32; rw [if_pos (by omega)]
  unfold segments segmentsLong
  rw [if_neg hE, t1, t2, t3]
  by_cases hc : measPerSec n d > knots
  · have hby : (10 ^ 9 * (knotsFor knots d - 1) < knots * d ∧ knots * d ≤ 10 ^ 9 * knotsFor knots d) ∨
        knots * d = 10 ^ 9 * (knotsFor knots d - 1) := by
      rcases knots_eq hk hd hb with h | ⟨⟨m, hm⟩, h⟩
      · rw [h]; exact Or.inl ⟨c1, c2⟩
      · right
        rw [h]
        norm_num at c1 c2 hm ⊢
        omega
    refine ⟨knotsFor knots d, by simp only [hc, if_true], by simp only [hc, if_true], k1, fun _ => hby, ?_, Or.inl hby⟩
    intro h
    exact absurd (g2 h) (by omega)
  · refine ⟨n, by simp only [hc, if_false], by simp only [hc, if_false], by exact_mod_cast hn, ?_, fun _ => rfl, Or.inr rfl⟩
    intro h
    exact absurd (g1 h) (by omega)

/-- C139 hypotheses are met: five knots per second, 1000 poses in 100 s. -/
example : ∃ q : Int, segments 5 1000 100000000000 = some q ∧ 1 ≤ q ∧ (q = 500 ∨ q = 501) := by
  obtain ⟨q, h1, _, h3, h4, _⟩ := C139_segments_partial 5 1000 100000000000 (by norm_num) (by norm_num) (by norm_num)
    (by norm_num) (by norm_num)
  refine ⟨q, h1, h3, ?_⟩
  have := h4 (by norm_num)
  norm_num at this
  omega

/-- elapsed time of 1.1 s and of 4.4 s. -/
theorem elapsed_eval : elapsedTime 1100000000 = 4953959590107546 * (2:ℚ) ^ (-52 : Int) ∧
    elapsedTime 4400000000 = 4953959590107546 * (2:ℚ) ^ (-50 : Int) := by
  unfold elapsedTime
  rw [fl53_int (by norm_num), fl53_int (by norm_num)]
  constructor
  · exact_mod_cast fl53_eval2 4953959590107546 (-(2 / 5)) (-52) (by norm_num) (by norm_num) (by norm_num) (by norm_num)
      (Or.inl (by norm_num)) (by norm_num)
  · exact_mod_cast fl53_eval2 4953959590107546 (-(2 / 5)) (-50) (by norm_num) (by norm_num) (by norm_num) (by norm_num)
      (Or.inl (by norm_num)) (by norm_num)

/-- C139 (negation): 220 poses over 1.1 s with 100 knots per second: 110 segments are asked for, the programs make 111. -/
theorem C139_one_more : ⌈(100 : ℚ) * (1100000000 / 1000000000)⌉ = 110 ∧ segments 100 220 1100000000 = some 111 ∧
    segmentsLong 100 220 1100000000 = some 111 := by
  have hk : knotsFor 100 1100000000 = 111 := by
    unfold knotsFor
    rw [fl53_int (m := 100) (by norm_num), elapsed_eval.1]
    have : fl53 (((100 : Int) : ℚ) * (4953959590107546 * (2:ℚ) ^ (-52 : Int))) = 7740561859543041 * (2:ℚ) ^ (-46 : Int) := by
      exact_mod_cast fl53_eval2 7740561859543041 (-(3 / 8)) (-46) (by norm_num) (by norm_num) (by norm_num) (by norm_num)
        (Or.inr (by norm_num)) (by norm_num)
    rw [this, Int.ceil_eq_iff]
    norm_num
  obtain ⟨q, h1, h2, _, h4, _⟩ := C139_segments_partial 100 220 1100000000 (by norm_num) (by norm_num) (by norm_num)
    (by norm_num) (by norm_num)
  have hm := (rate_gt (k := 100) (n := 220) (d := 1100000000) (by norm_num) (by norm_num) (by norm_num) (by norm_num)
    (by norm_num)).1 (by norm_num)
  have hr := measPerSec_range (n := 220) (d := 1100000000) (by norm_num) (by norm_num) (by norm_num) (by norm_num)
  refine ⟨by rw [Int.ceil_eq_iff]; norm_num, ?_, ?_⟩
  · unfold segments
    rw [if_neg (by rw [elapsed_eval.1]; norm_num)]
    have t1 : CarCal.toInt32 (measPerSec 220 1100000000) = some (measPerSec 220 1100000000) := by
      unfold CarCal.toInt32; rw [if_pos (by omega)]
    rw [t1]
    simp only [gt_iff_lt, hm, if_true, hk]
    decide
  · unfold segmentsLong
    rw [if_pos hm, hk]
    decide

/-- C139 (negation): 33 poses over 4.4 s are 7.5 poses per second, which rounds to 8; with seven knots per second there should
be 31 segments.  The programs compute 7.499999999999999 poses per second and make 33 segments. -/
theorem C139_tie : CarCal.roundQ (33 / (4400000000 / 1000000000)) = 8 ∧ ⌈(7 : ℚ) * (4400000000 / 1000000000)⌉ = 31 ∧
    segments 7 33 4400000000 = some 33 ∧ segmentsLong 7 33 4400000000 = some 33 := by
  have hm : measPerSec 33 4400000000 = 7 := by
    unfold measPerSec
    have e1 : fl53 ((33 : ℕ) : ℚ) = 33 := by exact_mod_cast fl53_int (m := 33) (by norm_num)
    rw [e1, elapsed_eval.2]
    have : fl53 ((33 : ℚ) / (4953959590107546 * (2:ℚ) ^ (-50 : Int))) = 8444249301319679 * (2:ℚ) ^ (-50 : Int) := by
      exact_mod_cast fl53_eval2 8444249301319679 (262709978263279 / 825659931684591) (-50) (by norm_num) (by norm_num)
        (by norm_num) (by norm_num) (Or.inr (by norm_num)) (by norm_num)
    rw [this]
    unfold CarCal.roundQ
    rw [if_pos (by norm_num), Int.floor_eq_iff]
    norm_num
  refine ⟨?_, by rw [Int.ceil_eq_iff]; norm_num, ?_, ?_⟩
  · unfold CarCal.roundQ
    rw [if_pos (by norm_num), Int.floor_eq_iff]
    norm_num
  · unfold segments
    rw [if_neg (by rw [elapsed_eval.2]; norm_num), hm]
    decide
  · unfold segmentsLong
    rw [hm]
    decide

/-- the exact computation, in integers: away from a tie and from integer products, the value of `C139_segments_partial`. -/
theorem exact_value (knots : Int) (n : ℕ) (d : Int) (hk : 0 < knots) (hn : 0 < n) (hd : 0 < d)
    (hb : d * (2 * knots + 1) ≤ 2 ^ 50) (hr : n * 10 ^ 9 ≤ 2 ^ 30 * d)
    (hi : ¬ 10 ^ 9 ∣ knots * d) (ht : 2 * n * 10 ^ 9 ≠ (2 * knots + 1) * d) :
    let r := CarCal.roundQ ((n : ℚ) / (d / 1000000000))
    let c := ⌈(knots : ℚ) * (d / 1000000000)⌉
    (-2147483648 ≤ r ∧ r ≤ 2147483647) ∧ (-2147483648 ≤ c ∧ c ≤ 2147483647) ∧
      segments knots n d = some (if r > knots then c else n) ∧ segmentsLong knots n d = some (if r > knots then c else n) := by
  have hdq : (0:ℚ) < d := by exact_mod_cast hd
  have hnq : (0:ℚ) < n := by exact_mod_cast hn
  obtain ⟨q, h1, h2, _, h4, h5, _⟩ := C139_segments_partial knots n d hk hn hd hb hr
  intro r c
  have hy : (0:ℚ) ≤ (n : ℚ) / (d / 1000000000) := by positivity
  have ey : (n : ℚ) / (d / 1000000000) = n * 1000000000 / d := by field_simp
  have hrq : (n : ℚ) * 10 ^ 9 ≤ 2 ^ 30 * d := by exact_mod_cast hr
  have b1 : -1 < r := by
    rw [roundQ_gt hy]; push_cast; linarith
  have b2 : r ≤ 2147483647 := by
    by_contra hc
    push Not at hc
    rw [roundQ_gt hy, ey, le_div_iff₀ hdq] at hc
    push_cast at hc
    nlinarith
  have hiff : r > knots ↔ (2 * knots + 1) * d ≤ 2 * n * 10 ^ 9 := by
    rw [gt_iff_lt, roundQ_gt hy, ey, le_div_iff₀ hdq]
    rw [← Int.cast_le (R := ℚ)]
    push_cast
    constructor <;> intro h <;> linarith
  obtain ⟨c1, c2⟩ := ceil_spec (k := knots) (d := d)
  have hP : 2 * (knots * d) ≤ 2 ^ 50 := by nlinarith
  have hP0 : 0 < knots * d := by positivity
  rw [h1, h2]
  change 10 ^ 9 * (c - 1) < knots * d at c1
  change knots * d ≤ 10 ^ 9 * c at c2
  clear_value c r
  have hc32 : -2147483648 ≤ c ∧ c ≤ 2147483647 := by norm_num at c1 c2 hP; omega
  have hq : q = if r > knots then c else n := by
    by_cases hc : (2 * knots + 1) * d ≤ 2 * n * 10 ^ 9
    · rw [if_pos (hiff.mpr hc)]
      have h6 := h4 (lt_of_le_of_ne hc (Ne.symm ht))
      rcases h6 with ⟨a, b⟩ | h
      · norm_num at a b c1 c2; omega
      · exact absurd ⟨q - 1, h⟩ hi
    · rw [if_neg (fun h => hc (hiff.mp h))]
      exact h5 (not_le.mp hc)
  exact ⟨⟨by omega, b2⟩, hc32, by rw [hq], by rw [hq]⟩

/-- C139, against exact arithmetic, car: when duration times knots is not a whole number and the rate is not a tie, the segments
of the car calibrator are those of the model with exact numbers. -/
theorem C139_exact_car (knots : Int) (poses : List Meas) (hk : 0 < knots) (hne : poses ≠ [])
    (hd : 0 < CarCal.tMax poses - CarCal.tMin poses)
    (hb : (CarCal.tMax poses - CarCal.tMin poses) * (2 * knots + 1) ≤ 2 ^ 50)
    (hr : poses.length * 10 ^ 9 ≤ 2 ^ 30 * (CarCal.tMax poses - CarCal.tMin poses))
    (hi : ¬ 10 ^ 9 ∣ knots * (CarCal.tMax poses - CarCal.tMin poses))
    (ht : 2 * poses.length * 10 ^ 9 ≠ (2 * knots + 1) * (CarCal.tMax poses - CarCal.tMin poses)) :
    segments knots poses.length (CarCal.tMax poses - CarCal.tMin poses) = CarCal.numSegments knots poses := by
  have hn : 0 < poses.length := List.length_pos_iff.mpr hne
  obtain ⟨a, b, c, _⟩ := exact_value knots poses.length _ hk hn hd hb hr hi ht
  unfold CarCal.numSegments CarCal.elapsed
  have hdq : (0:ℚ) < ((CarCal.tMax poses - CarCal.tMin poses : Int) : ℚ) := by exact_mod_cast hd
  have h0 : ((CarCal.tMax poses - CarCal.tMin poses : Int) : ℚ) / 1000000000 ≠ 0 := by positivity
  rw [if_neg hne, if_neg h0]
  unfold CarCal.toInt32
  rw [if_pos a, if_pos b, c]
  dsimp only
  split <;> rfl

/-- C139, against exact arithmetic, time delay example. -/
theorem C139_exact_timeDelay (knots : Int) (poses : List TD.Meas) (hk : 0 < knots) (hne : poses ≠ [])
    (hd : 0 < TD.tMax poses - TD.tMin poses)
    (hb : (TD.tMax poses - TD.tMin poses) * (2 * knots + 1) ≤ 2 ^ 50)
    (hr : poses.length * 10 ^ 9 ≤ 2 ^ 30 * (TD.tMax poses - TD.tMin poses))
    (hi : ¬ 10 ^ 9 ∣ knots * (TD.tMax poses - TD.tMin poses))
    (ht : 2 * poses.length * 10 ^ 9 ≠ (2 * knots + 1) * (TD.tMax poses - TD.tMin poses)) :
    segments knots poses.length (TD.tMax poses - TD.tMin poses) = TD.numSegments knots poses := by
  have hn : 0 < poses.length := List.length_pos_iff.mpr hne
  obtain ⟨a, b, c, _⟩ := exact_value knots poses.length _ hk hn hd hb hr hi ht
  unfold TD.numSegments TD.elapsed
  have hdq : (0:ℚ) < ((TD.tMax poses - TD.tMin poses : Int) : ℚ) := by exact_mod_cast hd
  have h0 : ((TD.tMax poses - TD.tMin poses : Int) : ℚ) / 1000000000 ≠ 0 := by positivity
  rw [if_neg hne, if_neg h0]
  have e : ∀ x, TD.roundQ x = CarCal.roundQ x := fun _ => rfl
  unfold TD.toInt32
  rw [e, if_pos a, if_pos b, c]
  dsimp only
  split <;> rfl

/-- C139, against exact arithmetic, egomotion example and simulator. -/
theorem C139_exact_egomotion {T : Type} (inf knots : Int) (n : ℕ) (poses : List (Int × T)) (hk : 0 < knots) (hn : 0 < n)
    (hd : 0 < Ego.tMax poses - Ego.tMin poses)
    (hb : (Ego.tMax poses - Ego.tMin poses) * (2 * knots + 1) ≤ 2 ^ 50)
    (hr : n * 10 ^ 9 ≤ 2 ^ 30 * (Ego.tMax poses - Ego.tMin poses))
    (hi : ¬ 10 ^ 9 ∣ knots * (Ego.tMax poses - Ego.tMin poses))
    (ht : 2 * n * 10 ^ 9 ≠ (2 * knots + 1) * (Ego.tMax poses - Ego.tMin poses)) :
    segmentsLong knots n (Ego.tMax poses - Ego.tMin poses) = Ego.numSegments inf knots n poses := by
  obtain ⟨a, b, _, c⟩ := exact_value knots n _ hk hn hd hb hr hi ht
  have hdq : (0:ℚ) < ((Ego.tMax poses - Ego.tMin poses : Int) : ℚ) := by exact_mod_cast hd
  have e : ∀ x, Ego.lround x = CarCal.roundQ x := fun _ => rfl
  unfold Ego.numSegments Ego.elapsed Ego.toInt32
  have h0 : ((Ego.tMax poses - Ego.tMin poses : Int) : ℚ) / 1000000000 ≠ 0 := by positivity
  rw [if_neg h0, e, if_pos b, c]
  dsimp only
  split <;> rfl

/-- the hypotheses of the three are met: three knots per second, 40 poses over 12.3 s. -/
example : segmentsLong 3 40 12300000000 = Ego.numSegments 0 3 40 [((0 : Int), ()), (12300000000, ())] := by
  have := C139_exact_egomotion 0 3 40 [((0 : Int), ()), (12300000000, ())] (by norm_num) (by norm_num)
    (by simp [Ego.tMax, Ego.tMin]) (by simp [Ego.tMax, Ego.tMin]) (by simp [Ego.tMax, Ego.tMin])
    (by simp [Ego.tMax, Ego.tMin]) (by simp [Ego.tMax, Ego.tMin])
  simpa [Ego.tMax, Ego.tMin] using this

end Dbl
end Verif
