import Verif.Lemmas.DoubleTimestamp
import Verif.Lemmas.DoubleLoops

/-!
# C141: time stamps in double arithmetic

`nowD sec usec` is the value of `Timestamp::now()` at a time of day, `timespecD` the conversion to `timespec`, `minusD` the difference
of two time stamps.  Doubles are rational numbers with 53 binary digits (`IsDouble`).
-/

namespace Verif
namespace Dbl

theorem truncQ_floor {x : ℚ} (h : 0 ≤ x) : truncQ x = ⌊x⌋ := by unfold truncQ; rw [if_pos h]

/-- conversion of nonnegative doubles in range. -/
theorem timespec_eq {s : ℚ} (hd : IsDouble s) (h0 : 0 ≤ s) (h1 : s < 2 ^ 63) :
    timespecD s = some (⌊s⌋, ⌊fl53 ((s - ⌊s⌋) * 1000000000)⌋) := by
  obtain ⟨p1, p2⟩ := isDouble_parts hd h0
  have hf0 : 0 ≤ ⌊s⌋ := Int.floor_nonneg.mpr h0
  have hf1 : ⌊s⌋ < 2 ^ 63 := by rw [Int.floor_lt]; exact_mod_cast h1
  have hfr0 : 0 ≤ s - ⌊s⌋ := by linarith [Int.floor_le s]
  have hfr1 : s - ⌊s⌋ < 1 := by linarith [Int.lt_floor_add_one s]
  have hn := nsec_lt p2 hfr1
  have hn0 : 0 ≤ fl53 ((s - ⌊s⌋) * 1000000000) := fl53_nonneg (by positivity)
  have g0 : 0 ≤ ⌊fl53 ((s - ⌊s⌋) * 1000000000)⌋ := Int.floor_nonneg.mpr hn0
  have g1 : ⌊fl53 ((s - ⌊s⌋) * 1000000000)⌋ < 1000000000 := by rw [Int.floor_lt]; exact_mod_cast hn
  unfold timespecD toInt64
  rw [truncQ_floor h0, if_pos ⟨by omega, by norm_num at hf1; omega⟩]
  simp only
  rw [fl53_fix p1, fl53_fix p2, truncQ_floor hn0, if_pos ⟨by omega, by omega⟩]

/-- **C141**: the conversion of a time stamp that is not negative is defined, has its nanoseconds between 0 and 999999999, the
seconds are those of the time stamp, and the value differs by less than a nanosecond and a ten-millionth, downwards, or a
ten-millionth of a nanosecond upwards (`2^-23` is about `1.2e-7`). -/
theorem C141_timespec_partial {s : ℚ} (hd : IsDouble s) (h0 : 0 ≤ s) (h1 : s < 2 ^ 63) :
    ∃ sec nsec : Int, timespecD s = some (sec, nsec) ∧ 0 ≤ sec ∧ (sec : ℚ) ≤ s ∧ s < sec + 1 ∧ 0 ≤ nsec ∧ nsec ≤ 999999999 ∧
      s - (1 + 1 / 2 ^ 23) / 10 ^ 9 < sec + nsec / 10 ^ 9 ∧ sec + nsec / 10 ^ 9 ≤ s + 1 / 2 ^ 23 / 10 ^ 9 := by
  obtain ⟨_, p2⟩ := isDouble_parts hd h0
  have hfr0 : 0 ≤ s - ⌊s⌋ := by linarith [Int.floor_le s]
  have hfr1 : s - ⌊s⌋ < 1 := by linarith [Int.lt_floor_add_one s]
  have hn := nsec_lt p2 hfr1
  have hn0 : 0 ≤ fl53 ((s - ⌊s⌋) * 1000000000) := fl53_nonneg (by positivity)
  have g1 : ⌊fl53 ((s - ⌊s⌋) * 1000000000)⌋ < 1000000000 := by rw [Int.floor_lt]; exact_mod_cast hn
  have hr := abs_le.mp (fl53_rel ((s - ⌊s⌋) * 1000000000))
  rw [abs_of_nonneg (by positivity)] at hr
  have hb : (s - ⌊s⌋) * 1000000000 / 2 ^ 53 < 1 / 2 ^ 23 := by
    rw [div_lt_iff₀ (by positivity), show (1:ℚ) / 2 ^ 23 * 2 ^ 53 = 1073741824 by norm_num]
    linarith
  have f1 := Int.floor_le (fl53 ((s - ⌊s⌋) * 1000000000))
  have f2 := Int.lt_floor_add_one (fl53 ((s - ⌊s⌋) * 1000000000))
  refine ⟨_, _, timespec_eq hd h0 h1, Int.floor_nonneg.mpr h0, Int.floor_le s, Int.lt_floor_add_one s, Int.floor_nonneg.mpr hn0,
    by omega, ?_, ?_⟩
  · generalize (⌊fl53 ((s - ⌊s⌋) * 1000000000)⌋ : ℤ) = n at f1 f2 g1 ⊢
    have : (s - ⌊s⌋) * 1000000000 - (1 + 1 / 2 ^ 23) < n := by linarith [hr.1]
    norm_num at this ⊢
    linarith
  · generalize (⌊fl53 ((s - ⌊s⌋) * 1000000000)⌋ : ℤ) = n at f1 f2 g1 ⊢
    have : (n : ℚ) ≤ (s - ⌊s⌋) * 1000000000 + 1 / 2 ^ 23 := by linarith [hr.2]
    norm_num at this ⊢
    linarith

/-- **C141**: a later time stamp does not have an earlier `timespec`. -/
theorem C141_timespec_monotone {s t : ℚ} (hs : IsDouble s) (ht : IsDouble t) (h0 : 0 ≤ s) (hst : s ≤ t) (h1 : t < 2 ^ 63) :
    ∃ a b a' b' : Int, timespecD s = some (a, b) ∧ timespecD t = some (a', b') ∧ (a < a' ∨ a = a' ∧ b ≤ b') := by
  refine ⟨_, _, _, _, timespec_eq hs h0 (lt_of_le_of_lt hst h1), timespec_eq ht (h0.trans hst) h1, ?_⟩
  rcases (Int.floor_le_floor hst).lt_or_eq with h | h
  · exact .inl h
  · refine .inr ⟨h, Int.floor_le_floor (fl53_mono ?_)⟩
    rw [h]
    have : (0:ℚ) ≤ 1000000000 := by norm_num
    nlinarith

/-- the time stamp is within 0.48 microseconds of the time of day. -/
theorem now_err {sec usec : Int} (hs : 0 ≤ sec) (hs2 : sec < 2 ^ 32) (hu : 0 ≤ usec) (hu2 : usec < 1000000) :
    |nowD sec usec - (sec + usec / 1000000)| ≤ 1 / 2 ^ 21 + 1 / 2 ^ 53 := by
  have e1 : fl53 (sec : ℚ) = sec := fl53_int (by rw [abs_of_nonneg hs]; omega)
  have e2 : fl53 (usec : ℚ) = usec := fl53_int (by rw [abs_of_nonneg hu]; omega)
  have hsq : (0:ℚ) ≤ sec := by exact_mod_cast hs
  have hsq2 : (sec : ℚ) + 1 ≤ 2 ^ 32 := by exact_mod_cast hs2
  have huq : (0:ℚ) ≤ usec := by exact_mod_cast hu
  have huq2 : (usec : ℚ) ≤ 1000000 := by exact_mod_cast hu2.le
  unfold nowD
  rw [e1, e2]
  set u : ℚ := usec / 1000000 with hu'
  have hu0 : 0 ≤ u := by positivity
  have hu1 : u ≤ 1 := by rw [hu', div_le_one (by norm_num)]; exact huq2
  have r1 := abs_le.mp (fl53_rel u)
  rw [abs_of_nonneg hu0] at r1
  have hu4 : u / 2 ^ 53 ≤ 1 / 2 ^ 53 := by gcongr
  have hfu0 : 0 ≤ fl53 u := fl53_nonneg hu0
  have hfu1 : fl53 u ≤ 1 := by
    have := fl53_mono hu1
    rwa [fl53_fix (⟨1, 0, by norm_num, by norm_num⟩ : IsDouble 1)] at this
  have r2 := abs_le.mp (fl53_rel (sec + fl53 u))
  rw [abs_of_nonneg (by positivity)] at r2
  have hb : (sec + fl53 u) / 2 ^ 53 ≤ 1 / 2 ^ 21 := by
    rw [div_le_iff₀ (by positivity)]
    have : (1:ℚ) / 2 ^ 21 * 2 ^ 53 = 2 ^ 32 := by norm_num
    rw [this]
    linarith
  rw [abs_le]
  constructor <;> linarith [r1.1, r1.2, r2.1, r2.2]

theorem now_double (sec usec : Int) : IsDouble (nowD sec usec) := (fl53_nearest _).1

/-- **C141**: until the year 2106, a time stamp taken at a later microsecond is greater. -/
theorem C141_now_strict {a b a' b' : Int} (ha : 0 ≤ a) (hb : 0 ≤ b) (hb2 : b < 1000000) (ha' : a' < 2 ^ 32) (hb' : 0 ≤ b') (hb2' : b' < 1000000)
    (h : a * 1000000 + b < a' * 1000000 + b') : nowD a b < nowD a' b' := by
  have haa : a ≤ a' := by omega
  have e1 := abs_le.mp (now_err ha (by omega) hb hb2)
  have e2 := abs_le.mp (now_err (sec := a') (by omega) ha' hb' hb2')
  have hq : (a * 1000000 + b + 1 : ℚ) ≤ a' * 1000000 + b' := by exact_mod_cast h
  have hq2 : (a : ℚ) + b / 1000000 + 1 / 1000000 ≤ a' + b' / 1000000 := by linarith
  norm_num at e1 e2
  linarith [e1.2, e2.1]

/-- **C141**: the difference of two time stamps is within 1.5 microseconds of the time between them, and positive if the second was
taken at a later microsecond. -/
theorem C141_elapsed {a b a' b' : Int} (ha : 0 ≤ a) (hb : 0 ≤ b) (hb2 : b < 1000000) (ha' : a' < 2 ^ 32) (hb' : 0 ≤ b') (hb2' : b' < 1000000)
    (h : a * 1000000 + b < a' * 1000000 + b') :
    0 < minusD (nowD a' b') (nowD a b) ∧
    |minusD (nowD a' b') (nowD a b) - ((a' * 1000000 + b') - (a * 1000000 + b)) / 1000000| < 3 / 2 / 1000000 := by
  have haa : a ≤ a' := by omega
  have e1 := abs_le.mp (now_err ha (by omega) hb hb2)
  have e2 := abs_le.mp (now_err (sec := a') (by omega) ha' hb' hb2')
  have hlt := C141_now_strict ha hb hb2 ha' hb' hb2' h
  have hpos : 0 < nowD a' b' - nowD a b := by linarith
  have r := abs_le.mp (fl53_rel (nowD a' b' - nowD a b))
  rw [abs_of_pos hpos] at r
  have hn0 : 0 ≤ nowD a b := by
    unfold nowD
    have haq : (0:ℚ) ≤ a := by exact_mod_cast ha
    have hbq : (0:ℚ) ≤ b := by exact_mod_cast hb
    exact fl53_nonneg (add_nonneg (fl53_nonneg haq) (fl53_nonneg (div_nonneg (fl53_nonneg hbq) (by norm_num))))
  have hmax : nowD a' b' ≤ 2 ^ 32 + 1 := by
    have ha'q : (a' : ℚ) + 1 ≤ 2 ^ 32 := by exact_mod_cast ha'
    have hb'q : (b' : ℚ) / 1000000 ≤ 1 := by
      rw [div_le_one (by norm_num)]; exact_mod_cast hb2'.le
    have : (1:ℚ) / 2 ^ 21 + 1 / 2 ^ 53 ≤ 1 := by norm_num
    linarith [e2.2]
  have hb3 : (nowD a' b' - nowD a b) / 2 ^ 53 ≤ 1 / 2 ^ 21 + 1 / 2 ^ 53 := by
    rw [div_le_iff₀ (by positivity)]
    norm_num at hmax ⊢
    linarith
  refine ⟨fl53_pos hpos, ?_⟩
  unfold minusD
  rw [abs_lt]
  norm_num at e1 e2 r hb3 ⊢
  constructor <;> linarith [e1.1, e1.2, e2.1, e2.2, r.1, r.2]

/-- **C141**: the time of day is recovered from the time stamp by rounding the `timespec` to microseconds: the nanoseconds are less
than half a microsecond off. -/
theorem C141_now_recovered {sec usec : Int} (hs : 0 ≤ sec) (hs2 : sec < 2 ^ 32) (hu : 0 ≤ usec) (hu2 : usec < 1000000) :
    ∃ a b : Int, timespecD (nowD sec usec) = some (a, b) ∧ 0 ≤ b ∧ b ≤ 999999999 ∧
      |(a * 1000000000 + b) - (sec * 1000000000 + usec * 1000)| < 500 := by
  have e1 := abs_le.mp (now_err hs hs2 hu hu2)
  have hn0 : 0 ≤ nowD sec usec := by
    unfold nowD
    have haq : (0:ℚ) ≤ sec := by exact_mod_cast hs
    have hbq : (0:ℚ) ≤ usec := by exact_mod_cast hu
    exact fl53_nonneg (add_nonneg (fl53_nonneg haq) (fl53_nonneg (div_nonneg (fl53_nonneg hbq) (by norm_num))))
  have hmax : nowD sec usec < 2 ^ 63 := by
    have ha'q : (sec : ℚ) + 1 ≤ 2 ^ 32 := by exact_mod_cast hs2
    have hb'q : (usec : ℚ) / 1000000 ≤ 1 := by
      rw [div_le_one (by norm_num)]; exact_mod_cast hu2.le
    norm_num at e1 ha'q ⊢
    linarith [e1.2]
  obtain ⟨a, b, h1, _, _, _, h5, h6, h7, h8⟩ := C141_timespec_partial (now_double sec usec) hn0 hmax
  refine ⟨a, b, h1, h5, h6, ?_⟩
  rw [abs_lt]
  constructor
  · have : ((-500 : ℤ) : ℚ) < (((a * 1000000000 + b) - (sec * 1000000000 + usec * 1000) : ℤ) : ℚ) := by
      push_cast
      norm_num at e1 h7 h8 ⊢
      linarith [e1.1]
    exact_mod_cast this
  · have : (((a * 1000000000 + b) - (sec * 1000000000 + usec * 1000) : ℤ) : ℚ) < ((500 : ℤ) : ℚ) := by
      push_cast
      norm_num at e1 h7 h8 ⊢
      linarith [e1.2]
    exact_mod_cast this

/-- **C141** (negation): at 1400000000.1 s the `timespec` of the time stamp has 99999904 ns: its microseconds are 99999, not 100000. -/
theorem C141_truncated : timespecD (nowD 1400000000 100000) = some (1400000000, 99999904) ∧ (99999904 : Int) / 1000 = 99999 := by
  refine ⟨?_, by norm_num⟩
  have e0 : nowD 1400000000 100000 = 5872025600419430 * (2:ℚ) ^ (-22 : Int) := by
    unfold nowD
    rw [fl53_int (m := 1400000000) (by norm_num), fl53_int (m := 100000) (by norm_num)]
    have : fl53 (((100000 : ℤ) : ℚ) / 1000000) = 7205759403792794 * (2:ℚ) ^ (-56 : Int) := by
      exact_mod_cast fl53_eval2 7205759403792794 (-(2 / 5)) (-56) (by norm_num) (by norm_num) (by norm_num) (by norm_num)
        (Or.inl (by norm_num)) (by norm_num)
    rw [this]
    exact_mod_cast fl53_eval2 5872025600419430 (3435973837 / 8589934592) (-22) (by norm_num) (by norm_num) (by norm_num) (by norm_num)
      (Or.inl (by norm_num)) (by norm_num)
  have hd := now_double 1400000000 100000
  rw [e0] at hd ⊢
  have hfl : ⌊(5872025600419430 * (2:ℚ) ^ (-22 : Int) : ℚ)⌋ = 1400000000 := by rw [Int.floor_eq_iff]; norm_num
  rw [timespec_eq hd (by norm_num) (by norm_num), hfl]
  have : fl53 ((5872025600419430 * (2:ℚ) ^ (-22 : Int) - ((1400000000 : ℤ) : ℚ)) * 1000000000) = 6710880000000000 * (2:ℚ) ^ (-26 : Int) := by
    exact_mod_cast fl53_eval2 6710880000000000 0 (-26) (by norm_num) (by norm_num) (by norm_num) (by norm_num)
      (Or.inl (by norm_num)) (by norm_num)
  rw [this]
  have : ⌊(6710880000000000 * (2:ℚ) ^ (-26 : Int) : ℚ)⌋ = 99999904 := by rw [Int.floor_eq_iff]; norm_num
  rw [this]

/-- **C141** (negation): after 2^33 seconds two different microseconds have the same time stamp. -/
theorem C141_collision : nowD (2 ^ 33) 1 = nowD (2 ^ 33) 2 := by
  unfold nowD
  have hi : fl53 (((2 ^ 33 : ℤ) : ℤ) : ℚ) = ((2 ^ 33 : ℤ) : ℚ) := fl53_int (by norm_num)
  rw [hi, fl53_int (m := 1) (by norm_num), fl53_int (m := 2) (by norm_num)]
  have a1 : fl53 (((1 : ℤ) : ℚ) / 1000000) = 4722366482869645 * (2:ℚ) ^ (-72 : Int) := by
    exact_mod_cast fl53_eval2 4722366482869645 (3339 / 15625) (-72) (by norm_num) (by norm_num) (by norm_num) (by norm_num)
      (Or.inr (by norm_num)) (by norm_num)
  have a2 : fl53 (((2 : ℤ) : ℚ) / 1000000) = 4722366482869645 * (2:ℚ) ^ (-71 : Int) := by
    exact_mod_cast fl53_eval2 4722366482869645 (3339 / 15625) (-71) (by norm_num) (by norm_num) (by norm_num) (by norm_num)
      (Or.inr (by norm_num)) (by norm_num)
  rw [a1, a2]
  have b1 : fl53 (((2 ^ 33 : ℤ) : ℚ) + 4722366482869645 * (2:ℚ) ^ (-72 : Int)) = 4503599627370497 * (2:ℚ) ^ (-19 : Int) := by
    exact_mod_cast fl53_eval2 4503599627370497 (-(4284832771871347 / 9007199254740992)) (-19) (by norm_num) (by norm_num) (by norm_num)
      (by norm_num) (Or.inr (by norm_num)) (by norm_num)
  have b2 : fl53 (((2 ^ 33 : ℤ) : ℚ) + 4722366482869645 * (2:ℚ) ^ (-71 : Int)) = 4503599627370497 * (2:ℚ) ^ (-19 : Int) := by
    exact_mod_cast fl53_eval2 4503599627370497 (218766855499149 / 4503599627370496) (-19) (by norm_num) (by norm_num) (by norm_num)
      (by norm_num) (Or.inr (by norm_num)) (by norm_num)
  rw [b1, b2]

/-- **C141**: moving time stamps by the same duration does not reverse their order, the result is within a relative rounding error of
the exact sum, and moving one by at least a microsecond forward, or backward, gives a later, or earlier, one (until 2106). -/
theorem C141_moved (s t d : ℚ) :
    (s ≤ t → plusD s d ≤ plusD t d ∧ minusD s d ≤ minusD t d) ∧ |plusD s d - (s + d)| ≤ |s + d| / 2 ^ 53 ∧
    (0 ≤ s → s ≤ 2 ^ 32 → 1 / 1000000 ≤ d → s < plusD s d ∧ minusD s d < s) := by
  refine ⟨fun h => ⟨fl53_mono (by linarith), fl53_mono (by linarith)⟩, fl53_rel _, fun h0 h1 hd => ⟨?_, ?_⟩⟩
  · have h2 : fl53 (s + 1 / 1000000) ≤ plusD s d := fl53_mono (by linarith)
    have r := (abs_le.mp (fl53_rel (s + 1 / 1000000))).1
    rw [abs_of_nonneg (by positivity)] at r
    norm_num at r h1
    linarith
  · have h2 : minusD s d ≤ fl53 (s - 1 / 1000000) := fl53_mono (by linarith)
    have r := (abs_le.mp (fl53_rel (s - 1 / 1000000))).2
    have ha : |s - 1 / 1000000| ≤ 2 ^ 32 := by rw [abs_le]; constructor <;> norm_num at h1 ⊢ <;> linarith
    have hb : |s - 1 / 1000000| / 2 ^ 53 ≤ 1 / 2 ^ 21 := by
      rw [div_le_iff₀ (by positivity), show (1:ℚ) / 2 ^ 21 * 2 ^ 53 = 2 ^ 32 by norm_num]
      exact ha
    norm_num at r hb
    linarith

/-- the hypotheses of the theorems above are met: two time stamps of the year 2014, 0.3 s apart. -/
example : nowD 1400000000 800000 < nowD 1400000001 100000 ∧
    |minusD (nowD 1400000001 100000) (nowD 1400000000 800000) - 3 / 10| < 3 / 2 / 1000000 := by
  refine ⟨C141_now_strict (by norm_num) (by norm_num) (by norm_num) (by norm_num) (by norm_num) (by norm_num) (by norm_num), ?_⟩
  have := (C141_elapsed (a := 1400000000) (b := 800000) (a' := 1400000001) (b' := 100000) (by norm_num) (by norm_num) (by norm_num)
    (by norm_num) (by norm_num) (by norm_num) (by norm_num)).2
  norm_num at this ⊢
  exact this

end Dbl
end Verif
