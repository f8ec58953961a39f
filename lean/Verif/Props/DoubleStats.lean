import Verif.Lemmas.DoubleStats
import Verif.Props.DoubleTimes

/-!
# C143: the streaming estimator in double arithmetic
-/

namespace Verif
namespace MLE1
open Dbl

/-- the sums kept by the estimator and the sums of the points, of magnitude at most `M`. -/
def SumsNear (M : ℚ) (s : MLE1 ℚ) (xs : List ℚ) : Prop :=
  s.n = xs.length ∧ |s.sum - xs.sum| ≤ (xs.length : ℚ) ^ 2 * (1 / 2 ^ 53) * M ∧
    |s.sq - (xs.map fun x => x * x).sum| ≤ 3 * (xs.length : ℚ) ^ 2 * (1 / 2 ^ 53) * (M * M)

theorem commit_fields (s : MLE1 ℚ) (m v : ℚ) : (commit s m v).n = s.n ∧ (commit s m v).sum = s.sum ∧ (commit s m v).sq = s.sq := by
  unfold commit; split_ifs <;> exact ⟨rfl, rfl, rfl⟩

/-- the sums after a point. -/
theorem addPoint_fields (fl : ℚ → ℚ) (s : MLE1 ℚ) (p : ℚ) : (addPoint fl s p).n = s.n + 1 ∧
    (addPoint fl s p).sum = fl (s.sum + p) ∧ (addPoint fl s p).sq = fl (s.sq + fl (p * p)) := by
  unfold addPoint
  simp only
  split_ifs
  · exact ⟨rfl, rfl, rfl⟩
  · exact ⟨rfl, rfl, rfl⟩
  · exact commit_fields _ _ _

theorem addPointsW_fields (s : MLE1 ℚ) (ps ws : List ℚ) :
    (addPointsW s ps ws).n = s.n ∧ (addPointsW s ps ws).sum = s.sum ∧ (addPointsW s ps ws).sq = s.sq := by
  unfold addPointsW
  split_ifs
  · exact ⟨rfl, rfl, rfl⟩
  · exact ⟨rfl, rfl, rfl⟩
  · exact commit_fields _ _ _

theorem fl53_rel' (z : ℚ) : |fl53 z - z| ≤ |z| * (1 / 2 ^ 53) := by
  have := fl53_rel z
  rw [mul_one_div]
  exact this

theorem sum_bounds {M : ℚ} (hM : 0 ≤ M) (xs : List ℚ) (hx : ∀ x ∈ xs, |x| ≤ M) :
    |xs.sum| ≤ xs.length * M ∧ 0 ≤ (xs.map fun x => x * x).sum ∧ (xs.map fun x => x * x).sum ≤ xs.length * (M * M) := by
  induction xs with
  | nil => simp
  | cons x xs ih =>
    obtain ⟨h1, h2, h3⟩ := ih fun y hy => hx y (List.mem_cons_of_mem _ hy)
    have hxM := hx x List.mem_cons_self
    have hxx : x * x ≤ M * M := by
      rw [← abs_mul_abs_self x]
      exact mul_le_mul hxM hxM (abs_nonneg _) hM
    have hx0 : 0 ≤ x * x := mul_self_nonneg x
    simp only [List.sum_cons, List.length_cons, List.map_cons, Nat.cast_add, Nat.cast_one]
    refine ⟨(abs_add_le _ _).trans (by linarith), by linarith, by linarith⟩

theorem addPoint_near {M : ℚ} (hM : 0 ≤ M) {s : MLE1 ℚ} {xs : List ℚ} {p : ℚ} (hx : ∀ x ∈ xs, |x| ≤ M) (hp : |p| ≤ M)
    (hl : xs.length ≤ 2 ^ 26) (h : SumsNear M s xs) : SumsNear M (addPoint fl53 s p) (xs ++ [p]) := by
  obtain ⟨h1, h2, h3⟩ := h
  obtain ⟨f1, f2, f3⟩ := addPoint_fields fl53 s p
  obtain ⟨b1, b2, b3⟩ := sum_bounds hM xs hx
  have hk0 : (0:ℚ) ≤ xs.length := Nat.cast_nonneg _
  have hk : (xs.length : ℚ) ≤ 2 ^ 26 := by exact_mod_cast hl
  generalize hkd : (xs.length : ℚ) = k at *
  have hpp : |p * p| ≤ M * M := by
    rw [abs_mul]; exact mul_le_mul hp hp (abs_nonneg _) hM
  have hX : 0 ≤ M * M := by positivity
  refine ⟨by rw [f1, h1]; simp, ?_, ?_⟩
  · rw [f2, List.sum_append, List.sum_singleton, List.length_append, List.length_singleton, Nat.cast_add, Nat.cast_one, hkd]
    have r := fl53_rel' (s.sum + p)
    have e1 : |s.sum + p - (xs.sum + p)| ≤ k ^ 2 * (1 / 2 ^ 53) * M := by rwa [add_sub_add_right_eq_sub]
    have e2 : |s.sum + p| ≤ k ^ 2 * (1 / 2 ^ 53) * M + (k + 1) * M := by
      have a := abs_add_le (s.sum - xs.sum) (xs.sum + p)
      have b := abs_add_le xs.sum p
      rw [show s.sum - xs.sum + (xs.sum + p) = s.sum + p by ring] at a
      linarith
    have e3 := abs_sub_le (fl53 (s.sum + p)) (s.sum + p) (xs.sum + p)
    have e4 : k ^ 2 * (1 / 2 ^ 53) ≤ k := by nlinarith
    have e5 : k ^ 2 * (1 / 2 ^ 53) * M ≤ k * M := mul_le_mul_of_nonneg_right e4 hM
    have e6 : |s.sum + p| ≤ (2 * k + 1) * M := by linarith
    nlinarith
  · rw [f3, List.map_append, List.sum_append, List.length_append, List.length_singleton, Nat.cast_add, Nat.cast_one, hkd]
    simp only [List.map_cons, List.map_nil, List.sum_singleton]
    have r0 := fl53_rel' (p * p)
    have r := fl53_rel' (s.sq + fl53 (p * p))
    have g0 : |fl53 (p * p) - p * p| ≤ 1 / 2 ^ 53 * (M * M) := by linarith
    have e1 : |s.sq + fl53 (p * p) - ((xs.map fun x => x * x).sum + p * p)| ≤
        3 * k ^ 2 * (1 / 2 ^ 53) * (M * M) + 1 / 2 ^ 53 * (M * M) := by
      have e : s.sq + fl53 (p * p) - ((xs.map fun x => x * x).sum + p * p) =
        (s.sq - (xs.map fun x => x * x).sum) + (fl53 (p * p) - p * p) := by ring
      rw [e]
      refine (abs_add_le _ _).trans (by linarith)
    have e0 : |(xs.map fun x => x * x).sum + p * p| ≤ (k + 1) * (M * M) := by
      refine (abs_add_le _ _).trans ?_
      rw [abs_of_nonneg b2]; linarith
    have e2 : |s.sq + fl53 (p * p)| ≤ 3 * k ^ 2 * (1 / 2 ^ 53) * (M * M) + 1 / 2 ^ 53 * (M * M) + (k + 1) * (M * M) := by
      have a := abs_add_le (s.sq + fl53 (p * p) - ((xs.map fun x => x * x).sum + p * p)) ((xs.map fun x => x * x).sum + p * p)
      rw [sub_add_cancel] at a
      linarith
    have e3 := abs_sub_le (fl53 (s.sq + fl53 (p * p))) (s.sq + fl53 (p * p)) ((xs.map fun x => x * x).sum + p * p)
    have e4 : 3 * k ^ 2 * (1 / 2 ^ 53) ≤ k := by nlinarith
    have e5 : 3 * k ^ 2 * (1 / 2 ^ 53) * (M * M) ≤ k * (M * M) := mul_le_mul_of_nonneg_right e4 hX
    have e6 : |s.sq + fl53 (p * p)| ≤ (2 * k + 2) * (M * M) := by linarith
    nlinarith

theorem addPoints_near {M : ℚ} (hM : 0 ≤ M) (ps : List ℚ) : ∀ (s : MLE1 ℚ) (xs : List ℚ), (∀ x ∈ xs ++ ps, |x| ≤ M) →
    (xs ++ ps).length ≤ 2 ^ 26 → SumsNear M s xs → SumsNear M (addPoints fl53 s ps) (xs ++ ps) := by
  induction ps with
  | nil => intro s xs _ _ h; simpa [addPoints] using h
  | cons p ps ih =>
    intro s xs hx hl h
    have h1 := addPoint_near hM (p := p) (fun x hxx => hx x (by simp [hxx])) (hx p (by simp)) (by simp at hl; omega) h
    have := ih (addPoint fl53 s p) (xs ++ [p]) (by simpa using hx) (by simpa using hl) h1
    simpa [addPoints] using this

theorem after_near {M : ℚ} (hM : 0 ≤ M) (h : List (Op ℚ)) (hl : (since h).length ≤ 2 ^ 26) (hx : ∀ x ∈ since h, |x| ≤ M) :
    SumsNear M (after fl53 h) (since h) := by
  induction h using List.reverseRecOn with
  | nil => exact ⟨rfl, by simp [after, init, since], by simp [after, init, since]⟩
  | append_singleton h o ih =>
    rw [since_eq, go_append, ← since_eq] at hl hx ⊢
    have : after fl53 (h ++ [o]) = Op.run fl53 (after fl53 h) o := by simp [after]
    rw [this]
    cases o with
    | points ps =>
      simp only [since.go] at hl hx ⊢
      exact addPoints_near hM ps _ _ hx hl (ih (by simp at hl; omega) fun x hxx => hx x (by simp [hxx]))
    | weighted ps ws =>
      obtain ⟨a, b, c⟩ := addPointsW_fields (after fl53 h) ps ws
      have ih := ih hl hx
      exact ⟨a.trans ih.1, by simp only [Op.run, b]; exact ih.2.1, by simp only [Op.run, c]; exact ih.2.2⟩
    | reset => exact ⟨rfl, by simp [Op.run, reset, since.go], by simp [Op.run, reset, since.go]⟩

/-- **C143** (partial): after any history of calls, adding points in double arithmetic.  For at most `2^26` points since the last reset,
of magnitude at most `M`: the mean is that of the points up to `(n + 2) 2^-53 M`; if the estimator is valid, the variance is positive and
that of the points up to `40 n 2^-53 M^2`; if the points vary more than this, the estimator is valid.  Missing: validity exactly if the
points are not all equal (`C143_equal_points`, `C34_rounding_loses_validity`). -/
theorem C143_error_partial (h : List (Op ℚ)) (qs : List ℚ) (p M : ℚ) (hl : (since h ++ qs ++ [p]).length ≤ 2 ^ 26)
    (hx : ∀ x ∈ since h ++ qs ++ [p], |x| ≤ M) :
    let s := after fl53 (h ++ [Op.points (qs ++ [p])])
    let xs := since h ++ qs ++ [p]
    s.n = xs.length ∧
    (∃ m, s.mean = some m ∧ |m - Spec.mean xs| ≤ (xs.length + 2) / 2 ^ 53 * M) ∧
    (s.valid = true → ∃ v, s.var = some v ∧ 0 < v ∧ |v - Spec.variance xs| ≤ 40 * xs.length / 2 ^ 53 * M ^ 2) ∧
    (40 * xs.length / 2 ^ 53 * M ^ 2 < Spec.variance xs → s.valid = true) := by
  intro s xs
  have hM : 0 ≤ M := (abs_nonneg p).trans (hx p (by simp))
  obtain ⟨s0, hs0⟩ : ∃ s0, s0 = after fl53 (h ++ [Op.points qs]) := ⟨_, rfl⟩
  have hsin : since (h ++ [Op.points qs]) = since h ++ qs := by
    rw [since_eq, go_append, ← since_eq]; rfl
  have hnear : SumsNear M s0 (since h ++ qs) := by
    rw [hs0, ← hsin]
    exact after_near hM _ (by rw [hsin]; simp at hl ⊢; omega) (by rw [hsin]; exact fun x hxx => hx x (by simp at hxx ⊢; tauto))
  have hs : s = addPoint fl53 s0 p := by
    show after fl53 (h ++ [Op.points (qs ++ [p])]) = _
    rw [hs0]
    simp [after, Op.run, addPoints]
  have hn' := addPoint_near hM (p := p) (fun x hxx => hx x (by simp at hxx ⊢; tauto)) (hx p (by simp)) (by simp at hl ⊢; omega) hnear
  obtain ⟨n1, n2, n3⟩ := hn'
  obtain ⟨f1, f2, f3⟩ := addPoint_fields fl53 s0 p
  obtain ⟨b1, b2, b3⟩ := sum_bounds hM xs hx
  rw [f2] at n2
  rw [f3] at n3
  have hn1 : s0.n + 1 = xs.length := by rw [← f1, n1]
  have hlen1 : 1 ≤ xs.length := by omega
  have hlen : xs.length ≤ 2 ^ 26 := hl
  have hq : sqN xs.length = xs.length * xs.length := by
    unfold sqN
    apply Nat.mod_eq_of_lt
    calc xs.length * xs.length ≤ 2 ^ 26 * 2 ^ 26 := Nat.mul_le_mul hlen hlen
      _ < 18446744073709551616 := by norm_num
  have hk1 : (1:ℚ) ≤ xs.length := by exact_mod_cast hlen1
  have hk2 : (xs.length : ℚ) ≤ 2 ^ 26 := by exact_mod_cast hlen
  obtain ⟨e1, e2⟩ := moments_near fl53_rel' (by norm_num) hM hk1 (by linarith) b1 n2 b2 b3 n3
  have hvar : Spec.variance xs = (xs.map fun x => x * x).sum / xs.length - xs.sum / xs.length * (xs.sum / xs.length) := by
    have := Spec.variance_eq xs (by simp [xs])
    rw [this]
    have : (xs.length : ℚ) ≠ 0 := by linarith
    field_simp
    ring
  have hadd : s = commit { s0 with n := xs.length, sum := fl53 (s0.sum + p), sq := fl53 (s0.sq + fl53 (p * p)) }
      (fl53 (fl53 (s0.sum + p) / xs.length))
      (fl53 (fl53 (fl53 (fl53 (s0.sq + fl53 (p * p)) / xs.length) - fl53 (fl53 (fl53 (fl53 (s0.sum + p) * fl53 (s0.sum + p)) * 2) /
        ((xs.length : ℚ) * xs.length))) + fl53 (fl53 (fl53 (s0.sum + p) / xs.length) * fl53 (fl53 (s0.sum + p) / xs.length)))) := by
    rw [hs]
    unfold addPoint
    simp only [hn1]
    rw [if_neg (by rw [hq]; positivity), hq]
    push_cast
    rfl
  rw [← hvar] at e2
  generalize fl53 (fl53 (fl53 (fl53 (s0.sq + fl53 (p * p)) / xs.length) - fl53 (fl53 (fl53 (fl53 (s0.sum + p) * fl53 (s0.sum + p)) * 2) /
        ((xs.length : ℚ) * xs.length))) + fl53 (fl53 (fl53 (s0.sum + p) / xs.length) * fl53 (fl53 (s0.sum + p) / xs.length))) = v at *
  rw [hadd]
  have eb : 40 * (xs.length : ℚ) * (1 / 2 ^ 53) * (M * M) = 40 * xs.length / 2 ^ 53 * M ^ 2 := by ring
  rw [eb] at e2
  have em : ((xs.length : ℚ) + 2) * (1 / 2 ^ 53) * M = (xs.length + 2) / 2 ^ 53 * M := by ring
  rw [em] at e1
  by_cases hv : v ≤ 0
  · simp only [commit, if_pos hv]
    refine ⟨trivial, ⟨_, rfl, e1⟩, by simp, fun hlt => ?_⟩
    have := (abs_le.mp e2).1
    linarith
  · simp only [commit, if_neg hv]
    exact ⟨trivial, ⟨_, rfl, e1⟩, fun _ => ⟨v, rfl, not_le.mp hv, e2⟩, by simp⟩

theorem fl53_neg (x : ℚ) : fl53 (-x) = -fl53 x := by
  unfold fl53
  rcases lt_trichotomy x 0 with h | h | h
  · simp [h, h.le, not_lt.2 h.le]
  · simp [h]
  · simp [h, h.le, not_lt.2 h.le]

/-- **C143** (negation): three equal points.  Adding the double nearest to one tenth three times leaves an estimator that is valid, with a
positive variance and a mean that is greater than all points. -/
theorem C143_equal_points : ∃ m v, (after fl53 [.points [tenth, tenth, tenth]]).mean = some m ∧
    (after fl53 [.points [tenth, tenth, tenth]]).var = some v ∧ 0 < v ∧ tenth < m ∧
    (after fl53 [.points [tenth, tenth, tenth]]).valid = true ∧
    Spec.variance [tenth, tenth, tenth] = 0 := by
  have hT := tenth_sums
  obtain ⟨t1, t2, t3, -⟩ := hT
  have hP : fl53 (tenth * tenth) = 5764607523034236 * (2:ℚ) ^ (-59 : Int) := by
    exact_mod_cast fl53_eval2 5764607523034236 (-1080863910568919/2251799813685248) (-59) (by norm_num) (by norm_num) (by norm_num)
      (by norm_num) (Or.inl (by norm_num)) (by norm_num [tenth])
  have hQ1 : fl53 (0 + 5764607523034236 * (2:ℚ) ^ (-59 : Int)) = 5764607523034236 * (2:ℚ) ^ (-59 : Int) := by
    exact_mod_cast fl53_eval2 5764607523034236 0 (-59) (by norm_num) (by norm_num) (by norm_num)
      (by norm_num) (Or.inl (by norm_num)) (by norm_num)
  have hQ2 : fl53 (5764607523034236 * (2:ℚ) ^ (-59 : Int) + 5764607523034236 * (2:ℚ) ^ (-59 : Int)) =
      5764607523034236 * (2:ℚ) ^ (-58 : Int) := by
    exact_mod_cast fl53_eval2 5764607523034236 0 (-58) (by norm_num) (by norm_num) (by norm_num)
      (by norm_num) (Or.inl (by norm_num)) (by norm_num)
  have hQ3 : fl53 (5764607523034236 * (2:ℚ) ^ (-58 : Int) + 5764607523034236 * (2:ℚ) ^ (-59 : Int)) =
      8646911284551354 * (2:ℚ) ^ (-58 : Int) := by
    exact_mod_cast fl53_eval2 8646911284551354 0 (-58) (by norm_num) (by norm_num) (by norm_num)
      (by norm_num) (Or.inl (by norm_num)) (by norm_num)
  have hm : fl53 (5404319552844596 * (2:ℚ) ^ (-54 : Int) / 3) = 7205759403792795 * (2:ℚ) ^ (-56 : Int) := by
    exact_mod_cast fl53_eval2 7205759403792795 (-1/3) (-56) (by norm_num) (by norm_num) (by norm_num)
      (by norm_num) (Or.inr (by norm_num)) (by norm_num)
  have hA : fl53 (8646911284551354 * (2:ℚ) ^ (-58 : Int) / 3) = 5764607523034236 * (2:ℚ) ^ (-59 : Int) := by
    exact_mod_cast fl53_eval2 5764607523034236 0 (-59) (by norm_num) (by norm_num) (by norm_num)
      (by norm_num) (Or.inl (by norm_num)) (by norm_num)
  have hB1 : fl53 (5404319552844596 * (2:ℚ) ^ (-54 : Int) * (5404319552844596 * (2:ℚ) ^ (-54 : Int))) =
      6485183463413516 * (2:ℚ) ^ (-56 : Int) := by
    exact_mod_cast fl53_eval2 6485183463413516 (45035996273705/281474976710656) (-56) (by norm_num) (by norm_num) (by norm_num)
      (by norm_num) (Or.inl (by norm_num)) (by norm_num)
  have hB2 : fl53 (6485183463413516 * (2:ℚ) ^ (-56 : Int) * 2) = 6485183463413516 * (2:ℚ) ^ (-55 : Int) := by
    exact_mod_cast fl53_eval2 6485183463413516 0 (-55) (by norm_num) (by norm_num) (by norm_num)
      (by norm_num) (Or.inl (by norm_num)) (by norm_num)
  have hB : fl53 (6485183463413516 * (2:ℚ) ^ (-55 : Int) / 9) = 5764607523034236 * (2:ℚ) ^ (-58 : Int) := by
    exact_mod_cast fl53_eval2 5764607523034236 (4/9) (-58) (by norm_num) (by norm_num) (by norm_num)
      (by norm_num) (Or.inl (by norm_num)) (by norm_num)
  have hD : fl53 (5764607523034236 * (2:ℚ) ^ (-59 : Int) - 5764607523034236 * (2:ℚ) ^ (-58 : Int)) =
      -(5764607523034236 * (2:ℚ) ^ (-59 : Int)) := by
    have : fl53 (5764607523034236 * (2:ℚ) ^ (-59 : Int)) = 5764607523034236 * (2:ℚ) ^ (-59 : Int) := by
      exact_mod_cast fl53_eval2 5764607523034236 0 (-59) (by norm_num) (by norm_num) (by norm_num)
        (by norm_num) (Or.inl (by norm_num)) (by norm_num)
    rw [show (5764607523034236 * (2:ℚ) ^ (-59 : Int) - 5764607523034236 * (2:ℚ) ^ (-58 : Int)) =
      -(5764607523034236 * (2:ℚ) ^ (-59 : Int)) by norm_num, fl53_neg, this]
  have hC : fl53 (7205759403792795 * (2:ℚ) ^ (-56 : Int) * (7205759403792795 * (2:ℚ) ^ (-56 : Int))) =
      5764607523034237 * (2:ℚ) ^ (-59 : Int) := by
    exact_mod_cast fl53_eval2 5764607523034237 (1080863910568921/9007199254740992) (-59) (by norm_num) (by norm_num) (by norm_num)
      (by norm_num) (Or.inr (by norm_num)) (by norm_num)
  have hV : fl53 (-(5764607523034236 * (2:ℚ) ^ (-59 : Int)) + 5764607523034237 * (2:ℚ) ^ (-59 : Int)) = (2:ℚ) ^ (-59 : Int) := by
    rw [show (-(5764607523034236 * (2:ℚ) ^ (-59 : Int)) + 5764607523034237 * (2:ℚ) ^ (-59 : Int)) = (2:ℚ) ^ (-59 : Int) by norm_num]
    exact fl53_pow _
  obtain ⟨s2, hs2⟩ : ∃ s2, s2 = addPoint fl53 (addPoint fl53 init tenth) tenth := ⟨_, rfl⟩
  obtain ⟨a1, a2, a3⟩ := addPoint_fields fl53 init tenth
  obtain ⟨c1, c2, c3⟩ := addPoint_fields fl53 (addPoint fl53 init tenth) tenth
  rw [← hs2] at c1 c2 c3
  have i1 : (init : MLE1 ℚ).n = 0 ∧ (init : MLE1 ℚ).sum = 0 ∧ (init : MLE1 ℚ).sq = 0 := ⟨rfl, rfl, rfl⟩
  rw [i1.1] at a1
  rw [i1.2.1] at a2
  rw [i1.2.2] at a3
  rw [a1] at c1
  rw [a2, t1, t2] at c2
  rw [a3, hP, hQ1, hQ2] at c3
  have he : after fl53 [.points [tenth, tenth, tenth]] = addPoint fl53 s2 tenth := by rw [hs2]; rfl
  have hq : sqN (0 + 1 + 1 + 1) = 9 := by decide
  have hf : after fl53 [.points [tenth, tenth, tenth]] =
      commit { s2 with n := 3, sum := 5404319552844596 * (2:ℚ) ^ (-54 : Int), sq := 8646911284551354 * (2:ℚ) ^ (-58 : Int) }
        (7205759403792795 * (2:ℚ) ^ (-56 : Int)) ((2:ℚ) ^ (-59 : Int)) := by
    rw [he]
    unfold addPoint
    simp only [c1, c2, c3, hP, t3, hQ3, hq]
    rw [if_neg (by norm_num)]
    simp only [zero_add, Nat.reduceAdd, Nat.cast_ofNat]
    simp only [hm, hA, hB1, hB2, hB, hD, hC, hV]
  rw [hf, commit, if_neg (by norm_num)]
  refine ⟨_, _, rfl, rfl, by norm_num, ?_, rfl, ?_⟩
  · norm_num [tenth]
  · have : Spec.mean [tenth, tenth, tenth] = tenth := by
      simp only [Spec.mean, List.sum_cons, List.sum_nil, List.length_cons, List.length_nil]
      push_cast
      ring
    simp only [Spec.variance, this, List.map_cons, List.map_nil, sub_self]
    norm_num

/-- a case: three points between -1 and 1. -/
example : (after fl53 [.points [(-1:ℚ), 0, 1]]).valid = true := by
  have h := C143_error_partial [] [-1, 0] 1 1 (by simp [since]) (by intro x hx; simp [since] at hx; rcases hx with rfl | rfl | rfl <;> norm_num)
  refine h.2.2.2 ?_
  simp [since, Spec.variance, Spec.mean]
  norm_num

end MLE1
end Verif
