import Verif.Lemmas.MvDouble
import Verif.Props.DoubleStats

/-!
# C156: the multivariate streaming estimator in double arithmetic
-/

namespace Verif
namespace MLEdF
open Dbl
variable {d : Nat}

/-- specification: the points added since the last reset. -/
def since (h : List (Op d)) : List (Fin d → ℚ) :=
  h.foldl (fun acc o => match o with
    | .points ps => acc ++ ps
    | .weighted _ _ _ _ => acc
    | .reset => []) []

/-- the sum that the next point is added to. -/
def sumv (s : MLEdF d) (i : Fin d) : ℚ := if s.n = 0 then 0 else s.sum i

/-- the sum of products that the next products are added to. -/
def sqv (s : MLEdF d) (i j : Fin d) : ℚ := if s.n = 0 then 0 else s.sq i j

theorem commit_fields (isPos : Matrix (Fin d) (Fin d) ℚ → Bool) (s : MLEdF d) (m c) :
    (commit isPos s m c).n = s.n ∧ (commit isPos s m c).sum = s.sum ∧ (commit isPos s m c).sq = s.sq ∧
      (commit isPos s m c).mean = m := by
  unfold commit; split_ifs <;> exact ⟨rfl, rfl, rfl, rfl⟩

theorem sumv_eq (s : MLEdF d) (i : Fin d) : (if s.n = 0 then 0 else s.sum) i = sumv s i := by
  unfold sumv; split_ifs <;> rfl

theorem sqv_eq (s : MLEdF d) (i j : Fin d) : (if s.n = 0 then 0 else s.sq) i j = sqv s i j := by
  unfold sqv; split_ifs <;> rfl

theorem addPoint_eq (fl : ℚ → ℚ) (isPos : Matrix (Fin d) (Fin d) ℚ → Bool) (s : MLEdF d) (p : Fin d → ℚ) : addPoint fl isPos s p =
    let S : Fin d → ℚ := fun i => fl (sumv s i + p i)
    let Q : Matrix (Fin d) (Fin d) ℚ := fun i j => fl (sqv s i j + fl (p i * p j))
    let s1 : MLEdF d := { s with n := s.n + 1, sum := S, sq := Q }
    let mean : Fin d → ℚ := fun i => fl (S i / ((s.n + 1 : ℕ) : ℚ))
    if MLE1.sqN (s.n + 1) = 0 ∧ 0 < d then
      { s1 with mean := mean, llt := if ∃ i, S i = 0 then s1.llt else none, valid := false }
    else
      commit isPos s1 mean fun i j => fl (fl (fl (Q i j / ((s.n + 1 : ℕ) : ℚ)) -
        fl (fl (fl (S i * S j) * 2) / (MLE1.sqN (s.n + 1) : ℚ))) + fl (mean i * mean j)) := by
  unfold addPoint
  simp only [outerProductF_apply, sumv_eq, sqv_eq]

theorem addPoint_fields (fl : ℚ → ℚ) (isPos : Matrix (Fin d) (Fin d) ℚ → Bool) (s : MLEdF d) (p : Fin d → ℚ) :
    (addPoint fl isPos s p).n = s.n + 1 ∧ (∀ i, sumv (addPoint fl isPos s p) i = fl (sumv s i + p i)) ∧
    (∀ i j, sqv (addPoint fl isPos s p) i j = fl (sqv s i j + fl (p i * p j))) ∧
    ∀ i, (addPoint fl isPos s p).mean i = fl (sumv (addPoint fl isPos s p) i / ((s.n + 1 : ℕ) : ℚ)) := by
  have key : (addPoint fl isPos s p).n = s.n + 1 ∧ (addPoint fl isPos s p).sum = (fun i => fl (sumv s i + p i)) ∧
      (addPoint fl isPos s p).sq = (fun i j => fl (sqv s i j + fl (p i * p j))) ∧
      (addPoint fl isPos s p).mean = fun i => fl (fl (sumv s i + p i) / ((s.n + 1 : ℕ) : ℚ)) := by
    rw [addPoint_eq]
    simp only
    split_ifs
    · exact ⟨rfl, rfl, rfl, rfl⟩
    · exact ⟨rfl, rfl, rfl, rfl⟩
    · exact commit_fields isPos _ _ _
  obtain ⟨a, b, c, e⟩ := key
  have hs : ∀ i, sumv (addPoint fl isPos s p) i = fl (sumv s i + p i) := fun i => by
    rw [sumv, if_neg (by omega), b]
  refine ⟨a, hs, fun i j => ?_, fun i => ?_⟩
  · rw [sqv, if_neg (by omega), c]
  · rw [e, hs]

/-- the sums kept by the estimator and the sums of the points, of magnitude at most `M`. -/
def SumsNear (M : Fin d → ℚ) (s : MLEdF d) (xs : List (Fin d → ℚ)) : Prop :=
  s.n = xs.length ∧ (∀ i, |sumv s i - (Spec.comp i xs).sum| ≤ (xs.length : ℚ) ^ 2 * (1 / 2 ^ 53) * M i) ∧
    (∀ i j, |sqv s i j - (xs.map fun x => x i * x j).sum| ≤ 3 * (xs.length : ℚ) ^ 2 * (1 / 2 ^ 53) * (M i * M j)) ∧
    ∀ i j, sqv s i j = sqv s j i

theorem sum_bounds {M : Fin d → ℚ} (xs : List (Fin d → ℚ)) (hx : ∀ x ∈ xs, ∀ i, |x i| ≤ M i) (i j : Fin d) :
    |(Spec.comp i xs).sum| ≤ xs.length * M i ∧ |(xs.map fun x => x i * x j).sum| ≤ xs.length * (M i * M j) := by
  induction xs with
  | nil => simp [Spec.comp]
  | cons x xs ih =>
    obtain ⟨h1, h2⟩ := ih fun y hy => hx y (List.mem_cons_of_mem _ hy)
    have hi := hx x List.mem_cons_self i
    have hxx : |x i * x j| ≤ M i * M j := by
      rw [abs_mul]
      exact mul_le_mul hi (hx x List.mem_cons_self j) (abs_nonneg _) ((abs_nonneg _).trans hi)
    simp only [Spec.comp, List.sum_cons, List.length_cons, List.map_cons, Nat.cast_add, Nat.cast_one] at h1 ⊢
    exact ⟨(abs_add_le _ _).trans (by linarith), (abs_add_le _ _).trans (by linarith)⟩

theorem sum_step {k a A p M : ℚ} (hk0 : 0 ≤ k) (hk : k ≤ 2 ^ 26) (hM : 0 ≤ M) (h2 : |a - A| ≤ k ^ 2 * (1 / 2 ^ 53) * M)
    (b1 : |A| ≤ k * M) (hp : |p| ≤ M) : |fl53 (a + p) - (A + p)| ≤ (k + 1) ^ 2 * (1 / 2 ^ 53) * M := by
  have r := MLE1.fl53_rel' (a + p)
  have e1 : |a + p - (A + p)| ≤ k ^ 2 * (1 / 2 ^ 53) * M := by rwa [add_sub_add_right_eq_sub]
  have e2 : |a + p| ≤ k ^ 2 * (1 / 2 ^ 53) * M + (k + 1) * M := by
    have a' := abs_add_le (a - A) (A + p)
    have b := abs_add_le A p
    rw [show a - A + (A + p) = a + p by ring] at a'
    linarith
  have e3 := abs_sub_le (fl53 (a + p)) (a + p) (A + p)
  have e4 : k ^ 2 * (1 / 2 ^ 53) ≤ k := by nlinarith
  have e5 : k ^ 2 * (1 / 2 ^ 53) * M ≤ k * M := mul_le_mul_of_nonneg_right e4 hM
  have e6 : |a + p| ≤ (2 * k + 1) * M := by linarith
  nlinarith

theorem sq_step {k a A p X : ℚ} (hk0 : 0 ≤ k) (hk : k ≤ 2 ^ 26) (hX : 0 ≤ X) (h3 : |a - A| ≤ 3 * k ^ 2 * (1 / 2 ^ 53) * X)
    (b2 : |A| ≤ k * X) (hp : |p| ≤ X) : |fl53 (a + fl53 p) - (A + p)| ≤ 3 * (k + 1) ^ 2 * (1 / 2 ^ 53) * X := by
  have r0 := MLE1.fl53_rel' p
  have r := MLE1.fl53_rel' (a + fl53 p)
  have g0 : |fl53 p - p| ≤ 1 / 2 ^ 53 * X := by linarith
  have e1 : |a + fl53 p - (A + p)| ≤ 3 * k ^ 2 * (1 / 2 ^ 53) * X + 1 / 2 ^ 53 * X := by
    have e : a + fl53 p - (A + p) = (a - A) + (fl53 p - p) := by ring
    rw [e]
    refine (abs_add_le _ _).trans (by linarith)
  have e0 : |A + p| ≤ (k + 1) * X := (abs_add_le _ _).trans (by linarith)
  have e2 : |a + fl53 p| ≤ 3 * k ^ 2 * (1 / 2 ^ 53) * X + 1 / 2 ^ 53 * X + (k + 1) * X := by
    have a' := abs_add_le (a + fl53 p - (A + p)) (A + p)
    rw [sub_add_cancel] at a'
    linarith
  have e3 := abs_sub_le (fl53 (a + fl53 p)) (a + fl53 p) (A + p)
  have e4 : 3 * k ^ 2 * (1 / 2 ^ 53) ≤ k := by nlinarith
  have e5 : 3 * k ^ 2 * (1 / 2 ^ 53) * X ≤ k * X := mul_le_mul_of_nonneg_right e4 hX
  have e6 : |a + fl53 p| ≤ (2 * k + 2) * X := by linarith
  nlinarith

theorem addPoint_near {M : Fin d → ℚ} {isPos : Matrix (Fin d) (Fin d) ℚ → Bool} {s : MLEdF d} {xs : List (Fin d → ℚ)} {p : Fin d → ℚ}
    (hx : ∀ x ∈ xs, ∀ i, |x i| ≤ M i) (hp : ∀ i, |p i| ≤ M i) (hl : xs.length ≤ 2 ^ 26) (h : SumsNear M s xs) :
    SumsNear M (addPoint fl53 isPos s p) (xs ++ [p]) := by
  obtain ⟨h1, h2, h3, h4⟩ := h
  obtain ⟨f1, f2, f3, -⟩ := addPoint_fields fl53 isPos s p
  have hk0 : (0:ℚ) ≤ xs.length := Nat.cast_nonneg _
  have hk : (xs.length : ℚ) ≤ 2 ^ 26 := by exact_mod_cast hl
  have hM : ∀ i, 0 ≤ M i := fun i => (abs_nonneg _).trans (hp i)
  refine ⟨by rw [f1, h1]; simp, fun i => ?_, fun i j => ?_, fun i j => by rw [f3, f3, h4, mul_comm]⟩
  · rw [f2]
    simp only [Spec.comp, List.map_append, List.map_cons, List.map_nil, List.sum_append, List.sum_singleton, List.length_append,
      List.length_singleton, Nat.cast_add, Nat.cast_one]
    exact sum_step hk0 hk (hM i) (h2 i) (sum_bounds xs hx i i).1 (hp i)
  · rw [f3]
    simp only [List.map_append, List.map_cons, List.map_nil, List.sum_append, List.sum_singleton, List.length_append,
      List.length_singleton, Nat.cast_add, Nat.cast_one]
    refine sq_step hk0 hk (mul_nonneg (hM i) (hM j)) (h3 i j) (sum_bounds xs hx i j).2 ?_
    rw [abs_mul]
    exact mul_le_mul (hp i) (hp j) (abs_nonneg _) (hM i)

theorem addPoints_near {M : Fin d → ℚ} {isPos : Matrix (Fin d) (Fin d) ℚ → Bool} (ps : List (Fin d → ℚ)) :
    ∀ (s : MLEdF d) (xs : List (Fin d → ℚ)), (∀ x ∈ xs ++ ps, ∀ i, |x i| ≤ M i) → (xs ++ ps).length ≤ 2 ^ 26 →
    SumsNear M s xs → SumsNear M (ps.foldl (addPoint fl53 isPos) s) (xs ++ ps) := by
  induction ps with
  | nil => intro s xs _ _ h; simpa using h
  | cons p ps ih =>
    intro s xs hx hl h
    have h1 := addPoint_near (isPos := isPos) (p := p) (fun x hxx => hx x (by simp [hxx])) (hx p (by simp)) (by simp at hl; omega) h
    have := ih (addPoint fl53 isPos s p) (xs ++ [p]) (by simpa using hx) (by simpa using hl) h1
    simpa using this

theorem near_nil (M : Fin d → ℚ) (s : MLEdF d) (h : s.n = 0) : SumsNear M s [] :=
  ⟨by simpa using h, fun i => by simp [sumv, h, Spec.comp], fun i j => by simp [sqv, h], fun i j => by simp [sqv, h]⟩

theorem after_near {M : Fin d → ℚ} {isPos : Matrix (Fin d) (Fin d) ℚ → Bool} {s0 : MLEdF d} (h0 : s0.New) (h : List (Op d))
    (hl : (since h).length ≤ 2 ^ 26) (hx : ∀ x ∈ since h, ∀ i, |x i| ≤ M i) : SumsNear M (after fl53 isPos s0 h) (since h) := by
  induction h using List.reverseRecOn with
  | nil => exact near_nil M s0 h0.1
  | append_singleton h o ih =>
    have e : after fl53 isPos s0 (h ++ [o]) = Op.run fl53 isPos (after fl53 isPos s0 h) o := by simp [after]
    rw [e]
    cases o with
    | points ps =>
      have es : since (h ++ [Op.points ps]) = since h ++ ps := by simp [since]
      rw [es] at hl hx ⊢
      exact addPoints_near ps _ _ hx hl (ih (by simp at hl; omega) fun x hxx => hx x (by simp [hxx]))
    | weighted m c l v =>
      have es : since (h ++ [Op.weighted m c l v]) = since h := by simp [since]
      rw [es] at hl hx ⊢
      exact ih hl hx
    | reset =>
      have es : since (h ++ [Op.reset (d := d)]) = [] := by simp [since]
      rw [es]
      exact near_nil M _ rfl

theorem sum_prod_dev (a b : ℚ) (i j : Fin d) (xs : List (Fin d → ℚ)) : (xs.map fun x => (x i - a) * (x j - b)).sum =
    (xs.map fun x => x i * x j).sum - b * (Spec.comp i xs).sum - a * (Spec.comp j xs).sum + xs.length * (a * b) := by
  induction xs with
  | nil => simp [Spec.comp]
  | cons x xs ih =>
    simp only [Spec.comp] at ih
    simp only [Spec.comp, List.map_cons, List.sum_cons, List.length_cons, Nat.cast_add, Nat.cast_one, ih]
    ring

theorem covariance_eq (xs : List (Fin d → ℚ)) (h : xs ≠ []) (i j : Fin d) : Spec.covariance xs i j =
    (xs.map fun x => x i * x j).sum / xs.length - (Spec.comp i xs).sum / xs.length * ((Spec.comp j xs).sum / xs.length) := by
  have hn : (xs.length : ℚ) ≠ 0 := by simpa using h
  have hl : ∀ i, (Spec.comp i xs).length = xs.length := fun i => by simp [Spec.comp]
  unfold Spec.covariance
  rw [sum_prod_dev]
  simp only [Spec.mean, hl]
  field_simp
  ring

/-- the value of a quadratic form. -/
def quad (A : Matrix (Fin d) (Fin d) ℚ) (x : Fin d → ℚ) : ℚ := ∑ i, ∑ j, x i * A i j * x j

theorem quad_near {A B : Matrix (Fin d) (Fin d) ℚ} {e : ℚ} {M : Fin d → ℚ} (h : ∀ i j, |A i j - B i j| ≤ e * (M i * M j))
    (x : Fin d → ℚ) : quad B x - e * (∑ i, M i * |x i|) ^ 2 ≤ quad A x := by
  have h1 : quad B x - quad A x = ∑ i, ∑ j, x i * (B i j - A i j) * x j := by
    unfold quad
    rw [← Finset.sum_sub_distrib]
    refine Finset.sum_congr rfl fun i _ => ?_
    rw [← Finset.sum_sub_distrib]
    exact Finset.sum_congr rfl fun j _ => by ring
  have h2 : e * (∑ i, M i * |x i|) ^ 2 = ∑ i, ∑ j, |x i| * (e * (M i * M j)) * |x j| := by
    rw [pow_two, Finset.sum_mul_sum, Finset.mul_sum]
    refine Finset.sum_congr rfl fun i _ => ?_
    rw [Finset.mul_sum]
    exact Finset.sum_congr rfl fun j _ => by ring
  have h3 : quad B x - quad A x ≤ e * (∑ i, M i * |x i|) ^ 2 := by
    rw [h1, h2]
    refine Finset.sum_le_sum fun i _ => Finset.sum_le_sum fun j _ => ?_
    refine (le_abs_self _).trans ?_
    rw [abs_mul, abs_mul, abs_sub_comm]
    exact mul_le_mul_of_nonneg_right (mul_le_mul_of_nonneg_left (h i j) (abs_nonneg _)) (abs_nonneg _)
  linarith

/-- **C156** (partial): after any history of calls, adding points in double arithmetic.  For at most `2^26` points since the last reset,
component `i` of magnitude at most `M i`, and whatever the test for positivity does: the mean is that of the points up to
`(n + 2) 2^-53 M i`; there is a matrix, *exactly* symmetric and equal to the sample covariance up to `40 n 2^-53 M i M j` in every entry,
such that the estimator is valid exactly if the test accepts the matrix and no variance is negative, and then the matrix is its covariance.
If the test accepts every positive definite matrix and the points vary more than that in every direction, the estimator is valid.
Missing: validity exactly if the sample covariance is positive definite (`C156_equal_points`). -/
theorem C156_error_partial (isPos : Matrix (Fin d) (Fin d) ℚ → Bool) (s0 : MLEdF d) (h0 : s0.New) (h : List (Op d))
    (qs : List (Fin d → ℚ)) (p M : Fin d → ℚ) (hl : (since h ++ qs ++ [p]).length ≤ 2 ^ 26)
    (hx : ∀ x ∈ since h ++ qs ++ [p], ∀ i, |x i| ≤ M i) :
    let s := after fl53 isPos s0 (h ++ [Op.points (qs ++ [p])])
    let xs := since h ++ qs ++ [p]
    s.n = xs.length ∧
    (∀ i, |s.mean i - Spec.mean (Spec.comp i xs)| ≤ (xs.length + 2) / 2 ^ 53 * M i) ∧
    (∃ c : Matrix (Fin d) (Fin d) ℚ, (∀ i j, c i j = c j i) ∧
      (∀ i j, |c i j - Spec.covariance xs i j| ≤ 40 * xs.length / 2 ^ 53 * (M i * M j)) ∧
      (s.valid = true ↔ isPos c = true ∧ ∀ i, 0 ≤ c i i) ∧ (s.valid = true → s.cov = c)) ∧
    ((∀ c : Matrix (Fin d) (Fin d) ℚ, (∀ i j, c i j = c j i) → (∀ x, x ≠ 0 → 0 < quad c x) → isPos c = true) →
      (∀ x, x ≠ 0 → 40 * xs.length / 2 ^ 53 * (∑ i, M i * |x i|) ^ 2 < quad (Spec.covariance xs) x) → s.valid = true) := by
  intro s xs
  have hM : ∀ i, 0 ≤ M i := fun i => (abs_nonneg _).trans (hx p (by simp) i)
  obtain ⟨t, ht⟩ : ∃ t, t = after fl53 isPos s0 (h ++ [Op.points qs]) := ⟨_, rfl⟩
  have hsin : since (h ++ [Op.points qs]) = since h ++ qs := by simp [since]
  have hnear : SumsNear M t (since h ++ qs) := by
    rw [ht, ← hsin]
    exact after_near h0 _ (by rw [hsin]; simp at hl ⊢; omega) (by rw [hsin]; exact fun x hxx => hx x (by simp at hxx ⊢; tauto))
  have hs : s = addPoint fl53 isPos t p := by
    show after fl53 isPos s0 (h ++ [Op.points (qs ++ [p])]) = _
    rw [ht]
    simp [after, Op.run]
  obtain ⟨n1, n2, n3, n4⟩ := addPoint_near (isPos := isPos) (p := p) (fun x hxx => hx x (by simp at hxx ⊢; tauto)) (hx p (by simp))
    (by simp at hl ⊢; omega) hnear
  obtain ⟨f1, f2, f3, f4⟩ := addPoint_fields fl53 isPos t p
  have hn1 : t.n + 1 = xs.length := by rw [← f1, n1]
  have hlen1 : 1 ≤ xs.length := by omega
  have hlen : xs.length ≤ 2 ^ 26 := hl
  have hne : xs ≠ [] := by simp [xs]
  have hq : MLE1.sqN xs.length = xs.length * xs.length := by
    unfold MLE1.sqN
    apply Nat.mod_eq_of_lt
    calc xs.length * xs.length ≤ 2 ^ 26 * 2 ^ 26 := Nat.mul_le_mul hlen hlen
      _ < 18446744073709551616 := by norm_num
  have hk1 : (1:ℚ) ≤ xs.length := by exact_mod_cast hlen1
  have hk2 : (xs.length : ℚ) ≤ 2 ^ 26 := by exact_mod_cast hlen
  have hw : (xs.length : ℚ) * (1 / 2 ^ 53) ≤ 1 / 1000 := by linarith
  have n2 : ∀ i, |sumv (addPoint fl53 isPos t p) i - (Spec.comp i xs).sum| ≤ (xs.length : ℚ) ^ 2 * (1 / 2 ^ 53) * M i := n2
  have n3 : ∀ i j, |sqv (addPoint fl53 isPos t p) i j - (xs.map fun x => x i * x j).sum| ≤
    3 * (xs.length : ℚ) ^ 2 * (1 / 2 ^ 53) * (M i * M j) := n3
  obtain ⟨S, hS⟩ : ∃ S : Fin d → ℚ, S = sumv (addPoint fl53 isPos t p) := ⟨_, rfl⟩
  obtain ⟨Q, hQ⟩ : ∃ Q : Fin d → Fin d → ℚ, Q = sqv (addPoint fl53 isPos t p) := ⟨_, rfl⟩
  obtain ⟨c, hc⟩ : ∃ c : Matrix (Fin d) (Fin d) ℚ, c = fun i j => fl53 (fl53 (fl53 (Q i j / xs.length) -
      fl53 (fl53 (fl53 (S i * S j) * 2) / (xs.length * xs.length))) + fl53 (fl53 (S i / xs.length) * fl53 (S j / xs.length))) := ⟨_, rfl⟩
  have hadd : s = commit isPos { t with n := xs.length, sum := S, sq := Q } (fun i => fl53 (S i / xs.length)) c := by
    rw [hs]
    rw [addPoint_eq]
    simp only [hn1, ← f2, ← f3]
    rw [if_neg (by rintro ⟨h, -⟩; rw [hq] at h; have := Nat.mul_pos hlen1 hlen1; omega), hq, ← hS, hc, hQ]
    push_cast
    rfl
  have hQs : ∀ i j, Q i j = Q j i := fun i j => by rw [hQ]; exact n4 i j
  have hcs : ∀ i j, c i j = c j i := by
    intro i j
    rw [hc]
    simp only [hQs i j, mul_comm (S i) (S j), mul_comm (fl53 (S i / xs.length)) (fl53 (S j / xs.length))]
  have hcn : ∀ i j, |c i j - Spec.covariance xs i j| ≤ 40 * xs.length / 2 ^ 53 * (M i * M j) := by
    intro i j
    rw [covariance_eq xs hne, hc]
    have := cov_near MLE1.fl53_rel' (by norm_num) (hM i) (hM j) hk1 hw (sum_bounds xs hx i j).1 (n2 i) (sum_bounds xs hx j i).1 (n2 j)
      (sum_bounds xs hx i j).2 (n3 i j)
    rw [← hS, ← hQ] at this
    refine this.trans (le_of_eq ?_)
    ring
  have hv : s.valid = true ↔ isPos c = true ∧ ∀ i, 0 ≤ c i i := by
    rw [hadd]
    unfold commit
    rw [if_neg (by rw [not_not]; ext i j; exact hcs j i)]
    split_ifs with h1 h2
    · simp [h1]
    · obtain ⟨i, hi⟩ := h2
      simp only [false_iff, not_and, not_forall]
      exact fun _ => ⟨i, by linarith⟩
    · push Not at h2
      simp only [true_iff]
      exact ⟨by simpa using h1, h2⟩
  refine ⟨by rw [hadd]; exact (commit_fields isPos _ _ _).1, fun i => ?_, ⟨c, hcs, hcn, hv, ?_⟩, fun hp hd => ?_⟩
  · rw [hadd, (commit_fields isPos _ _ _).2.2.2]
    have := mean_near MLE1.fl53_rel' (by norm_num) (hM i) hk1 hw (sum_bounds xs hx i i).1 (n2 i)
    have hl : (Spec.comp i xs).length = xs.length := by simp [Spec.comp]
    rw [Spec.mean, hl]
    rw [← hS] at this
    refine this.trans (le_of_eq ?_)
    ring
  · rw [hadd]
    unfold commit
    rw [if_neg (by rw [not_not]; ext i j; exact hcs j i)]
    split_ifs <;> simp
  · rw [hv]
    have hpd : ∀ x, x ≠ 0 → 0 < quad c x := fun x hx => by
      have := quad_near hcn x
      have := hd x hx
      linarith
    refine ⟨hp c hcs hpd, fun i => ?_⟩
    have := hpd (Pi.single i 1) (by intro h; have := congrFun h i; simp at this)
    have e : quad c (Pi.single i 1) = c i i := by
      unfold quad
      rw [Finset.sum_eq_single i, Finset.sum_eq_single i]
      · simp
      · intro j _ hj; simp [Pi.single_eq_of_ne hj]
      · simp
      · intro j _ hj; simp [Pi.single_eq_of_ne hj]
      · simp
    rw [e] at this
    exact this.le

/-- a call on the univariate estimator with component `i` of the points. -/
def Op.coord (i : Fin d) : Op d → MLE1.Op ℚ
  | .points ps => .points (Spec.comp i ps)
  | .weighted _ _ _ _ => .weighted [] []
  | .reset => .reset

/-- the sums of the estimator and those of a univariate one. -/
def SumsAs (i : Fin d) (s : MLEdF d) (t : MLE1 ℚ) : Prop := s.n = t.n ∧ sumv s i = t.sum ∧ sqv s i i = t.sq

theorem addPoint_as {fl : ℚ → ℚ} {isPos : Matrix (Fin d) (Fin d) ℚ → Bool} {i : Fin d} {s : MLEdF d} {t : MLE1 ℚ} (h : SumsAs i s t)
    (p : Fin d → ℚ) : SumsAs i (addPoint fl isPos s p) (MLE1.addPoint fl t (p i)) := by
  obtain ⟨h1, h2, h3⟩ := h
  obtain ⟨f1, f2, f3, -⟩ := addPoint_fields fl isPos s p
  obtain ⟨g1, g2, g3⟩ := MLE1.addPoint_fields fl t (p i)
  exact ⟨by rw [f1, g1, h1], by rw [f2, g2, h2], by rw [f3, g3, h3]⟩

theorem addPoints_as {fl : ℚ → ℚ} {isPos : Matrix (Fin d) (Fin d) ℚ → Bool} {i : Fin d} (ps : List (Fin d → ℚ)) :
    ∀ {s : MLEdF d} {t : MLE1 ℚ}, SumsAs i s t →
      SumsAs i (ps.foldl (addPoint fl isPos) s) ((Spec.comp i ps).foldl (MLE1.addPoint fl) t) := by
  induction ps with
  | nil => intro s t h; simpa [Spec.comp] using h
  | cons p ps ih => intro s t h; simpa [Spec.comp] using ih (addPoint_as (fl := fl) (isPos := isPos) h p)

theorem after_as {fl : ℚ → ℚ} {isPos : Matrix (Fin d) (Fin d) ℚ → Bool} {s0 : MLEdF d} (h0 : s0.New) (i : Fin d) (h : List (Op d)) :
    SumsAs i (after fl isPos s0 h) (MLE1.after fl (h.map (Op.coord i))) := by
  induction h using List.reverseRecOn with
  | nil => exact ⟨h0.1, by simp [sumv, h0.1, after, MLE1.after, MLE1.init], by simp [sqv, h0.1, after, MLE1.after, MLE1.init]⟩
  | append_singleton h o ih =>
    have e : after fl isPos s0 (h ++ [o]) = Op.run fl isPos (after fl isPos s0 h) o := by simp [after]
    have e' : MLE1.after fl ((h ++ [o]).map (Op.coord i)) = MLE1.Op.run fl (MLE1.after fl (h.map (Op.coord i))) (o.coord i) := by
      simp [MLE1.after]
    rw [e, e']
    cases o with
    | points ps => exact addPoints_as ps ih
    | weighted m c l v =>
      obtain ⟨a, b, c⟩ := MLE1.addPointsW_fields (MLE1.after fl (h.map (Op.coord i))) [] []
      exact ⟨ih.1.trans a.symm, ih.2.1.trans b.symm, ih.2.2.trans c.symm⟩
    | reset => exact ⟨rfl, rfl, rfl⟩

/-- a point added to both estimators. -/
theorem addPoint_coord {fl : ℚ → ℚ} {isPos : Matrix (Fin d) (Fin d) ℚ → Bool} {s : MLEdF d} (hq : MLE1.sqN (s.n + 1) ≠ 0)
    (p : Fin d → ℚ) : ∃ (s1 : MLEdF d) (m : Fin d → ℚ) (c : Matrix (Fin d) (Fin d) ℚ), addPoint fl isPos s p = commit isPos s1 m c ∧
      ∀ (i : Fin d) (t : MLE1 ℚ), SumsAs i s t → ∃ t1, MLE1.addPoint fl t (p i) = MLE1.commit t1 (m i) (c i i) := by
  rw [addPoint_eq]
  simp only
  rw [if_neg (fun h => hq h.1)]
  refine ⟨_, _, _, rfl, fun i t ⟨h1, h2, h3⟩ => ?_⟩
  unfold MLE1.addPoint
  simp only [← h1, ← h2, ← h3]
  rw [if_neg hq]
  exact ⟨_, rfl⟩

/-- **C156**: for every history, every rounding and every dimension, adding points gives in every component the mean that the univariate
estimator gives for that component, and, if the estimator is valid, the variance too: that of component `i` is not negative, the univariate
estimator is valid exactly if it is positive, and then has the same. -/
theorem C156_components (fl : ℚ → ℚ) (isPos : Matrix (Fin d) (Fin d) ℚ → Bool) (s0 : MLEdF d) (h0 : s0.New) (h : List (Op d))
    (qs : List (Fin d → ℚ)) (p : Fin d → ℚ) (i : Fin d) :
    let s := after fl isPos s0 (h ++ [Op.points (qs ++ [p])])
    let t := MLE1.after fl ((h ++ [Op.points (qs ++ [p])]).map (Op.coord i))
    s.n = t.n ∧ t.mean = some (s.mean i) ∧
      (s.valid = true → 0 ≤ s.cov i i ∧ (t.valid = true ↔ 0 < s.cov i i) ∧ (t.valid = true → t.var = some (s.cov i i))) := by
  intro s t
  obtain ⟨a, ha⟩ : ∃ a, a = after fl isPos s0 (h ++ [Op.points qs]) := ⟨_, rfl⟩
  obtain ⟨b, hb⟩ : ∃ b, b = MLE1.after fl ((h ++ [Op.points qs]).map (Op.coord i)) := ⟨_, rfl⟩
  have hab : SumsAs i a b := by rw [ha, hb]; exact after_as h0 i _
  have hs : s = addPoint fl isPos a p := by
    show after fl isPos s0 (h ++ [Op.points (qs ++ [p])]) = _
    rw [ha]; simp [after, Op.run]
  have ht : t = MLE1.addPoint fl b (p i) := by
    show MLE1.after fl ((h ++ [Op.points (qs ++ [p])]).map (Op.coord i)) = _
    rw [hb]; simp [MLE1.after, MLE1.Op.run, MLE1.addPoints, Op.coord, Spec.comp]
  have hab' := addPoint_as (fl := fl) (isPos := isPos) hab p
  rw [← hs, ← ht] at hab'
  refine ⟨hab'.1, ?_⟩
  by_cases hq : MLE1.sqN (a.n + 1) = 0
  · obtain ⟨f1, f2, f3, f4⟩ := addPoint_fields fl isPos a p
    constructor
    · rw [hs, f4, f2, ht]
      unfold MLE1.addPoint
      simp only [← hab.1, ← hab.2.1]
      rw [if_pos hq]
      split_ifs <;> rfl
    · have : s.valid = false := by
        rw [hs, addPoint_eq]
        simp only
        rw [if_pos ⟨hq, i.pos⟩]
      rw [this]; simp
  · obtain ⟨s1, m, c, e1, e2⟩ := addPoint_coord (fl := fl) (isPos := isPos) hq p
    obtain ⟨t1, e2⟩ := e2 i b hab
    rw [hs, ht, e1, e2]
    constructor
    · rw [(commit_fields isPos _ _ _).2.2.2]
      unfold MLE1.commit; split_ifs <;> rfl
    · unfold commit
      split_ifs with h1 h2 h3
      · simp
      · simp
      · simp
      · push Not at h3
        intro _
        refine ⟨h3 i, ?_⟩
        unfold MLE1.commit
        split_ifs with h4
        · simp [h4]
        · simp [not_le.1 h4]

/-- **C156** (negation): three equal points.  Adding the double nearest to one tenth three times to a new estimator of one component leaves
it valid, with a positive variance and a mean that is greater than all points, whenever the test for positivity accepts positive numbers. -/
theorem C156_equal_points (isPos : Matrix (Fin 1) (Fin 1) ℚ → Bool) (hp : ∀ c, 0 < c 0 0 → isPos c = true) (s0 : MLEdF 1) (h0 : s0.New) :
    let x : Fin 1 → ℚ := fun _ => tenth
    let s := after fl53 isPos s0 [.points [x, x, x]]
    s.valid = true ∧ 0 < s.cov 0 0 ∧ tenth < s.mean 0 ∧ Spec.covariance [x, x, x] = 0 := by
  intro x s
  obtain ⟨m, v, hm, hv, h1, h2, h3, -⟩ := MLE1.C143_equal_points
  obtain ⟨a, ha⟩ : ∃ a, a = after fl53 isPos s0 [Op.points [x, x]] := ⟨_, rfl⟩
  have hab := after_as (fl := fl53) (isPos := isPos) h0 0 [Op.points [x, x]]
  rw [← ha] at hab
  have han : a.n = 2 := by
    rw [ha]
    simp only [after, List.foldl_cons, List.foldl_nil, Op.run]
    rw [(addPoint_fields _ _ _ _).1, (addPoint_fields _ _ _ _).1, h0.1]
  have hs : s = addPoint fl53 isPos a x := by
    rw [ha]
    simp only [s, after, List.foldl_cons, List.foldl_nil, Op.run]
  obtain ⟨s1, m', c, e1, e2⟩ := addPoint_coord (fl := fl53) (isPos := isPos) (s := a) (by rw [han]; decide) x
  obtain ⟨t1, e2⟩ := e2 0 _ hab
  have e3 : MLE1.after fl53 [.points [tenth, tenth, tenth]] = MLE1.commit t1 (m' 0) (c 0 0) := by
    rw [← e2]
    simp only [MLE1.after, MLE1.Op.run, MLE1.addPoints, Op.coord, Spec.comp, x, List.map_cons, List.map_nil, List.foldl_cons, List.foldl_nil]
  rw [e3] at hm hv h3
  have hpos : 0 < c 0 0 := by
    by_contra hc
    rw [MLE1.commit, if_pos (not_lt.1 hc)] at h3
    simp at h3
  rw [MLE1.commit, if_neg (not_le.2 hpos)] at hm hv
  have hc : s = { s1 with mean := m', llt := some c, cov := c, valid := true } := by
    rw [hs, e1, commit, if_neg, if_neg, if_neg]
    · rintro ⟨i, hi⟩
      rw [Subsingleton.elim i 0] at hi
      linarith
    · rw [hp c hpos]; simp
    · rw [not_not]
      ext i j
      rw [Subsingleton.elim i j]; rfl
  rw [hc]
  refine ⟨rfl, hpos, ?_, ?_⟩
  · simp only [Option.some.injEq] at hm
    rw [← hm] at h2
    exact h2
  · ext i j
    simp only [Spec.covariance, Spec.comp, Spec.mean, x, List.map_cons, List.map_nil, List.sum_cons, List.sum_nil, List.length_cons,
      List.length_nil, Matrix.zero_apply]
    push_cast
    ring

/-- a case: three points in the plane, spread in every direction; the test accepts every matrix. -/
example (s0 : MLEdF 2) (h0 : s0.New) : (after fl53 (fun _ => true) s0 [.reset, .points [![1, 0], ![0, 1], ![-1, -1]]]).valid = true := by
  have h := C156_error_partial (fun _ => true) s0 h0 [.reset] [![1, 0], ![0, 1]] ![-1, -1] (fun _ => 1) (by simp [since])
    (by
      intro x hx i
      simp [since] at hx
      rcases hx with rfl | rfl | rfl <;> fin_cases i <;> norm_num)
  refine h.2.2.2 (fun _ _ _ => rfl) fun x hx => ?_
  have hne : x 0 ≠ 0 ∨ x 1 ≠ 0 := by
    by_contra hc
    push Not at hc
    exact hx (by ext i; fin_cases i <;> simp [hc.1, hc.2])
  simp [since, quad, Spec.covariance, Spec.comp, Spec.mean, Fin.sum_univ_two]
  have a0 := sq_abs (x 0)
  have a1 := sq_abs (x 1)
  rcases hne with h' | h'
  · have := mul_self_pos.2 h'
    nlinarith [sq_nonneg (|x 0| - |x 1|), mul_self_nonneg (x 1), mul_self_nonneg (x 0 + x 1)]
  · have := mul_self_pos.2 h'
    nlinarith [sq_nonneg (|x 0| - |x 1|), mul_self_nonneg (x 0), mul_self_nonneg (x 0 + x 1)]

/-- a case: the second component of the same points. -/
example (s0 : MLEdF 2) (h0 : s0.New) : (after fl53 (fun _ => true) s0 [.points [![1, 0], ![0, 1], ![-1, -1]]]).n = 3 ∧
    ∃ m, (MLE1.after fl53 [.points [(0:ℚ), 1, -1]]).mean = some m := by
  obtain ⟨h1, h2, -⟩ := C156_components fl53 (fun _ => true) s0 h0 [] [![1, 0], ![0, 1]] ![-1, -1] 1
  simp only [List.nil_append, List.cons_append] at h1 h2
  refine ⟨?_, _, Eq.trans ?_ h2⟩
  · simp only [after, List.foldl_cons, List.foldl_nil, Op.run, (addPoint_fields _ _ _ _).1, h0.1]
  · simp [Op.coord, Spec.comp]

/-- a case: a new estimator and a test that accepts positive numbers. -/
example : ∃ (isPos : Matrix (Fin 1) (Fin 1) ℚ → Bool) (s0 : MLEdF 1), (∀ c, 0 < c 0 0 → isPos c = true) ∧ s0.New :=
  ⟨fun c => decide (0 < c 0 0), ⟨0, 0, none, 0, false, 0, 0⟩, fun _ h => by simpa using h, rfl, rfl⟩

end MLEdF
end Verif
