import Verif.Lemmas.Stats

/-! Property C34: streaming maximum likelihood estimation. -/

namespace Verif
namespace MLE1
variable {K : Type} [Field K] [LinearOrder K]

/-- calls that change the estimator. -/
inductive Op (K : Type) where
  | points (ps : List K)
  | weighted (ps ws : List K)
  | reset

/-- effect of a call (`addPoint(p)` is `points [p]`). -/
def Op.run (fl : K → K) (s : MLE1 K) : Op K → MLE1 K
  | .points ps => s.addPoints fl ps
  | .weighted ps ws => s.addPointsW ps ws
  | .reset => s.reset

/-- the estimator after a history of calls. -/
def after (fl : K → K) (h : List (Op K)) : MLE1 K := h.foldl (Op.run fl) init

/-- specification: the points added since the last reset. -/
def since : List (Op K) → List K
  | [] => []
  | o :: h => go [] (o :: h)
where
  /-- running list. -/
  go (acc : List K) : List (Op K) → List K
  | [] => acc
  | .points ps :: h => go (acc ++ ps) h
  | .weighted _ _ :: h => go acc h
  | .reset :: h => go [] h

omit [Field K] [LinearOrder K] in
theorem since_eq (h : List (Op K)) : since h = since.go [] h := by cases h <;> rfl

omit [Field K] [LinearOrder K] in
theorem go_append (h : List (Op K)) : ∀ (acc : List K) (o : Op K),
    since.go acc (h ++ [o]) = since.go (since.go acc h) [o] := by
  induction h with
  | nil => intro acc o; rfl
  | cons q h ih => intro acc o; cases q <;> simp only [List.cons_append, since.go] <;> exact ih _ _

/-- what the sums hold. -/
def Sums (s : MLE1 K) (xs : List K) : Prop :=
  s.n = xs.length ∧ s.sum = xs.sum ∧ s.sq = (xs.map fun x => x * x).sum

theorem commit_sums (s : MLE1 K) (m v : K) (xs : List K) (h : Sums s xs) : Sums (commit s m v) xs := by
  unfold commit; split_ifs <;> exact h

theorem addPoint_sums (s : MLE1 K) (xs : List K) (p : K) (h : Sums s xs) :
    Sums (addPoint id s p) (xs ++ [p]) := by
  obtain ⟨h1, h2, h3⟩ := h
  have hs : Sums ({ s with n := s.n + 1, sum := s.sum + p, sq := s.sq + p * p } : MLE1 K) (xs ++ [p]) :=
    ⟨by simp [h1], by simp [h2], by simp [h3]⟩
  unfold addPoint
  simp only [id]
  split_ifs
  · exact hs
  · exact hs
  · exact commit_sums _ _ _ _ hs

theorem addPoints_sums (ps : List K) : ∀ (s : MLE1 K) (xs : List K), Sums s xs →
    Sums (addPoints id s ps) (xs ++ ps) := by
  induction ps with
  | nil => intro s xs h; simpa [addPoints] using h
  | cons p ps ih =>
    intro s xs h
    have := ih _ _ (addPoint_sums s xs p h)
    simpa [addPoints] using this

theorem addPointsW_sums (s : MLE1 K) (xs ps ws : List K) (h : Sums s xs) : Sums (addPointsW s ps ws) xs := by
  unfold addPointsW
  split_ifs
  · exact h
  · exact h
  · exact commit_sums _ _ _ _ h

theorem after_sums (h : List (Op K)) : Sums (after id h) (since h) := by
  induction h using List.reverseRecOn with
  | nil => exact ⟨rfl, by simp [after, init, since], by simp [after, init, since]⟩
  | append_singleton h o ih =>
    rw [since_eq, go_append, ← since_eq]
    have : after id (h ++ [o]) = Op.run id (after id h) o := by simp [after]
    rw [this]
    cases o with
    | points ps => exact addPoints_sums ps _ _ ih
    | weighted ps ws => exact addPointsW_sums _ _ ps ws ih
    | reset => exact ⟨rfl, by simp [Op.run, reset, since.go], by simp [Op.run, reset, since.go]⟩

variable [IsStrictOrderedRing K]

theorem addPoint_eq (s : MLE1 K) (xs : List K) (p : K) (hs : Sums s xs) (hl : (xs ++ [p]).length < 4294967296) :
    addPoint id s p =
      commit { s with n := (xs ++ [p]).length, sum := (xs ++ [p]).sum, sq := ((xs ++ [p]).map fun x => x * x).sum }
        (Spec.mean (xs ++ [p])) (Spec.variance (xs ++ [p])) := by
  obtain ⟨h1, h2, h3⟩ := hs
  have hn : s.n + 1 = (xs ++ [p]).length := by simp [h1]
  have hS : s.sum + p = (xs ++ [p]).sum := by simp [h2]
  have hQ : s.sq + p * p = ((xs ++ [p]).map fun x => x * x).sum := by simp [h3]
  have hq : sqN (xs ++ [p]).length = (xs ++ [p]).length * (xs ++ [p]).length := by
    unfold sqN
    apply Nat.mod_eq_of_lt
    calc (xs ++ [p]).length * (xs ++ [p]).length < 4294967296 * 4294967296 := Nat.mul_lt_mul'' hl hl
      _ = 18446744073709551616 := by norm_num
  have hne : ¬ sqN (xs ++ [p]).length = 0 := by
    rw [hq]; simp
  unfold addPoint
  simp only [id, hn, hS, hQ]
  rw [if_neg hne, hq, Spec.variance_eq _ (by simp)]
  push_cast
  rfl

/-- **C34** (exact arithmetic, fewer than 2^32 points): after any history of calls, adding one or more points leaves
the estimator with: the number of all points since the last reset, their mean, validity exactly if they are not all
equal, and if valid their population variance (otherwise the variance reported is the one of the distribution before
the last point).  `qs ++ [p]` is any non-empty list of points. -/
theorem C34_streaming_partial (h : List (Op K)) (qs : List K) (p : K)
    (hl : (since h ++ qs ++ [p]).length < 4294967296) :
    let s := after id (h ++ [Op.points (qs ++ [p])])
    let xs := since h ++ qs ++ [p]
    s.n = xs.length ∧ s.mean = some (Spec.mean xs) ∧ (s.valid = true ↔ ∃ x ∈ xs, ∃ y ∈ xs, x ≠ y) ∧
      (s.valid = true → s.var = some (Spec.variance xs) ∧ 0 < Spec.variance xs) ∧
      (s.valid = false → s.var = (after id (h ++ [Op.points qs])).var) := by
  intro s xs
  have e : s = addPoint id (addPoints id (after id h) qs) p := by
    simp [s, after, Op.run, addPoints]
  have e2 : after id (h ++ [Op.points qs]) = addPoints id (after id h) qs := by simp [after, Op.run]
  rw [e2, e, addPoint_eq _ _ _ (addPoints_sums qs _ _ (after_sums h)) hl]
  have hv := Spec.variance_eq_zero xs (by simp [xs])
  have h0 := Spec.variance_nonneg xs
  unfold commit
  split_ifs with hc
  · have hz : Spec.variance xs = 0 := le_antisymm hc h0
    refine ⟨rfl, rfl, ?_, by simp, fun _ => rfl⟩
    simp only [Bool.false_eq_true, false_iff]
    rintro ⟨x, hx, y, hy, hxy⟩
    exact hxy (hv.1 hz x hx y hy)
  · refine ⟨rfl, rfl, ?_, fun _ => ⟨rfl, not_le.1 hc⟩, by simp⟩
    simp only [true_iff]
    by_contra hcon
    push Not at hcon
    exact hc (le_of_eq (hv.2 hcon))

/-- non-vacuity: a history with a reset, then points. -/
example : since ([.points [7, 9], .reset, .points [1, 2]] : List (Op ℚ)) = [1, 2] ∧
    (after id ([.points [7, 9], .reset, .points [1, 2], .points [6]] : List (Op ℚ))) =
      ⟨some 3, some (14 / 3), 3, true, 9, 41⟩ := by decide +kernel

/-- **C34**: the order in which the points arrive does not matter. -/
theorem C34_order_independent (h h' : List (Op K)) (p p' : K) (hp : (since h ++ [p]).Perm (since h' ++ [p']))
    (hl : (since h ++ [p]).length < 4294967296) :
    let s := after id (h ++ [Op.points [p]])
    let s' := after id (h' ++ [Op.points [p']])
    s.n = s'.n ∧ s.mean = s'.mean ∧ s.valid = s'.valid ∧ (s.valid = true → s.var = s'.var) := by
  intro s s'
  have a := C34_streaming_partial h [] p (by simpa using hl)
  have b := C34_streaming_partial h' [] p' (by have := hp.length_eq; simp at this hl ⊢; omega)
  simp only [List.append_nil, List.nil_append] at a b
  obtain ⟨a1, a2, a3, a4, a5⟩ := a
  obtain ⟨b1, b2, b3, b4, b5⟩ := b
  have hval : s.valid = s'.valid := by
    apply Bool.eq_iff_iff.2
    rw [a3, b3]
    constructor
    · rintro ⟨x, hx, y, hy, hxy⟩; exact ⟨x, hp.mem_iff.1 hx, y, hp.mem_iff.1 hy, hxy⟩
    · rintro ⟨x, hx, y, hy, hxy⟩; exact ⟨x, hp.mem_iff.2 hx, y, hp.mem_iff.2 hy, hxy⟩
  refine ⟨by rw [a1, b1, hp.length_eq], by rw [a2, b2, Spec.mean_perm hp], hval, ?_⟩
  intro hv
  rw [(a4 hv).1, (b4 (hval ▸ hv)).1, Spec.variance_perm hp]

/-- **C34**, negative part: one point alone never makes the estimator valid, and the reported variance is a left-over:
1 on a fresh estimator, that of the previous data set after a reset. -/
theorem C34_single_point_stale_variance (h : List (Op K)) (p : K) :
    (after id (h ++ [.reset, .points [p]])).valid = false ∧
    (after id (h ++ [.reset, .points [p]])).var = (after id h).var ∧
    (after id (h ++ [.reset])).mean = (after id h).mean ∧ (after id (h ++ [.reset])).var = (after id h).var ∧
    (after id [.points [p]] : MLE1 K).var = some 1 := by
  have hs : ∀ h : List (Op K), since (h ++ [.reset]) = [] := by
    intro h; rw [since_eq, go_append]; rfl
  have hr : after id (h ++ [.reset]) = (after id h).reset := by simp [after, Op.run]
  have hv1 : (after id (h ++ [.reset])).mean = (after id h).mean := by rw [hr]; rfl
  have hv2 : (after id (h ++ [.reset])).var = (after id h).var := by rw [hr]; rfl
  have key := C34_streaming_partial (h ++ [.reset]) [] p (by rw [hs]; norm_num)
  simp only [hs, List.nil_append, List.append_assoc, List.append_nil, List.cons_append] at key
  obtain ⟨-, -, k3, -, k5⟩ := key
  have kf : (after id (h ++ [.reset, .points [p]])).valid = false := by
    rw [← Bool.not_eq_true, k3]; simp
  refine ⟨kf, ?_, hv1, hv2, ?_⟩
  · rw [k5 kf]
    have : after id (h ++ [.reset, .points []]) = after id (h ++ [.reset]) := by simp [after, Op.run, addPoints]
    rw [this, hv2]
  · have key := C34_streaming_partial [] [] p (K := K) (by simp [since])
    simp only [since, List.nil_append] at key
    obtain ⟨-, -, k3, -, k5⟩ := key
    rw [k5]
    · rfl
    · rw [← Bool.not_eq_true, k3]; simp

omit [IsStrictOrderedRing K] in
/-- **C34**: after a reset the estimator is invalid and counts no points, whatever happened before. -/
theorem C34_reset (fl : K → K) (h : List (Op K)) :
    (after fl (h ++ [.reset])).valid = false ∧ (after fl (h ++ [.reset])).n = 0 := by
  have hr : after fl (h ++ [.reset]) = (after fl h).reset := by simp [after, Op.run]
  rw [hr]; exact ⟨rfl, rfl⟩

/-- Full C34 is **false** for doubles: two different points whose rounded variance is zero; the estimator is invalid.
All inputs are exact doubles. -/
theorem C34_rounding_loses_validity :
    (after fl53 [.points [2 ^ 27, 2 ^ 27 + 1]]).valid = false ∧ Spec.variance [(2:ℚ) ^ 27, 2 ^ 27 + 1] = 1 / 4 ∧
    fl53 (2 ^ 27 + 1) = 2 ^ 27 + 1 := by
  have z : fl53 0 = 0 := fl53_zero
  have pw : ∀ k : ℕ, fl53 ((2:ℚ) ^ k) = 2 ^ k := fun k => by simpa using fl53_pow (k : ℤ)
  have c1 : fl53 (2 ^ 27 + 1) = 2 ^ 27 + 1 := by
    rw [fl53_eval (x := 2 ^ 27 + 1) ((2 ^ 27 + 1) * 2 ^ 25) 0 (-25) (by norm_num) (by norm_num) (by norm_num)
      (by norm_num) (by norm_num)]
    norm_num
  have c2 : fl53 (134217729 * 134217729) = 18014398777917440 := by
    rw [fl53_eval (x := 134217729 * 134217729) 4503599694479360 (1 / 4) 2 (by norm_num) (by norm_num)
      (by norm_num) (by norm_num) (by norm_num)]
    norm_num
  have c3 : fl53 36028797287399424 = 36028797287399424 := by
    rw [fl53_eval (x := 36028797287399424) 4503599660924928 0 3 (by norm_num) (by norm_num)
      (by norm_num) (by norm_num) (by norm_num)]
    norm_num
  have c4 : fl53 268435457 = 268435457 := by
    rw [fl53_eval (x := 268435457) (268435457 * 2 ^ 24) 0 (-24) (by norm_num) (by norm_num)
      (by norm_num) (by norm_num) (by norm_num)]
    norm_num
  have c5 : fl53 (268435457 / 2) = 268435457 / 2 := by
    rw [fl53_eval (x := 268435457 / 2) (268435457 * 2 ^ 24) 0 (-25) (by norm_num) (by norm_num)
      (by norm_num) (by norm_num) (by norm_num)]
    norm_num
  have c6 : fl53 (268435457 * 268435457) = 72057594574798848 := by
    rw [fl53_eval (x := 268435457 * 268435457) 4503599660924928 (1 / 16) 4 (by norm_num) (by norm_num)
      (by norm_num) (by norm_num) (by norm_num)]
    norm_num
  have c7 : fl53 (72057594574798848 * 2) = 144115189149597696 := by
    rw [fl53_eval (x := 72057594574798848 * 2) 4503599660924928 0 5 (by norm_num) (by norm_num)
      (by norm_num) (by norm_num) (by norm_num)]
    norm_num
  have c8 : fl53 (144115189149597696 / 4) = 36028797287399424 := by
    rw [fl53_eval (x := 144115189149597696 / 4) 4503599660924928 0 3 (by norm_num) (by norm_num)
      (by norm_num) (by norm_num) (by norm_num)]
    norm_num
  have c9 : fl53 (36028797287399424 / 2) = 18014398643699712 := by
    rw [fl53_eval (x := 36028797287399424 / 2) 4503599660924928 0 2 (by norm_num) (by norm_num)
      (by norm_num) (by norm_num) (by norm_num)]
    norm_num
  have c10 : fl53 (268435457 / 2 * (268435457 / 2)) = 18014398643699712 := by
    rw [fl53_eval (x := 268435457 / 2 * (268435457 / 2)) 4503599660924928 (1 / 16) 2 (by norm_num) (by norm_num)
      (by norm_num) (by norm_num) (by norm_num)]
    norm_num
  have c11 : fl53 (18014398643699712 - 36028797287399424) = -18014398643699712 := by
    have : fl53 18014398643699712 = 18014398643699712 := by
      rw [fl53_eval (x := 18014398643699712) 4503599660924928 0 2 (by norm_num) (by norm_num)
        (by norm_num) (by norm_num) (by norm_num)]
      norm_num
    have hneg : (18014398643699712 - 36028797287399424 : ℚ) = -18014398643699712 := by norm_num
    rw [hneg]
    unfold fl53 at this ⊢
    rw [if_pos (by norm_num)] at this
    rw [if_neg (by norm_num), if_pos (by norm_num), neg_neg, this]
  refine ⟨?_, ?_, c1⟩
  · have q1 : (2:ℚ) ^ 27 = 134217728 := by norm_num
    have q2 : fl53 134217728 = 134217728 := by rw [← q1]; exact pw 27
    have q3 : fl53 (134217728 * 134217728) = 18014398509481984 := by
      have := pw 54
      norm_num at this ⊢; exact this
    have q4 : fl53 18014398509481984 = 18014398509481984 := by
      have := pw 54
      norm_num at this ⊢; exact this
    have s1 : sqN 1 = 1 := by decide
    have s2 : sqN 2 = 4 := by decide
    have hn : ∀ s : MLE1 ℚ, s.n = 1 → s.sum = 134217728 → s.sq = 18014398509481984 →
        (addPoint fl53 s (2 ^ 27 + 1)).valid = false := by
      intro s h1 h2 h3
      unfold addPoint
      simp only [h1, h2, h3, s2]
      norm_num at c2 c6 c7 c8 c9 c10 c11
      norm_num only [c2, c3, c4, c5, c6, c7, c8, c9, c10, c11, z, Nat.cast_ofNat, commit, if_true, if_false, le_refl]
    have := hn (addPoint fl53 init (2 ^ 27)) (by
        unfold addPoint commit; simp only; split_ifs <;> rfl) (by
        unfold addPoint commit; simp only
        split_ifs <;> simp only [init, zero_add, q1, q2]) (by
        unfold addPoint commit; simp only
        split_ifs <;> simp only [init, zero_add, q1, q3, q4])
    simpa [after, Op.run, addPoints] using this
  · norm_num [Spec.variance, Spec.mean]

theorem overflow_aux (N : Nat) (hN : N = 4294967296) :
    (after id [.points (List.replicate N (1:ℚ) ++ [0])]).valid = false := by
  have hsq : ((List.replicate N (1:ℚ)).map fun x => x * x).sum = N := by
    rw [List.map_replicate, List.sum_replicate]; simp
  have e : after id [.points (List.replicate N (1:ℚ) ++ [0])] =
      addPoint id (addPoints id init (List.replicate N (1:ℚ))) 0 := by
    simp [after, Op.run, addPoints]
  rw [e]
  obtain ⟨h1, h2, h3⟩ := addPoints_sums (List.replicate N (1:ℚ)) (init : MLE1 ℚ) []
    ⟨rfl, by simp [init], by simp [init]⟩
  rw [List.nil_append] at h1 h2 h3
  rw [List.length_replicate] at h1
  rw [List.sum_replicate, nsmul_eq_mul, mul_one] at h2
  rw [hsq] at h3
  generalize addPoints id init (List.replicate N (1:ℚ)) = s at h1 h2 h3
  rw [hN] at h1 h2 h3
  have hq : sqN (4294967296 + 1) = 8589934593 := by decide
  unfold addPoint
  simp only [id, h1, h2, h3, hq]
  rw [if_neg (by norm_num), commit, if_pos (by norm_num)]

/-- Full C34 is also **false** beyond 2^32 points: `mNumPoints * mNumPoints` wraps around, and `N = 2^32` ones
followed by a zero are reported invalid although they are not all equal. -/
theorem C34_count_overflow : ∃ N : Nat,
    (after id [.points (List.replicate N (1:ℚ) ++ [0])]).valid = false ∧
    ∃ x ∈ List.replicate N (1:ℚ) ++ [0], ∃ y ∈ List.replicate N (1:ℚ) ++ [0], x ≠ y := by
  obtain ⟨N, hN⟩ : ∃ N : Nat, N = 4294967296 := ⟨_, rfl⟩
  refine ⟨N, overflow_aux N hN, 1, ?_, 0, by simp, by norm_num⟩
  rw [List.mem_append, List.mem_replicate]
  exact Or.inl ⟨by omega, rfl⟩

/-! ### weighted points -/

omit [IsStrictOrderedRing K] [LinearOrder K] in
theorem wsum_eq (ps : List K) : ∀ (ws : List K) (acc : K), ws.length = ps.length →
    wsum ps ws acc = acc + ((ps.zip ws).map fun x => x.2 * x.1).sum := by
  induction ps with
  | nil => intro ws acc h; simp [wsum]
  | cons p ps ih =>
    intro ws acc h
    cases ws with
    | nil => simp at h
    | cons w ws =>
      rw [wsum, ih ws _ (by simpa using h)]
      simp [add_assoc]

omit [IsStrictOrderedRing K] [LinearOrder K] in
theorem wsq_eq (m : K) (ps : List K) : ∀ (ws : List K) (acc : K), ws.length = ps.length →
    wsq m ps ws acc = acc + ((ps.zip ws).map fun x => x.2 * (x.1 - m) ^ 2).sum := by
  induction ps with
  | nil => intro ws acc h; simp [wsq]
  | cons p ps ih =>
    intro ws acc h
    cases ws with
    | nil => simp at h
    | cons w ws =>
      rw [wsq, ih ws _ (by simpa using h)]
      simp only [List.zip_cons_cons, List.map_cons, List.sum_cons]
      ring

omit [IsStrictOrderedRing K] in
/-- **C34** (weighted points, exact arithmetic): with as many weights as points and a sum of weights other than zero
the distribution is the weighted mean and variance, valid iff the latter is positive; the running sums and the number
of points are not touched; with a wrong number of weights nothing happens. -/
theorem C34_weighted_partial (s : MLE1 K) (ps ws : List K) :
    (ws.length ≠ ps.length → s.addPointsW ps ws = s) ∧
    (ws.length = ps.length → ws.sum ≠ 0 →
      let t := s.addPointsW ps ws
      t.n = s.n ∧ t.sum = s.sum ∧ t.sq = s.sq ∧ t.mean = some (Spec.wmean (ps.zip ws)) ∧
      (t.valid = true ↔ 0 < Spec.wvariance (ps.zip ws)) ∧
      t.var = if 0 < Spec.wvariance (ps.zip ws) then some (Spec.wvariance (ps.zip ws)) else s.var) := by
  constructor
  · intro h; unfold addPointsW; rw [if_pos h]
  · intro h hw
    have hsnd : (ps.zip ws).map Prod.snd = ws := List.map_snd_zip (by omega)
    have e1 : wsum ps ws 0 / ws.sum = Spec.wmean (ps.zip ws) := by
      unfold Spec.wmean; rw [hsnd, wsum_eq _ _ _ h, zero_add]
    have e2 : ∀ m, m = Spec.wmean (ps.zip ws) → wsq m ps ws 0 / ws.sum = Spec.wvariance (ps.zip ws) := by
      intro m hm; unfold Spec.wvariance; rw [hsnd, wsq_eq _ _ _ _ h, zero_add, hm]
    unfold addPointsW
    rw [if_neg (by simpa using h), if_neg hw]
    simp only [e1, e2 _ rfl, commit]
    by_cases hv : Spec.wvariance (ps.zip ws) ≤ 0
    · simp [hv, not_lt.2 hv]
    · simp [hv, not_le.1 hv]

example : (init : MLE1 ℚ).addPointsW [1, 4] [2, 1] = ⟨some 2, some 2, 0, true, 0, 0⟩ := by decide +kernel

omit [IsStrictOrderedRing K] in
/-- Weights summing to zero (for instance no points at all): the estimator claims validity although neither mean nor
variance is a number. -/
theorem C34_zero_weights_valid_nan (s : MLE1 K) (ps ws : List K) (h : ws.length = ps.length) (h0 : ws.sum = 0) :
    (s.addPointsW ps ws).valid = true ∧ (s.addPointsW ps ws).mean = none ∧ (s.addPointsW ps ws).var = none := by
  unfold addPointsW
  rw [if_neg (by simpa using h), if_pos h0]
  exact ⟨rfl, rfl, rfl⟩

example : (init : MLE1 ℚ).addPointsW [] [] = ⟨none, none, 0, true, 0, 0⟩ := by decide +kernel

end MLE1
end Verif
