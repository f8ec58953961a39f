import Verif.Model.NormalMvDouble
import Verif.Props.DoubleNormal
import Verif.Spec.SumOrder
import Mathlib.Algebra.BigOperators.Intervals

/-!
# Multivariate normal samples computed in doubles
-/

namespace Verif
namespace Dbl
open Verif.Spec

/-- the raw number with which component `j` starts, if component `i` rejects `k i` rounds before one is accepted. -/
def startAt (n : ℕ) (k : ℕ → ℕ) : ℕ → ℕ
  | 0 => n
  | j + 1 => startAt n k j + 2 * k j + 2

/-- the standard normal number that the polar method gives for two raw numbers, from the doubles `u` and `s` and otherwise exactly. -/
noncomputable def polarT (r r' : ℕ) : ℝ := (normalU r : ℝ) * √(-2 * Real.log (normalS r r' : ℚ) / (normalS r r' : ℚ))

/-- component `j` rejects `k j` rounds and accepts the next one. -/
def Accepts (rand : ℕ → ℕ) (n : ℕ) (k : ℕ → ℕ) (j : ℕ) : Prop :=
  (∀ i < k j, 1 ≤ normalS (rand (startAt n k j + 2 * i)) (rand (startAt n k j + 2 * i + 1))) ∧
    normalS (rand (startAt n k j + 2 * k j)) (rand (startAt n k j + 2 * k j + 1)) < 1

theorem startAt_shift (n : ℕ) (k : ℕ → ℕ) (j : ℕ) : startAt (n + 2 * k 0 + 2) (fun i => k (i + 1)) j = startAt n k (j + 1) := by
  induction j with
  | zero => rfl
  | succ j ih => rw [startAt, ih]; rfl

theorem accepts_shift {rand : ℕ → ℕ} {n : ℕ} {k : ℕ → ℕ} {j : ℕ} (h : Accepts rand n k (j + 1)) :
    Accepts rand (n + 2 * k 0 + 2) (fun i => k (i + 1)) j := by
  unfold Accepts at *
  rw [startAt_shift]
  exact h

theorem normals_value (logD sqrtD : ℚ → ℚ) (hlog : LogAccurate logD) (hsqrt : SqrtAccurate sqrtD) (rand : ℕ → ℕ)
    (hr : ∀ i, rand i ≤ 2147483647) (m : ℕ) : ∀ (n : ℕ) (k : ℕ → ℕ), (∀ j < m, Accepts rand n k j) →
    ∃ zs : List (Option ℚ), normalsD logD sqrtD rand m n = .ok zs (startAt n k m) ∧ zs.length = m ∧
      ∀ j < m, ∃ z : ℚ, zs[j]? = some (some z) ∧
        |(z : ℝ) - polarT (rand (startAt n k j + 2 * k j)) (rand (startAt n k j + 2 * k j + 1))| ≤
          |polarT (rand (startAt n k j + 2 * k j)) (rand (startAt n k j + 2 * k j + 1))| / 2 ^ 49 ∧ |(z : ℝ)| ≤ 9.35 := by
  induction m with
  | zero => intro n k _; exact ⟨[], rfl, rfl, by simp⟩
  | succ m ih =>
    intro n k h
    obtain ⟨z, h1, h2, h3⟩ := (C157_normal logD sqrtD hlog hsqrt rand hr 0 1 n).2.2 (by norm_num) (k 0) (h 0 (by omega)).1 (h 0 (by omega)).2
    obtain ⟨zs, g1, g2, g3⟩ := ih (n + 2 * k 0 + 2) (fun i => k (i + 1)) fun j hj => accepts_shift (h (j + 1) (by omega))
    refine ⟨some z :: zs, ?_, by simp [g2], fun j hj => ?_⟩
    · rw [normalsD, h1]
      show (normalsD logD sqrtD rand m (n + 2 * k 0 + 2)).bind _ = _
      rw [g1, startAt_shift]
      rfl
    · cases j with
      | zero =>
        refine ⟨z, by simp, ?_, ?_⟩
        · simp only [Rat.cast_one, Real.sqrt_one, one_mul, Rat.cast_zero, zero_add, abs_zero, zero_div, add_zero] at h2
          exact h2
        · simpa using h3
      | succ j =>
        obtain ⟨z', e1, e2⟩ := g3 j (by omega)
        rw [startAt_shift] at e2
        exact ⟨z', by simpa using e1, e2⟩

theorem normals_diverge (logD sqrtD : ℚ → ℚ) (hlog : LogAccurate logD) (hsqrt : SqrtAccurate sqrtD) (rand : ℕ → ℕ)
    (hr : ∀ i, rand i ≤ 2147483647) (m : ℕ) : ∀ (d n : ℕ) (k : ℕ → ℕ), m < d → (∀ j < m, Accepts rand n k j) →
    (∀ i, 1 ≤ normalS (rand (startAt n k m + 2 * i)) (rand (startAt n k m + 2 * i + 1))) →
    normalsD logD sqrtD rand d n = .diverge := by
  induction m with
  | zero =>
    intro d n k hd _ h
    obtain ⟨d, rfl⟩ := Nat.exists_eq_succ_of_ne_zero (by omega : d ≠ 0)
    rw [normalsD, (C157_normal logD sqrtD hlog hsqrt rand hr 0 1 n).2.1 (by norm_num) h]
    rfl
  | succ m ih =>
    intro d n k hd ha h
    obtain ⟨d, rfl⟩ := Nat.exists_eq_succ_of_ne_zero (by omega : d ≠ 0)
    obtain ⟨z, h1, -⟩ := (C157_normal logD sqrtD hlog hsqrt rand hr 0 1 n).2.2 (by norm_num) (k 0) (ha 0 (by omega)).1 (ha 0 (by omega)).2
    rw [normalsD, h1]
    show (normalsD logD sqrtD rand d (n + 2 * k 0 + 2)).bind _ = _
    rw [ih d _ (fun i => k (i + 1)) (by omega) (fun j hj => accepts_shift (ha (j + 1) (by omega))) (by rw [startAt_shift]; exact h)]
    rfl

/-! ### Sums of numbers with signs -/

theorem pow_c (k : ℕ) (hk : k ≤ 2 ^ 52) : (1 + 1 / 2 ^ 53 : ℚ) ^ k ≤ 1 + k / 2 ^ 52 := by
  induction k with
  | zero => simp
  | succ k ih =>
    have ih := ih (by omega)
    have hk' : (k : ℚ) ≤ 2 ^ 52 := by exact_mod_cast (by omega : k ≤ 2 ^ 52)
    rw [pow_succ]
    have := mul_le_mul_of_nonneg_right ih (by norm_num : (0:ℚ) ≤ 1 + 1 / 2 ^ 53)
    push_cast
    linarith

theorem tree_signed : ∀ t : SumTree, 1 ≤ t.terms.length ∧
    |t.eval fl53 - t.terms.sum| ≤ ((1 + 1 / 2 ^ 53) ^ (t.terms.length - 1) - 1) * (t.terms.map (|·|)).sum ∧ 0 ≤ (t.terms.map (|·|)).sum ∧
    |t.terms.sum| ≤ (t.terms.map (|·|)).sum
  | .leaf x => by simp [SumTree.eval, SumTree.terms]
  | .node l r => by
    obtain ⟨l1, l2, l3, l4⟩ := tree_signed l
    obtain ⟨r1, r2, r3, r4⟩ := tree_signed r
    have hf := fl53_rel (l.eval fl53 + r.eval fl53)
    have hl : (1 + 1 / 2 ^ 53 : ℚ) ^ (l.terms.length - 1) * (1 + 1 / 2 ^ 53) ≤ (1 + 1 / 2 ^ 53) ^ (l.terms.length + r.terms.length - 1) := by
      rw [← pow_succ]; exact pow_le_pow_right₀ (by norm_num) (by omega)
    have hr : (1 + 1 / 2 ^ 53 : ℚ) ^ (r.terms.length - 1) * (1 + 1 / 2 ^ 53) ≤ (1 + 1 / 2 ^ 53) ^ (l.terms.length + r.terms.length - 1) := by
      rw [← pow_succ]; exact pow_le_pow_right₀ (by norm_num) (by omega)
    simp only [SumTree.eval, SumTree.terms, List.map_append, List.sum_append, List.length_append]
    generalize (1 + 1 / 2 ^ 53 : ℚ) ^ (l.terms.length + r.terms.length - 1) = P at *
    generalize (1 + 1 / 2 ^ 53 : ℚ) ^ (l.terms.length - 1) = Pl at *
    generalize (1 + 1 / 2 ^ 53 : ℚ) ^ (r.terms.length - 1) = Pr at *
    generalize l.eval fl53 = x at *
    generalize r.eval fl53 = y at *
    generalize (l.terms.map (|·|)).sum = A at *
    generalize (r.terms.map (|·|)).sum = B at *
    generalize l.terms.sum = s at *
    generalize r.terms.sum = t at *
    have m1 := mul_le_mul_of_nonneg_right hl l3
    have m2 := mul_le_mul_of_nonneg_right hr r3
    have t1 := abs_add_le x y
    have t2 := abs_add_le (x - s) s
    have t3 := abs_add_le (y - t) t
    have t4 := abs_add_le (x - s) (y - t)
    have t5 := abs_add_le (fl53 (x + y) - (x + y)) ((x - s) + (y - t))
    have t6 := abs_add_le s t
    rw [sub_add_cancel] at t2 t3
    rw [show fl53 (x + y) - (x + y) + ((x - s) + (y - t)) = fl53 (x + y) - (s + t) by ring] at t5
    refine ⟨by omega, by linarith, by linarith, by linarith⟩

theorem sum_signed {xs : List ℚ} {y : ℚ} (h : IsSumOf fl53 xs y) (hk : xs.length ≤ 2 ^ 52) :
    |y - xs.sum| ≤ xs.length / 2 ^ 52 * (xs.map (|·|)).sum := by
  rcases h with ⟨rfl, rfl⟩ | ⟨t, ht, rfl⟩
  · simp
  obtain ⟨h1, h2, h3, -⟩ := tree_signed t
  rw [ht.sum_eq, (ht.map (|·|)).sum_eq, ht.length_eq] at h2
  rw [(ht.map (|·|)).sum_eq] at h3
  have h4 := pow_c xs.length hk
  have h5 : (1 + 1 / 2 ^ 53 : ℚ) ^ (xs.length - 1) ≤ (1 + 1 / 2 ^ 53 : ℚ) ^ xs.length := pow_le_pow_right₀ (by norm_num) (by omega)
  exact h2.trans (mul_le_mul_of_nonneg_right (by linarith) h3)

theorem range_sum (f : ℕ → ℚ) (n : ℕ) : ((List.range n).map f).sum = ∑ j ∈ Finset.range n, f j := by
  induction n with
  | zero => simp
  | succ n ih => rw [List.sum_range_succ, Finset.sum_range_succ, ih]

/-- a component from numbers near to the exact ones. -/
theorem mvComponent_error {add : List ℚ → ℚ} (hadd : ∀ xs, IsSumOf fl53 xs (add xs)) (mean : ℚ) (row z : ℕ → ℚ) (T : ℕ → ℝ) (i : ℕ)
    (hi : i < 2 ^ 40) (hz : ∀ j ≤ i, |(z j : ℝ) - T j| ≤ |T j| / 2 ^ 49) :
    |(mvComponent add mean row z i : ℝ) - (mean + ∑ j ∈ Finset.range (i + 1), (row j : ℝ) * T j)| ≤
      (i + 12) / 2 ^ 52 * ∑ j ∈ Finset.range (i + 1), |(row j : ℝ) * T j| + |(mean : ℝ)| / 2 ^ 53 := by
  unfold mvComponent
  have hs := sum_signed (hadd ((List.range (i + 1)).map fun j => fl53 (row j * z j))) (by simp; omega)
  rw [range_sum, List.map_map, show ((fun x : ℚ => |x|) ∘ fun j => fl53 (row j * z j)) = fun j => |fl53 (row j * z j)| from rfl, range_sum] at hs
  simp only [List.length_map, List.length_range] at hs
  generalize add ((List.range (i + 1)).map fun j => fl53 (row j * z j)) = S at *
  have hp : ∀ j ∈ Finset.range (i + 1), |((fl53 (row j * z j) : ℚ) : ℝ) - row j * T j| ≤ 9 / 2 ^ 52 * |(row j : ℝ) * T j| := by
    intro j hj
    rw [Finset.mem_range] at hj
    have e1 : RelErr (1 / 2 ^ 49) (T j) (z j : ℝ) := by
      unfold RelErr
      have := hz j (by omega)
      linarith
    have e2 := e1.const_mul (row j : ℝ)
    have e3 : RelErr (1 / 2 ^ 53) ((row j : ℝ) * z j) (fl53 (row j * z j) : ℚ) := by
      have := relErr_fl (row j * z j)
      push_cast at this
      exact this
    exact (e2.trans (by norm_num) e3).weaken (by norm_num)
  have hA0 : 0 ≤ ∑ j ∈ Finset.range (i + 1), |(row j : ℝ) * T j| := Finset.sum_nonneg fun j _ => abs_nonneg _
  have hA1 := Finset.abs_sum_le_sum_abs (fun j => (row j : ℝ) * T j) (Finset.range (i + 1))
  have hB : |(∑ j ∈ Finset.range (i + 1), ((fl53 (row j * z j) : ℚ) : ℝ)) - ∑ j ∈ Finset.range (i + 1), (row j : ℝ) * T j| ≤
      9 / 2 ^ 52 * ∑ j ∈ Finset.range (i + 1), |(row j : ℝ) * T j| := by
    rw [← Finset.sum_sub_distrib, Finset.mul_sum]
    exact (Finset.abs_sum_le_sum_abs _ _).trans (Finset.sum_le_sum hp)
  have hC : ∑ j ∈ Finset.range (i + 1), |((fl53 (row j * z j) : ℚ) : ℝ)| ≤
      (1 + 9 / 2 ^ 52) * ∑ j ∈ Finset.range (i + 1), |(row j : ℝ) * T j| := by
    rw [Finset.mul_sum]
    refine Finset.sum_le_sum fun j hj => ?_
    have := abs_sub_abs_le_abs_sub ((fl53 (row j * z j) : ℚ) : ℝ) (row j * T j)
    have := hp j hj
    linarith
  have hs' : |(S : ℝ) - ∑ j ∈ Finset.range (i + 1), ((fl53 (row j * z j) : ℚ) : ℝ)| ≤
      ((i : ℝ) + 1) / 2 ^ 52 * ∑ j ∈ Finset.range (i + 1), |((fl53 (row j * z j) : ℚ) : ℝ)| := by
    have := (Rat.cast_le (K := ℝ)).2 hs
    push_cast at this
    exact this
  have hf := relErr_fl (mean + S)
  unfold RelErr at hf
  push_cast at hf
  have hi' : (i : ℝ) ≤ 2 ^ 40 := by exact_mod_cast hi.le
  have hi0 : (0:ℝ) ≤ i := by positivity
  generalize (∑ j ∈ Finset.range (i + 1), |(row j : ℝ) * T j|) = A at *
  generalize (∑ j ∈ Finset.range (i + 1), (row j : ℝ) * T j) = R at *
  generalize (∑ j ∈ Finset.range (i + 1), |((fl53 (row j * z j) : ℚ) : ℝ)|) = C at *
  generalize (∑ j ∈ Finset.range (i + 1), ((fl53 (row j * z j) : ℚ) : ℝ)) = Q at *
  have m1 := mul_le_mul_of_nonneg_left hC (by positivity : (0:ℝ) ≤ ((i : ℝ) + 1) / 2 ^ 52)
  have m2 := mul_le_mul_of_nonneg_right hi' hA0
  have t1 := abs_sub_le (S : ℝ) Q R
  have t2 := abs_add_le (mean : ℝ) S
  have t3 := abs_add_le ((S : ℝ) - R) R
  rw [sub_add_cancel] at t3
  have t4 := abs_add_le (((fl53 (mean + S) : ℚ) : ℝ) - (mean + S)) ((S : ℝ) - R)
  rw [show ((fl53 (mean + S) : ℚ) : ℝ) - (mean + S) + ((S : ℝ) - R) = ((fl53 (mean + S) : ℚ) : ℝ) - (mean + R) by ring] at t4
  linarith

/-- **C160**: if every component accepts a round, the call returns, having consumed exactly the draws up to the last accepted round; each
component is the mean plus the product of the row of the factor (up to the diagonal) with the standard normal numbers of the accepted rounds, up
to roundings, whatever the order of summation, and is at most 9.36 times the sum of the magnitudes of the row away from the mean.  If the
components before component `m` accept a round and `m` never does, the call does not return. -/
theorem C160_sample (logD sqrtD : ℚ → ℚ) (hlog : LogAccurate logD) (hsqrt : SqrtAccurate sqrtD) (rand : ℕ → ℕ)
    (hr : ∀ i, rand i ≤ 2147483647) (add : ℕ → List ℚ → ℚ) (hadd : ∀ i xs, IsSumOf fl53 xs (add i xs)) (d : ℕ) (hd : d ≤ 2 ^ 40)
    (mean : ℕ → ℚ) (L : ℕ → ℕ → ℚ) (n : ℕ) (k : ℕ → ℕ) :
    ((∀ j < d, Accepts rand n k j) →
      ∃ x : List ℚ, normalMvD logD sqrtD rand add d mean L n = .ok (some x) (startAt n k d) ∧ x.length = d ∧
        ∀ i < d, ∃ xi : ℚ, x[i]? = some xi ∧
          (let T : ℕ → ℝ := fun j => polarT (rand (startAt n k j + 2 * k j)) (rand (startAt n k j + 2 * k j + 1))
           |(xi : ℝ) - (mean i + ∑ j ∈ Finset.range (i + 1), (L i j : ℝ) * T j)| ≤
             (i + 12) / 2 ^ 52 * ∑ j ∈ Finset.range (i + 1), |(L i j : ℝ) * T j| + |(mean i : ℝ)| / 2 ^ 53) ∧
          |(xi : ℝ) - mean i| ≤ 9.36 * ∑ j ∈ Finset.range (i + 1), |(L i j : ℝ)| + |(mean i : ℝ)| / 2 ^ 53) ∧
    (∀ m < d, (∀ j < m, Accepts rand n k j) →
      (∀ i, 1 ≤ normalS (rand (startAt n k m + 2 * i)) (rand (startAt n k m + 2 * i + 1))) →
      normalMvD logD sqrtD rand add d mean L n = .diverge) := by
  refine ⟨fun ha => ?_, fun m hm ha h => ?_⟩
  · obtain ⟨zs, h1, h2, h3⟩ := normals_value logD sqrtD hlog hsqrt rand hr d n k ha
    have hany : zs.any (·.isNone) = false := by
      rw [List.any_eq_false]
      intro z hz
      obtain ⟨j, hj⟩ := List.mem_iff_getElem?.1 hz
      have hj' : j < d := by
        rw [← h2]
        exact (List.getElem?_eq_some_iff.1 hj).1
      obtain ⟨z', e, -⟩ := h3 j hj'
      rw [e] at hj
      injection hj with hj
      subst hj
      simp
    refine ⟨_, by unfold normalMvD; rw [h1]; show (if _ then _ else _) = _; rw [hany, if_neg (by simp)], by simp, fun i hi => ?_⟩
    refine ⟨mvComponent (add i) (mean i) (L i) (fun j => (zs.getD j none).getD 0) i, by simp [hi], ?_⟩
    have hz : ∀ j ≤ i, |(((zs.getD j none).getD 0 : ℚ) : ℝ) - polarT (rand (startAt n k j + 2 * k j)) (rand (startAt n k j + 2 * k j + 1))| ≤
        |polarT (rand (startAt n k j + 2 * k j)) (rand (startAt n k j + 2 * k j + 1))| / 2 ^ 49 ∧
        |(((zs.getD j none).getD 0 : ℚ) : ℝ)| ≤ 9.35 := by
      intro j hj
      obtain ⟨z, e, g⟩ := h3 j (by omega)
      have : (zs.getD j none).getD 0 = z := by rw [List.getD_eq_getElem?_getD, e]; rfl
      rw [this]
      exact g
    have he := mvComponent_error (hadd i) (mean i) (L i) (fun j => (zs.getD j none).getD 0)
      (fun j => polarT (rand (startAt n k j + 2 * k j)) (rand (startAt n k j + 2 * k j + 1))) i (by omega) fun j hj => (hz j hj).1
    refine ⟨he, ?_⟩
    have hT : ∀ j ∈ Finset.range (i + 1), |(L i j : ℝ) * polarT (rand (startAt n k j + 2 * k j)) (rand (startAt n k j + 2 * k j + 1))| ≤
        9.355 * |(L i j : ℝ)| := by
      intro j hj
      rw [Finset.mem_range] at hj
      obtain ⟨a, b⟩ := hz j (by omega)
      have := abs_sub_abs_le_abs_sub (polarT (rand (startAt n k j + 2 * k j)) (rand (startAt n k j + 2 * k j + 1)))
        (((zs.getD j none).getD 0 : ℚ) : ℝ)
      rw [abs_sub_comm] at this
      rw [abs_mul, mul_comm]
      exact mul_le_mul_of_nonneg_right (by linarith) (abs_nonneg _)
    have hS := Finset.sum_le_sum hT
    rw [← Finset.mul_sum] at hS
    have hR := Finset.abs_sum_le_sum_abs (fun j => (L i j : ℝ) * polarT (rand (startAt n k j + 2 * k j)) (rand (startAt n k j + 2 * k j + 1)))
      (Finset.range (i + 1))
    have hA0 : 0 ≤ ∑ j ∈ Finset.range (i + 1), |(L i j : ℝ) * polarT (rand (startAt n k j + 2 * k j)) (rand (startAt n k j + 2 * k j + 1))| :=
      Finset.sum_nonneg fun j _ => abs_nonneg _
    have hi' : (i : ℝ) ≤ 2 ^ 40 := by exact_mod_cast (by omega : i ≤ 2 ^ 40)
    generalize mvComponent (add i) (mean i) (L i) (fun j => (zs.getD j none).getD 0) i = x at *
    generalize (∑ j ∈ Finset.range (i + 1), |(L i j : ℝ) * polarT (rand (startAt n k j + 2 * k j)) (rand (startAt n k j + 2 * k j + 1))|) = A at *
    generalize (∑ j ∈ Finset.range (i + 1), (L i j : ℝ) * polarT (rand (startAt n k j + 2 * k j)) (rand (startAt n k j + 2 * k j + 1))) = R at *
    have m2 := mul_le_mul_of_nonneg_right hi' hA0
    have t := abs_add_le ((x : ℝ) - (mean i + R)) R
    rw [show (x : ℝ) - (mean i + R) + R = x - mean i by ring] at t
    linarith
  · unfold normalMvD
    rw [normals_diverge logD sqrtD hlog hsqrt rand hr m d n k hm ha h]
    rfl

/-- a case: two components, the raw numbers 1500000000 and 900000000 again and again, all rounds accepted. -/
example (logD sqrtD : ℚ → ℚ) (hlog : LogAccurate logD) (hsqrt : SqrtAccurate sqrtD) (add : ℕ → List ℚ → ℚ)
    (hadd : ∀ i xs, IsSumOf fl53 xs (add i xs)) : ∃ x : List ℚ, x.length = 2 ∧
    normalMvD logD sqrtD (fun i => if i % 2 = 0 then 1500000000 else 900000000) add 2 (fun _ => 1) (fun i j => if i = j then 2 else 1) 0 =
      .ok (some x) 4 := by
  obtain ⟨x, h1, h2, -⟩ := (C160_sample logD sqrtD hlog hsqrt (fun i => if i % 2 = 0 then 1500000000 else 900000000)
    (fun i => by split_ifs <;> norm_num) add hadd 2 (by norm_num) (fun _ => 1) (fun i j => if i = j then 2 else 1) 0 (fun _ => 0)).1 (by
      intro j hj
      refine ⟨by simp, ?_⟩
      have : startAt 0 (fun _ => 0) j = 2 * j := by
        clear hj
        induction j with
        | zero => rfl
        | succ j ih => rw [startAt, ih]; ring
      simp only [this, mul_zero, add_zero]
      rw [if_pos (by omega), if_neg (by omega)]
      exact normal_case)
  exact ⟨x, h2, h1⟩

/-- orders of summation exist. -/
example : ∃ add : List ℚ → ℚ, ∀ xs, IsSumOf fl53 xs (add xs) := by
  have h : ∀ xs : List ℚ, ∃ y, IsSumOf fl53 xs y := by
    intro xs
    induction xs with
    | nil => exact ⟨0, Or.inl ⟨rfl, rfl⟩⟩
    | cons x xs ih =>
      obtain ⟨y, ⟨rfl, rfl⟩ | ⟨t, h1, h2⟩⟩ := ih
      · exact ⟨x, Or.inr ⟨.leaf x, List.Perm.refl _, rfl⟩⟩
      · exact ⟨_, Or.inr ⟨.node (.leaf x) t, h1.cons x, rfl⟩⟩
  choose f hf using h
  exact ⟨f, hf⟩

end Dbl
end Verif
