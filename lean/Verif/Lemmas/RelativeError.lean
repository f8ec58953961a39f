import Verif.Lemmas.Double
import Verif.Lemmas.DoubleSegments
import Verif.Spec.SumOrder
import Mathlib.Algebra.Order.Ring.Pow

/-! Relative errors of positive quantities. -/

namespace Verif
namespace RelErr

/-- one minus the precision of doubles. -/
def ρ : ℚ := 1 - 1 / 2 ^ 53

theorem ρ_pos : 0 < ρ := by norm_num [ρ]
theorem ρ_le : ρ ≤ 1 := by norm_num [ρ]

/-- `y` is `x` up to `k` relative errors of half a unit in the last place. -/
def NN (k : Nat) (x y : ℚ) : Prop := 0 ≤ x ∧ x * ρ ^ k ≤ y ∧ y * ρ ^ k ≤ x

theorem NN.nonneg {k x y} (h : NN k x y) : 0 ≤ y := le_trans (mul_nonneg h.1 (pow_nonneg ρ_pos.le _)) h.2.1

theorem NN.refl {x : ℚ} (h : 0 ≤ x) : NN 0 x x := ⟨h, by simp, by simp⟩

theorem NN.mono {k l x y} (h : NN k x y) (hkl : k ≤ l) : NN l x y := by
  have hp : ρ ^ l ≤ ρ ^ k := pow_le_pow_of_le_one ρ_pos.le ρ_le hkl
  exact ⟨h.1, le_trans (mul_le_mul_of_nonneg_left hp h.1) h.2.1, le_trans (mul_le_mul_of_nonneg_left hp h.nonneg) h.2.2⟩

theorem fl_NN {y : ℚ} (h : 0 ≤ y) : NN 1 y (fl53 y) := by
  rcases h.eq_or_lt with h0 | h0
  · subst h0; simp [NN, fl53]
  · obtain ⟨a, b⟩ := Dbl.fl53_bounds h0
    refine ⟨h, by simpa [ρ] using a, ?_⟩
    rw [pow_one]
    have := mul_le_mul_of_nonneg_right b ρ_pos.le
    have e : y * (1 + 1 / 2 ^ 53) * ρ ≤ y := by
      rw [mul_assoc]; exact mul_le_of_le_one_right h (by norm_num [ρ])
    linarith

theorem NN.trans {k l x y z} (h : NN k x y) (g : NN l y z) : NN (k + l) x z := by
  refine ⟨h.1, ?_, ?_⟩
  · rw [pow_add, ← mul_assoc]
    exact le_trans (mul_le_mul_of_nonneg_right h.2.1 (pow_nonneg ρ_pos.le _)) g.2.1
  · rw [pow_add, mul_comm (ρ ^ k), ← mul_assoc]
    exact le_trans (mul_le_mul_of_nonneg_right g.2.2 (pow_nonneg ρ_pos.le _)) h.2.2

theorem NN.fl {k x y} (h : NN k x y) : NN (k + 1) x (fl53 y) := h.trans (fl_NN h.nonneg)

theorem NN.add {k x y x' y'} (h : NN k x y) (g : NN k x' y') : NN k (x + x') (y + y') :=
  ⟨add_nonneg h.1 g.1, by rw [add_mul]; exact add_le_add h.2.1 g.2.1, by rw [add_mul]; exact add_le_add h.2.2 g.2.2⟩

theorem NN.mul {k l x y x' y'} (h : NN k x y) (g : NN l x' y') : NN (k + l) (x * x') (y * y') := by
  have hp := fun n => pow_nonneg ρ_pos.le n
  refine ⟨mul_nonneg h.1 g.1, ?_, ?_⟩
  · rw [pow_add, mul_mul_mul_comm]
    exact mul_le_mul h.2.1 g.2.1 (mul_nonneg g.1 (hp _)) h.nonneg
  · rw [pow_add, mul_mul_mul_comm]
    exact mul_le_mul h.2.2 g.2.2 (mul_nonneg g.nonneg (hp _)) h.1

theorem NN.div {k l x y x' y'} (h : NN k x y) (g : NN l x' y') (h0 : 0 < x') : NN (k + l) (x / x') (y / y') := by
  have hp := fun n => pow_pos ρ_pos n
  have hy' : 0 < y' := lt_of_lt_of_le (mul_pos h0 (hp _)) g.2.1
  refine ⟨div_nonneg h.1 g.1, ?_, ?_⟩
  · rw [le_div_iff₀ hy', div_mul_eq_mul_div, div_mul_eq_mul_div, div_le_iff₀ h0, pow_add]
    have := mul_le_mul h.2.1 g.2.2 (mul_nonneg hy'.le (hp _).le) h.nonneg
    calc _ = x * ρ ^ k * (y' * ρ ^ l) := by ring
      _ ≤ _ := this
  · rw [le_div_iff₀ h0, div_mul_eq_mul_div, div_mul_eq_mul_div, div_le_iff₀ hy', pow_add]
    have := mul_le_mul h.2.2 g.2.1 (mul_nonneg h0.le (hp _).le) h.1
    calc _ = y * ρ ^ k * (x' * ρ ^ l) := by ring
      _ ≤ _ := this

theorem ρ_pow (k : Nat) : 1 - k / 2 ^ 53 ≤ ρ ^ k := by
  have := one_add_mul_le_pow (a := (-(1 / 2 ^ 53) : ℚ)) (by norm_num) k
  have e : (1 : ℚ) + -(1 / 2 ^ 53) = ρ := by rw [ρ]; ring
  rw [e] at this
  calc (1:ℚ) - k / 2 ^ 53 = 1 + k * -(1 / 2 ^ 53) := by ring
    _ ≤ _ := this

theorem NN.abs {k x y} (h : NN k x y) (hk : k ≤ 2 ^ 52) : |y - x| ≤ 2 * k / 2 ^ 53 * x := by
  have hp := ρ_pow k
  have hk' : (k : ℚ) ≤ 2 ^ 52 := by exact_mod_cast hk
  have hk0 : (0:ℚ) ≤ k := Nat.cast_nonneg _
  obtain ⟨t, ht⟩ : ∃ t, t = (k : ℚ) / 2 ^ 53 := ⟨_, rfl⟩
  have ht0 : 0 ≤ t := by rw [ht]; positivity
  have ht1 : t ≤ 1 / 2 := by rw [ht, div_le_iff₀ (by norm_num)]; linarith
  rw [← ht] at hp
  rw [mul_div_assoc, ← ht]
  obtain ⟨h0, h1, h2⟩ := h
  have hy : 0 ≤ y := NN.nonneg ⟨h0, h1, h2⟩
  have a1 : x * (1 - t) ≤ y := le_trans (mul_le_mul_of_nonneg_left hp h0) h1
  have a2 : y * (1 - t) ≤ x := le_trans (mul_le_mul_of_nonneg_left hp hy) h2
  rw [abs_le]
  constructor
  · nlinarith
  · have : y ≤ 2 * x := by nlinarith
    nlinarith

theorem NN.pos {k x y} (h : NN k x y) : 0 < y ↔ 0 < x := by
  have hp := pow_pos ρ_pos k
  constructor
  · intro hy; exact lt_of_lt_of_le (mul_pos hy hp) h.2.2
  · intro hx; exact lt_of_lt_of_le (mul_pos hx hp) h.2.1

open Spec in
theorem tree_NN : ∀ t : SumTree, (∀ x ∈ t.terms, 0 ≤ x) → 1 ≤ t.terms.length ∧ NN (t.terms.length - 1) t.terms.sum (t.eval fl53) := by
  intro t
  induction t with
  | leaf x => intro h; exact ⟨by simp [SumTree.terms], by simpa [SumTree.terms, SumTree.eval] using NN.refl (h x (by simp [SumTree.terms]))⟩
  | node l r ihl ihr =>
    intro h
    obtain ⟨l1, l2⟩ := ihl fun x hx => h x (by simp [SumTree.terms, hx])
    obtain ⟨r1, r2⟩ := ihr fun x hx => h x (by simp [SumTree.terms, hx])
    refine ⟨by simp only [SumTree.terms, List.length_append]; omega, ?_⟩
    simp only [SumTree.terms, SumTree.eval, List.length_append, List.sum_append]
    exact (NN.fl (NN.add (l2.mono (l := l.terms.length + r.terms.length - 2) (by omega)) (r2.mono (by omega)))).mono (by omega)

open Spec in
/-- adding up in any order. -/
theorem sum_NN {xs : List ℚ} {y : ℚ} (h : IsSumOf fl53 xs y) (h0 : ∀ x ∈ xs, 0 ≤ x) : NN xs.length xs.sum y := by
  rcases h with ⟨rfl, rfl⟩ | ⟨t, ht, rfl⟩
  · simpa using NN.refl (le_refl (0:ℚ))
  · have := (tree_NN t fun x hx => h0 x (ht.subset hx)).2
    rw [ht.length_eq, ht.sum_eq] at this
    exact this.mono (by omega)

end RelErr
end Verif
