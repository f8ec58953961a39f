import Verif.Model.DoubleGamma
import Verif.Props.DoubleGeometric

/-! Lemmas for C152: relative errors of real quantities, the sum of exponential samples, one round of the rejection loop. -/

namespace Verif
namespace Dbl

/-- one minus twice the precision. -/
noncomputable def rr : ℝ := 1 - 1 / 2 ^ 51

theorem rr_pos : 0 < rr := by norm_num [rr]
theorem rr_le : rr ≤ 1 := by norm_num [rr]

/-- `y` is `x` up to `k` relative errors of `2^-51`. -/
def RR (k : Nat) (x y : ℝ) : Prop := 0 ≤ x ∧ x * rr ^ k ≤ y ∧ y * rr ^ k ≤ x

theorem RR.nonneg {k x y} (h : RR k x y) : 0 ≤ y := le_trans (mul_nonneg h.1 (pow_nonneg rr_pos.le _)) h.2.1

theorem RR.refl {x : ℝ} (h : 0 ≤ x) : RR 0 x x := ⟨h, by simp, by simp⟩

theorem RR.mono {k l x y} (h : RR k x y) (hkl : k ≤ l) : RR l x y := by
  have hp : rr ^ l ≤ rr ^ k := pow_le_pow_of_le_one rr_pos.le rr_le hkl
  exact ⟨h.1, le_trans (mul_le_mul_of_nonneg_left hp h.1) h.2.1, le_trans (mul_le_mul_of_nonneg_left hp h.nonneg) h.2.2⟩

theorem RR.trans {k l x y z} (h : RR k x y) (g : RR l y z) : RR (k + l) x z := by
  refine ⟨h.1, ?_, ?_⟩
  · rw [pow_add, ← mul_assoc]
    exact le_trans (mul_le_mul_of_nonneg_right h.2.1 (pow_nonneg rr_pos.le _)) g.2.1
  · rw [pow_add, mul_comm (rr ^ k), ← mul_assoc]
    exact le_trans (mul_le_mul_of_nonneg_right g.2.2 (pow_nonneg rr_pos.le _)) h.2.2

theorem RR.add {k x y x' y'} (h : RR k x y) (g : RR k x' y') : RR k (x + x') (y + y') :=
  ⟨add_nonneg h.1 g.1, by rw [add_mul]; exact add_le_add h.2.1 g.2.1, by rw [add_mul]; exact add_le_add h.2.2 g.2.2⟩

/-- a relative error of `2^-51`. -/
theorem RR.of_abs {x y : ℝ} (h0 : 0 ≤ x) (h : |y - x| ≤ x / 2 ^ 51) : RR 1 x y := by
  obtain ⟨h1, h2⟩ := abs_le.1 h
  refine ⟨h0, by rw [pow_one, rr]; linarith, ?_⟩
  rw [pow_one]
  have := mul_le_mul_of_nonneg_right (show y ≤ x * (1 + 1 / 2 ^ 51) by linarith) rr_pos.le
  have e : x * (1 + 1 / 2 ^ 51) * rr ≤ x := by
    rw [mul_assoc]; exact mul_le_of_le_one_right h0 (by norm_num [rr])
  linarith

theorem RR.fl {y : ℚ} (h : 0 ≤ y) : RR 1 y (fl53 y : ℚ) := by
  have hR : (0:ℝ) ≤ y := by exact_mod_cast h
  refine RR.of_abs hR ?_
  have := fl53_rel y
  rw [abs_of_nonneg h] at this
  have h2 : |((fl53 y : ℚ) : ℝ) - y| ≤ (y : ℝ) / 2 ^ 53 := by exact_mod_cast this
  refine h2.trans ?_
  norm_num
  linarith

theorem rr_pow (k : Nat) : 1 - k / 2 ^ 51 ≤ rr ^ k := by
  have := one_add_mul_le_pow (show (-2 : ℝ) ≤ -(1 / 2 ^ 51) by norm_num) k
  rw [show rr = 1 + -(1 / 2 ^ 51) by rw [rr]; ring]
  refine le_trans (le_of_eq ?_) this
  ring

theorem RR.abs {k x y} (h : RR k x y) (hk : k ≤ 2 ^ 50) : |y - x| ≤ k / 2 ^ 50 * x := by
  have hkR : (k : ℝ) ≤ 2 ^ 50 := by exact_mod_cast hk
  have hp := rr_pow k
  have hk0 : (0:ℝ) ≤ k := Nat.cast_nonneg _
  obtain ⟨h0, h1, h2⟩ := h
  have hy : 0 ≤ y := le_trans (mul_nonneg h0 (pow_nonneg rr_pos.le _)) h1
  have e1 : x * (1 - k / 2 ^ 51) ≤ y := le_trans (mul_le_mul_of_nonneg_left hp h0) h1
  have e2 : y * (1 - k / 2 ^ 51) ≤ x := le_trans (mul_le_mul_of_nonneg_left hp hy) h2
  obtain ⟨t, ht⟩ : ∃ t : ℝ, t = k / 2 ^ 51 := ⟨_, rfl⟩
  have ht0 : 0 ≤ t := by rw [ht]; positivity
  have ht1 : t ≤ 1 / 2 := by rw [ht, div_le_iff₀ (by positivity)]; linarith
  have e3 : (k : ℝ) / 2 ^ 50 = 2 * t := by rw [ht]; ring
  rw [← ht] at e1 e2
  rw [e3, abs_le]
  constructor
  · nlinarith
  · nlinarith

/-- the raw numbers other than zero from position `n` on, up to position `n'` (behind the last of them). -/
inductive Nonzero (rand : ℕ → ℕ) : ℕ → List ℕ → ℕ → Prop where
  | done (n) : Nonzero rand n [] n
  | skip {n r rs n'} : rand n = 0 → Nonzero rand (n + 1) (r :: rs) n' → Nonzero rand n (r :: rs) n'
  | take {n rs n'} : rand n ≠ 0 → Nonzero rand (n + 1) rs n' → Nonzero rand n (rand n :: rs) n'

theorem Nonzero.first {rand : ℕ → ℕ} {n n' : ℕ} {l : List ℕ} (h : Nonzero rand n l n') : ∀ {r : ℕ} {rs : List ℕ}, l = r :: rs →
    ∃ i, (∀ j < i, rand (n + j) = 0) ∧ rand (n + i) ≠ 0 ∧ rand (n + i) = r ∧ Nonzero rand (n + i + 1) rs n' := by
  induction h with
  | done n => intro r rs h; cases h
  | @skip n r' rs' n' h0 hn ih =>
    intro r rs h
    obtain ⟨i, h1, h2, h3, h4⟩ := ih h
    refine ⟨i + 1, ?_, ?_, ?_, ?_⟩
    · intro j hj
      cases j with
      | zero => exact h0
      | succ j => rw [show n + (j + 1) = n + 1 + j by omega]; exact h1 j (by omega)
    · rw [show n + (i + 1) = n + 1 + i by omega]; exact h2
    · rw [show n + (i + 1) = n + 1 + i by omega]; exact h3
    · rw [show n + (i + 1) + 1 = n + 1 + i + 1 by omega]; exact h4
  | @take n rs' n' h0 hn ih =>
    intro r rs h
    simp only [List.cons.injEq] at h
    obtain ⟨h1, h2⟩ := h
    subst h2
    exact ⟨0, by intro j hj; omega, h0, h1, hn⟩

/-- `u` is the uniform draw of the raw number `r`. -/
def IsDraw (r : ℕ) (u : ℚ) : Prop := |u - (r : ℚ) / 2147483647| ≤ (r : ℚ) / 2147483647 / 2 ^ 53

/-- minus the sum of the logarithms. -/
noncomputable def negLogs (us : List ℚ) : ℝ := (us.map fun u : ℚ => |Real.log u|).sum

theorem expSum_RR {logD : ℚ → ℚ} (hlog : LogAccurate logD) {rand : ℕ → ℕ} (hr : ∀ i, rand i ≤ 2147483647) :
    ∀ (rs : List ℕ) (n n' : ℕ) (y : ℚ) (S : ℝ) (m : ℕ), Nonzero rand n rs n' → 1 ≤ m → RR m S y →
    ∃ (y' : ℚ) (us : List ℚ), expSumD logD rand rs.length y n = .ok y' n' ∧ List.Forall₂ IsDraw rs us ∧
      RR (m + rs.length) (S + negLogs us) y' := by
  intro rs
  induction rs with
  | nil =>
    intro n n' y S m hN _ h
    cases hN
    exact ⟨y, [], rfl, .nil, by simpa [negLogs] using h⟩
  | cons r rs ih =>
    intro n n' y S m hN hm h
    obtain ⟨i, h1, h2, h3, h4⟩ := hN.first rfl
    obtain ⟨x, u, e1, e2, e3, e4⟩ := (C149_exponential logD hlog rand hr n i h1 h2 1).2 (by norm_num)
    have hx : RR 1 |Real.log u| x := by
      refine RR.of_abs (abs_nonneg _) ?_
      have hu0 : Real.log u ≤ 0 := by
        by_contra hn
        -- the sample would be negative
        have h5 : 0 < Real.log u := not_le.1 hn
        rw [abs_of_pos h5, Rat.cast_one, mul_one, abs_of_nonneg (by have : (0:ℝ) ≤ x := by exact_mod_cast e2
                                                                    linarith)] at e4
        have : (0:ℝ) ≤ x := by exact_mod_cast e2
        norm_num at e4
        linarith
      rw [abs_of_nonpos hu0] at e4 ⊢
      rw [Rat.cast_one, mul_one] at e4
      rwa [sub_neg_eq_add]
    have hadd : RR m (S + |Real.log u|) ((y + x : ℚ) : ℝ) := by
      push_cast
      exact h.add (hx.mono hm)
    have hnn : (0:ℚ) ≤ y + x := by exact_mod_cast hadd.nonneg
    have hnext := hadd.trans (RR.fl hnn)
    obtain ⟨y', us, f1, f2, f3⟩ := ih (n + i + 1) n' _ _ (m + 1) h4 (by omega) hnext
    refine ⟨y', u :: us, ?_, .cons ?_ f2, ?_⟩
    · simp only [List.length_cons, expSumD, e1, Res.bind]
      exact f1
    · rw [h3] at e3; exact e3
    · have e : m + (r :: rs).length = m + 1 + rs.length := by simp only [List.length_cons]; omega
      rw [e]
      simpa [negLogs, add_assoc] using f3

/-- the quotient by the inverse scale. -/
theorem finish_RR {y z inv : ℚ} {S : ℝ} {k : ℕ} (h : RR k S ((y + z : ℚ) : ℝ)) (hi : 0 < inv) :
    0 ≤ fl53 (fl53 (y + z) / inv) ∧ RR (k + 2) S ((fl53 (fl53 (y + z) / inv) : ℚ) * inv) := by
  have h0 : (0:ℚ) ≤ y + z := by exact_mod_cast h.nonneg
  have h1 := h.trans (RR.fl h0)
  have h2 : (0:ℚ) ≤ fl53 (y + z) := by exact_mod_cast h1.nonneg
  have h3 : (0:ℚ) ≤ fl53 (y + z) / inv := by positivity
  have h4 := RR.fl h3
  have hR : (0:ℝ) < inv := by exact_mod_cast hi
  refine ⟨by exact_mod_cast h4.nonneg, ?_⟩
  suffices h5 : RR 1 (fl53 (y + z) : ℚ) ((fl53 (fl53 (y + z) / inv) : ℚ) * inv) from h1.trans h5
  refine ⟨by exact_mod_cast h2, ?_, ?_⟩
  · have := mul_le_mul_of_nonneg_right h4.2.1 hR.le
    push_cast at this
    rw [mul_right_comm, div_mul_cancel₀ _ hR.ne'] at this
    exact this
  · have := mul_le_mul_of_nonneg_right h4.2.2 hR.le
    push_cast at this
    rw [div_mul_cancel₀ _ hR.ne', mul_right_comm] at this
    exact this

end Dbl
end Verif
