import Verif.Model.Traits
import Verif.Props.Sampling
import Mathlib.MeasureTheory.Integral.IntervalIntegral.Basic
import Mathlib.Analysis.SpecialFunctions.Integrals.Basic

/-!
# C142: which variant of the templates a type gets
-/

namespace Verif
namespace Traits
open Sampling (Kind)
open MeasureTheory

/-- **C142, the logic of the traits.** -/
theorem C142_logic (a b : Bool) (s t : CType) :
    (tNot a = true ↔ ¬ a = true) ∧ (tAnd a b = true ↔ a = true ∧ b = true) ∧ (tOr a b = true ↔ a = true ∨ b = true) ∧
    (equals s t = true ↔ s = t) ∧ (∀ {α : Type} (x y : α), (a = true → ifThenElse a x y = x) ∧ (¬ a = true → ifThenElse a x y = y)) ∧
    (isVoid t = true ↔ t = .void) ∧
    (isNumeric t = true ↔ t = .float ∨ t = .double ∨ t = .int ∨ t = .uint ∨ t = .long ∨ t = .ulong) ∧
    (isReal t = true ↔ t = .float ∨ t = .double) := by
  refine ⟨by cases a <;> simp [tNot], by cases a <;> cases b <;> simp [tAnd], by cases a <;> cases b <;> simp [tOr],
    by simp [equals], fun x y => by cases a <;> simp [ifThenElse], by cases t <;> simp [isVoid],
    by cases t <;> simp [isNumeric], by cases t <;> simp [isReal]⟩

/-- **C142, exactly one variant**: for every type each call of a trait function resolves to exactly one overload, the distribution is
continuous exactly if that is the one for real types. -/
theorem C142_one_variant (t : CType) :
    ∃ k, resolve t = some k ∧ (k = .real ↔ t = .float ∨ t = .double) ∧ (continuousBase t = true ↔ k = .real) := by
  cases t <;>
    first
    | exact ⟨.real, rfl, by simp, by simp [continuousBase, ifThenElse, isReal]⟩
    | exact ⟨.integer, rfl, by simp, by simp [continuousBase, ifThenElse, isReal]⟩

/-- **C142** (partial): for the arithmetic types other than `long double`, the variant for real types is chosen for the floating
point types and the one for integers for the integer types.  Missing: `long double` (`C142_long_double`). -/
theorem C142_variant_partial (t : CType) (hl : t ≠ .longDouble) :
    (t.Floating → resolve t = some .real) ∧ (t.Integral → resolve t = some .integer) := by
  constructor
  · rintro (rfl | rfl | rfl)
    · rfl
    · rfl
    · exact absurd rfl hl
  · rintro (rfl | rfl | rfl | rfl | rfl | rfl | rfl | rfl | rfl | rfl | rfl | rfl) <;> rfl

/-- the integral of the density over the support. -/
theorem pdf_integral (k : Kind) {a b : ℝ} (h : a < b) : ∫ x in a..b, pdf k a b x = (b - a) / area k a b := by
  have : ∫ x in a..b, pdf k a b x = ∫ _ in a..b, 1 / area k a b := by
    apply intervalIntegral.integral_congr
    intro x hx
    rw [Set.uIcc_of_le h.le] at hx
    show pdf k a b x = _
    unfold pdf
    rw [if_pos ⟨hx.1, hx.2⟩]
  rw [this, intervalIntegral.integral_const, smul_eq_mul]
  ring

/-- **C142, what it means for `float` and `double`**: the density integrates to one, the samples are the affine images of the uniform
draws, a grid has as many cells as needed to cover the range. -/
theorem C142_real {t : CType} (ht : t = .float ∨ t = .double) :
    ∃ k, resolve t = some k ∧ (∀ a b : ℝ, a < b → ∫ x in a..b, pdf k a b x = 1) ∧
      (∀ r (a b : ℚ), a < b → sampleUniform k r a b = .ok (a + (r : ℚ) / 2147483647 * (b - a)) ()) ∧
      ∀ x : ℚ, x ≤ gridCells k x ∧ ∀ n : ℤ, x ≤ n → gridCells k x ≤ n := by
  refine ⟨.real, by rcases ht with rfl | rfl <;> rfl, ?_, ?_, ?_⟩
  · intro a b h
    rw [pdf_integral _ h]
    exact div_self (sub_pos.2 h).ne'
  · intro r a b h
    simp only [sampleUniform, sampleUniformReal, uniformDraw]
    rw [if_neg (not_le.2 h)]
  · intro x
    exact ⟨Int.le_ceil x, fun n hn => Int.ceil_le.2 hn⟩

/-- **C142** (negation): `long double` is a floating point type but gets the variants for integers.  So its uniform density does not
integrate to one, uniform samples differ from the lower bound of the support by an integer and can leave the support, normal samples
are never returned, and a grid has one more cell than needed. -/
theorem C142_long_double :
    CType.longDouble.Floating ∧ ∃ k, resolve .longDouble = some k ∧
      (∀ a b : ℝ, a < b → ∫ x in a..b, pdf k a b x < 1) ∧
      (∀ r (a b x : ℚ), sampleUniform k r a b = .ok x () → ∃ n : ℤ, x = a + n) ∧
      (∃ r x, r ≤ 2147483647 ∧ sampleUniform k r 0 (1 / 2) = .ok x () ∧ 1 / 2 < x) ∧
      (∀ (rand : Nat → Nat) (mean variance : ℝ) (n : Nat), (∀ i, rand i ≤ 2147483647) → 0 < variance →
        Sampling.normal k rand mean variance n = .diverge) ∧
      ∀ x : ℚ, ∃ n : ℤ, x ≤ n ∧ n < gridCells k x := by
  refine ⟨.inr (.inr rfl), .integer, rfl, ?_, ?_, ?_, ?_, ?_⟩
  · intro a b h
    rw [pdf_integral _ h]
    have : 0 < b - a := sub_pos.2 h
    simp only [area]
    rw [div_lt_one (by linarith)]
    linarith
  · intro r a b x h
    simp only [sampleUniform] at h
    split at h
    · cases h
    · cases h
      exact ⟨_, rfl⟩
  · refine ⟨2147483647, 1, le_refl _, ?_, by norm_num⟩
    simp only [sampleUniform, uniformDraw, roundHalfUp]
    norm_num
  · intro rand mean variance n hr hv
    exact Sampling.C67_integer_normal_never_returns rand hr mean variance hv n
  · intro x
    refine ⟨⌈x⌉, Int.le_ceil x, ?_⟩
    simp [gridCells]

/-- cases: a constant `double` is not a real type, a `short` is handled but not numeric. -/
example : resolve (.const .double) = some .integer ∧ resolve .short = some .integer ∧ isNumeric .short = false := ⟨rfl, rfl, rfl⟩

end Traits
end Verif
