import Verif.Model.SamplingIdeal
import Mathlib.Probability.ProductMeasure
import Mathlib.MeasureTheory.Constructions.BorelSpace.Real
import Mathlib.MeasureTheory.Measure.Lebesgue.Basic

/-!
# Specification: what it means that a sampler has a distribution

The stream of uniform numbers is random: its entries are independent and uniform on `[0, 1]`.  A sampler has the
distribution `ν` if with probability one it returns, its result has the law `ν`, and the draws it leaves over are again
independent, uniform and independent of the result, so that the next call starts afresh.
-/

namespace Verif
namespace Ideal

open MeasureTheory

/-- the uniform distribution on `[0, 1]`. -/
noncomputable def unif : Measure ℝ := volume.restrict (Set.Icc 0 1)

instance : IsProbabilityMeasure unif := ⟨by simp [unif]⟩

/-- independent uniform numbers. -/
noncomputable def Draws : Measure Stream := Measure.infinitePi fun _ : ℕ => unif

instance : IsProbabilityMeasure Draws := by unfold Draws; infer_instance

/-- the stream that is left after `n` draws. -/
def rest (n : ℕ) (u : Stream) : Stream := fun i => u (n + i)

/-- The sampler `s` has the distribution `ν` (of values written as `emb x`). -/
structure Samples {α β : Type} [MeasurableSpace β] (s : Stream → ℕ → Res ℕ α) (emb : β → α) (ν : Measure β) : Prop where
  /-- a call sees nothing but the draws that are left. -/
  fresh : ∀ u n, s u n = (s (rest n u) 0).mapState (n + ·)
  /-- it returns with probability one; result and remaining draws are independent with the stated laws. -/
  law : ∃ (X : Stream → β) (N : Stream → ℕ), Measurable X ∧ Measurable N ∧
    (∀ᵐ u ∂Draws, s u 0 = .ok (emb (X u)) (N u)) ∧
    Draws.map (fun u => (X u, rest (N u) u)) = ν.prod Draws

/-- `m` successive calls of a sampler. -/
def calls {α : Type} (s : Stream → ℕ → Res ℕ α) : ℕ → Stream → ℕ → Res ℕ (List α)
  | 0, _, n => .ok [] n
  | m + 1, u, n => (s u n).bind fun x n' => (calls s m u n').bind fun xs n'' => .ok (x :: xs) n''

end Ideal
end Verif
