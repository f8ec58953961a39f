import Verif.Props.Samples
import Verif.Props.SamplingIdeal

/-!
# C130: the law of many samples
-/

namespace Verif
open Samples MeasureTheory

/-- `getSamples` as a sampler of lists: the contents of the vector it leaves, if it returns. -/
def vectorOf {X : Type} (s : Ideal.Stream → ℕ → Res ℕ X) (maxSize k : ℕ) (u : Ideal.Stream) (n : ℕ) : Res ℕ (List X) :=
  match getSamples (s u) maxSize k ([], n) with
  | .ok _ (v, m) => .ok v m
  | .throw e (_, m) => .throw e m
  | .ub => .ub
  | .diverge => .diverge

theorem loop_calls {X : Type} (s : Ideal.Stream → ℕ → Res ℕ X) (u : Ideal.Stream) (k : ℕ) (v : List X) (n : ℕ) :
    (match loop (s u) k v n with
      | .ok _ (w, m) => Res.ok w m
      | .throw e (_, m) => .throw e m
      | .ub => .ub
      | .diverge => .diverge) = (Ideal.calls s k u n).bind fun xs m => .ok (v ++ xs) m := by
  induction k generalizing v n with
  | zero => simp [loop, Ideal.calls, Res.bind]
  | succ k ih =>
    unfold loop Ideal.calls
    cases hd : s u n with
    | ok x n' =>
      simp only [Res.bind]
      rw [ih]
      cases Ideal.calls s k u n' <;> simp [Res.bind]
    | throw e n' => rfl
    | ub => rfl
    | diverge => rfl

/-- **C130, law.**  If one draw of a distribution has a law (under independent uniform raw numbers), the entries of the vector
`getSamples` delivers are independent and have that law. -/
theorem C130_law {X β : Type} [MeasurableSpace β] {s : Ideal.Stream → ℕ → Res ℕ X} {emb : β → X} {ν : Measure β}
    [IsProbabilityMeasure ν] (h : Ideal.Samples s emb ν) (maxSize k : ℕ) (hk : k ≤ maxSize) :
    Ideal.Samples (vectorOf s maxSize k) (fun x : Fin k → β => List.ofFn fun i => emb (x i))
      (Measure.pi fun _ : Fin k => ν) := by
  have : vectorOf s maxSize k = Ideal.calls s k := by
    funext u n
    unfold vectorOf getSamples
    rw [if_neg (not_lt.mpr hk)]
    have := loop_calls s u k [] n
    simp only at this ⊢
    rw [this]
    cases Ideal.calls s k u n <;> simp [Res.bind]
  rw [this]
  exact Ideal.C111_repeated_calls h k

/-- Non-vacuity: ten standard normal samples. -/
example : Ideal.Samples (vectorOf (Ideal.normal 0 1) 1000 10) (fun x : Fin 10 → ℝ => List.ofFn fun i => id (x i))
    (Measure.pi fun _ : Fin 10 => ProbabilityTheory.gaussianReal 0 (1 : ℝ).toNNReal) :=
  C130_law (Ideal.C111_normal one_pos) 1000 10 (by norm_num)

end Verif
