import Verif.Model.Sampling

/-!
# Drawing many samples

Models `SampleDistribution<X>::getSamples`
(`/repo/incremental_calibration/include/aslam/calibration/statistics/SampleDistribution.tpp`) and the `getSample` functions of
the uniform distributions.  The state of a draw is, as in `Model/Sampling.lean`, the number of raw numbers consumed so far.
Simplification: the raw number consumed by the construction of the function-local static randomizer at the first draw is
taken to have been consumed before (it is modelled in `Sampling.Act`).
-/

namespace Verif
namespace Samples

/-- the loop of `getSamples`, `SampleDistribution.tpp` 26-27: `k` iterations; `v` is the caller's vector.  The state is the
vector and the position in the raw sequence. -/
def loop {X : Type} (draw : Nat → Res Nat X) : Nat → List X → Nat → Res (List X × Nat) Unit
  | 0, v, n => .ok () (v, n)
  | k + 1, v, n =>
    match draw n with
    | .ok x n' => loop draw k (v ++ [x]) n'
    | .throw e n' => .throw e (v, n')
    | .ub => .ub
    | .diverge => .diverge

/-- `getSamples(samples, numSamples)`, `SampleDistribution.tpp` 21-28: the vector is cleared, `reserve` refuses a number
above `maxSize` (`std::length_error`), and the loop.  Simplification: memory is not exhausted below `maxSize`. -/
def getSamples {X : Type} (draw : Nat → Res Nat X) (maxSize k : Nat) (s : List X × Nat) : Res (List X × Nat) Unit :=
  if k > maxSize then .throw .external ([], s.2) else loop draw k [] s.2

/-- `Randomizer<double>::sampleUniform(min, max)`, `Randomizer.tpp` 85-95. -/
noncomputable def uniformReal (rand : Nat → Nat) (a b : ℝ) (n : Nat) : Res Nat ℝ :=
  if a ≥ b then .throw .badArgument n else .ok (a + (uniformDraw (rand n) : ℚ) * (b - a)) (n + 1)

/-- the loop of `UniformDistribution<X, M>::getSample`, `UniformDistributionMv.tpp` 136-137, real type: `k` iterations from
coordinate `i`. -/
noncomputable def uniformLoop (rand : Nat → Nat) (mn mx : Nat → ℝ) : Nat → Nat → Nat → Res Nat (List ℝ)
  | 0, _, n => .ok [] n
  | k + 1, i, n =>
    (uniformReal rand (mn i) (mx i) n).bind fun x n' =>
      (uniformLoop rand mn mx k (i + 1) n').bind fun xs n'' => .ok (x :: xs) n''

/-- the `i`-th coordinate of a support corner (`0` beyond the dimension, where the loop does not read).
`UniformDistributionMv.tpp` 137. -/
noncomputable def coord {d : Nat} (v : Fin d → ℝ) (i : Nat) : ℝ := if h : i < d then v ⟨i, h⟩ else 0

/-- `UniformDistribution<X, M>::getSample()`, `UniformDistributionMv.tpp` 131-139, real type. -/
noncomputable def uniformMv {d : Nat} (rand : Nat → Nat) (u : Uniformd d) (n : Nat) : Res Nat (Fin d → ℝ) :=
  (uniformLoop rand (coord u.mn) (coord u.mx) d 0 n).bind fun xs n' => .ok (fun i => xs.getD i 0) n'

/-- `UniformDistribution<X>::getSample()` for an integer type, `UniformDistribution1v.tpp` 129-134. -/
def uniformInt (rand : Nat → Nat) (u : Uniform1 Int) (n : Nat) : Res Nat Int :=
  match sampleUniformInt (rand n) u.mn u.mx with
  | .ok x _ => .ok x (n + 1)
  | .throw e _ => .throw e n
  | .ub => .ub
  | .diverge => .diverge

end Samples
end Verif
