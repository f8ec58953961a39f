import Verif.Model.Sampling

/-!
# The samplers as functions of a stream of uniform numbers

The same functions as in `Sampling.lean`, `/repo/incremental_calibration/include/aslam/calibration/statistics/Randomizer.tpp`
(line numbers without file name refer to it), for a real type, with the calls of `sampleUniform()` answered by an arbitrary
stream `u` of real numbers instead of multiples of `1 / RAND_MAX`: `u n` is the answer of the `n`-th call.  The state is the
number of calls made so far.  `Props/SamplingIdeal.lean` proves that the samplers of `Sampling.lean` are these at the stream
the C library produces.  Simplification: exact real arithmetic.
-/

namespace Verif
namespace Ideal

open Sampling

/-- the answers of the calls of `sampleUniform()`.  `Randomizer.tpp` 86-95. -/
abbrev Stream := ℕ → ℝ

/-- `sampleUniform(minSupport, maxSupport)`, 85-95, for a real type. -/
noncomputable def uniform (a b : ℝ) (u : Stream) (n : ℕ) : Res ℕ ℝ :=
  if a ≥ b then .throw .badArgument n else .ok (a + u n * (b - a)) (n + 1)

/-- `sampleUniform(minSupport, maxSupport)`, 85-95, for an integer type (`round`, 228-231, is half away from zero, of a
number that is not negative). -/
noncomputable def uniformInt (a b : ℤ) (u : Stream) (n : ℕ) : Res ℕ ℤ :=
  if a ≥ b then .throw .badArgument n else .ok (a + ⌊u n * ((b - a : ℤ) : ℝ) + 1 / 2⌋) (n + 1)

/-- `sampleExponential(rate)`, 155-168. -/
noncomputable def exponential (rate : ℝ) (u : Stream) (n : ℕ) : Res ℕ ℝ :=
  if rate ≤ 0 then .throw .badArgument n
  else match firstRound 1 (fun i => u i ≠ 0) n with
    | none => .diverge
    | some i => .ok (-Real.log (u i) / rate) (i + 1)

/-- `sampleGeometric(probability)`, 170-184; for `probability = 1` the quotient is `log(u) / -inf`, a zero. -/
noncomputable def geometric (p : ℝ) (u : Stream) (n : ℕ) : Res ℕ ℕ :=
  if p ≤ 0 ∨ p > 1 then .throw .badArgument n
  else match firstRound 1 (fun i => u i ≠ 0) n with
    | none => .diverge
    | some i => .ok (if p = 1 then 0 else ⌊Real.log (u i) / Real.log (1 - p)⌋.toNat) (i + 1)

/-- the product of `j` draws from position `n` on, the variable `p` of 145-150. -/
noncomputable def prodFrom (u : Stream) (n : ℕ) : ℕ → ℝ
  | 0 => 1
  | j + 1 => prodFrom u n j * u (n + j)

open Classical in
/-- `samplePoisson(mean)`, 136-153: the body is executed `m + 1` times, the smallest number for which the product is at most
`exp(-mean)`. -/
noncomputable def poisson (mean : ℝ) (u : Stream) (n : ℕ) : Res ℕ ℕ :=
  if mean ≤ 0 then .throw .badArgument n
  else if h : ∃ m, ¬ prodFrom u n (m + 1) > Real.exp (-mean) then .ok (Nat.find h) (n + Nat.find h + 1)
  else .diverge

/-- `u` of one round of `sampleNormal` from one draw, 105-106. -/
noncomputable def polar (x : ℝ) : ℝ := 2 * x - 1

/-- `s` of one round of `sampleNormal` from two draws, 107. -/
noncomputable def polarS (x y : ℝ) : ℝ := polar x * polar x + polar y * polar y

/-- `sampleNormal(mean, variance)`, 97-113. -/
noncomputable def normal (mean variance : ℝ) (u : Stream) (n : ℕ) : Res ℕ ℝ :=
  if variance ≤ 0 then .throw .badArgument n
  else match firstRound 2 (fun i => ¬ (polarS (u i) (u (i + 1)) ≥ 1 ∨ polarS (u i) (u (i + 1)) = 0)) n with
    | none => .diverge
    | some i => .ok (mean + √variance * polar (u i) *
        √(-2 * Real.log (polarS (u i) (u (i + 1))) / polarS (u i) (u (i + 1)))) (i + 2)

/-- the loop of `NormalDistribution<M>::getSample`, `NormalDistributionMv.tpp` 165-166: `m` standard normal samples. -/
noncomputable def normals (u : Stream) : ℕ → ℕ → Res ℕ (List ℝ)
  | 0, n => .ok [] n
  | m + 1, n => (normal 0 1 u n).bind fun x n' => (normals u m n').bind fun xs n'' => .ok (x :: xs) n''

/-- `NormalDistribution<M>::getSample()`, `NormalDistributionMv.tpp` 160-169; `L` is the Cholesky factor. -/
noncomputable def normalMv {d : ℕ} (mean : Fin d → ℝ) (L : Matrix (Fin d) (Fin d) ℝ) (u : Stream) (n : ℕ) :
    Res ℕ (Fin d → ℝ) :=
  (normals u d n).bind fun zs n' => .ok (fun i => mean i + L.mulVec (fun j => zs.getD j 0) i) n'

/-- the loop of `UniformDistribution<X, M>::getSample()`, `UniformDistributionMv.tpp` 136-137, over the pairs of bounds. -/
noncomputable def uniforms (u : Stream) : List (ℝ × ℝ) → ℕ → Res ℕ (List ℝ)
  | [], n => .ok [] n
  | (a, b) :: l, n => (uniform a b u n).bind fun x n' => (uniforms u l n').bind fun xs n'' => .ok (x :: xs) n''

/-- the loop of `sampleCategorical`, 126-130, over the probabilities from index `i` on; the draw is `x`. -/
noncomputable def categoricalLoop (x : ℝ) : List ℝ → ℝ → ℕ → ℕ
  | [], _, i => i - 1
  | p :: ps, sum, i => if x > sum then categoricalLoop x ps (sum + p) (i + 1) else i - 1

open Classical in
/-- `sampleCategorical(probabilities)`, 115-133; reading the first entry of an empty vector is undefined, but its sum is
already rejected. -/
noncomputable def categorical (probs : List ℝ) (u : Stream) (n : ℕ) : Res ℕ ℕ :=
  if |probs.sum - 1| > 1 / 1000000000000 ∨ ∃ p ∈ probs, p < 0 then .throw .badArgument n
  else match probs with
    | [] => .ub
    | p0 :: ps => .ok (categoricalLoop (u n) ps p0 1) (n + 1)

/-- the loop of the integral part of `sampleGamma`, 200-201. -/
noncomputable def expSum (u : Stream) : ℕ → ℝ → ℕ → Res ℕ ℝ
  | 0, y, n => .ok y n
  | m + 1, y, n => (exponential 1 u n).bind fun x n' => expSum u m (y + x) n'

/-- `sampleGamma(shape, invScale)`, 186-220; `none` is the infinity `-log(0)`. -/
noncomputable def gamma (shape invScale : ℝ) (u : Stream) (n : ℕ) : Res ℕ (Option ℝ) :=
  if shape ≤ 0 then .throw .badArgument n
  else if invScale ≤ 0 then .throw .badArgument n
  else (expSum u ⌊shape⌋.toNat 0 n).bind fun y n' =>
    let f := shape - (⌊shape⌋.toNat : ℝ)
    if |f| > 1 / 2 ^ 52 then
      match firstRound 2 (fun i => gammaAccept f (u i) (u (i + 1))) n' with
      | none => .diverge
      | some i => .ok ((gammaZ f (u i)).map fun z => (y + z) / invScale) (i + 2)
    else .ok (some ((y + 0) / invScale)) n'

end Ideal
end Verif
