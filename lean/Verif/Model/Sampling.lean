import Verif.Model.Small
import Verif.Model.Stats
import Mathlib.Analysis.SpecialFunctions.Log.Basic
import Mathlib.Analysis.SpecialFunctions.Pow.Real

/-!
# Random sampling

Models `/repo/incremental_calibration/include/aslam/calibration/statistics/Randomizer.tpp` and the `getSample` functions of
the distributions.  The C library's `random()` is an oracle: `rand n` is the `n`-th raw number it returns; the state of a
call is the number of raw numbers consumed so far.  Simplification: exact real arithmetic; the only infinities that are
kept are those a sampler can return.
-/

namespace Verif
namespace Sampling

/-- the two instances of `Randomizer<T, M>::Traits::round`, `Randomizer.tpp` 222-231: real and integer `T`. -/
inductive Kind where
  | real
  | integer
  deriving DecidableEq

/-- `sampleUniform()` with the default support `T(0)`, `T(1)` as a function of `random()`, `Randomizer.tpp` 85-95 and
`Randomizer.h` 74; for an integer type it is rounded to an integer. -/
def unit : Kind → Nat → ℚ
  | .real, r => uniformDraw r
  | .integer, r => (roundHalfUp (uniformDraw r * 1) : ℚ)

open Classical in
/-- A rejection loop that consumes `step` raw numbers per round: the position at which the round that is accepted starts,
`none` if no round is.  `Randomizer.tpp` 105-110, 144-148, 160-163, 175-178, 201-218. -/
noncomputable def firstRound (step : Nat) (accept : Nat → Prop) (n : Nat) : Option Nat :=
  if h : ∃ k, accept (n + step * k) then some (n + step * Nat.find h) else none

/-- `sampleExponential(rate)`, `Randomizer.tpp` 155-168. -/
noncomputable def exponential (k : Kind) (rand : Nat → Nat) (rate : ℝ) (n : Nat) : Res Nat ℝ :=
  if rate ≤ 0 then .throw .badArgument n
  else match firstRound 1 (fun i => unit k (rand i) ≠ 0) n with
    | none => .diverge
    | some i => .ok (-Real.log (unit k (rand i) : ℚ) / rate) (i + 1)

/-- `sampleGeometric(probability)`, `Randomizer.tpp` 170-184.  For `probability = 1` the quotient is `log(u) / -inf`, a
zero. -/
noncomputable def geometric (k : Kind) (rand : Nat → Nat) (p : ℝ) (n : Nat) : Res Nat Nat :=
  if p ≤ 0 ∨ p > 1 then .throw .badArgument n
  else match firstRound 1 (fun i => unit k (rand i) ≠ 0) n with
    | none => .diverge
    | some i => .ok (if p = 1 then 0 else ⌊Real.log (unit k (rand i) : ℚ) / Real.log (1 - p)⌋.toNat) (i + 1)

/-- the product of the `j` uniform draws from position `n` on, the variable `p` of `samplePoisson`.
`Randomizer.tpp` 144-148. -/
def prodFrom (k : Kind) (rand : Nat → Nat) (n : Nat) : Nat → ℚ
  | 0 => 1
  | j + 1 => prodFrom k rand n j * unit k (rand (n + j))

open Classical in
/-- `samplePoisson(mean)`, `Randomizer.tpp` 136-153: the loop body is executed `m + 1` times, the smallest number for which
the product is at most `exp(-mean)`. -/
noncomputable def poisson (k : Kind) (rand : Nat → Nat) (mean : ℝ) (n : Nat) : Res Nat Nat :=
  if mean ≤ 0 then .throw .badArgument n
  else if h : ∃ m, ¬ ((prodFrom k rand n (m + 1) : ℚ) : ℝ) > Real.exp (-mean) then .ok (Nat.find h) (n + Nat.find h + 1)
  else .diverge

/-- `u`, `v` and `s` of one round of `sampleNormal`, `Randomizer.tpp` 105-108. -/
def polarU (k : Kind) (rand : Nat → Nat) (i : Nat) : ℚ := 2 * unit k (rand i) - 1
/-- `s` of the round starting at `i`.  `Randomizer.tpp` 106-109. -/
def polarS (k : Kind) (rand : Nat → Nat) (i : Nat) : ℚ :=
  polarU k rand i * polarU k rand i + polarU k rand (i + 1) * polarU k rand (i + 1)

/-- `sampleNormal(mean, variance)`, `Randomizer.tpp` 97-113, for a real type; for an integer type the same value before the
final rounding (which is never reached, see `C67_integer_normal_never_returns`). -/
noncomputable def normal (k : Kind) (rand : Nat → Nat) (mean variance : ℝ) (n : Nat) : Res Nat ℝ :=
  if variance ≤ 0 then .throw .badArgument n
  else match firstRound 2 (fun i => ¬ (polarS k rand i ≥ 1 ∨ polarS k rand i = 0)) n with
    | none => .diverge
    | some i => .ok (mean + √variance * (polarU k rand i : ℚ) *
        √(-2 * Real.log (polarS k rand i : ℚ) / (polarS k rand i : ℚ))) (i + 2)

/-- the loop of `NormalDistribution<M>::getSample`, `NormalDistributionMv.tpp` 162-168: `m` standard normal samples. -/
noncomputable def normals (rand : Nat → Nat) : Nat → Nat → Res Nat (List ℝ)
  | 0, n => .ok [] n
  | m + 1, n => (normal .real rand 0 1 n).bind fun x n' => (normals rand m n').bind fun xs n'' => .ok (x :: xs) n''

/-- `NormalDistribution<M>::getSample()`, `NormalDistributionMv.tpp` 160-169; `L` is the Cholesky factor. -/
noncomputable def normalMv {d : Nat} (rand : Nat → Nat) (mean : Fin d → ℝ) (L : Matrix (Fin d) (Fin d) ℝ) (n : Nat) :
    Res Nat (Fin d → ℝ) :=
  (normals rand d n).bind fun zs n' => .ok (fun i => mean i + L.mulVec (fun j => zs.getD j 0) i) n'

/-- the loop of the integral part of `sampleGamma`, `Randomizer.tpp` 200-201. -/
noncomputable def expSum (k : Kind) (rand : Nat → Nat) : Nat → ℝ → Nat → Res Nat ℝ
  | 0, y, n => .ok y n
  | m + 1, y, n => (exponential k rand 1 n).bind fun x n' => expSum k rand m (y + x) n'

/-- `z` of one round of the rejection loop of `sampleGamma`, `Randomizer.tpp` 206-217, from the draw `q` and the fractional
part `f`; `none` is the infinity `-log(0)`. -/
noncomputable def gammaZ (f : ℝ) (q : ℝ) : Option ℝ :=
  let b := (Real.exp 1 + f) / Real.exp 1
  let p := b * q
  if p > 1 then (if b - p = 0 then none else some (-Real.log ((b - p) / f))) else some (p ^ (1 / f))

/-- acceptance test of that round with the second draw `u`: not `u > pow(z, f - 1)` or not `u > exp(-z)`.  The fractional
part is below one, so the infinity raised to `f - 1` is zero. -/
noncomputable def gammaAccept (f : ℝ) (q u : ℝ) : Prop :=
  let b := (Real.exp 1 + f) / Real.exp 1
  if b * q > 1 then (match gammaZ f q with | none => ¬ u > 0 | some z => ¬ u > z ^ (f - 1))
  else (match gammaZ f q with | none => False | some z => ¬ u > Real.exp (-z))

/-- `sampleGamma(shape, invScale)`, `Randomizer.tpp` 186-220; `none` is the infinity. -/
noncomputable def gamma (rand : Nat → Nat) (shape invScale : ℝ) (n : Nat) : Res Nat (Option ℝ) :=
  if shape ≤ 0 then .throw .badArgument n
  else if invScale ≤ 0 then .throw .badArgument n
  else (expSum .real rand ⌊shape⌋.toNat 0 n).bind fun y n' =>
    let f := shape - (⌊shape⌋.toNat : ℝ)
    if |f| > 1 / 2 ^ 52 then
      match firstRound 2 (fun i => gammaAccept f (unit .real (rand i) : ℚ) (unit .real (rand (i + 1)) : ℚ)) n' with
      | none => .diverge
      | some i => .ok ((gammaZ f (unit .real (rand i) : ℚ)).map fun z => (y + z) / invScale) (i + 2)
    else .ok (some ((y + 0) / invScale)) n'

/-! ## Seeding -/

/-- The process-wide state: the C library generator, which instances `Randomizer<T, M>` have their function-local static
`seeded` set (`Randomizer.tpp` 70) and which distributions have constructed their function-local static randomizer
(e.g. `NormalDistribution1v.cpp` 126). -/
structure Proc (G : Type) where
  gen : G
  seeded : Nat → Bool
  inited : Nat → Bool

/-- The C library's `srandom` and `random`.  Called at `Randomizer.tpp` 66, 75, 78, 93. -/
structure Lib (G : Type) where
  srandom : Nat → G
  random : G → Nat × G

variable {G : Type}

/-- `getSeed()` of instance `i`, `Randomizer.tpp` 69-78; `clock` is the microsecond part of the time. -/
def getSeed (lib : Lib G) (clock : Nat) (i : Nat) (p : Proc G) : Nat × Proc G :=
  let p := if p.seeded i then p else { p with gen := lib.srandom clock, seeded := fun j => if j = i then true else p.seeded j }
  ((lib.random p.gen).1, { p with gen := (lib.random p.gen).2 })

/-- What a program can do: construct a randomizer of instance `i` with its own seed (`Randomizer.tpp` 17-19), construct one
with the default argument, set its seed (`Randomizer.tpp` 63-66), draw from it, or draw a sample from a distribution whose
static randomizer is the one of number `d` and instance `i`. -/
inductive Act where
  | construct (i : Nat) (seed : Nat)
  | constructDefault (i : Nat)
  | setSeed (i : Nat) (seed : Nat)
  | draw (i : Nat)
  | getSample (d i : Nat)

/-- One action; the result is the raw number drawn.
(Model glue: dispatches to the functions modelled above; no lines of its own.) -/
def Act.run (lib : Lib G) (clock : Nat) (p : Proc G) : Act → Option Nat × Proc G
  | .construct _ _ => (none, p)
  | .constructDefault i => (none, (getSeed lib clock i p).2)
  | .setSeed _ s => (none, { p with gen := lib.srandom s })
  | .draw _ => (some (lib.random p.gen).1, { p with gen := (lib.random p.gen).2 })
  | .getSample d i =>
    let p := if p.inited d then p else
      { (getSeed lib clock i p).2 with inited := fun j => if j = d then true else p.inited j }
    (some (lib.random p.gen).1, { p with gen := (lib.random p.gen).2 })

/-- A program run: the raw numbers drawn.  `clock` gives the time of every action.
(Model glue: dispatches to the functions modelled above; no lines of its own.) -/
def runActs (lib : Lib G) : List (Nat × Act) → Proc G → List Nat
  | [], _ => []
  | (c, a) :: as, p => (a.run lib c p).1.toList ++ runActs lib as (a.run lib c p).2

end Sampling
end Verif
