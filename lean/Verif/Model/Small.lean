import Verif.Model.Prelude
import Verif.Model.Grid
import Mathlib.Analysis.SpecialFunctions.Log.Base
import Mathlib.Data.Nat.Factorial.Basic

/-!
# Small components: vector design variables, categorical sampling, log-factorial, time stamps, matrix operations
-/

namespace Verif

/-! ## `VectorDesignVariable<M>` -/

/-- `VectorDesignVariable.h` 110-116: current and previous value.  `D` is the type of the entries. -/
structure VecDV (D : Type) where
  value : List D
  old : List D
  deriving DecidableEq, Repr

namespace VecDV
variable {D : Type}

/-- constructor, `VectorDesignVariable.tpp` 16-19. -/
def mk0 (v : List D) : VecDV D := ⟨v, v⟩

/-- `setValue`, `VectorDesignVariable.tpp` 75-79. -/
def setValue (s : VecDV D) (v : List D) : VecDV D := ⟨v, s.value⟩

/-- `updateImplementation`, `VectorDesignVariable.tpp` 90-96; adding vectors of different sizes fails an Eigen
assertion (`ub`).  `add` is the addition of the entries. -/
def update (add : D → D → D) (s : VecDV D) (dp : List D) : Res (VecDV D) Unit :=
  if dp.length = s.value.length then .ok () ⟨List.zipWith add s.value dp, s.value⟩ else .ub

/-- `revertUpdateImplementation`, `VectorDesignVariable.tpp` 98-101. -/
def revert (s : VecDV D) : VecDV D := ⟨s.old, s.old⟩

/-- `getParametersImplementation`, `VectorDesignVariable.tpp` 103-107: the value as a matrix (list of columns). -/
def getParameters (s : VecDV D) : List (List D) := [s.value]

/-- `setParametersImplementation`, `VectorDesignVariable.tpp` 109-117 (the matrix as a list of columns of length
`rows`). -/
def setParameters (s : VecDV D) (rows : Nat) (m : List (List D)) : Res (VecDV D) Unit :=
  if m.length ≠ 1 ∨ rows ≠ s.value.length then .throw .outOfBound s
  else .ok () ⟨m.headD [], s.value⟩

/-- `minimalDimensionsImplementation`, `VectorDesignVariable.tpp` 85-88. -/
def minimalDimensions (s : VecDV D) : Nat := s.value.length

end VecDV

/-! ## `Randomizer::sampleCategorical` -/

/-- the loop of `sampleCategorical`, `Randomizer.tpp` 127-132: `sum` so far, next index `i`. -/
def categoricalLoop (u : ℚ) : List ℚ → ℚ → Nat → Nat
  | [], _, i => i - 1
  | p :: ps, sum, i => if u > sum then categoricalLoop u ps (sum + p) (i + 1) else i - 1

/-- `sampleCategorical(probabilities)` as a function of the uniform draw `u`, `Randomizer.tpp` 115-133.
Simplification: exact arithmetic. -/
def sampleCategorical (probs : List ℚ) (u : ℚ) : Res Unit Nat :=
  if |probs.sum - 1| > 1 / 1000000000000 ∨ probs.any (fun p => decide (p < 0)) then .throw .badArgument ()
  else match probs with
    | [] => .ub
    | p0 :: ps => .ok (categoricalLoop u ps p0 1) ()

/-- the uniform draw: `random() / (double) RAND_MAX`, `Randomizer.tpp` 92-93 with the default support `[0, 1]`
(exact division). -/
def uniformDraw (r : Nat) : ℚ := r / 2147483647

/-- `sampleUniform(minSupport, maxSupport)` for a real type as a function of `random()`, `Randomizer.tpp` 85-95. -/
def sampleUniformReal (r : Nat) (a b : ℚ) : Res Unit ℚ :=
  if a ≥ b then .throw .badArgument () else .ok (a + uniformDraw r * (b - a)) ()

/-- `::round`: half away from zero (for the non-negative argument it is called with).
Called at `Randomizer.tpp` 230. -/
def roundHalfUp (x : ℚ) : Int := ⌊x + 1 / 2⌋

/-- `sampleUniform(minSupport, maxSupport)` for an integer type, `Randomizer.tpp` 85-95, 228-231. -/
def sampleUniformInt (r : Nat) (a b : Int) : Res Unit Int :=
  if a ≥ b then .throw .badArgument () else .ok (a + roundHalfUp (uniformDraw r * ((b - a : Int) : ℚ))) ()

/-! ## `LogFactorialFunction`, `LogGammaFunction<size_t>` -/

/-- loop of `LogFactorialFunction::getValue`, `LogFactorialFunction.cpp` 30-31: `k` iterations from `x`. -/
noncomputable def logFactLoop : Nat → Nat → ℝ → ℝ
  | 0, _, value => value
  | k + 1, x, value => logFactLoop k (x + 1) (value + Real.log (x + 1))

/-- `LogFactorialFunction::getValue`, `LogFactorialFunction.cpp` 27-36.  Simplification: real arithmetic. -/
noncomputable def logFactorial (n : Nat) : ℝ := if n ≠ 0 then logFactLoop (n - 1) 1 0 else 0

/-- `LogGammaFunction<size_t>::getValue`, `LogGammaFunction.cpp` 29-38. -/
noncomputable def logGammaNat (n : Nat) : Res Unit ℝ :=
  if n ≠ 0 then .ok (logFactorial (n - 1)) () else .throw .badArgument ()

/-! ## `Timestamp` -/

/-- `Timestamp::operator timespec()`, `Timestamp.cpp` 94-99 (exact arithmetic). -/
def toTimespec (s : ℚ) : Int × Int := (truncQ s, truncQ ((s - truncQ s) * 1000000000))

/-! ## `matrixOperations` -/

/-- loop of `computeSumLogDiagR`, `matrixOperations.tpp` 35-39: `k` iterations from row/column `i`.  `R i i` outside
the matrix (`rows`) is undefined behaviour. -/
noncomputable def sumLogLoop (R : Nat → Nat → ℝ) (rows : Nat) : Nat → Nat → ℝ → Res Unit ℝ
  | 0, _, s => .ok s ()
  | k + 1, i, s =>
    if i < rows then
      if |R i i| > 1 / 2 ^ 52 then sumLogLoop R rows k (i + 1) (s + Real.logb 2 |R i i|)
      else sumLogLoop R rows k (i + 1) s
    else .ub

/-- `checkColumnIndices` and `computeSumLogDiagR`, `matrixOperations.tpp` 17-41. -/
noncomputable def computeSumLogDiagR (R : Nat → Nat → ℝ) (rows cols b e : Nat) : Res Unit ℝ :=
  if b ≥ e then .throw .outOfBound ()
  else if e ≥ cols then .throw .outOfBound ()
  else sumLogLoop R rows (e + 1 - b) b 0

end Verif
