import Verif.Spec.Traits
import Verif.Model.Sampling

/-!
# Type traits and the variants they select

`TPL` is `/repo/incremental_calibration/include/aslam/calibration/tpl`.  Types are values of `CType`; a template struct with a
member `Result` is a function to `Bool` (`True`, `False` of `TPL/Boolean.h` 16-33).
-/

namespace Verif
namespace Traits
open Sampling (Kind)

/-- `IsReal`, `TPL/IsReal.h` 21-44. -/
def isReal : CType → Bool
  | .float => true
  | .double => true
  | _ => false

/-- `Not`, `TPL/Not.h` 19-40. -/
def tNot : Bool → Bool
  | false => true
  | true => false

/-- `And`, `TPL/And.h` 19-35: the primary template is `False`. -/
def tAnd : Bool → Bool → Bool
  | true, true => true
  | _, _ => false

/-- `Or`, `TPL/Or.h` 19-35: the primary template is `True`. -/
def tOr : Bool → Bool → Bool
  | false, false => false
  | _, _ => true

/-- `Equals`, `TPL/Equals.h` 19-35. -/
def equals (a b : CType) : Bool := if a = b then true else false

/-- `IfThenElse`, `TPL/IfThenElse.h` 19-40. -/
def ifThenElse {α : Type} : Bool → α → α → α
  | true, a, _ => a
  | false, _, b => b

/-- `IsInteger`, `TPL/IsInteger.h` 21-24. -/
def isInteger (t : CType) : Bool := tNot (isReal t)

/-- `IsNumeric`, `TPL/IsNumeric.h` 21-79. -/
def isNumeric : CType → Bool
  | .float => true
  | .double => true
  | .int => true
  | .uint => true
  | .long => true
  | .ulong => true
  | _ => false

/-- `IsVoid`, `TPL/IsVoid.h` 19-35. -/
def isVoid : CType → Bool
  | .void => true
  | _ => false

/-- The overloads of a function of the `Traits` structures that take part in overload resolution: those whose template parameter type
`Result::Numeric` exists, which only `True` has (`TPL/Boolean.h` 26-33).  `Randomizer.h` 36-40, `UniformDistribution1v.h` 59-70,
`UniformDistributionMv.h` 62-78, `Grid.h` 63-68. -/
def overloads (t : CType) : List Kind :=
  (if isReal t then [.real] else []) ++ (if isInteger t then [.integer] else [])

/-- The base class of `UniformDistribution<X>`: `true` for `ContinuousDistribution`, `UniformDistribution1v.h` 27-28, 36-37. -/
def continuousBase (t : CType) : Bool := ifThenElse (isReal t) true false

/-- the overload that a call `Traits::template f<T, true>` resolves to, `none` if there is none or the call is ambiguous.
For example `Randomizer.tpp` 93. -/
def resolve (t : CType) : Option Kind :=
  match overloads t with
  | [k] => some k
  | _ => none

/-- `getSupportArea(minSupport, maxSupport)` of the two variants, `UniformDistribution1v.tpp` 161-173. -/
def area (k : Kind) (a b : ℝ) : ℝ :=
  match k with
  | .real => b - a
  | .integer => b - a + 1

/-- `setSupport` and `pdf` of a uniform distribution whose type has values in ℝ, `UniformDistribution1v.tpp` 72-85, 115-123. -/
noncomputable def pdf (k : Kind) (a b x : ℝ) : ℝ := if x ≥ a ∧ x ≤ b then 1 / area k a b else 0

/-- `sampleUniform(minSupport, maxSupport)` of a randomizer whose type has values in ℚ, `Randomizer.tpp` 85-95, 221-231. -/
def sampleUniform (k : Kind) (r : Nat) (a b : ℚ) : Res Unit ℚ :=
  match k with
  | .real => sampleUniformReal r a b
  | .integer => if a ≥ b then .throw .badArgument () else .ok (a + (roundHalfUp (uniformDraw r * (b - a)) : ℚ)) ()

/-- `Traits::ceil` of the grid, the number of cells along one dimension from `(maximum - minimum) / resolution`.
`Grid.tpp` 38-39, 283-293. -/
def gridCells (k : Kind) (x : ℚ) : Int :=
  match k with
  | .real => ⌈x⌉
  | .integer => ⌈x⌉ + 1

end Traits
end Verif
