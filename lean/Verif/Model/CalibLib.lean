import Verif.Model.SplineBatch
import Verif.Model.Estimator
import Mathlib.Data.Nat.Pairing

/-!
# The calibrators with the estimator of the library

The models of the calibrators take the incremental estimator as a collaborator.  This file puts the estimator of
`Model/Estimator` in its place, fed with the batches of `Model/SplineBatch`: what `addMeasurements` does from the creation of
the batch to the return of `addBatch`, C
`/repo/incremental_calibration_examples/incremental_calibration_examples_car/src/algo/CarCalibrator.cpp` 347-371, T
`/repo/incremental_calibration_examples/incremental_calibration_examples_time_delay/src/algo/Calibrator.cpp` 250-268, E
`/repo/incremental_calibration_examples/incremental_calibration_examples_egomotion_sensors/src/algo/Calibrator.cpp` 101-115.

Objects are named by the window they are made in and a number: objects made in different windows are different objects.
-/

namespace Verif
namespace CalibLib
variable {X V F M : Type}

/-- A design variable an error term depends on: a calibration variable, or a variable of the splines of the window (first those
of the translation spline, then those of the rotation spline).  `CarCalibrator.cpp` 480-490, 553-562, 636-645. -/
inductive Ref where
  | cal (j : Nat)
  | spl (j : Nat)
  deriving DecidableEq, Repr

/-- The environment.  `X` describes a window: what the calibrator models hand to their estimator.
`late`: the calibration variables are put into the batch after the splines (E) or before (C, T).  `ncal`: number of calibration
variables.  `ntr`, `nro`: number of design variables of the splines fitted to a window; `value`, `dim`: their values and
dimensions.  `terms`: for each error term of the window the design variables it depends on and its dimension.
`oracle n`, `buildOk n`: what the optimizer does in the `n`-th window, and whether the linear solver can rebuild its matrices.
C 347-371, 440-462 (fit). -/
structure Env (X V F M : Type) where
  D : Dbl F
  m0 : M
  late : Bool
  ncal : Nat
  ntr : X → Nat
  nro : X → Nat
  value : X → Nat → V
  dim : Nat → Nat
  terms : X → List (List Ref × Nat)
  oracle : Nat → OptInput V → OptCall V F M
  buildOk : Nat → Bool

/-- A window that was handed to the estimator: its content, the calibration before and after the call, the return value –
`none` if the call threw –, and whether its batch was in the problem of the estimator after the call.  A history variable.
C 371, T 268, E 115. -/
structure Sub (X V F M : Type) where
  win : X
  before : List V
  after : List V
  ret : Option (RetVal F M)
  inside : Bool

/-- The estimator, the objects, and the windows so far.  Members `_estimator`, `_odometryDesignVariables`,
`CarCalibrator.h` 271-280. -/
structure St (X V F M : Type) where
  w : EWorld V F M
  log : List (Sub X V F M)

/-- the `j`-th calibration variable.  C `src/design-variables/OdometryDesignVariables.cpp` 111-128. -/
def calVar (j : Nat) : DVId := Nat.pair 0 j

/-- the `j`-th design variable of the splines of window `n`.  C 350-351. -/
def splVar (n j : Nat) : DVId := Nat.pair (n + 1) j

/-- the `j`-th error term of window `n`.  C 352-362. -/
def term (n j : Nat) : ETId := Nat.pair n j

namespace Env
variable (c : Env X V F M)

/-- the calibration variables in the order of `addToBatch`.  C `src/design-variables/OdometryDesignVariables.cpp` 111-128. -/
def cal : List DVId := (List.range c.ncal).map calVar

/-- the design variables of the translation spline of window `n`.  C 350. -/
def trVars (n : Nat) (x : X) : List DVId := (List.range (c.ntr x)).map (splVar n)

/-- the design variables of the rotation spline of window `n`.  C 351. -/
def roVars (n : Nat) (x : X) : List DVId := (List.range (c.nro x)).map fun j => splVar n (c.ntr x + j)

/-- the error terms of window `n`.  C 352-362. -/
def termIds (n : Nat) (x : X) : List ETId := (List.range (c.terms x).length).map (term n)

/-- the variable a reference denotes in window `n`.  C 480-490. -/
def deref (n : Nat) : Ref → DVId
  | .cal j => calVar j
  | .spl j => splVar n j

/-- `initSplines` (C 349) makes new splines with their design variables, and the `add…ErrorTerms` functions (C 352-362) make new
error terms.  Simplification: all objects are made at once, the error terms before they are added. -/
def alloc (n : Nat) (x : X) (h : Heap V) : Heap V where
  active d := if (Nat.unpair d).1 = n + 1 then false else h.active d
  minDim d := if (Nat.unpair d).1 = n + 1 then c.dim (Nat.unpair d).2 else h.minDim d
  params d := if (Nat.unpair d).1 = n + 1 then c.value x (Nat.unpair d).2 else h.params d
  etDVs e := if (Nat.unpair e).1 = n then (((c.terms x)[(Nat.unpair e).2]?.getD ([], 0)).1).map (deref n) else h.etDVs e
  etDim e := if (Nat.unpair e).1 = n then ((c.terms x)[(Nat.unpair e).2]?.getD ([], 0)).2 else h.etDim e

/-- the design variables of the two splines of window `n`: object `2 n` is the translation spline, object `2 n + 1` the rotation
spline.  C 349-351. -/
def dvs (n : Nat) (x : X) (s : SplineId) : List DVId := if s = 2 * n then c.trVars n x else c.roVars n x

/-- the values of the calibration variables, which determine the vector that `getParameters` returns.  C
`src/design-variables/OdometryDesignVariables.cpp` 130-150. -/
def params (s : St X V F M) : List V := c.cal.map s.w.heap.params

/-- From the creation of the batch to the return of `addBatch`, C 347-371, T 250-268, E 101-115; the information gain of the
return value is what the calibrators record (C 408, T 293, E 147).  The estimator is called with the default of its last
parameter. -/
def submit (s : St X V F M) (x : X) : Res (St X V F M) F :=
  let n := s.log.length
  match calibBatch (c.dvs n x) c.late c.cal (2 * n) (2 * n + 1) (c.termIds n x) (c.alloc n x s.w.heap) with
  | .ok _ ph =>
    match ({ s.w with B := fun b => if b = n then ph.1.base else s.w.B b, heap := ph.2 } : EWorld V F M).addBatch c.D c.m0
        (c.oracle n) (c.buildOk n) (some n) false with
    | .ok r w' => .ok r.informationGain ⟨w', s.log ++ [⟨x, c.params s, c.cal.map w'.heap.params, some r,
        w'.est.inc.problems.contains n⟩]⟩
    | .throw e w' => .throw e ⟨w', s.log ++ [⟨x, c.params s, c.cal.map w'.heap.params, none,
        w'.est.inc.problems.contains n⟩]⟩
    | .ub => .ub
    | .diverge => .diverge
  | .throw e ph => .throw e { s with w := { s.w with heap := ph.2 } }
  | .ub => .ub
  | .diverge => .diverge

/-- The state in which a calibrator is made: an estimator fresh from its constructor that marginalises group `g`, the entry
`estimator/groupId` of the configuration, and the calibration variables in `h`.  C 65-75, T 59-69, E 52-60. -/
def start (minusOne : F) (g : GroupId) (o : EstOptions F) (h : Heap V) : St X V F M :=
  ⟨⟨fun _ => OptProblem.empty, h, Estimator.construct c.D minusOne c.m0 g o⟩, []⟩

end Env

end CalibLib
end Verif
