import Verif.Model.OptProblem

/-!
# Model of the odometry calibration parameters of the car example

`OD` is `/repo/incremental_calibration_examples/incremental_calibration_examples_car/src/design-variables/OdometryDesignVariables.cpp`,
`CC` is `.../src/algo/CarCalibrator.cpp`, `RC` is `.../src/realworld/calibrator.cpp`.
-/

namespace Verif
namespace Odometry

/-- The design variables, `OdometryDesignVariables.h` 94-123. -/
inductive OVar where
  | e_r | e_f | L | a | k_rl | k_rr | k_fl | k_fr | k_dmi | v_r_vr | v_R_r | t_r | t_f | t_s | t_dmi
  deriving DecidableEq, Repr

/-- Current values.  `ypr` are the yaw, pitch and roll angles of the mounting rotation (the conversion from the quaternion is
external).  Read at `OdometryDesignVariables.cpp` (car) 130-150. -/
structure Values (F : Type) where
  e_r : F
  e_f : F
  L : F
  a : Fin 4 → F
  k_rl : F
  k_rr : F
  k_fl : F
  k_fr : F
  k_dmi : F
  v_r_vr : Fin 3 → F
  ypr : Fin 3 → F
  t_r : F
  t_f : F
  t_s : F
  t_dmi : F

/-- `params.segment<n>(i) = ...`.  `OdometryDesignVariables.cpp` (car) 140-143. -/
def setSeg {F : Type} (p : List (Option F)) (i : Nat) : List F → List (Option F)
  | [] => p
  | x :: l => setSeg (p.set i (some x)) (i + 1) l

/-- `getParameters`, `OD` 130-151: the assignments in program order on a vector of 22 indeterminate entries (`none`). -/
def getParameters {F : Type} (o : Values F) : List (Option F) :=
  let p : List (Option F) := List.replicate 22 none
  let p := p.set 0 (some o.e_r)
  let p := p.set 1 (some o.e_f)
  let p := p.set 2 (some o.L)
  let p := p.set 3 (some o.k_rl)
  let p := p.set 4 (some o.k_rr)
  let p := p.set 5 (some o.k_fl)
  let p := p.set 6 (some o.k_fr)
  let p := p.set 7 (some o.k_dmi)
  let p := setSeg p 8 [o.a 0, o.a 1, o.a 2, o.a 3]
  let p := setSeg p 12 [o.v_r_vr 0, o.v_r_vr 1, o.v_r_vr 2]
  let p := setSeg p 15 [o.ypr 0, o.ypr 1, o.ypr 2]
  let p := p.set 18 (some o.t_r)
  let p := p.set 19 (some o.t_f)
  let p := p.set 20 (some o.t_s)
  let p := p.set 11 (some o.t_dmi)
  p

/-- The order in which `addToBatch` adds the variables, `OD` 111-128. -/
def batchOrder : List OVar :=
  [.e_r, .e_f, .L, .a, .k_rl, .k_rr, .k_fl, .k_fr, .k_dmi, .v_r_vr, .v_R_r, .t_r, .t_f, .t_s, .t_dmi]

/-- `minimalDimensions()` of the variable types (aslam_backend, and `VectorDesignVariable<4>`). -/
def minDim : OVar → Nat
  | .a => 4
  | .v_r_vr => 3
  | .v_R_r => 3
  | _ => 1

/-- Activity after construction, `OD` 35-104; `timeActive` is the configuration entry `timeDelays/active`. -/
def ctorActive (timeActive : Bool) : OVar → Bool
  | .v_r_vr => false
  | .v_R_r => false
  | .t_r => timeActive
  | .t_f => timeActive
  | .t_s => timeActive
  | .t_dmi => timeActive
  | _ => true

/-- `addToBatch`, `OD` 111-128, on the batch model; `ptr` are the addresses of the variables. -/
def addToBatch {V : Type} (ptr : OVar → DVId) (g : GroupId) : List OVar → OptProblem V → Res (OptProblem V) Unit
  | [], b => .ok () b
  | v :: l, b =>
    match b.addDesignVariable (some (ptr v)) g with
    | .ok _ b' => addToBatch ptr g l b'
    | .throw e b' => .throw e b'
    | .ub => .ub
    | .diverge => .diverge

/-- The columns of the calibration block of the Jacobian, hence the rows of the observability basis and of the covariance of
the calibration parameters: the active variables of the marginalised group in batch order, one per minimal dimension
(the optimizer, external, numbers the active design variables in the order of the problem).
Used at `CarCalibrator.cpp` 368-406. -/
def columns (active : OVar → Bool) : List (OVar × Nat) :=
  batchOrder.flatMap fun v => if active v then (List.range (minDim v)).map fun i => (v, i) else []

/-- The label printed in front of row `i`, `i = 0, 1, ...`, `CC` 377-409. -/
def printedLabels : List (OVar × Nat) :=
  [(.e_r, 0), (.e_f, 0), (.L, 0), (.a, 0), (.a, 1), (.a, 2), (.a, 3), (.k_rl, 0), (.k_rr, 0), (.k_fl, 0), (.k_fr, 0),
   (.k_dmi, 0), (.v_r_vr, 0), (.v_r_vr, 1), (.v_r_vr, 2), (.v_R_r, 0), (.v_R_r, 1), (.v_R_r, 2), (.t_r, 0), (.t_f, 0),
   (.t_s, 0), (.t_dmi, 0)]

/-- Reading rows `0, 1, ...` of a matrix for the given labels: pairs of label and what the row really is; `none` (undefined
behaviour) if a row does not exist. -/
def printRows : (labels cols : List (OVar × Nat)) → Option (List ((OVar × Nat) × (OVar × Nat)))
  | [], _ => some []
  | _ :: _, [] => none
  | l :: ls, c :: cs => (printRows ls cs).map fun r => (l, c) :: r

/-- the verbose output of `addMeasurements`, `CC` 376-409. -/
def printObservability (active : OVar → Bool) : Option (List ((OVar × Nat) × (OVar × Nat))) :=
  printRows printedLabels (columns active)

/-- the standard deviations written by the calibration program, `RC` 245-265 (the first 18 labels). -/
def printDeviations (active : OVar → Bool) : Option (List ((OVar × Nat) × (OVar × Nat))) :=
  printRows (printedLabels.take 18) (columns active)

end Odometry
end Verif
