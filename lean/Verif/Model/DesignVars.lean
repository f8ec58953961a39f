import Verif.Model.OptProblem
import Verif.Model.Odometry

/-!
# Calibration variables of the time delay and of the egomotion calibrator

`TDV` is `/repo/incremental_calibration_examples/incremental_calibration_examples_time_delay/src/design-variables/OdometryDesignVariables.cpp`,
`TC` is `.../src/algo/Calibrator.cpp` of the same package,
`EDV` is `/repo/incremental_calibration_examples/incremental_calibration_examples_egomotion_sensors/src/design-variables/DesignVariables.cpp`,
`EC` is `.../src/algo/Calibrator.cpp` of that package.
-/

namespace Verif
namespace Report

/-- Reading rows `0, 1, ...` of a matrix with the rows `cols` for the given labels: pairs of label and what the row really
is; `none` (undefined behaviour) if a row does not exist. -/
def readRows {L : Type} : (labels cols : List L) → Option (List (L × L))
  | [], _ => some []
  | _ :: _, [] => none
  | l :: ls, c :: cs => (readRows ls cs).map fun r => (l, c) :: r

/-- The rows of the observability basis: the active variables of the marginalised group in batch order, one row per minimal
dimension (the optimizer, external, numbers the active design variables in the order of the problem).
Used at `time_delay/src/algo/Calibrator.cpp` 266-292 and `egomotion_sensors/src/algo/Calibrator.cpp` 116-143. -/
def rows {W : Type} (active : W → Bool) (dim : W → Nat) (order : List W) : List (W × Nat) :=
  order.flatMap fun v => if active v then (List.range (dim v)).map fun i => (v, i) else []

end Report

namespace TDVars

/-- The design variables, `OdometryDesignVariables.h` of the time delay package.  Lines 94-106. -/
inductive TVar where
  | b | k_l | t_l | k_r | t_r | v_r_vp | v_R_p
  deriving DecidableEq, Repr

/-- `minimalDimensions()` of the variable types (aslam_backend).  External; used at `OptimizationProblem.cpp` 91-100. -/
def minDim : TVar → Nat
  | .v_r_vp => 3
  | .v_R_p => 3
  | _ => 1

/-- Activity after construction, `TDV` 33-76: `translation`, `rotation`, `delays` are the configuration entries
`extrinsics/translation/active`, `extrinsics/rotation/active`, `intrinsics/timeDelaysActive`. -/
def ctorActive (translation rotation delays : Bool) : TVar → Bool
  | .v_r_vp => translation
  | .v_R_p => rotation
  | .t_l => delays
  | .t_r => delays
  | _ => true

/-- The order in which `addToBatch` adds the variables, `TDV` 85-94. -/
def batchOrder : List TVar := [.b, .k_l, .t_l, .k_r, .t_r, .v_r_vp, .v_R_p]

/-- Current values; `ypr` are yaw, pitch and roll of the mounting rotation (conversion external).
Read at `OdometryDesignVariables.cpp` (time delay) getParameters. -/
structure Values (F : Type) where
  b : F
  k_l : F
  t_l : F
  k_r : F
  t_r : F
  v_r_vp : Fin 3 → F
  ypr : Fin 3 → F

/-- `getParameters`, `TDV` 96-108: the assignments in program order on a vector of 11 indeterminate entries. -/
def getParameters {F : Type} (o : Values F) : List (Option F) :=
  let p : List (Option F) := List.replicate 11 none
  let p := p.set 0 (some o.b)
  let p := p.set 1 (some o.k_l)
  let p := p.set 2 (some o.t_l)
  let p := p.set 3 (some o.k_r)
  let p := p.set 4 (some o.t_r)
  let p := Odometry.setSeg p 5 [o.v_r_vp 0, o.v_r_vp 1, o.v_r_vp 2]
  let p := Odometry.setSeg p 8 [o.ypr 0, o.ypr 1, o.ypr 2]
  p

/-- The label printed in front of row `i`, `i = 0, 1, ...`, `TC` 275-291. -/
def printedLabels : List (TVar × Nat) :=
  [(.b, 0), (.k_l, 0), (.t_l, 0), (.k_r, 0), (.t_r, 0), (.v_r_vp, 0), (.v_r_vp, 1), (.v_r_vp, 2), (.v_R_p, 0), (.v_R_p, 1),
   (.v_R_p, 2)]

/-- the verbose output of `addMeasurements`, `TC` 274-291. -/
def printObservability (active : TVar → Bool) : Option (List ((TVar × Nat) × (TVar × Nat))) :=
  Report.readRows printedLabels (Report.rows active minDim batchOrder)

end TDVars

namespace EgoVars

/-- The three variables of a sensor: time delay, translation, rotation (`CalibrationVariables` is a tuple of these).
`DesignVariables.h` 70-71. -/
inductive Part where
  | t | r | R
  deriving DecidableEq, Repr

/-- `minimalDimensions()`.  External; used at `OptimizationProblem.cpp` 91-100. -/
def partDim : Part → Nat
  | .t => 1
  | .r => 3
  | .R => 3

/-- What is configured for a sensor: `idx`, the values and the three activity flags, `EDV` 45-70. -/
structure SensorCfg (F : Type) where
  idx : Nat
  delay : F
  trans : Fin 3 → F
  ypr : Fin 3 → F
  delayActive : Bool
  transActive : Bool
  rotActive : Bool

/-- The constructor, `EDV` 37-72: `calibrationVariables_[idx] = …` for the sensors in turn.  A negative number of sensors
makes `reserve` throw.  Simplification: the iteration order of the hash map is that of first insertion; missing
configuration entries (exceptions of the property tree) are not modelled. -/
def construct {F : Type} (num : Int) (cfg : Nat → SensorCfg F) : Res (List (Nat × SensorCfg F)) Unit :=
  if num < 0 then .throw .external []
  else .ok () ((List.range num.toNat).foldl (fun m i => AL.set (cfg i).idx (cfg i) m) [])

/-- The order in which `addToBatch` adds the variables of the sensors `l`, `EDV` 77-83. -/
def batchOrder (l : List Nat) : List (Nat × Part) := l.flatMap fun s => [(s, .t), (s, .r), (s, .R)]

/-- `getParameters(idx)`, `EDV` 85-98. -/
def getParameters {F : Type} (m : List (Nat × SensorCfg F)) (idx : Nat) : Res Unit (List (Option F)) :=
  match AL.get idx m with
  | none => .throw .outOfBound ()
  | some c =>
    let p : List (Option F) := List.replicate 7 none
    let p := p.set 0 (some c.delay)
    let p := Odometry.setSeg p 1 [c.trans 0, c.trans 1, c.trans 2]
    let p := Odometry.setSeg p 4 [c.ypr 0, c.ypr 1, c.ypr 2]
    .ok p ()

/-- The labels in front of rows `0, 1, …`, `EC` 125-142: the same loop over the hash map as in `addToBatch`. -/
def printedLabels (l : List Nat) : List ((Nat × Part) × Nat) :=
  l.flatMap fun s => [((s, .t), 0), ((s, .r), 0), ((s, .r), 1), ((s, .r), 2), ((s, .R), 0), ((s, .R), 1), ((s, .R), 2)]

/-- the verbose output of `addMeasurements`, `EC` 123-143. -/
def printObservability (active : Nat × Part → Bool) (l : List Nat) :
    Option (List (((Nat × Part) × Nat) × ((Nat × Part) × Nat))) :=
  Report.readRows (printedLabels l) (Report.rows active (fun v => partDim v.2) (batchOrder l))

end EgoVars
end Verif
