import Verif.Model.Window
import Mathlib.Algebra.Group.Basic

/-!
# Model of the egomotion calibrator

`EGO` is
`/repo/incremental_calibration_examples/incremental_calibration_examples_egomotion_sensors/src/algo/Calibrator.cpp`.  The
windowing is that of `Model/Window.lean`; this file models how a window becomes a batch, and `predict`.  Rigid motions are
elements of a group `T`; splines are functions from time to `T`.
-/

namespace Verif
namespace Ego

/-- A motion measurement with its time stamp and sensor, `MotionMeasurement.h` 37-41, `MeasurementsContainer.h`; `tag` stands
for the covariance. -/
structure Meas (T : Type) where
  sensor : Nat
  t : Int
  motion : T
  duration : Int
  tag : Nat
  deriving DecidableEq, Repr

/-- Options, `CalibratorOptions.h`, those that are used.  Lines 42-58. -/
structure Opt where
  window : ℚ
  knots : Int
  ref : Nat
  delayBound : Int

/-- An error term, EGO 223-228 and 265-270: the measurement and the two times between which its motion is predicted. -/
structure Term (T : Type) where
  m : Meas T
  src : Int
  dst : Int
  deriving DecidableEq, Repr

/-- What is handed to the estimator: the poses the splines are fitted to, the number of segments, the error terms.
Built at `egomotion_sensors/src/algo/Calibrator.cpp` 100-114. -/
structure Batch (T : Type) where
  knots : List (Int × T)
  segments : Int
  terms : List (Term T)

/-- Collaborators.  `E` is the state of the estimator and the design variables.
Called from `egomotion_sensors/src/algo/Calibrator.cpp` 100-148. -/
structure Env (T E G P V : Type) where
  /-- `sm::timing::nsecToSec` -/
  sec : Int → ℚ
  /-- iteration order of the unordered map of the measurements -/
  order : (Nat → List (Meas T)) → List Nat
  /-- keys of `calibrationVariables_` -/
  known : Nat → Bool
  /-- current time delay of a sensor, nanoseconds -/
  delay : E → Nat → Int
  /-- the (unspecified) value of `std::lround` on infinity -/
  lroundInf : Int
  /-- the spline fitter may throw -/
  fit : E → List (Int × T) → Int → Option Exc
  /-- `IncrementalEstimator::addBatch` -/
  addBatch : E → Batch T → Res E G
  /-- `DesignVariables::getParameters` of all sensors -/
  params : E → P
  /-- predicted motion, error vector and squared error of a term, given the poses the splines are fitted to -/
  eval : E → List (Int × T) → Term T → V × List ℚ × ℚ

/-- `estimator_`, `designVariables_` and `prevTransformation_`, `Calibrator.h` 196-198 and 223. -/
structure St (T E : Type) where
  inner : E
  prev : T
  deriving DecidableEq

variable {T E G P V : Type} [Group T]

/-- `std::lround` of a rational: halves away from zero.  Called at `egomotion_sensors/src/algo/Calibrator.cpp` 183. -/
def lround (x : ℚ) : Int := if 0 ≤ x then ⌊x + 1 / 2⌋ else -⌊-x + 1 / 2⌋

/-- conversion of a floating point value to `int`; out of range it is undefined behaviour.
At `egomotion_sensors/src/algo/Calibrator.cpp` 183-188. -/
def toInt32 (x : Int) : Option Int := if -2147483648 ≤ x ∧ x ≤ 2147483647 then some x else none

/-- the loop of `initSplines`, EGO 163-179: the poses so far and `prevTransformation_`.  Simplification: the sign of the
quaternions (175-176) is left out. -/
def integrate : List (Meas T) → List (Int × T) → T → List (Int × T) × T
  | [], acc, prev => (acc, prev)
  | m :: ms, acc, prev =>
    let acc := if acc.isEmpty then [(m.t - m.duration, prev)] else acc
    let cur := prev * m.motion
    integrate ms (acc ++ [(m.t, cur)]) cur

/-- first time of the poses (`getMinTime` of the fitted splines).  `egomotion_sensors/src/algo/Calibrator.cpp` 239. -/
def tMin (l : List (Int × T)) : Int := match l.head? with | some p => p.1 | none => 0
/-- last time of the poses (`getMaxTime` of the fitted splines).  `egomotion_sensors/src/algo/Calibrator.cpp` 238. -/
def tMax (l : List (Int × T)) : Int := match l.getLast? with | some p => p.1 | none => 0

/-- EGO 181-182. -/
def elapsed (l : List (Int × T)) : ℚ := ((tMax l - tMin l : Int) : ℚ) / 1000000000

/-- EGO 181-188; `none` is undefined behaviour (conversion of a too large value to `int`).  Simplification: exact
arithmetic. -/
def numSegments (inf knots : Int) (n : Nat) (l : List (Int × T)) : Option Int :=
  let rate := if elapsed l = 0 then inf else lround ((n : ℚ) / elapsed l)
  if rate > knots then toInt32 ⌈(knots : ℚ) * elapsed l⌉ else some (n : Int)

/-- `initSplines`, EGO 154-203.  A map entry is never an empty vector, so an empty list is an absent key (155 throws). -/
def initSplines (env : Env T E G P V) (o : Opt) (e : St T E) (w : Nat → List (Meas T)) :
    Res (St T E) (List (Int × T) × Int) :=
  if (w o.ref).isEmpty then .throw .stdOutOfRange e
  else
    let r := integrate (w o.ref) [] e.prev
    let e1 : St T E := { e with prev := r.2 }
    match numSegments env.lroundInf o.knots (w o.ref).length r.1 with
    | none => .ub
    | some n =>
      match env.fit e.inner r.1 n with
      | some ex => .throw ex e1
      | none => .ok (r.1, n) e1

/-- loop of `addMotionErrorTerms` for the reference sensor, EGO 208-231; `prev` is the time of the previous transformation,
if there is one. -/
def refTerms : Option Int → List (Meas T) → List (Term T)
  | _, [] => []
  | none, m :: ms => refTerms (some m.t) ms
  | some p, m :: ms => ⟨m, p, m.t⟩ :: refTerms (some m.t) ms

/-- loop of `addMotionErrorTerms` for another sensor with delay `d`, EGO 232-273. -/
def otherTerms (bound lo hi d : Int) : Option Int → List (Meas T) → List (Term T)
  | _, [] => []
  | prev, m :: ms =>
    let td := m.t - d
    if bound + td > hi ∨ -bound + td < lo then otherTerms bound lo hi d prev ms
    else
      match prev with
      | none => otherTerms bound lo hi d (some td) ms
      | some p => ⟨m, p, td⟩ :: otherTerms bound lo hi d (some td) ms

/-- `addMotionErrorTerms`, EGO 205-275, for one key of the map; `none`: the design variables of the sensor do not exist
(`std::out_of_range` at 234). -/
def sensorTerms (env : Env T E G P V) (o : Opt) (e : E) (lo hi : Int) (w : Nat → List (Meas T)) (k : Nat) :
    Option (List (Term T)) :=
  if k = o.ref then some (refTerms none (w k))
  else if env.known k then some (otherTerms o.delayBound lo hi (env.delay e k) none (w k))
  else none

/-- the loop over the map, EGO 106-107; `none`: `std::out_of_range`. -/
def allTerms (env : Env T E G P V) (o : Opt) (e : E) (lo hi : Int) (w : Nat → List (Meas T)) : List Nat → Option (List (Term T))
  | [] => some []
  | k :: ks =>
    match sensorTerms env o e lo hi w k with
    | none => none
    | some l => (allTerms env o e lo hi w ks).map fun r => l ++ r

/-- building the batch, EGO 101-107. -/
def prepare (env : Env T E G P V) (o : Opt) (e : St T E) (w : Nat → List (Meas T)) : Res (St T E) (Batch T) :=
  match initSplines env o e w with
  | .throw ex e' => .throw ex e'
  | .ub => .ub
  | .diverge => .diverge
  | .ok (kn, n) e' =>
    match allTerms env o e'.inner (tMin kn) (tMax kn) w (env.order w) with
    | none => .throw .stdOutOfRange e'
    | some ts => .ok ⟨kn, n, ts⟩ e'

/-- the call of the estimator does not touch `prevTransformation_`.  `egomotion_sensors/src/algo/Calibrator.cpp` 115. -/
def addBatch (env : Env T E G P V) (e : St T E) (b : Batch T) : Res (St T E) G :=
  match env.addBatch e.inner b with
  | .ok g e' => .ok g ⟨e', e.prev⟩
  | .throw ex e' => .throw ex ⟨e', e.prev⟩
  | .ub => .ub
  | .diverge => .diverge

/-- the calibrator; there is no check in front of `addMeasurements` (EGO 100-101). -/
def cfg (env : Env T E G P V) (o : Opt) : WinCfg Nat (Meas T) (St T E) (Batch T) G P where
  time := Meas.t
  kind := Meas.sensor
  sec := env.sec
  window := o.window
  ready := fun _ => true
  prepare := prepare env o
  addBatch := addBatch env
  params := fun e => env.params e.inner

/-- `unprocessedMeasurements`, `Calibrator.h` 134-136: the map has an entry. -/
def unprocessed (env : Env T E G P V) (s : Win Nat (Meas T) (St T E) G P) : Bool := !(env.order s.buf).isEmpty

/-! ## Predictions -/

/-- The lists filled for one sensor (there are no accessors for them; a derived class or a debugger sees them), `Calibrator.h` 212-218. -/
structure PredLists (V : Type) where
  vals : List (Int × V)
  errs : List (List ℚ)
  errs2 : List ℚ

/-- `clearPredictions`, EGO 72-76. -/
def clearPredictions : Nat → PredLists V := fun _ => ⟨[], [], []⟩

/-- one iteration that produces a prediction, EGO 294-309 and 346-361. -/
def PredLists.push (l : PredLists V) (t : Int) (r : V × List ℚ × ℚ) : PredLists V :=
  ⟨l.vals ++ [(t, r.1)], l.errs ++ [r.2.1], l.errs2 ++ [r.2.2]⟩

/-- `predictMotion` for the reference sensor, EGO 279-312. -/
def predictRef (env : Env T E G P V) (e : E) (kn : List (Int × T)) : Option Int → List (Meas T) → PredLists V → PredLists V
  | _, [], l => l
  | none, m :: ms, l => predictRef env e kn (some m.t) ms l
  | some p, m :: ms, l => predictRef env e kn (some m.t) ms (l.push m.t (env.eval e kn ⟨m, p, m.t⟩))

/-- `predictMotion` for another sensor, EGO 313-364. -/
def predictOther (env : Env T E G P V) (e : E) (kn : List (Int × T)) (bound d : Int) :
    Option Int → List (Meas T) → PredLists V → PredLists V
  | _, [], l => l
  | prev, m :: ms, l =>
    let td := m.t - d
    if bound + td > tMax kn ∨ -bound + td < tMin kn then predictOther env e kn bound d prev ms l
    else
      match prev with
      | none => predictOther env e kn bound d (some td) ms l
      | some p => predictOther env e kn bound d (some td) ms (l.push m.t (env.eval e kn ⟨m, p, td⟩))

/-- the loop of `predict` over the map, EGO 80-81; unknown sensors throw `std::out_of_range`, keeping the predictions made
so far. -/
def predictAll (env : Env T E G P V) (o : Opt) (e : E) (kn : List (Int × T)) (w : Nat → List (Meas T)) :
    List Nat → (Nat → PredLists V) → Res (Nat → PredLists V) Unit
  | [], p => .ok () p
  | k :: ks, p =>
    if k = o.ref then predictAll env o e kn w ks fun i => if i = k then predictRef env e kn none (w k) (p k) else p i
    else if env.known k then
      predictAll env o e kn w ks fun i =>
        if i = k then predictOther env e kn o.delayBound (env.delay e k) none (w k) (p k) else p i
    else .throw .stdOutOfRange p

/-- `predict`, EGO 78-82: the second component is the calibrator afterwards. -/
def predict (env : Env T E G P V) (o : Opt) (s : Win Nat (Meas T) (St T E) G P) (p : Nat → PredLists V) :
    Res ((Nat → PredLists V) × Win Nat (Meas T) (St T E) G P) Unit :=
  match initSplines env o s.est s.buf with
  | .throw ex e' => .throw ex (p, { s with est := e' })
  | .ub => .ub
  | .diverge => .diverge
  | .ok (kn, _) e' => (predictAll env o e'.inner kn s.buf (env.order s.buf) p).mapState fun p' => (p', { s with est := e' })

/-! ## The predicted motion -/

/-- the motion a term predicts for the reference sensor, EGO 225, given the spline `S`. -/
def predictedRef (S : Int → T) (src dst : Int) : T := (S src)⁻¹ * S dst

/-- the motion a term predicts for a sensor mounted at `C`, EGO 255-267. -/
def predictedOther (S : Int → T) (C : T) (src dst : Int) : T := (S src * C)⁻¹ * (S dst * C)

end Ego
end Verif
