import Verif.Model.OptProblem
import Verif.Model.Loop

/-!
# Batches with splines and the spline output

`OptimizationProblemSpline` exists three times with the same text, in
`/repo/incremental_calibration_examples/incremental_calibration_examples_X/src/algo/OptimizationProblemSpline.cpp` for X =
`car` (C), `time_delay` (T) and `egomotion_sensors` (E), and so does `writeSplines` in `src/algo/splinesToFile.cpp`.
-/

namespace Verif

/-- A `shared_ptr` to a spline object.  `OptimizationProblemSpline.h` 100-126. -/
abbrev SplineId := Nat

/-- The two overloads of `addSpline`: `TranslationSpline` and `RotationSpline`.
`OptimizationProblemSpline.cpp` 89, 100. -/
inductive SplineKind where
  | trans
  | rot
  deriving DecidableEq, Repr

/-- Members of `OptimizationProblemSpline`: the base class and `_translationSplines`, `_rotationSplines`
(C `OptimizationProblemSpline.h:120-122`, T 116-118, E 157-159). -/
structure SplineProblem (V : Type _) where
  base : OptProblem V
  trans : List SplineId
  rot : List SplineId

namespace SplineProblem
variable {V : Type _}

/-- Constructor, C/T 22-23, E header `= default`. -/
def empty : SplineProblem V := ⟨OptProblem.empty, [], []⟩

/-- `getTranslationSplines` / `getRotationSplines`, C/T 31-34, 58-61, E header 94-96, 122-124. -/
def splines (p : SplineProblem V) : SplineKind → List SplineId
  | .trans => p.trans
  | .rot => p.rot

/-- `_translationSplines.push_back(spline)` / `_rotationSplines.push_back(spline)`, C/T 97, 108, E 25, 36. -/
def push (p : SplineProblem V) (k : SplineKind) (s : SplineId) : SplineProblem V :=
  match k with
  | .trans => { p with trans := p.trans ++ [s] }
  | .rot => { p with rot := p.rot ++ [s] }

/-- The loop of `addSpline` over the design variables of the spline, C/T 92-96, 103-107, E 20-24, 31-35: the variable is
activated before the batch is asked to take it.  `spline->designVariable(i)` is an element of the argument list. -/
def addLoop (g : GroupId) : List DVId → OptProblem V × Heap V → Res (OptProblem V × Heap V) Unit
  | [], s => .ok () s
  | d :: l, s =>
    ((s.1.addDesignVariable (some d) g).mapState fun p => (p, s.2.setActive d true)).bind fun _ s' => addLoop g l s'

/-- `addSpline(spline, groupId)`, C/T 89-109, E 17-37.  `dvs s` are the design variables of the spline object `s`, in the
order of `designVariable(i)`; a null pointer is dereferenced. -/
def addSpline (dvs : SplineId → List DVId) (k : SplineKind) (sp : Option SplineId) (g : GroupId)
    (s : SplineProblem V × Heap V) : Res (SplineProblem V × Heap V) Unit :=
  match sp with
  | none => .ub
  | some x =>
    match addLoop g (dvs x) (s.1.base, s.2) with
    | .ok _ t => .ok () (({ s.1 with base := t.1 } : SplineProblem V).push k x, t.2)
    | .throw e t => .throw e ({ s.1 with base := t.1 }, t.2)
    | .ub => .ub
    | .diverge => .diverge

/-- `getTranslationSpline(idx)` / `getRotationSpline(idx)`, C/T 40-56, 67-83, E header 102-120, 130-148.  In E the test is
compiled only without `NDEBUG`; `checked` tells whether it is there. -/
def getSpline (checked : Bool) (p : SplineProblem V) (k : SplineKind) (idx : Nat) : Res Unit SplineId :=
  match (p.splines k)[idx]? with
  | some s => .ok s ()
  | none => if checked then .throw .outOfBound () else .ub

end SplineProblem

/-- Calls a client can make on a batch with splines: those of the base class and `addSpline`.
The public functions of `OptimizationProblemSpline.h` 60-100. -/
inductive SOp (V : Type _) where
  | base (op : BOp V)
  | addSpline (k : SplineKind) (s : Option SplineId) (g : GroupId)

/-- One call.  `OptimizationProblemSpline` overrides nothing of the base class: in particular `clear()` is
`OptimizationProblem::clear`.  (Model glue: dispatches to the functions modelled above; no lines of its own.) -/
def SOp.step {V : Type _} (dvs : SplineId → List DVId) (op : SOp V) (s : SplineProblem V × Heap V) :
    Res (SplineProblem V × Heap V) Unit :=
  match op with
  | .base op => (op.step (s.1.base, s.2)).mapState fun t => ({ s.1 with base := t.1 }, t.2)
  | .addSpline k sp g => SplineProblem.addSpline dvs k sp g s

/-- A client program: exceptions are caught and the program goes on.  (Model glue, not in the code: no lines.) -/
def SOp.run {V : Type _} (dvs : SplineId → List DVId) :
    List (SOp V) → SplineProblem V × Heap V → Res (SplineProblem V × Heap V) (List Bool)
  | [], s => .ok [] s
  | op :: ops, s =>
    match op.step dvs s with
    | .ok _ s' => (SOp.run dvs ops s').bind fun tr s'' => .ok (true :: tr) s''
    | .throw _ s' => (SOp.run dvs ops s').bind fun tr s'' => .ok (false :: tr) s''
    | .ub => .ub
    | .diverge => .diverge

/-! ## `writeSplines` -/

/-- What the output needs to know of the spline objects: `getMinTime`, `getMaxTime` of translation splines, the value at a
time of translation and of rotation splines (the latter as yaw, pitch, roll).  Evaluating outside the range of a spline may
throw.  Called at `splinesToFile.cpp` 48-60. -/
structure SplineEnv (A B : Type _) where
  minTime : SplineId → Int
  maxTime : SplineId → Int
  pos : SplineId → Int → Res Unit A
  ang : SplineId → Int → Res Unit B

/-- What is sent to the stream: a position followed by a blank, or angles followed by an end of line.  Simplification: the
decimal representation of the numbers is dropped.  `splinesToFile.cpp` 54-60. -/
inductive Tok (A B : Type _) where
  | pos (a : A)
  | ang (b : B)
  deriving DecidableEq

/-- `stream << value`: the value is computed first.  `splinesToFile.cpp` 54-60. -/
def emit {A B X : Type _} (f : X → Tok A B) (r : Res Unit X) (s : Int × List (Tok A B)) : Res (Int × List (Tok A B)) Unit :=
  match r with
  | .ok x _ => .ok () (s.1, s.2 ++ [f x])
  | .throw e _ => .throw e s
  | .ub => .ub
  | .diverge => .diverge

/-- One round of the loop, `splinesToFile.cpp` C/T 52-62, E 52-62 (and 71-76 for the simulated trajectory, with evaluators
instead of expression factories).  `t` is a 64 bit integer. -/
def writeRound {A B : Type _} (env : SplineEnv A B) (tr ro : SplineId) (step : Int) (s : Int × List (Tok A B)) :
    Res (Int × List (Tok A B)) Unit :=
  (emit Tok.pos (env.pos tr s.1) s).bind fun _ s1 =>
    (emit Tok.ang (env.ang ro s1.1) s1).bind fun _ s2 =>
      if s2.1 + step < -9223372036854775808 ∨ 9223372036854775807 < s2.1 + step then .ub
      else .ok () (s2.1 + step, s2.2)

/-- `writeSplines(transSpline, rotSpline, dt, stream)`, C/T 46-64, E 46-63 and 65-78.  `step` is `secToNsec(dt)`. -/
noncomputable def writeSpline {A B : Type _} (env : SplineEnv A B) (step : Int) (tr ro : SplineId) (out : List (Tok A B)) :
    Res (List (Tok A B)) Unit :=
  (Loop.run (fun s : Int × List (Tok A B) => s.1 < env.maxTime tr) (writeRound env tr ro step)
    (env.minTime tr, out)).mapState Prod.snd

/-- The inner loop of `writeSplines(estimator, …)`, C/T/E 38-42: `i` is the distance to the first translation spline. -/
noncomputable def writeBatch {A B : Type _} (env : SplineEnv A B) (step : Int) (ros : List SplineId) :
    (i : Nat) → List SplineId → List (Tok A B) → Res (List (Tok A B)) Unit
  | _, [], out => .ok () out
  | i, tr :: trs, out =>
    match ros[i]? with
    | none => .throw .stdOutOfRange out
    | some ro => (writeSpline env step tr ro out).bind fun _ out' => writeBatch env step ros (i + 1) trs out'

/-- `writeSplines(estimator, dt, stream)`, C/T/E 30-44.  The batches of the estimator; `none` is a batch that is not an
`OptimizationProblemSpline`: the result of the `dynamic_cast` is null and is dereferenced. -/
noncomputable def writeAll {A B : Type _} {V : Type _} (env : SplineEnv A B) (step : Int) :
    List (Option (SplineProblem V)) → List (Tok A B) → Res (List (Tok A B)) Unit
  | [], out => .ok () out
  | none :: _, _ => .ub
  | some p :: bs, out =>
    (writeBatch env step p.rot 0 p.trans out).bind fun _ out' => writeAll env step bs out'

/-! ## The batches of the calibrators as containers -/

/-- `batch->addDesignVariable(v, groupId)` for the calibration variables in turn: `addToBatch`, C
`OdometryDesignVariables.cpp:111-128`, T 85-94, E `DesignVariables.cpp:77-83`. -/
def addAll {V : Type _} (g : GroupId) : List DVId → OptProblem V → Res (OptProblem V) Unit
  | [], p => .ok () p
  | d :: l, p => (p.addDesignVariable (some d) g).bind fun _ p' => addAll g l p'

/-- `batch->addErrorTerm(e)` for the terms in turn.  `CarCalibrator.cpp` 352-364. -/
def addTermsAll {V : Type _} (h : Heap V) : List ETId → OptProblem V → Res (OptProblem V) Unit
  | [], p => .ok () p
  | e :: l, p => (OptProblem.addErrorTerm h p (some e)).bind fun _ p' => addTermsAll h l p'

/-- lift a call of the base class to the batch with splines.  (Model glue, not in the code: no lines.) -/
def onBase {V : Type _} (f : OptProblem V → Res (OptProblem V) Unit) (s : SplineProblem V × Heap V) :
    Res (SplineProblem V × Heap V) Unit :=
  (f s.1.base).mapState fun p => ({ s.1 with base := p }, s.2)

/-- The batch a calibrator hands to its estimator: `addMeasurements`, C `CarCalibrator.cpp:347-362`, T
`Calibrator.cpp:250-260` (`late = false`: calibration variables first) and E `Calibrator.cpp:101-110` (`late = true`: after
the splines).  `cal` are the calibration variables, `tr`, `ro` the splines made by `initSplines` and `ts` the error terms. -/
def calibBatch {V : Type _} (dvs : SplineId → List DVId) (late : Bool) (cal : List DVId) (tr ro : SplineId)
    (ts : List ETId) (h : Heap V) : Res (SplineProblem V × Heap V) Unit :=
  let splines := fun s : SplineProblem V × Heap V =>
    (SplineProblem.addSpline dvs .trans (some tr) 0 s).bind fun _ s1 => SplineProblem.addSpline dvs .rot (some ro) 0 s1
  let start : Res (SplineProblem V × Heap V) Unit :=
    if late then (splines (SplineProblem.empty, h)).bind fun _ s => onBase (addAll 1 cal) s
    else (onBase (addAll 1 cal) (SplineProblem.empty, h)).bind fun _ s => splines s
  start.bind fun _ s1 =>
    (onBase (addTermsAll s1.2 ts) s1).bind fun _ s2 => onBase (fun p => p.setGroupsOrdering [0, 1]) s2

end Verif
