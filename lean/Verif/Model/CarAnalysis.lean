import Verif.Model.CarFiles
import Verif.Model.SimFiles

/-!
# The files of the car analysis program

`AN` is
`/repo/incremental_calibration_examples/incremental_calibration_examples_car/src/realworld/analyzer.cpp`.
A file is a list of lines; numbers are values, not text.  All files can be opened.
-/

namespace Verif
namespace CarMain
variable {K E G P V A B : Type}

/-- a line of one of the result files (of the trajectory: half a line).  `AN` 247, 253-255, 260. -/
inductive AnRow (V A B : Type) where
  | tok (t : Tok A B)
  | pred (sec : ℚ) (values : List V)
  | err (e : List ℚ)

/-- the prediction lines of a sensor, for example `AN` 251-255: `nsecToSec` (external, exact here) of the time, then the values. -/
def predRows (l : CarCal.PredLists V) : List (AnRow V A B) := l.vals.map fun x => .pred ((x.1 : ℚ) / 1000000000) x.2
/-- the error lines of a sensor, for example `AN` 258-261. -/
def errRows (l : CarCal.PredLists V) : List (AnRow V A B) := l.errs.map .err

/-- the end of `main` after the predictions, `AN` 245-324: the trajectory, and two files for each sensor. -/
def analysisFiles (spl : E → Res (List (Tok A B)) Unit) (fs : SimTD.Dir (AnRow V A B)) (e : E) (p : CarCal.Preds V) :
    Res (SimTD.Dir (AnRow V A B)) Unit :=
  match spl e with
  | .ok _ toks =>
    let fs := fs.put "m_T_v.txt" (toks.map .tok)
    let fs := fs.put "rwDataPred.txt" (predRows (p .rear))
    let fs := fs.put "rwPredError.txt" (errRows (p .rear))
    let fs := fs.put "fwDataPred.txt" (predRows (p .front))
    let fs := fs.put "fwPredError.txt" (errRows (p .front))
    let fs := fs.put "stDataPred.txt" (predRows (p .steer))
    let fs := fs.put "stPredError.txt" (errRows (p .steer))
    let fs := fs.put "dmiDataPred.txt" (predRows (p .dmi))
    let fs := fs.put "dmiPredError.txt" (errRows (p .dmi))
    let fs := fs.put "poseDataPred.txt" (predRows (p .pose))
    let fs := fs.put "posePredError.txt" (errRows (p .pose))
    let fs := fs.put "velDataPred.txt" (predRows (p .vel))
    .ok () (fs.put "velPredError.txt" (errRows (p .vel)))
  | .throw e toks => .throw e (fs.put "m_T_v.txt" (toks.map .tok))
  | .ub => .ub
  | .diverge => .diverge

/-- `main` of the analysis program with all its files, `AN` 60-327 (the loop `AN` 118-241 is that of `calibrator.cpp`): the lines of
the data files, the directory of the result files and the calibrator. -/
noncomputable def analysisIO (cenv : CarEnv E G P) (eval : CarCal.Eval E V) (o : CarOpt) (meas : Call → Meas) (env : Env K) (use : Use)
    (e : E) (spl : E → Res (List (Tok A B)) Unit) (fs : SimTD.Dir (AnRow V A B)) (ms : List Msg) :
    Res (List Line × SimTD.Dir (AnRow V A B) × CarCal E G P) Unit :=
  match loopIO (fun s x => s.add cenv o (meas x)) env use (St.init env) [] (CarCal.init cenv e) ms with
  | .throw x (w, s) => .throw x (w, fs, s)
  | .ub => .ub
  | .diverge => .diverge
  | .ok _ (w, s) =>
    match finishAnalysis cenv eval o s with
    | .throw x _ => .throw x (w, fs, s)
    | .ub => .ub
    | .diverge => .diverge
    | .ok _ p => (analysisFiles spl fs s.est p).mapState fun fs' => (w, fs', s)

end CarMain
end Verif
