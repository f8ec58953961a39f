import Verif.Model.CarFiles
import Verif.Model.SimFiles
import Verif.Model.Odometry

/-!
# The result files of the car calibration program

`RC` is
`/repo/incremental_calibration_examples/incremental_calibration_examples_car/src/realworld/calibrator.cpp`.
A file is a list of lines; numbers are values, not text.  All files can be opened.
-/

namespace Verif
namespace CarMain
variable {K E G P A B : Type}

/-- a line of one of the result files (of the trajectory: half a line).  `RC` 248-265, 269, 274-275, 280-281. -/
inductive ResRow (G P A B : Type) where
  | dev (label : Odometry.OVar × Nat) (x : ℝ)
  | tok (t : Tok A B)
  | gain (g : G)
  | par (p : P)

/-- the standard deviations in the order of the labels, `RC` 248-265: `variances(i)` beyond the vector is undefined. -/
noncomputable def devRows : List (Odometry.OVar × Nat) → List ℝ → Option (List (ResRow G P A B))
  | [], _ => some []
  | _ :: _, [] => none
  | l :: ls, v :: vs => (devRows ls vs).map fun r => .dev l (Real.sqrt v) :: r

/-- the end of `main`, `RC` 245-281.  `vars` is `getOdometryVariablesVariance()`, `spl` is `writeSplines` of the batches. -/
noncomputable def carResults (vars : E → List ℝ) (spl : E → Res (List (Tok A B)) Unit) (fs : SimTD.Dir (ResRow G P A B))
    (s : CarCal E G P) : Res (SimTD.Dir (ResRow G P A B)) Unit :=
  match devRows (Odometry.printedLabels.take 18) (vars s.est) with
  | none => .ub
  | some rows =>
    let fs := fs.put "deviations.txt" rows
    match spl s.est with
    | .ok _ toks =>
      let fs := fs.put "m_T_v_est.txt" (toks.map .tok)
      let fs := fs.put "infoGainHist.txt" (s.gains.map .gain)
      .ok () (fs.put "calibHist.txt" (s.params.map .par))
    | .throw e toks => .throw e (fs.put "m_T_v_est.txt" (toks.map .tok))
    | .ub => .ub
    | .diverge => .diverge

/-- `main` with all its files, `RC` 75-284: the lines of the data files, the directory of the result files and the calibrator. -/
noncomputable def programIO (cenv : CarEnv E G P) (o : CarOpt) (meas : Call → Meas) (env : Env K) (use : Use) (e : E)
    (vars : E → List ℝ) (spl : E → Res (List (Tok A B)) Unit) (fs : SimTD.Dir (ResRow G P A B)) (ms : List Msg) :
    Res (List Line × SimTD.Dir (ResRow G P A B) × CarCal E G P) Unit :=
  match loopIO (fun s x => s.add cenv o (meas x)) env use (St.init env) [] (CarCal.init cenv e) ms with
  | .throw x (w, s) => .throw x (w, fs, s)
  | .ub => .ub
  | .diverge => .diverge
  | .ok _ (w, s) =>
    match finish cenv o s with
    | .throw x s' => .throw x (w, fs, s')
    | .ub => .ub
    | .diverge => .diverge
    | .ok _ s' => (carResults vars spl fs s').mapState fun fs' => (w, fs', s')

end CarMain
end Verif
