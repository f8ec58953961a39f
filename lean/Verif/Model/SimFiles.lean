import Verif.Model.TDMain
import Verif.Model.SplineBatch

/-!
# The files of the time delay simulation program

`SM` is
`/repo/incremental_calibration_examples/incremental_calibration_examples_time_delay/src/simulation/simulator.cpp`.
A file is a list of lines; numbers are values, not text.  Every line is flushed (`std::endl`).  All files can be opened.
-/

namespace Verif
namespace SimTD
variable {E G P V A B : Type}

/-- a line of one of the files (of the estimated trajectory: half a line).  `SimulationData.cpp` 17-58, `Trajectory.cpp` 19-24,
SM 89-103. -/
inductive Row (G P A B : Type) where
  | pose (p : Pose)
  | vec (v : Vec3)
  | num (x : ℝ)
  | meas (m : PoseMeas)
  | tok (t : Tok A B)
  | gain (g : G)
  | par (p : P)

/-- the files of a directory by name.  (Model of the operating system: no lines.) -/
abbrev Dir (R : Type) := String → Option (List R)

/-- `std::ofstream file(name)` and writing some lines: what was in the file before is lost.  For example SM 47-49. -/
def Dir.put {R : Type} (fs : Dir R) (name : String) (rows : List R) : Dir R := fun n => if n = name then some rows else fs n

/-- the files of the simulated data, SM 46-70; `SimulationData.cpp` 17-58, `Trajectory.cpp` 19-24. -/
def dataFiles (d : Data) (fs : Dir (Row G P A B)) : Dir (Row G P A B) :=
  let fs := fs.put "w_T_v.txt" (d.w_T_v.map .pose)
  let fs := fs.put "w_v_wwl.txt" (d.w_v_wwl.map .vec)
  let fs := fs.put "w_v_wwr.txt" (d.w_v_wwr.map .vec)
  let fs := fs.put "rwData.txt" (d.rwData.map fun x => .num x.2)
  let fs := fs.put "lwData.txt" (d.lwData.map fun x => .num x.2)
  let fs := fs.put "poseData.txt" (d.poseData.map fun x => .meas x.2)
  let fs := fs.put "rwData_n.txt" (d.rwData_n.map fun x => .num x.2)
  let fs := fs.put "lwData_n.txt" (d.lwData_n.map fun x => .num x.2)
  fs.put "poseData_n.txt" (d.poseData_n.map fun x => .meas x.2)

/-- the end of `main`, SM 87-105.  `spl` is `writeSplines` of the batches of the estimator (`writeAll` in `Model/SplineBatch`);
when it throws, what it has written stays. -/
def results (spl : E → Res (List (Tok A B)) Unit) (fs : Dir (Row G P A B)) (s : Win TD.Sensor TD.Meas E G P) :
    Res (Dir (Row G P A B) × Win TD.Sensor TD.Meas E G P) Unit :=
  match spl s.est with
  | .ok _ toks =>
    let fs := fs.put "w_T_v_est.txt" (toks.map .tok)
    let fs := fs.put "infoGainHist.txt" (s.gains.map .gain)
    .ok () (fs.put "calibHist.txt" (s.params.map .par), s)
  | .throw e toks => .throw e (fs.put "w_T_v_est.txt" (toks.map .tok), s)
  | .ub => .ub
  | .diverge => .diverge

/-- `main` with its files, SM 38-106; what was in the directory before is `fs`. -/
noncomputable def mainIO (env : Env) (p : Params) (cenv : TD.Env E G P V) (o : TD.Opt) (val : ℝ → ℚ)
    (spl : E → Res (List (Tok A B)) Unit) (e : E) (fs : Dir (Row G P A B)) :
    Res (Dir (Row G P A B) × Win TD.Sensor TD.Meas E G P) Unit :=
  let s0 := Win.init (TD.cfg cenv o) e
  match simulate env p Data.empty with
  | .throw x _ => .throw x (fs, s0)
  | .ub => .ub
  | .diverge => .diverge
  | .ok _ d =>
    let fs1 := dataFiles d fs
    match feed cenv o val d (List.range d.rwData_n.length) s0 with
    | .throw x s => .throw x (fs1, s)
    | .ub => .ub
    | .diverge => .diverge
    | .ok _ s =>
      if TD.unprocessed s then
        match s.addMeasurements (TD.cfg cenv o) with
        | .throw x s' => .throw x (fs1, s')
        | .ub => .ub
        | .diverge => .diverge
        | .ok _ s' => results spl fs1 s'
      else results spl fs1 s

end SimTD
end Verif
