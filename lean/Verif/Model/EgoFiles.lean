import Verif.Model.SimEgo
import Verif.Model.SimFiles

/-!
# The files of the egomotion simulation program

`SM` is
`/repo/incremental_calibration_examples/incremental_calibration_examples_egomotion_sensors/src/simulation/simulator.cpp`.
A file is a list of lines; numbers are values, not text.  Every line is flushed (`std::endl`).  All files can be opened.
-/

namespace Verif
namespace SimEgo
variable {T E G P V A B L : Type} [Group T]

/-- a line of one of the files (of a trajectory: half a line).  SM 52-53, 63-64, 75-76, 114, 120, 128-129. -/
inductive Row (T G L A B : Type) where
  | motion (m : T)
  | tok (t : Tok A B)
  | gain (g : G)
  | par (l : L)

/-- `filenameStream << prefix << key << ".txt"`, SM 58, 70, 124. -/
def keyed (pre : String) (k : Nat) : String := pre ++ toString k ++ ".txt"

/-- the loop over one of the maps of simulated motions, SM 56-65 and 68-77.  `keys` is the iteration order; a sensor without a
measurement has no entry in the map. -/
def motionFiles (pre : String) (data : Nat → List (Ego.Meas T)) :
    List Nat → SimTD.Dir (Row T G L A B) → SimTD.Dir (Row T G L A B)
  | [], fs => fs
  | k :: ks, fs =>
    motionFiles pre data ks (if (data k).isEmpty then fs else fs.put (keyed pre k) ((data k).map fun m => .motion m.motion))

/-- the loop over the histories of the calibration variables, SM 122-130.  `view p k` is the parameter vector of sensor `k`. -/
def calibFiles (view : P → Nat → L) (params : List P) : List Nat → SimTD.Dir (Row T G L A B) → SimTD.Dir (Row T G L A B)
  | [], fs => fs
  | k :: ks, fs => calibFiles view params ks (fs.put (keyed "calibHist_" k) (params.map fun p => .par (view p k)))

/-- the end of `main`, SM 112-130.  `spl` is `writeSplines` of the batches of the estimator (`writeAll` in `Model/SplineBatch`);
`calKeys` are the sensors with calibration variables. -/
def results (view : P → Nat → L) (calKeys : List Nat) (spl : E → Res (List (Tok A B)) Unit)
    (fs : SimTD.Dir (Row T G L A B)) (s : Win Nat (Ego.Meas T) (Ego.St T E) G P) :
    Res (SimTD.Dir (Row T G L A B) × Win Nat (Ego.Meas T) (Ego.St T E) G P) Unit :=
  match spl s.est.inner with
  | .ok _ toks =>
    let fs := fs.put "w_T_v_est.txt" (toks.map .tok)
    let fs := fs.put "infoGainHist.txt" (s.gains.map .gain)
    .ok () (calibFiles view s.params calKeys fs, s)
  | .throw e toks => .throw e (fs.put "w_T_v_est.txt" (toks.map .tok), s)
  | .ub => .ub
  | .diverge => .diverge

/-- `main` with its files, SM 37-133.  `traj` is `writeSplines` of the simulated trajectory (52-53).
Simplification: the two maps of simulated motions have the same iteration order. -/
noncomputable def mainIO (env : Env T) (p : Params T) (cenv : Ego.Env T E G P V) (o : Ego.Opt) (keys : List Nat) (noisy : Bool)
    (view : P → Nat → L) (calKeys : List Nat) (traj : Res (List (Tok A B)) Unit) (spl : E → Res (List (Tok A B)) Unit)
    (e : Ego.St T E) (fs : SimTD.Dir (Row T G L A B)) :
    Res (SimTD.Dir (Row T G L A B) × Win Nat (Ego.Meas T) (Ego.St T E) G P) Unit :=
  let s0 := Win.init (Ego.cfg cenv o) e
  match simulate env p Data.empty with
  | .throw x _ => .throw x (fs, s0)
  | .ub => .ub
  | .diverge => .diverge
  | .ok _ d =>
    match traj with
    | .throw x toks => .throw x (fs.put "w_T_v.txt" (toks.map .tok), s0)
    | .ub => .ub
    | .diverge => .diverge
    | .ok _ toks =>
      let fs := fs.put "w_T_v.txt" (toks.map .tok)
      let fs := motionFiles "motionData_" d.clean keys fs
      let fs := motionFiles "motionDataNoisy_" d.noisy keys fs
      let data := if noisy then d.noisy else d.clean
      if (data o.ref).isEmpty then .throw .stdOutOfRange (fs, s0)
      else
        match feed cenv o data ((List.range (data o.ref).length).flatMap fun i => keys.map fun k => (i, k)) s0 with
        | .throw x s => .throw x (fs, s)
        | .ub => .ub
        | .diverge => .diverge
        | .ok _ s =>
          if Ego.unprocessed cenv s then
            match s.addMeasurements (Ego.cfg cenv o) with
            | .throw x s' => .throw x (fs, s')
            | .ub => .ub
            | .diverge => .diverge
            | .ok _ s' => results view calKeys spl fs s'
          else results view calKeys spl fs s

end SimEgo
end Verif
