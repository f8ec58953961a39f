import Verif.Model.Camera
import Verif.Model.Stats
import Mathlib.Analysis.Real.Sqrt

/-!
# Model of the camera validator and of the reports of the camera calibrator

`CV` is `CameraValidator.cpp` and `CC` is `CameraCalibrator.cpp`, both in
`/repo/incremental_calibration_examples/incremental_calibration_examples_camera/src/camera`.  The checkerboard detector and
the camera projection are collaborators: for an image in which the target was detected they give, corner by corner, the
observed image point (`imagePoint`, may fail) and the projection of the corner (`vsHomogeneousToKeypoint`, may fail).
Numbers are real (exact) instead of `double`.  Drawing (CV 163-185) and verbose output are left out.
-/

namespace Verif
namespace CamReport

/-- an image point or a reprojection error.  `Eigen::Vector2d`, `CameraValidator.h` 224. -/
abbrev Vec2 := Fin 2 → ℝ

/-- What is known about a detected image.  Used at `CameraValidator.cpp` 285-340. -/
structure Image where
  id : Nat
  observed : Nat → Option Vec2
  predicted : Nat → Option Vec2

/-- a newly constructed `EstimatorML<NormalDistribution<2> >`, `EstimatorMLNormalMv.tpp` 9-13 (the distribution is a standard
normal distribution). -/
noncomputable def freshML : MLEd 2 := ⟨0, 1, 1, 0, false, 0, 0⟩

/-- State of the validator, `CameraValidator.h` 208-231; `size` is the number of corners of the target. -/
structure Val where
  size : Nat
  sigma2 : ℝ
  obs : List Image
  stats : MLEd 2
  maxX : ℝ
  maxY : ℝ
  errors : List Vec2
  md2 : List ℝ

/-- after construction, CV 42-49, 51-86. -/
noncomputable def Val.init (size : Nat) (sigma2 : ℝ) : Val := ⟨size, sigma2, [], freshML, 0, 0, [], []⟩

/-- the expression `(error.transpose() * (1.0 / sigma2) * Identity() * error)(0, 0)`, CV 202-203, 332-333.  Simplification: the
multiplication with the identity matrix is left out. -/
noncomputable def mahal (sigma2 : ℝ) (e : Vec2) : ℝ := (e 0 * (1 / sigma2)) * e 0 + (e 1 * (1 / sigma2)) * e 1

/-- `if (std::fabs(x) > max) max = std::fabs(x)`, CV 195-198, 327-330, CC 254-257. -/
noncomputable def raise (mx x : ℝ) : ℝ := if |x| > mx then |x| else mx

/-- body of the loop over the corners, CV 313-334. -/
noncomputable def Val.corner (isPos : Matrix (Fin 2) (Fin 2) ℝ → Bool) (im : Image) (s : Val) (i : Nat) : Val :=
  match im.observed i with
  | none => s
  | some o =>
    match im.predicted i with
    | none => s
    | some p =>
      let e : Vec2 := p - o
      { s with
        stats := s.stats.addPoint isPos e
        maxX := raise s.maxX (e 0)
        maxY := raise s.maxY (e 1)
        errors := s.errors ++ [e]
        md2 := s.md2 ++ [mahal s.sigma2 e] }

/-- `addImage`, CV 287-340; `found` is what the detector returns. -/
noncomputable def Val.addImage (isPos : Matrix (Fin 2) (Fin 2) ℝ → Bool) (s : Val) (found : Option Image) : Val × Bool :=
  match found with
  | none => (s, false)
  | some im =>
    let s1 := (List.range s.size).foldl (Val.corner isPos im) s
    ({ s1 with obs := s1.obs ++ [im] }, true)

/-- `getReprojectionErrorMean`, CV 107-112; `none`: the empty vector. -/
noncomputable def Val.mean (s : Val) : Option Vec2 := if s.stats.valid then some s.stats.mean else none

/-- `getReprojectionErrorVariance`, CV 114-120. -/
noncomputable def Val.variance (s : Val) : Option Vec2 := if s.stats.valid then some (fun i => s.stats.cov i i) else none

/-- `getReprojectionErrorStandardDeviation`, CV 122-128. -/
noncomputable def Val.std (s : Val) : Option Vec2 :=
  if s.stats.valid then s.variance.map fun v i => Real.sqrt (v i) else none

open Classical in
/-- `getNumOutliers`, CV 232-237; `q` is the chi-square quantile. -/
noncomputable def Val.numOutliers (s : Val) (q : ℝ) : Nat := s.md2.countP fun x => decide (x > q)

/-- The numbers printed by `getLastImage`, CV 206-219. -/
structure LastReport where
  avgNorm : ℝ
  maxNorm : ℝ
  mean : Vec2
  maxX : ℝ
  maxY : ℝ
  outliers : Nat

/-- Accumulators of `getLastImage`, CV 150-156. -/
structure LastAcc where
  stats : MLEd 2
  maxX : ℝ
  maxY : ℝ
  normSum : ℝ
  maxNorm : ℝ
  outliers : Nat

/-- length of an error vector.  `error.norm()`, `CameraValidator.cpp` 191. -/
noncomputable def norm2 (e : Vec2) : ℝ := Real.sqrt (e 0 * e 0 + e 1 * e 1)

open Classical in
/-- body of the loop of `getLastImage`, CV 157-205. -/
noncomputable def lastCorner (isPos : Matrix (Fin 2) (Fin 2) ℝ → Bool) (sigma2 q : ℝ) (im : Image) (a : LastAcc) (i : Nat) : LastAcc :=
  match im.observed i with
  | none => a
  | some o =>
    match im.predicted i with
    | none => a
    | some p =>
      let e : Vec2 := p - o
      { stats := a.stats.addPoint isPos e
        maxX := raise a.maxX (e 0)
        maxY := raise a.maxY (e 1)
        normSum := a.normSum + norm2 e
        maxNorm := if norm2 e > a.maxNorm then norm2 e else a.maxNorm
        outliers := if mahal sigma2 e > q then a.outliers + 1 else a.outliers }

/-- `getLastImage`, CV 138-222: the numbers written into the image; `none`: no image yet. -/
noncomputable def Val.lastReport (isPos : Matrix (Fin 2) (Fin 2) ℝ → Bool) (q : ℝ) (s : Val) : Option LastReport :=
  match s.obs.getLast? with
  | none => none
  | some im =>
    let a := (List.range s.size).foldl (lastCorner isPos s.sigma2 q im) ⟨freshML, 0, 0, 0, 0, 0⟩
    some ⟨a.normSum / s.size, a.maxNorm, a.stats.mean, a.maxX, a.maxY, a.outliers⟩

/-! ## Reports of the calibrator -/

open Camera

variable {V F M : Type _}

/-- the loop of `getErrors`, CC 282-287: the squared Mahalanobis distance `md2 e` (`evaluateError`) and the error vector
`err e` of every error term of the estimator's problem. -/
def errorsLoop (w : EWorld V F M) (err : ETId → Vec2) (md2 : ETId → ℝ) :
    List Nat → List Vec2 → List ℝ → Res Unit (List Vec2 × List ℝ)
  | [], es, ms => .ok (es, ms) ()
  | i :: is, es, ms =>
    (w.est.inc.errorTerm w.B i).bind fun e _ => errorsLoop w err md2 is (es ++ [err e]) (ms ++ [md2 e])

/-- `getErrors`, CC 274-288. -/
def getErrors (w : EWorld V F M) (err : ETId → Vec2) (md2 : ETId → ℝ) : Res Unit (List Vec2 × List ℝ) :=
  errorsLoop w err md2 (List.range (w.est.inc.numErrorTerms w.B)) [] []

/-- The results of `getStatistics`; `none`: empty vectors.  `CameraCalibrator.cpp` 237-271. -/
structure Statistics where
  mean : Option Vec2
  variance : Option Vec2
  std : Option Vec2
  maxX : ℝ
  maxY : ℝ
  outliers : Nat

open Classical in
/-- `getStatistics` after `getErrors`, CC 241-271; `q` is the chi-square quantile. -/
noncomputable def statisticsOf (isPos : Matrix (Fin 2) (Fin 2) ℝ → Bool) (q : ℝ) (es : List Vec2) (ms : List ℝ) : Statistics :=
  let st := es.foldl (fun s e => s.addPoint isPos e) freshML
  if st.valid then
    let v : Vec2 := fun i => st.cov i i
    ⟨some st.mean, some v, some (fun i => Real.sqrt (v i)), es.foldl (fun m e => raise m (e 0)) 0,
      es.foldl (fun m e => raise m (e 1)) 0, ms.countP fun x => decide (x > q)⟩
  else ⟨none, none, none, 0, 0, 0⟩

/-- `getStatistics`, CC 236-272. -/
noncomputable def getStatistics (isPos : Matrix (Fin 2) (Fin 2) ℝ → Bool) (q : ℝ) (w : EWorld V F M) (err : ETId → Vec2)
    (md2 : ETId → ℝ) : Res Unit Statistics :=
  (getErrors w err md2).bind fun r _ => .ok (statisticsOf isPos q r.1 r.2) ()

/-- `getProjectionVariance`, CC 160-166; `diag` is the diagonal of `Sigma2Theta`, `np` the number of projection parameters;
`head(n)` of a shorter vector is undefined behaviour (an assertion of Eigen). -/
def projectionVariance (w : EWorld V F M) (diag : M → List ℝ) (np : Nat) : Res Unit (List ℝ) :=
  if w.getNumBatches = 0 then .ok [] ()
  else if (diag w.est.stats.marginal.sigma2Theta).length < np then .ub
  else .ok ((diag w.est.stats.marginal.sigma2Theta).take np) ()

/-- `getDistortionVariance`, CC 181-187; `nd` is the number of distortion parameters. -/
def distortionVariance (w : EWorld V F M) (diag : M → List ℝ) (nd : Nat) : Res Unit (List ℝ) :=
  if w.getNumBatches = 0 then .ok [] ()
  else if (diag w.est.stats.marginal.sigma2Theta).length < nd then .ub
  else .ok ((diag w.est.stats.marginal.sigma2Theta).drop ((diag w.est.stats.marginal.sigma2Theta).length - nd)) ()

/-- `v(i)` of a dynamic Eigen vector: an index out of range is undefined behaviour.
Used at `CameraCalibrator.cpp` 237-271. -/
def at_ (v : List ℝ) (i : Nat) : Res Unit ℝ :=
  match v[i]? with
  | some x => .ok x ()
  | none => .ub

/-- reading `v(0)`, ..., `v(n - 1)`. -/
def readAll (v : List ℝ) : List Nat → Res Unit (List ℝ)
  | [] => .ok [] ()
  | i :: is => (at_ v i).bind fun x _ => (readAll v is).bind fun r _ => .ok (x :: r) ()

/-- the standard deviations `write` puts into the configuration, CC 512-563: five or four of the projection (`omni`), four of
the distortion.  The parameters themselves and the copies of the estimator's matrices (564-591) are left out. -/
noncomputable def writeSigmas (w : EWorld V F M) (diag : M → List ℝ) (omni : Bool) (np nd : Nat) : Res Unit (List ℝ × List ℝ) :=
  (projectionVariance w diag np).bind fun pv _ =>
  (distortionVariance w diag nd).bind fun dv _ =>
  (readAll (pv.map Real.sqrt) (List.range (if omni then 5 else 4))).bind fun ps _ =>
  (readAll (dv.map Real.sqrt) (List.range 4)).bind fun ds _ => .ok (ps, ds) ()

end CamReport
end Verif
