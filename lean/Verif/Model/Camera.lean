import Verif.Model.Estimator

/-!
# Model of the camera calibrator

`CC` is
`/repo/incremental_calibration_examples/incremental_calibration_examples_camera/src/camera/CameraCalibrator.cpp` (class in
`include/aslam/calibration/camera/CameraCalibrator.h` there).  The model sits on top of the models of the batch and of the
incremental estimator: the calibrator builds real batches and hands them to the real `addBatch`.  The checkerboard detector
is a collaborator: its result for an image is given with the call.

Simplifications: the verbose console output (CC 442-451, 473-507) is dropped; objects get addresses that were never used
before (C++ may reuse those of destroyed objects, to which nothing refers any more).
-/

namespace Verif
namespace Camera

/-- What the detector found in an image: the initial camera pose (rotation and translation, `T_t_c`, CC 388) and which
corners of the target are visible (`imagePoint`, CC 414).  `id` identifies the image. -/
structure Obs (V : Type _) where
  id : Nat
  q : V
  t : V
  visible : Nat → Bool

/-- An observation with the two design variables made for it (CC 391, 397).  The addresses are history information: the
C++ vectors hold only the observation. -/
structure Entry (V : Type _) where
  obs : Obs V
  qdv : DVId
  tdv : DVId

/-- The options used here, `CameraCalibrator.h` 157-165. -/
structure Opt where
  lmGroup : GroupId
  calGroup : GroupId
  trGroup : GroupId
  batchNumImages : Nat

/-- A submission that returned: the batch, the images in it, whether it was accepted (history variable).
(History variable, not in the code; the call is `CameraCalibrator.cpp` 465-510.) -/
structure Sub (V : Type _) where
  batch : BatchId
  images : List (Entry V)
  accepted : Bool

/-- State of the calibrator, `CameraCalibrator.h` 268-306, with the estimator and everything reachable from it; `nd`, `ne`,
`nb` are the next unused addresses of design variables, error terms and batches. -/
structure Cam (V F M : Type _) where
  w : EWorld V F M
  opt : Opt
  lms : List DVId
  cal : List DVId
  ready : Bool
  batch : Option BatchId
  num : Nat
  batchObs : List (Entry V)
  estObs : List (Entry V)
  nd : Nat
  ne : Nat
  nb : Nat
  subs : List (Sub V)

namespace Cam
variable {V F M : Type _}

/-- replacing batch `b`.  (Model glue, not in the code: no lines.) -/
def setB (s : Cam V F M) (b : BatchId) (p : OptProblem V) : Cam V F M :=
  { s with w := { s.w with B := fun b' => if b' = b then p else s.w.B b' } }

/-- a member function of batch `b`.  (Model glue, not in the code: no lines.) -/
def onBatch {α : Type _} (s : Cam V F M) (b : BatchId) (f : OptProblem V → Res (OptProblem V) α) : Res (Cam V F M) α :=
  (f (s.w.B b)).mapState (s.setB b)

/-- a new active design variable with the given value, CC 391-393 and 397-398 (both have three minimal dimensions). -/
def allocDV (s : Cam V F M) (v : V) : Cam V F M :=
  { s with
    nd := s.nd + 1
    w := { s.w with
      heap := { s.w.heap with
        params := fun d => if d = s.nd then v else s.w.heap.params d
        active := fun d => if d = s.nd then true else s.w.heap.active d
        minDim := fun d => if d = s.nd then 3 else s.w.heap.minDim d } } }

/-- a new reprojection error depending on the given variables, CC 417-423 (dimension 2). -/
def allocET (s : Cam V F M) (deps : List DVId) : Cam V F M :=
  { s with
    ne := s.ne + 1
    w := { s.w with
      heap := { s.w.heap with
        etDVs := fun e => if e = s.ne then deps else s.w.heap.etDVs e
        etDim := fun e => if e = s.ne then 2 else s.w.heap.etDim e } } }

/-- the two loops of `initBatch`, CC 364-375. -/
def addDVs (b : BatchId) (g : GroupId) : List DVId → Cam V F M → Res (Cam V F M) Unit
  | [], s => .ok () s
  | d :: ds, s => (s.onBatch b fun p => p.addDesignVariable (some d) g).bind fun _ s' => addDVs b g ds s'

/-- `initBatch`, CC 359-379; returns the new batch. -/
def initBatch (s : Cam V F M) : Res (Cam V F M) BatchId :=
  let b := s.nb
  let s1 : Cam V F M := { s.setB b OptProblem.empty with batch := some b, nb := s.nb + 1 }
  (addDVs b s.opt.lmGroup s.lms s1).bind fun _ s2 =>
  (addDVs b s.opt.calGroup s.cal s2).bind fun _ s3 =>
  .ok b { s3 with batchObs := [] }

/-- the loop over the landmarks in `addObservation`, CC 410-426. -/
def errorLoop (b : BatchId) (q t : DVId) (o : Obs V) : List DVId → Nat → Cam V F M → Res (Cam V F M) Unit
  | [], _, s => .ok () s
  | l :: ls, i, s =>
    if o.visible i then
      let e := s.ne
      let s1 := s.allocET ([q, t, l] ++ s.cal)
      (s1.onBatch b fun p => OptProblem.addErrorTerm s1.w.heap p (some e)).bind fun _ s2 => errorLoop b q t o ls (i + 1) s2
    else errorLoop b q t o ls (i + 1) s

/-- the batch under construction, made if there is none, CC 383-384. -/
def ensureBatch (s : Cam V F M) : Res (Cam V F M) BatchId :=
  match s.batch with
  | some b => .ok b s
  | none => s.initBatch

/-- `addObservation`, CC 381-429; returns the observation with its variables. -/
def addObservation (s : Cam V F M) (o : Obs V) : Res (Cam V F M) (Entry V) :=
  s.ensureBatch.bind fun b s1 =>
  let q := s1.nd
  ((s1.allocDV o.q).onBatch b fun p => p.addDesignVariable (some q) s.opt.trGroup).bind fun _ s2 =>
  let t := s2.nd
  ((s2.allocDV o.t).onBatch b fun p => p.addDesignVariable (some t) s.opt.trGroup).bind fun _ s3 =>
  (errorLoop b q t o s3.lms 0 s3).bind fun _ s4 =>
  .ok ⟨o, q, t⟩ { s4 with num := s4.num + 1 }

/-- `processBatch`, CC 465-510. -/
def processBatch (D : Dbl F) (m0 : M) (oracle : OptInput V → OptCall V F M) (buildOk : Bool) (s : Cam V F M) :
    Res (Cam V F M) Unit :=
  match s.batch with
  | none => .ok () s
  | some b =>
    match s.w.addBatch D m0 oracle buildOk (some b) false with
    | .throw e w' => .throw e { s with w := w' }
    | .ub => .ub
    | .diverge => .diverge
    | .ok r w' =>
      let s1 : Cam V F M := { s with
        w := w'
        estObs := if r.batchAccepted then s.batchObs ++ s.estObs else s.estObs
        subs := s.subs ++ [⟨b, s.batchObs, r.batchAccepted⟩] }
      s1.initBatch.bind fun _ s2 => .ok () { s2 with num := 0 }

/-- `addImage`, CC 431-463; `found` is what `findTarget` returns. -/
def addImage (D : Dbl F) (m0 : M) (oracle : OptInput V → OptCall V F M) (buildOk : Bool) (s : Cam V F M)
    (found : Option (Obs V)) : Res (Cam V F M) Bool :=
  if s.ready = false then .throw .invalidOperation s
  else
    match found with
    | none => .ok false s
    | some o =>
      (s.addObservation o).bind fun en s1 =>
      let s2 : Cam V F M := { s1 with batchObs := s1.batchObs ++ [en] }
      if s2.num = s2.opt.batchNumImages then (s2.processBatch D m0 oracle buildOk).bind fun _ s3 => .ok true s3
      else .ok true s2

/-- `initGeometry`, CC 348-357; `found` is what the detector returns. -/
def initGeometry (s : Cam V F M) (found : Bool) : Res (Cam V F M) Bool :=
  if s.ready then .ok true s
  else if found then .ok true { s with ready := true }
  else .ok false s

/-- `getTransformation`, CC 216-231: the current rotation and translation of the `idx`-th pair of variables of the
transformation group of the estimator's problem. -/
def getTransformation (s : Cam V F M) (idx : Nat) : Res Unit (V × V) :=
  if idx ≥ s.estObs.length then .throw .outOfBound ()
  else
    (s.w.est.inc.getGroup s.opt.trGroup).bind fun dvs _ =>
    match dvs[idx * 2]? with
    | none => .throw .stdOutOfRange ()
    | some q =>
      match dvs[idx * 2 + 1]? with
      | none => .throw .stdOutOfRange ()
      | some t => .ok (s.w.heap.params q, s.w.heap.params t) ()

end Cam

/-- The public calls that change something.  `setNum` is a change of `batchNumImages` through `getOptions()` (CC 139). -/
inductive Op (V F M : Type _) where
  | initGeometry (found : Bool)
  | addImage (found : Option (Obs V)) (oracle : OptInput V → OptCall V F M) (buildOk : Bool)
  | processBatch (oracle : OptInput V → OptCall V F M) (buildOk : Bool)
  | setNum (n : Nat)

/-- A public call.  (Model glue: dispatches to the functions modelled above; no lines of its own.) -/
def Op.step {V F M : Type _} (D : Dbl F) (m0 : M) (op : Op V F M) (s : Cam V F M) : Res (Cam V F M) (Option Bool) :=
  match op with
  | .initGeometry found => (s.initGeometry found).bind fun r s' => .ok (some r) s'
  | .addImage found oracle buildOk => (s.addImage D m0 oracle buildOk found).bind fun r s' => .ok (some r) s'
  | .processBatch oracle buildOk => (s.processBatch D m0 oracle buildOk).bind fun _ s' => .ok none s'
  | .setNum n => .ok none { s with opt := { s.opt with batchNumImages := n } }

/-- The calibrator after construction, CC 64-72, 298-346, on an estimator `est`: landmarks and camera variables exist and
have the addresses below `nd`. -/
def init {V F M : Type _} (h : Heap V) (est : Estimator V F M) (opt : Opt) (lms cal : List DVId) (nd ne : Nat) : Cam V F M :=
  ⟨⟨fun _ => OptProblem.empty, h, est⟩, opt, lms, cal, false, none, 0, [], [], nd, ne, 0, []⟩

end Camera
end Verif
