import Verif.Model.IncProblem

/-! Model of `/repo/incremental_calibration/src/core/IncrementalEstimator.cpp` (class in
`/repo/incremental_calibration/include/aslam/calibration/core/IncrementalEstimator.h`).

`Optimizer2::optimize`, the truncated-SVD linear solver and `initMatrixStructure/buildSystem` are external code:
an oracle that may return anything, change the values of variables in any way, and throw.
`F` is the type of doubles with whatever arithmetic (NaN, rounding allowed), `M` the type of matrices. -/

namespace Verif

/-- The double operations the estimator uses (`IncrementalEstimator.cpp:388-399`): `0.5 * (a - b)`, `>`, `>=`,
`0.0`.  Nothing is assumed about them unless a theorem says so. -/
structure Dbl (F : Type _) where
  zero : F
  halfDiff : F → F → F
  gt : F → F → Bool
  ge : F → F → Bool

/-- The scaled linear-system information, `IncrementalEstimator.cpp:254-267, 355-368`. -/
structure Scaled (M : Type _) where
  singularValues : M
  nobsBasis : M
  obsBasis : M
  sigma2Theta : M
  sigma2ThetaObs : M
  deriving DecidableEq

/-- What the linear solver reports after `analyzeMarginal()`, `IncrementalEstimator.cpp:273-288, 373-384, 393`. -/
structure Marginal (F M : Type _) where
  svLog2Sum : F
  nobsBasis : M
  obsBasis : M
  sigma2Theta : M
  sigma2ThetaObs : M
  singularValues : M
  svdTolerance : F
  qrTolerance : F
  rankTheta : Int
  rankThetaDeficiency : Int
  rankPsi : Int
  rankPsiDeficiency : Int
  peakMemoryUsage : Nat
  memoryUsage : Nat
  numFlops : F
  deriving DecidableEq

/-- `aslam::backend::SolutionReturnValue`.  Used at `IncrementalEstimator.cpp` 251, 344. -/
structure Srv (F : Type _) where
  iterations : Nat
  JStart : F
  JFinal : F
  deriving DecidableEq

/-- Indices written into design variables and error terms, and the lists handed to
`LinearSolver::initMatrixStructure`.  Written at `IncrementalEstimator.cpp` 489-517. -/
structure Layout where
  blockIndex : DVId → Nat
  columnBase : DVId → Nat
  rowBase : ETId → Nat
  dvs : List DVId
  ets : List ETId

/-- What one `optimize()` does: new parameter values, new indices, its report with the scaled statistics – `none`
if it throws; and what the following `analyzeMarginal()` reports – `none` if it throws.
Called at `IncrementalEstimator.cpp` 251, 344. -/
structure OptCall (V F M : Type _) where
  params : DVId → V
  layout : Layout
  report : Option (Srv F × Scaled M)
  marginal : Option (Marginal F M)

/-- What the optimizer sees when it is run.  At `IncrementalEstimator.cpp` 251, 344. -/
structure OptInput (V : Type _) where
  B : BatchId → OptProblem V
  inc : IncProblem V
  heap : Heap V
  margStart : Nat

/-- `IncrementalEstimator::Options` (`.h:66-79`, defaults 0.2, false), the `maxIterations` of the optimizer
options and `columnScaling` of the linear solver options. -/
structure EstOptions (F : Type _) where
  infoGainDelta : F
  checkValidity : Bool
  maxIterations : Nat
  columnScaling : Bool

/-- The statistics members `_informationGain` … `_finalCost` behind the getters,
`IncrementalEstimator.cpp:137-228`. -/
structure Stats (F M : Type _) where
  informationGain : F
  marginal : Marginal F M
  scaled : Scaled M
  initialCost : F
  finalCost : F
  deriving DecidableEq

/-- `IncrementalEstimator::ReturnValue`, `.h:80-127`, without the elapsed time. -/
structure RetVal (F M : Type _) where
  batchAccepted : Bool
  informationGain : F
  marginal : Marginal F M
  scaled : Scaled M
  srv : Srv F
  deriving DecidableEq

/-- The estimator (`IncrementalEstimator.h:246-290`).  `calls` is a ghost log of the optimizer runs. -/
structure Estimator (V F M : Type _) where
  options : EstOptions F
  margGroup : GroupId
  inc : IncProblem V
  stats : Stats F M
  layout : Layout
  calls : List (OptInput V)

/-- Batches, heap and estimator.  Members: `IncrementalEstimator.h` 249-301. -/
structure EWorld (V F M : Type _) where
  B : BatchId → OptProblem V
  heap : Heap V
  est : Estimator V F M

namespace Estimator
variable {V F M : Type _}

/-- Values of the members after construction, `IncrementalEstimator.cpp:31-50` (`_rankTheta(-1)` etc.; default
constructed matrices are `m0`; `-1.0` is `minusOne`). -/
def initStats (D : Dbl F) (minusOne : F) (m0 : M) : Stats F M :=
  { informationGain := D.zero
    marginal := ⟨D.zero, m0, m0, m0, m0, m0, D.zero, minusOne, -1, -1, -1, -1, 0, 0, D.zero⟩
    scaled := ⟨m0, m0, m0, m0, m0⟩
    initialCost := D.zero
    finalCost := D.zero }

/-- Constructor, `IncrementalEstimator.cpp:31-61`. -/
def construct (D : Dbl F) (minusOne : F) (m0 : M) (margGroup : GroupId) (options : EstOptions F) : Estimator V F M :=
  { options, margGroup, inc := IncProblem.empty, stats := initStats D minusOne m0,
    layout := ⟨fun _ => 0, fun _ => 0, fun _ => 0, [], []⟩, calls := [] }

end Estimator

/-- `std::swap(*margGroupIt, groupsOrdering.back())`, `IncrementalEstimator.cpp:483`. -/
def swapBack (m : GroupId) (o : List GroupId) : List GroupId :=
  (o.set (o.idxOf m) (o.getLastD m)).set (o.length - 1) m

namespace EWorld
variable {V F M : Type _}

/-- Replace the problem.  (Model glue, not in the code: no lines.) -/
def setInc (w : EWorld V F M) (q : IncProblem V) : EWorld V F M := { w with est := { w.est with inc := q } }

/-- `orderMarginalizedDesignVariables`, `IncrementalEstimator.cpp:472-487`. -/
def orderMarginalized (w : EWorld V F M) : Res (EWorld V F M) Unit :=
  let o := w.est.inc.ordering
  if w.est.margGroup ∈ o then
    if o.getLast? ≠ some w.est.margGroup then
      (w.est.inc.setGroupsOrdering (swapBack w.est.margGroup o)).mapState w.setInc
    else .ok () w
  else .throw .invalidOperation w

/-- `for (…) JCols += _problem->getGroupDim(*it)`, `IncrementalEstimator.cpp:242-245, 335-338`. -/
def sumDims (h : Heap V) (q : IncProblem V) : List GroupId → Nat → Res Unit Nat
  | [], n => .ok n ()
  | g :: gs, n =>
    match q.getGroupDim h g with
    | .ok d _ => sumDims h q gs (n + d)
    | .throw e _ => .throw e ()
    | .ub => .ub
    | .diverge => .diverge

/-- `size_t` subtraction (wraps around).  At `IncrementalEstimator.cpp` 499. -/
def usub (a b : Nat) : Nat := if b ≤ a then a - b else a + 2 ^ 64 - b

/-- `IncrementalEstimator.cpp:241-251` = `334-344`: compute the marginalisation index, run the optimizer.  The
oracle's new values and layout are in place whether or not it throws. -/
def runOptimizer (oracle : OptInput V → OptCall V F M) (w : EWorld V F M) :
    Res (EWorld V F M) (Srv F × Scaled M × Option (Marginal F M)) :=
  match sumDims w.heap w.est.inc w.est.inc.ordering 0 with
  | .ok jcols _ =>
    match w.est.inc.getGroupDim w.heap w.est.margGroup with
    | .ok dim _ =>
      let input : OptInput V := ⟨w.B, w.est.inc, w.heap, usub jcols dim⟩
      let call := oracle input
      let w' : EWorld V F M := { w with
        heap := { w.heap with params := call.params }
        est := { w.est with layout := call.layout, calls := w.est.calls ++ [input] } }
      match call.report with
      | some r => .ok (r.1, r.2, call.marginal) w'
      | none => .throw .external w'
    | .throw e _ => .throw e w
    | .ub => .ub
    | .diverge => .diverge
  | .throw e _ => .throw e w
  | .ub => .ub
  | .diverge => .diverge

/-- The scaled statistics kept: those of the solver if column scaling is on, else empty matrices `m0`,
`IncrementalEstimator.cpp:254-267, 355-368`. -/
def scaledOf (m0 : M) (o : EstOptions F) (s : Scaled M) : Scaled M :=
  if o.columnScaling then s else ⟨m0, m0, m0, m0, m0⟩

/-- `reoptimize`, `IncrementalEstimator.cpp:234-317`. -/
def reoptimize (D : Dbl F) (m0 : M) (oracle : OptInput V → OptCall V F M) (w : EWorld V F M) :
    Res (EWorld V F M) (RetVal F M) :=
  (w.orderMarginalized).bind fun _ w1 =>
  (w1.runOptimizer oracle).bind fun r w2 =>
    let sc := scaledOf m0 w2.est.options r.2.1
    match r.2.2 with
    | none => .throw .external { w2 with est := { w2.est with stats := { w2.est.stats with scaled := sc } } }
    | some mg =>
      let st : Stats F M := ⟨D.zero, mg, sc, r.1.JStart, r.1.JFinal⟩
      .ok ⟨true, D.zero, st.marginal, st.scaled, ⟨r.1.iterations, st.initialCost, st.finalCost⟩⟩
        { w2 with est := { w2.est with stats := st } }

/-- First loop of `restoreLinearSolver`, `IncrementalEstimator.cpp:495-503`: `n` iterations left, index `i`. -/
def layoutDVs (h : Heap V) (q : IncProblem V) : (n i columnBase : Nat) → Layout → Res Unit Layout
  | 0, _, _, L => .ok L ()
  | n + 1, i, cb, L =>
    match q.designVariable i with
    | .ok d _ =>
      if h.active d then
        let dvs := L.dvs ++ [d]
        layoutDVs h q n (i + 1) (cb + h.minDim d) { L with
          dvs := dvs
          blockIndex := fun d' => if d' = d then dvs.length - 1 else L.blockIndex d'
          columnBase := fun d' => if d' = d then cb else L.columnBase d' }
      else layoutDVs h q n (i + 1) cb L
    | .throw e _ => .throw e ()
    | .ub => .ub
    | .diverge => .diverge

/-- Second loop of `restoreLinearSolver`, `IncrementalEstimator.cpp:508-513`. -/
def layoutETs (B : BatchId → OptProblem V) (h : Heap V) (q : IncProblem V) : (n i dim : Nat) → Layout → Res Unit Layout
  | 0, _, _, L => .ok L ()
  | n + 1, i, dim, L =>
    match q.errorTerm B i with
    | .ok e _ => layoutETs B h q n (i + 1) (dim + h.etDim e) { L with
        rowBase := fun e' => if e' = e then dim else L.rowBase e'
        ets := L.ets ++ [e] }
    | .throw e _ => .throw e ()
    | .ub => .ub
    | .diverge => .diverge

/-- `restoreLinearSolver`, `IncrementalEstimator.cpp:489-519`; `buildOk` says whether `initMatrixStructure` and
`buildSystem` return.  Simplification: indices written before an exception inside the loops are dropped (the
loops are proved not to throw). -/
def restoreLinearSolver (buildOk : Bool) (w : EWorld V F M) : Res (EWorld V F M) Unit :=
  match layoutDVs w.heap w.est.inc w.est.inc.numDesignVariables 0 0 { w.est.layout with dvs := [] } with
  | .ok L1 _ =>
    match layoutETs w.B w.heap w.est.inc (w.est.inc.numErrorTerms w.B) 0 0 { L1 with ets := [] } with
    | .ok L2 _ =>
      let w' := { w with est := { w.est with layout := L2 } }
      if buildOk then .ok () w' else .throw .external w'
    | .throw e _ => .throw e w
    | .ub => .ub
    | .diverge => .diverge
  | .throw e _ => .throw e w
  | .ub => .ub
  | .diverge => .diverge

/-- `solutionValid`, `IncrementalEstimator.cpp:387-390`. -/
def solutionValid (D : Dbl F) (o : EstOptions F) (srv : Srv F) : Bool :=
  !(o.checkValidity && (decide (srv.iterations = o.maxIterations) || D.ge srv.JFinal srv.JStart))

/-- The test of `IncrementalEstimator.cpp:398-399`. -/
def keep (D : Dbl F) (o : EstOptions F) (old : Stats F M) (gain : F) (srv : Srv F) (m : Marginal F M)
    (force : Bool) : Bool :=
  ((D.gt gain o.infoGainDelta || decide (m.rankTheta > old.marginal.rankTheta)) && solutionValid D o srv) || force

/-- `addBatch`, `IncrementalEstimator.cpp:319-452`. -/
def addBatch (D : Dbl F) (m0 : M) (oracle : OptInput V → OptCall V F M) (buildOk : Bool) (w : EWorld V F M)
    (problem : Option BatchId) (force : Bool) : Res (EWorld V F M) (RetVal F M) :=
  ((w.est.inc.add w.B problem).mapState w.setInc).bind fun _ w1 =>
  w1.orderMarginalized.bind fun _ w2 =>
  let w3 := if force then w2 else w2.setInc (w2.est.inc.saveDesignVariables w2.heap)
  (w3.runOptimizer oracle).bind fun r w4 =>
    let sc := scaledOf m0 w4.est.options r.2.1
    match r.2.2 with
    | none => .throw .external w4
    | some mg =>
    let gain := D.halfDiff mg.svLog2Sum w4.est.stats.marginal.svLog2Sum
    if keep D w4.est.options w4.est.stats gain r.1 mg force then
      .ok ⟨true, gain, mg, sc, r.1⟩
        { w4 with est := { w4.est with stats := ⟨gain, mg, sc, r.1.JStart, r.1.JFinal⟩ } }
    else
      let w5 : EWorld V F M := { w4 with heap := w4.est.inc.restoreDesignVariables w4.heap }
      ((w5.est.inc.remove w5.B problem).mapState w5.setInc).bind fun _ w6 =>
      (if w6.est.inc.numProblems > 0 then w6.restoreLinearSolver buildOk else .ok () w6).bind fun _ w7 =>
      .ok ⟨false, gain, mg, sc, r.1⟩ w7

/-- `removeBatch(size_t)`, `IncrementalEstimator.cpp:454-460`. -/
def removeBatchIdx (D : Dbl F) (m0 : M) (oracle : OptInput V → OptCall V F M) (w : EWorld V F M) (idx : Nat) :
    Res (EWorld V F M) Unit :=
  ((w.est.inc.removeIdx w.B idx).mapState w.setInc).bind fun _ w1 =>
  (w1.reoptimize D m0 oracle).bind fun _ w2 => .ok () w2

/-- `removeBatch(const BatchSP&)`, `IncrementalEstimator.cpp:462-466` (a null pointer is never found). -/
def removeBatch (D : Dbl F) (m0 : M) (oracle : OptInput V → OptCall V F M) (w : EWorld V F M)
    (b : Option BatchId) : Res (EWorld V F M) Unit :=
  match b.bind w.est.inc.findProblem with
  | some idx => w.removeBatchIdx D m0 oracle idx
  | none => .ok () w

/-- `getNumBatches`, `IncrementalEstimator.cpp:468-470`. -/
def getNumBatches (w : EWorld V F M) : Nat := w.est.inc.numProblems

end EWorld

/-- Calls a client can make on the estimator and on batches.  The estimator exposes its problem only as
`const` (`getProblem`, `IncrementalEstimator.cpp:100-103`). -/
inductive EOp (V F M : Type _) where
  | addBatch (b : Option BatchId) (force : Bool) (oracle : OptInput V → OptCall V F M) (buildOk : Bool)
  | reoptimize (oracle : OptInput V → OptCall V F M)
  | removeBatchIdx (i : Nat) (oracle : OptInput V → OptCall V F M)
  | removeBatch (b : Option BatchId) (oracle : OptInput V → OptCall V F M)
  | setOptions (o : EstOptions F)         -- through `getOptions()`, `getOptimizerOptions()`, …
  | batch (b : BatchId) (op : BOp V)

/-- One call; the return value of `addBatch`/`reoptimize` is passed on.
(Model glue: dispatches to the functions modelled above; no lines of its own.) -/
def EOp.step {V F M : Type _} (D : Dbl F) (m0 : M) (op : EOp V F M) (w : EWorld V F M) :
    Res (EWorld V F M) (Option (RetVal F M)) :=
  match op with
  | .addBatch b force oracle buildOk => (w.addBatch D m0 oracle buildOk b force).bind fun r w' => .ok (some r) w'
  | .reoptimize oracle => (w.reoptimize D m0 oracle).bind fun r w' => .ok (some r) w'
  | .removeBatchIdx i oracle => (w.removeBatchIdx D m0 oracle i).bind fun _ w' => .ok none w'
  | .removeBatch b oracle => (w.removeBatch D m0 oracle b).bind fun _ w' => .ok none w'
  | .setOptions o => .ok none { w with est := { w.est with options := o } }
  | .batch b bop => ((bop.step (w.B b, w.heap)).mapState fun s =>
      ({ w with B := fun b' => if b' = b then s.1 else w.B b', heap := s.2 } : EWorld V F M)).bind
        fun _ w' => .ok none w'

end Verif
