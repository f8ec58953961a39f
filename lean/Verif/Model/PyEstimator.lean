import Verif.Model.Estimator

/-! The Python interface of the estimator, `incremental_calibration_python/src/IncrementalEstimator.cpp` (`PE`) and
`incremental_calibration_python/src/OptimizationProblem.cpp` (`PO`).  Everything but `getProblem` forwards to the functions
modelled in `Estimator.lean`; `getProblem` hands out the estimator's own problem, and the const of the C++ function does not
exist in Python, so that `add`, `remove` and `clear` of the problem can be called directly. -/

namespace Verif

/-- Calls a Python program can make: those on the estimator and the batches (`PE` 133-191, `PO` 25-34), and those on the
problem handed out by `getProblem` (`PE` 180-182, `PO` 46-62). -/
inductive PyOp (V F M : Type _) where
  | est (op : EOp V F M)
  | problemAdd (b : Option BatchId)
  | problemRemove (i : Nat)
  | problemClear

/-- One Python call: dispatch (`PE` 133-191, `PO` 46-62). -/
def PyOp.step {V F M : Type _} (D : Dbl F) (m0 : M) (op : PyOp V F M) (w : EWorld V F M) :
    Res (EWorld V F M) (Option (RetVal F M)) :=
  match op with
  | .est op => op.step D m0 w
  | .problemAdd b => ((w.est.inc.add w.B b).mapState w.setInc).bind fun _ w' => .ok none w'
  | .problemRemove i => ((w.est.inc.removeIdx w.B i).mapState w.setInc).bind fun _ w' => .ok none w'
  | .problemClear => .ok none (w.setInc w.est.inc.clear)

end Verif
