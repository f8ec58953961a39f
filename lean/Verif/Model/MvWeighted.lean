import Verif.Model.Stats

/-!
# `EstimatorML<NormalDistribution<M>>::addPoints` with responsibilities

`/repo/incremental_calibration/include/aslam/calibration/statistics/EstimatorMLNormalMv.tpp`, exact arithmetic.
-/

namespace Verif
namespace MLEd
variable {d : Nat}

/-- the loop for the mean, `EstimatorMLNormalMv.tpp` 141-142. -/
def wsumV : List (Fin d → ℝ) → List ℝ → (Fin d → ℝ) → Fin d → ℝ
  | p :: ps, w :: ws, acc => wsumV ps ws (fun i => acc i + w * p i)
  | _, _, acc => acc

/-- the loop for the covariance, `EstimatorMLNormalMv.tpp` 147-149. -/
def wouterV (m : Fin d → ℝ) : List (Fin d → ℝ) → List ℝ → Matrix (Fin d) (Fin d) ℝ → Matrix (Fin d) (Fin d) ℝ
  | p :: ps, w :: ws, acc => wouterV m ps ws (fun i j => acc i j + w * outerProduct (fun k => p k - m k) i j)
  | _, _, acc => acc

open Classical in
/-- `addPoints(itStart, itEnd, responsibilities)`, `EstimatorMLNormalMv.tpp` 134-160.  The second component of the state says whether the
mean is finite.  `itStart->size()` of an empty range follows the past-the-end iterator (lines 140 and 146).  Weights of sum zero are all
zero or have both signs: mean and covariance are not finite, the diagonal of the covariance is NaN, hence differs from its transpose and
is rejected before anything but the mean is stored.  Simplification: all points have the dimension `d`, which is at least one. -/
noncomputable def addPointsW (isPos : Matrix (Fin d) (Fin d) ℝ → Bool) (s : MLEd d × Bool) (ps : List (Fin d → ℝ)) (ws : List ℝ) :
    Res (MLEd d × Bool) Unit :=
  if ws.length ≠ ps.length then .ok () s
  else if ps = [] then .ub
  else if ws.sum = 0 then .ok () ({ s.1 with valid := false }, false)
  else
    let mean : Fin d → ℝ := fun i => wsumV ps ws 0 i / ws.sum
    .ok () (commit isPos s.1 mean fun i j => wouterV mean ps ws 0 i j / ws.sum, true)

/-- calls that change the estimator, `EstimatorMLNormalMv.h` 73-101. -/
inductive WOp (d : Nat) where
  | points (ps : List (Fin d → ℝ))
  | weighted (ps : List (Fin d → ℝ)) (ws : List ℝ)
  | reset

/-- effect of a call, `EstimatorMLNormalMv.tpp` 93-160; adding at least one point replaces the mean. -/
noncomputable def WOp.run (isPos : Matrix (Fin d) (Fin d) ℝ → Bool) (s : MLEd d × Bool) : WOp d → Res (MLEd d × Bool) Unit
  | .points ps => .ok () (ps.foldl (addPoint isPos) s.1, s.2 || !ps.isEmpty)
  | .weighted ps ws => addPointsW isPos s ps ws
  | .reset => .ok () (s.1.reset, s.2)

/-- a history of calls, `EstimatorMLNormalMv.tpp` 93-160. -/
noncomputable def runAll (isPos : Matrix (Fin d) (Fin d) ℝ → Bool) : List (WOp d) → MLEd d × Bool → Res (MLEd d × Bool) Unit
  | [], s => .ok () s
  | o :: h, s =>
    match o.run isPos s with
    | .ok _ s' => runAll isPos h s'
    | .throw e s' => .throw e s'
    | .ub => .ub
    | .diverge => .diverge

end MLEd
end Verif
