import Verif.Model.IncProblem

/-!
# Which objects exist, and which calls use a variable through a raw pointer

A batch holds its design variables and error terms by shared pointer (`/repo/incremental_calibration/include/aslam/calibration/core/
OptimizationProblem.h` 48, 56, 60-65, 189-191), an incremental problem its batches
(`/repo/incremental_calibration/include/aslam/calibration/core/IncrementalOptimizationProblem.h` 46-48, 214), but the design variables only by
raw pointer (56-62, 72, 216-222).  An object is destroyed when nobody holds it any more.

Simplifications: a client program holds the objects it will ever use from the start; a destroyed object's address is not reused; an error term
belongs to the batch and is not followed.
-/

namespace Verif

/-- the batches, the incremental problem, the heap, and the shared pointers the client program holds.  (Model glue, no lines.) -/
structure OWorld (V : Type _) where
  w : World V
  userDV : List DVId
  userB : List BatchId

namespace OWorld
variable {V : Type _}

/-- the shared pointers to a batch: the client's and `_optimizationProblems` (`IncrementalOptimizationProblem.h` 214). -/
def batchAlive (s : OWorld V) (b : BatchId) : Bool := s.userB.contains b || s.w.inc.problems.contains b

/-- the shared pointers to a variable: the client's and those in the batches that exist (`OptimizationProblem.h` 189). -/
def alive (s : OWorld V) (d : DVId) : Bool :=
  s.userDV.contains d || (s.userB ++ s.w.inc.problems).any fun b => (s.w.B b).isDVInProblem d

end OWorld

/-- the variables a call uses through a raw pointer, `IncrementalOptimizationProblem.cpp` 402-413, `OptimizationProblem.cpp` 249-260.  The other
calls compare pointers only.  (`getGroupDim` of the incremental problem, 153-162, uses the variables of a group: see the theorem.) -/
def IOp.uses {V : Type _} (w : World V) : IOp V → List DVId
  | .save => AL.keys w.inc.counts
  | .restore => AL.keys w.inc.backup
  | .batch b .save => AL.keys (w.B b).lookup
  | .batch b .restore => AL.keys (w.B b).backup
  | .batch _ (.setValue d _) => [d]
  | .batch _ (.setActive d _) => [d]
  | _ => []

/-- what a client program can do: call, or change which shared pointers it holds.  (Model glue, no lines.) -/
inductive OOp (V : Type _) where
  | call (op : IOp V)
  | dropDV (d : DVId)
  | dropB (b : BatchId)
  | takeDV (d : DVId)
  | takeB (b : BatchId)

/-- a program can only be written if it has a shared pointer to what it passes and calls: batches and variables that exist.  (Model glue,
no lines.) -/
def OOp.legal {V : Type _} (s : OWorld V) : OOp V → Bool
  | .call (.add (some b)) => s.batchAlive b
  | .call (.remove (some b)) => s.batchAlive b
  | .call (.batch b (.addDV (some d) _)) => s.batchAlive b && s.alive d
  | .call (.batch b (.setValue d _)) => s.batchAlive b && s.alive d
  | .call (.batch b (.setActive d _)) => s.batchAlive b && s.alive d
  | .call (.batch b _) => s.batchAlive b
  | .takeDV d => s.alive d
  | .takeB b => s.batchAlive b
  | _ => true

/-- one step; using a destroyed variable is undefined.  (Model glue, no lines.) -/
def OOp.step {V : Type _} (op : OOp V) (s : OWorld V) : Res (OWorld V) Unit :=
  match op with
  | .call c => if (c.uses s.w).all s.alive then (c.step s.w).mapState fun w => { s with w := w } else .ub
  | .dropDV d => .ok () { s with userDV := s.userDV.filter (· ≠ d) }
  | .dropB b => .ok () { s with userB := s.userB.filter (· ≠ b) }
  | .takeDV d => .ok () { s with userDV := d :: s.userDV }
  | .takeB b => .ok () { s with userB := b :: s.userB }

/-- a client program; exceptions are caught.  (Model glue, no lines.) -/
def OOp.run {V : Type _} : List (OOp V) → OWorld V → Res (OWorld V) Unit
  | [], s => .ok () s
  | op :: ops, s =>
    match op.step s with
    | .ok _ s' => OOp.run ops s'
    | .throw _ s' => OOp.run ops s'
    | .ub => .ub
    | .diverge => .diverge

/-- the program can be written.  (Model glue, no lines.) -/
def OOp.runLegal {V : Type _} : List (OOp V) → OWorld V → Bool
  | [], _ => true
  | op :: ops, s => op.legal s &&
    match op.step s with
    | .ok _ s' => OOp.runLegal ops s'
    | .throw _ s' => OOp.runLegal ops s'
    | _ => true

end Verif
