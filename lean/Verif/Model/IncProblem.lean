import Verif.Model.OptProblem

/-! Model of `/repo/incremental_calibration/src/core/IncrementalOptimizationProblem.cpp` (class in
`/repo/incremental_calibration/include/aslam/calibration/core/IncrementalOptimizationProblem.h`).

Batches are shared pointers: the functions below take the store `B : BatchId → OptProblem V` of batches. -/

namespace Verif

/-- Members of `IncrementalOptimizationProblem` (`_optimizationProblems`, `_designVariablesCounts`,
`_designVariables`, `_groupsOrdering`, `_designVariablesBackup`).
Lines 214-222 of `IncrementalOptimizationProblem.h`. -/
structure IncProblem (V : Type _) where
  problems : List BatchId
  counts : List (DVId × (Nat × GroupId))
  groups : List (GroupId × List DVId)
  ordering : List GroupId
  backup : List (DVId × V)

namespace IncProblem
variable {V : Type _}

/-- Constructor, `IncrementalOptimizationProblem.cpp:28-29`. -/
def empty : IncProblem V := ⟨[], [], [], [], []⟩

/-- `getNumOptimizationProblems`, `IncrementalOptimizationProblem.cpp:38-40`. -/
def numProblems (q : IncProblem V) : Nat := q.problems.length

/-- `getOptimizationProblem(idx)`, `IncrementalOptimizationProblem.cpp:42-71`.  Simplification: forming the
iterator `begin() + idx` beyond the end, formally undefined, is taken to reach the bounds check. -/
def getProblem (q : IncProblem V) (idx : Nat) : Res Unit BatchId :=
  match q.problems[idx]? with
  | some b => .ok b ()
  | none => .throw .outOfBound ()

/-- `isDesignVariableInProblem`, `IncrementalOptimizationProblem.cpp:78-81`. -/
def isDVInProblem (q : IncProblem V) (d : DVId) : Bool := AL.has d q.counts

/-- `isErrorTermInProblem`, `IncrementalOptimizationProblem.cpp:83-90`. -/
def isETInProblem (B : BatchId → OptProblem V) (q : IncProblem V) (e : ETId) : Bool :=
  q.problems.any fun b => (B b).isETInProblem e

/-- `isGroupInProblem`, `IncrementalOptimizationProblem.cpp:164-167`. -/
def isGroupInProblem (q : IncProblem V) (g : GroupId) : Bool := AL.has g q.groups

/-- `getDesignVariablesGroup`, `IncrementalOptimizationProblem.cpp:97-105`. -/
def getGroup (q : IncProblem V) (g : GroupId) : Res Unit (List DVId) :=
  match AL.get g q.groups with
  | some l => .ok l ()
  | none => .throw .outOfBound ()

/-- `getErrorTerms(idx)`, `IncrementalOptimizationProblem.cpp:107-113`. -/
def getErrorTerms (B : BatchId → OptProblem V) (q : IncProblem V) (idx : Nat) : Res Unit (List ETId) :=
  match q.problems[idx]? with
  | some b => .ok (B b).errorTerms ()
  | none => .throw .outOfBound ()

/-- `getNumGroups`, `IncrementalOptimizationProblem.cpp:115-117`. -/
def getNumGroups (q : IncProblem V) : Nat := q.groups.length

/-- Checking loop of `setGroupsOrdering`, `IncrementalOptimizationProblem.cpp:125-135`. -/
def checkOrdering (q : IncProblem V) : (seen o : List GroupId) → Bool
  | _, [] => true
  | seen, g :: o =>
    if !q.isGroupInProblem g then false
    else if seen.contains g then false
    else checkOrdering q (g :: seen) o

/-- `setGroupsOrdering`, `IncrementalOptimizationProblem.cpp:119-137`. -/
def setGroupsOrdering (q : IncProblem V) (o : List GroupId) : Res (IncProblem V) Unit :=
  if o.length ≠ q.ordering.length then .throw .outOfBound q
  else if q.checkOrdering [] o then .ok () { q with ordering := o }
  else .throw .outOfBound q

/-- `getGroupId(designVariable)`, `IncrementalOptimizationProblem.cpp:144-151`. -/
def getGroupId (q : IncProblem V) (d : DVId) : Res Unit GroupId :=
  match AL.get d q.counts with
  | some cg => .ok cg.2 ()
  | none => .throw .invalidOperation ()

/-- `getGroupDim`, `IncrementalOptimizationProblem.cpp:153-162` (same loop as the batch's). -/
def getGroupDim (h : Heap V) (q : IncProblem V) (g : GroupId) : Res Unit Nat :=
  match q.getGroup g with
  | .ok l _ => .ok (OptProblem.dimLoop h l 0) ()
  | .throw e _ => .throw e ()
  | .ub => .ub
  | .diverge => .diverge

/-- `size_t` increment (wraps at `2^64 - 1`).  `IncrementalOptimizationProblem.cpp` 193. -/
def incr (n : Nat) : Nat := if n = 2 ^ 64 - 1 then 0 else n + 1

/-- Body of the first loop of `add`, `IncrementalOptimizationProblem.cpp:184-196`. -/
def addOne (q : IncProblem V) (d : DVId) (g : GroupId) : Res (IncProblem V) Unit :=
  let q1 := if q.isGroupInProblem g then q else { q with ordering := q.ordering ++ [g] }
  match AL.get d q1.counts with
  | none =>
    .ok () { q1 with
      counts := AL.set d (1, g) q1.counts
      groups := AL.set g ((AL.get g q1.groups).getD [] ++ [d]) q1.groups }
  | some (c, g') =>
    if g' ≠ g then .throw .invalidOperation q1
    else .ok () { q1 with counts := AL.set d (incr c, g') q1.counts }

/-- First loop of `add`, `IncrementalOptimizationProblem.cpp:181-197`: `n` iterations left, index `i`. -/
def addLoop (b : OptProblem V) : (n i : Nat) → IncProblem V → Res (IncProblem V) Unit
  | 0, _, q => .ok () q
  | n + 1, i, q =>
    match b.designVariable i with
    | .ok d _ =>
      match b.getGroupId d with
      | .ok g _ => (q.addOne d g).bind fun _ q' => addLoop b n (i + 1) q'
      | .throw e _ => .throw e q
      | .ub => .ub
      | .diverge => .diverge
    | .throw e _ => .throw e q
    | .ub => .ub
    | .diverge => .diverge

/-- Second loop of `add`, `IncrementalOptimizationProblem.cpp:200-206`. -/
def addErrorLoop (B : BatchId → OptProblem V) (b : OptProblem V) : (n i : Nat) → IncProblem V →
    Res (IncProblem V) Unit
  | 0, _, q => .ok () q
  | n + 1, i, q =>
    match b.errorTerm i with
    | .ok e _ => if q.isETInProblem B e then .throw .invalidOperation q else addErrorLoop B b n (i + 1) q
    | .throw e _ => .throw e q
    | .ub => .ub
    | .diverge => .diverge

/-- Most batches `_optimizationProblems` can hold: `max_size()` of a vector of 16-byte shared pointers in libstdc++.
(Capacity of the vector of `IncrementalOptimizationProblem.h` 214.) -/
def maxBatches : Nat := (2 ^ 63 - 1) / 16

/-- `add`, `IncrementalOptimizationProblem.cpp:173-210`.  `push_back` of line 209 throws `std::length_error` on a full vector;
running out of memory earlier is not modelled. -/
def add (B : BatchId → OptProblem V) (q : IncProblem V) (problem : Option BatchId) : Res (IncProblem V) Unit :=
  match problem with
  | none => .throw .nullPointer q
  | some b =>
    (addLoop (B b) (B b).numDesignVariables 0 q).bind fun _ q1 =>
    (addErrorLoop B (B b) (B b).numErrorTerms 0 q1).bind fun _ q2 =>
    if q2.problems.length < maxBatches then .ok () { q2 with problems := q2.problems ++ [b] } else .throw .external q2

/-- `size_t` decrement (wraps at zero).  `IncrementalOptimizationProblem.cpp` 229. -/
def decr (n : Nat) : Nat := if n = 0 then 2 ^ 64 - 1 else n - 1

/-- Body of the loop of `remove`, `IncrementalOptimizationProblem.cpp:229-243`.  `operator[]` on a missing key
default-inserts; erasing the end iterator is undefined behaviour. -/
def removeOne (q : IncProblem V) (d : DVId) : Res (IncProblem V) Unit :=
  let cg := (AL.get d q.counts).getD (0, 0)
  let c := decr cg.1
  let q1 := { q with counts := AL.set d (c, cg.2) q.counts }
  if c = 0 then
    let g := cg.2
    let l := (AL.get g q1.groups).getD []
    if d ∈ l then
      let q2 := { q1 with counts := AL.del d q1.counts, groups := AL.set g (l.erase d) q1.groups }
      if (l.erase d).isEmpty then
        if g ∈ q2.ordering then
          .ok () { q2 with
            groups := AL.del g q2.groups, ordering := q2.ordering.erase g, backup := AL.del d q2.backup }
        else .ub
      else .ok () { q2 with backup := AL.del d q2.backup }
    else .ub
  else .ok () q1

/-- Loop of `remove`, `IncrementalOptimizationProblem.cpp:226-244`. -/
def removeLoop (b : OptProblem V) : (n i : Nat) → IncProblem V → Res (IncProblem V) Unit
  | 0, _, q => .ok () q
  | n + 1, i, q =>
    match b.designVariable i with
    | .ok d _ => (q.removeOne d).bind fun _ q' => removeLoop b n (i + 1) q'
    | .throw e _ => .throw e q
    | .ub => .ub
    | .diverge => .diverge

/-- `remove(idx)` / `remove(it)`, `IncrementalOptimizationProblem.cpp:212-253`. -/
def removeIdx (B : BatchId → OptProblem V) (q : IncProblem V) (idx : Nat) : Res (IncProblem V) Unit :=
  match q.problems[idx]? with
  | none => .throw .outOfBound q
  | some b =>
    (removeLoop (B b) (B b).numDesignVariables 0 q).bind fun _ q1 =>
    .ok () { q1 with problems := q1.problems.eraseIdx idx }

/-- `getOptimizationProblem(problem)` = `std::find`, `IncrementalOptimizationProblem.cpp:385-390`, as an index
(`none` = end). -/
def findProblem (q : IncProblem V) (b : BatchId) : Option Nat := q.problems.findIdx? (· == b)

/-- `remove(problem)`, `IncrementalOptimizationProblem.cpp:375-383`.  A null pointer is never stored. -/
def remove (B : BatchId → OptProblem V) (q : IncProblem V) (problem : Option BatchId) : Res (IncProblem V) Unit :=
  match problem with
  | none => .throw .invalidOperation q
  | some b =>
    match q.findProblem b with
    | some idx => q.removeIdx B idx
    | none => .throw .invalidOperation q

/-- `clear`, `IncrementalOptimizationProblem.cpp:255-260`: the backup is not cleared. -/
def clear (q : IncProblem V) : IncProblem V := ⟨[], [], [], [], q.backup⟩

/-- `numDesignVariablesImplementation`, `IncrementalOptimizationProblem.cpp:262-265`. -/
def numDesignVariables (q : IncProblem V) : Nat := q.counts.length

/-- `designVariableImplementation(idx)`, `IncrementalOptimizationProblem.cpp:267-282` with 330-350. -/
def designVariable (q : IncProblem V) (idx : Nat) : Res Unit DVId :=
  if idx ≥ q.counts.length then .throw .outOfBound ()
  else (scanGroups q.groups idx q.ordering 0).bind fun gi _ => groupElem q.groups gi

/-- `numErrorTermsImplementation`, `IncrementalOptimizationProblem.cpp:284-291`. -/
def numErrorTerms (B : BatchId → OptProblem V) (q : IncProblem V) : Nat :=
  q.problems.foldl (fun n b => n + (B b).numErrorTerms) 0

/-- Loop of `getErrorIdx`, `IncrementalOptimizationProblem.cpp:354-373`; result: batch index, index in batch. -/
def errorIdxLoop (B : BatchId → OptProblem V) (idx : Nat) : List BatchId → (k run : Nat) → Option (Nat × Nat)
  | [], _, _ => none
  | b :: bs, k, run =>
    if run + (B b).numErrorTerms > idx then some (k, idx - run)
    else errorIdxLoop B idx bs (k + 1) (run + (B b).numErrorTerms)

/-- `errorTermImplementation(idx)`, `IncrementalOptimizationProblem.cpp:293-307` with `getErrorIdx` 352-373. -/
def errorTerm (B : BatchId → OptProblem V) (q : IncProblem V) (idx : Nat) : Res Unit ETId :=
  match errorIdxLoop B idx q.problems 0 0 with
  | none => .throw .outOfBound ()
  | some (k, j) =>
    match q.problems[k]? with
    | none => .throw .stdOutOfRange ()
    | some b => (B b).errorTerm j

/-- `permuteOptimizationProblems`, `IncrementalOptimizationProblem.cpp:316-319`. -/
def permuteProblems (q : IncProblem V) (perm : List Nat) : Res (IncProblem V) Unit :=
  (permute q.problems perm).mapState fun l => { q with problems := l }

/-- `permuteDesignVariables`, `IncrementalOptimizationProblem.cpp:321-328`. -/
def permuteDesignVariables (q : IncProblem V) (perm : List Nat) (g : GroupId) : Res (IncProblem V) Unit :=
  match AL.get g q.groups with
  | none => .throw .outOfBound q
  | some l => (permute l perm).mapState fun l' => { q with groups := AL.set g l' q.groups }

/-- `saveDesignVariables`, `IncrementalOptimizationProblem.cpp:402-407`. -/
def saveDesignVariables (h : Heap V) (q : IncProblem V) : IncProblem V :=
  { q with backup := OptProblem.saveLoop h (AL.keys q.counts) q.backup }

/-- `restoreDesignVariables`, `IncrementalOptimizationProblem.cpp:409-413`. -/
def restoreDesignVariables (q : IncProblem V) (h : Heap V) : Heap V := OptProblem.restoreLoop q.backup h

end IncProblem

/-- The batches, the incremental problem and the heap.  (Model glue, not in the code: no lines.) -/
structure World (V : Type _) where
  B : BatchId → OptProblem V
  inc : IncProblem V
  heap : Heap V

/-- Everything freshly constructed.
Constructors: `IncrementalOptimizationProblem.cpp` 28-30, `OptimizationProblem.cpp` 25-27. -/
def World.init {V : Type _} (h : Heap V) : World V := ⟨fun _ => OptProblem.empty, IncProblem.empty, h⟩

/-- Calls a client can make on the incremental problem and on any batch.
The public functions of `IncrementalOptimizationProblem.h` 60-160. -/
inductive IOp (V : Type _) where
  | add (b : Option BatchId)
  | removeIdx (i : Nat)
  | remove (b : Option BatchId)
  | clear
  | setOrdering (o : List GroupId)
  | permProblems (perm : List Nat)
  | permDV (perm : List Nat) (g : GroupId)
  | save
  | restore
  | batch (b : BatchId) (op : BOp V)     -- any call on batch `b`, or any change of a variable

/-- One call: dispatch to the modelled functions.
(Model glue: dispatches to the functions modelled above; no lines of its own.) -/
def IOp.step {V : Type _} (op : IOp V) (w : World V) : Res (World V) Unit :=
  match op with
  | .add b => (w.inc.add w.B b).mapState fun q => { w with inc := q }
  | .removeIdx i => (w.inc.removeIdx w.B i).mapState fun q => { w with inc := q }
  | .remove b => (w.inc.remove w.B b).mapState fun q => { w with inc := q }
  | .clear => .ok () { w with inc := w.inc.clear }
  | .setOrdering o => (w.inc.setGroupsOrdering o).mapState fun q => { w with inc := q }
  | .permProblems perm => (w.inc.permuteProblems perm).mapState fun q => { w with inc := q }
  | .permDV perm g => (w.inc.permuteDesignVariables perm g).mapState fun q => { w with inc := q }
  | .save => .ok () { w with inc := w.inc.saveDesignVariables w.heap }
  | .restore => .ok () { w with heap := w.inc.restoreDesignVariables w.heap }
  | .batch b op => (op.step (w.B b, w.heap)).mapState fun s =>
      { w with B := fun b' => if b' = b then s.1 else w.B b', heap := s.2 }

/-- A client program: exceptions are caught and the program goes on.  The trace records which calls returned normally.
(Model glue, not in the code: no lines.) -/
def IOp.runAny {V : Type _} : List (IOp V) → World V → Res (World V) (List Bool)
  | [], w => .ok [] w
  | op :: ops, w =>
    match op.step w with
    | .ok _ w' => (IOp.runAny ops w').bind fun tr w'' => .ok (true :: tr) w''
    | .throw _ w' => (IOp.runAny ops w').bind fun tr w'' => .ok (false :: tr) w''
    | .ub => .ub
    | .diverge => .diverge

end Verif
