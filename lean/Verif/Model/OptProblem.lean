import Verif.Model.Permute

/-! Model of the batch container
`/repo/incremental_calibration/src/core/OptimizationProblem.cpp` (class in
`/repo/incremental_calibration/include/aslam/calibration/core/OptimizationProblem.h`). -/

namespace Verif

/-- The objects reachable through pointers, as far as the containers look at them:
`DesignVariable::isActive/minimalDimensions/getParameters/setParameters` and
`ErrorTerm::designVariable(i)/dimension` (aslam_backend interface).  `V` is the type of parameter matrices.
Used at `OptimizationProblem.cpp` 91-100, 249-261. -/
structure Heap (V : Type _) where
  active : DVId → Bool
  minDim : DVId → Nat
  params : DVId → V
  etDVs : ETId → List DVId
  etDim : ETId → Nat

/-- `DesignVariable::setParameters` / `update` seen from outside: variable `d` gets value `v`.
At `OptimizationProblem.cpp` 259. -/
def Heap.setParams {V : Type _} (h : Heap V) (d : DVId) (v : V) : Heap V :=
  { h with params := fun d' => if d' = d then v else h.params d' }

/-- `DesignVariable::setActive`.  External; read at `OptimizationProblem.cpp` 97. -/
def Heap.setActive {V : Type _} (h : Heap V) (d : DVId) (b : Bool) : Heap V :=
  { h with active := fun d' => if d' = d then b else h.active d' }

/-- Members of `OptimizationProblem`, `OptimizationProblem.h:184-195`. -/
structure OptProblem (V : Type _) where
  lookup : List (DVId × GroupId)            -- _designVariablesLookup
  etLookup : List ETId                      -- _errorTermsLookup
  groups : List (GroupId × List DVId)       -- _designVariables
  errorTerms : List ETId                    -- _errorTerms
  ordering : List GroupId                   -- _groupsOrdering
  backup : List (DVId × V)                  -- _designVariablesBackup

namespace OptProblem
variable {V : Type _}

/-- Constructor, `OptimizationProblem.cpp:25-26`. -/
def empty : OptProblem V := ⟨[], [], [], [], [], []⟩

/-- `isGroupInProblem`, `OptimizationProblem.cpp:102-104`. -/
def isGroupInProblem (p : OptProblem V) (g : GroupId) : Bool := AL.has g p.groups

/-- `isDesignVariableInProblem`, `OptimizationProblem.cpp:126-129`. -/
def isDVInProblem (p : OptProblem V) (d : DVId) : Bool := AL.has d p.lookup

/-- `isErrorTermInProblem`, `OptimizationProblem.cpp:150-153`. -/
def isETInProblem (p : OptProblem V) (e : ETId) : Bool := decide (e ∈ p.etLookup)

/-- `getDesignVariablesGroup`, `OptimizationProblem.cpp:40-47`. -/
def getGroup (p : OptProblem V) (g : GroupId) : Res Unit (List DVId) :=
  match AL.get g p.groups with
  | some l => .ok l ()
  | none => .throw .outOfBound ()

/-- `getNumGroups`, `OptimizationProblem.cpp:54-56`. -/
def getNumGroups (p : OptProblem V) : Nat := p.ordering.length

/-- The checking loop of `setGroupsOrdering`, `OptimizationProblem.cpp:64-74`; `seen` is `groupsLookup`. -/
def checkOrdering (p : OptProblem V) : (seen o : List GroupId) → Bool
  | _, [] => true
  | seen, g :: o =>
    if !p.isGroupInProblem g then false
    else if seen.contains g then false
    else checkOrdering p (g :: seen) o

/-- `setGroupsOrdering`, `OptimizationProblem.cpp:58-76`. -/
def setGroupsOrdering (p : OptProblem V) (o : List GroupId) : Res (OptProblem V) Unit :=
  if o.length ≠ p.ordering.length then .throw .outOfBound p
  else if p.checkOrdering [] o then .ok () { p with ordering := o }
  else .throw .outOfBound p

/-- `getGroupId(designVariable)`, `OptimizationProblem.cpp:82-89`. -/
def getGroupId (p : OptProblem V) (d : DVId) : Res Unit GroupId :=
  match AL.get d p.lookup with
  | some g => .ok g ()
  | none => .throw .invalidOperation ()

/-- Loop of `getGroupDim`, `OptimizationProblem.cpp:94-99`. -/
def dimLoop (h : Heap V) : List DVId → Nat → Nat
  | [], dim => dim
  | d :: l, dim => dimLoop h l (if h.active d then dim + h.minDim d else dim)

/-- `getGroupDim`, `OptimizationProblem.cpp:91-100`. -/
def getGroupDim (h : Heap V) (p : OptProblem V) (g : GroupId) : Res Unit Nat :=
  match p.getGroup g with
  | .ok l _ => .ok (dimLoop h l 0) ()
  | .throw e _ => .throw e ()
  | .ub => .ub
  | .diverge => .diverge

/-- `addDesignVariable`, `OptimizationProblem.cpp:110-124`. -/
def addDesignVariable (p : OptProblem V) (dv : Option DVId) (g : GroupId) : Res (OptProblem V) Unit :=
  match dv with
  | none => .throw .nullPointer p
  | some d =>
    if p.isDVInProblem d then .throw .invalidOperation p
    else
      let p1 := { p with lookup := AL.set d g p.lookup }
      let p2 := if p1.isGroupInProblem g then p1 else { p1 with ordering := p1.ordering ++ [g] }
      .ok () { p2 with groups := AL.set g ((AL.get g p2.groups).getD [] ++ [d]) p2.groups }

/-- `addErrorTerm`, `OptimizationProblem.cpp:131-148`. -/
def addErrorTerm (h : Heap V) (p : OptProblem V) (et : Option ETId) : Res (OptProblem V) Unit :=
  match et with
  | none => .throw .nullPointer p
  | some e =>
    if p.isETInProblem e then .throw .invalidOperation p
    else if (h.etDVs e).all p.isDVInProblem then
      .ok () { p with etLookup := p.etLookup ++ [e], errorTerms := p.errorTerms ++ [e] }
    else .throw .invalidOperation p

/-- `clear`, `OptimizationProblem.cpp:155-162`. -/
def clear (_ : OptProblem V) : OptProblem V := ⟨[], [], [], [], [], []⟩

/-- `numDesignVariablesImplementation`, `OptimizationProblem.cpp:164-166`. -/
def numDesignVariables (p : OptProblem V) : Nat := p.lookup.length

/-- `numErrorTermsImplementation`, `OptimizationProblem.cpp:182-185`. -/
def numErrorTerms (p : OptProblem V) : Nat := p.etLookup.length

end OptProblem

/-- Loop of the private `getGroupId(idx, groupId, idxGroup)`, `OptimizationProblem.cpp:232-246` and identically
`IncrementalOptimizationProblem.cpp:335-349`.  When no group matches the C++ leaves `groupIdRunning` at its
initial value 0. -/
def scanGroups (groups : List (GroupId × List DVId)) (idx : Nat) : List GroupId → Nat → Res Unit (GroupId × Nat)
  | [], run => .ok (0, idx - run) ()
  | g :: gs, run =>
    match AL.get g groups with
    | none => .throw .stdOutOfRange ()
    | some l => if run + l.length > idx then .ok (g, idx - run) () else scanGroups groups idx gs (run + l.length)

/-- `_designVariables.at(groupId)[idxGroup]`, `OptimizationProblem.cpp:172,179`,
`IncrementalOptimizationProblem.cpp:272-273,281`: `at` throws, `operator[]` out of range is UB. -/
def groupElem (groups : List (GroupId × List DVId)) (gi : GroupId × Nat) : Res Unit DVId :=
  match AL.get gi.1 groups with
  | none => .throw .stdOutOfRange ()
  | some l =>
    match l[gi.2]? with
    | none => .ub
    | some d => .ok d ()

namespace OptProblem
variable {V : Type _}

/-- `designVariableImplementation(idx)`, `OptimizationProblem.cpp:168-180` with `getGroupId(idx,…)` 227-247. -/
def designVariable (p : OptProblem V) (idx : Nat) : Res Unit DVId :=
  if idx ≥ p.lookup.length then .throw .outOfBound ()
  else (scanGroups p.groups idx p.ordering 0).bind fun gi _ => groupElem p.groups gi

/-- `errorTermImplementation(idx)`, `OptimizationProblem.cpp:187-203`. -/
def errorTerm (p : OptProblem V) (idx : Nat) : Res Unit ETId :=
  match p.errorTerms[idx]? with
  | none => .throw .outOfBound ()
  | some e => .ok e ()

/-- `getErrorsImplementation`, `OptimizationProblem.cpp:205-211` (the result is a `std::set`; modelled by the
list of the terms inserted, in order). -/
def getErrors (h : Heap V) (p : OptProblem V) (d : DVId) : List ETId :=
  p.errorTerms.filter fun e => decide (d ∈ h.etDVs e)

/-- `permuteErrorTerms`, `OptimizationProblem.cpp:213-216`. -/
def permuteErrorTerms (p : OptProblem V) (perm : List Nat) : Res (OptProblem V) Unit :=
  (permute p.errorTerms perm).mapState fun l => { p with errorTerms := l }

/-- `permuteDesignVariables`, `OptimizationProblem.cpp:218-225`. -/
def permuteDesignVariables (p : OptProblem V) (perm : List Nat) (g : GroupId) : Res (OptProblem V) Unit :=
  match AL.get g p.groups with
  | none => .throw .outOfBound p
  | some l => (permute l perm).mapState fun l' => { p with groups := AL.set g l' p.groups }

/-- Loop of `saveDesignVariables`, `OptimizationProblem.cpp:250-253`. -/
def saveLoop (h : Heap V) : List DVId → List (DVId × V) → List (DVId × V)
  | [], b => b
  | d :: l, b => saveLoop h l (AL.set d (h.params d) b)

/-- `saveDesignVariables`, `OptimizationProblem.cpp:249-254`. -/
def saveDesignVariables (h : Heap V) (p : OptProblem V) : OptProblem V :=
  { p with backup := saveLoop h (AL.keys p.lookup) p.backup }

/-- Loop of `restoreDesignVariables`, `OptimizationProblem.cpp:257-259`. -/
def restoreLoop : List (DVId × V) → Heap V → Heap V
  | [], h => h
  | (d, v) :: l, h => restoreLoop l (h.setParams d v)

/-- `restoreDesignVariables`, `OptimizationProblem.cpp:256-260`. -/
def restoreDesignVariables (p : OptProblem V) (h : Heap V) : Heap V := restoreLoop p.backup h

end OptProblem

/-- Calls a client can make on a batch, plus changes of variables made through other pointers.
The public functions of `OptimizationProblem.h` 60-150. -/
inductive BOp (V : Type _) where
  | addDV (d : Option DVId) (g : GroupId)
  | addET (e : Option ETId)
  | clear
  | setOrdering (o : List GroupId)
  | permET (perm : List Nat)
  | permDV (perm : List Nat) (g : GroupId)
  | save
  | restore
  | setValue (d : DVId) (v : V)
  | setActive (d : DVId) (b : Bool)

/-- One call: dispatch to the modelled functions above. State: the batch and the heap.
(Model glue: dispatches to the functions modelled above; no lines of its own.) -/
def BOp.step {V : Type _} (op : BOp V) (s : OptProblem V × Heap V) : Res (OptProblem V × Heap V) Unit :=
  match op with
  | .addDV d g => (s.1.addDesignVariable d g).mapState (·, s.2)
  | .addET e => (OptProblem.addErrorTerm s.2 s.1 e).mapState (·, s.2)
  | .clear => .ok () (s.1.clear, s.2)
  | .setOrdering o => (s.1.setGroupsOrdering o).mapState (·, s.2)
  | .permET perm => (s.1.permuteErrorTerms perm).mapState (·, s.2)
  | .permDV perm g => (s.1.permuteDesignVariables perm g).mapState (·, s.2)
  | .save => .ok () (OptProblem.saveDesignVariables s.2 s.1, s.2)
  | .restore => .ok () (s.1, s.1.restoreDesignVariables s.2)
  | .setValue d v => .ok () (s.1, s.2.setParams d v)
  | .setActive d b => .ok () (s.1, s.2.setActive d b)

/-- A client program: exceptions are caught and the program goes on. The trace records which calls returned
normally.  (Model glue, not in the code: no lines.) -/
def BOp.run {V : Type _} : List (BOp V) → OptProblem V × Heap V → Res (OptProblem V × Heap V) (List Bool)
  | [], s => .ok [] s
  | op :: ops, s =>
    match op.step s with
    | .ok _ s' => (BOp.run ops s').bind fun tr s'' => .ok (true :: tr) s''
    | .throw _ s' => (BOp.run ops s').bind fun tr s'' => .ok (false :: tr) s''
    | .ub => .ub
    | .diverge => .diverge

end Verif
