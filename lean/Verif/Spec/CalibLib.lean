import Verif.Model.CalibLib

/-! Vocabulary for the calibrators with the estimator of the library. -/

namespace Verif
namespace CalibLib
variable {X V F M : Type}

/-- the windows whose batch is in the problem, by number. -/
def inside (log : List (Sub X V F M)) : List Nat := (log.zipIdx.filter fun x => x.1.inside).map Prod.snd

/-- the spline variables of these windows, in the order of the windows. -/
def splineVars (c : Env X V F M) (log : List (Sub X V F M)) : List DVId :=
  (log.zipIdx.filter fun x => x.1.inside).flatMap fun x => c.trVars x.2 x.1.win ++ c.roVars x.2 x.1.win

/-- the error terms of these windows, in the order of the windows. -/
def allTerms (c : Env X V F M) (log : List (Sub X V F M)) : List ETId :=
  (log.zipIdx.filter fun x => x.1.inside).flatMap fun x => c.termIds x.2 x.1.win

/-- the last window that was accepted. -/
def lastAccepted (log : List (Sub X V F M)) : Option (RetVal F M) :=
  ((log.filterMap Sub.ret).filter RetVal.batchAccepted).getLast?

/-- the statistics the estimator holds after these windows. -/
def statsAfter (st0 : Stats F M) (log : List (Sub X V F M)) : Stats F M :=
  match lastAccepted log with
  | none => st0
  | some r => ⟨r.informationGain, r.marginal, r.scaled, r.srv.JStart, r.srv.JFinal⟩

/-- the values of the calibration variables after these windows. -/
def calAfter (v0 : List V) (log : List (Sub X V F M)) : List V := (log.getLast?.map Sub.after).getD v0

/-- the order of elimination: the group of the configuration last. -/
def orderOf (g : GroupId) : List GroupId := if g = 0 then [1, 0] else [0, 1]

/-- what can be assumed of a window: its splines have design variables, and the error terms depend on calibration variables and
on variables of these splines. -/
def Good (c : Env X V F M) (x : X) : Prop :=
  0 < c.ntr x + c.nro x ∧ ∀ t ∈ c.terms x, ∀ r ∈ t.1, match r with
    | .cal j => j < c.ncal
    | .spl j => j < c.ntr x + c.nro x

/-- the objects of window `k` with content `x`: the variables of its splines are to be optimized and have the dimensions of these splines;
its error terms have the dimensions of, and depend on the variables of, the measurements. -/
structure Made (c : Env X V F M) (k : Nat) (x : X) (h : Heap V) : Prop where
  vars : ∀ j < c.ntr x + c.nro x, h.minDim (splVar k j) = c.dim j ∧ h.active (splVar k j) = true
  terms : ∀ j t, (c.terms x)[j]? = some t → h.etDVs (term k j) = t.1.map (Env.deref k) ∧ h.etDim (term k j) = t.2

/-- what the optimizer is given in window `b`, after the windows `pre`: the batches in the problem and that of the window; the
spline variables first (`g = 1`), then the calibration variables, once; all error terms; all of them as they were made; the new
splines as they were fitted, and the calibration as it was before the call. -/
structure Sees (c : Env X V F M) (g : GroupId) (pre : List (Sub X V F M)) (b : Sub X V F M) (inp : OptInput V) : Prop where
  problems : inp.inc.problems = inside pre ++ [pre.length]
  ordering : inp.inc.ordering = orderOf g
  splines : inp.inc.getGroup 0 = .ok (splineVars c pre ++ (c.trVars pre.length b.win ++ c.roVars pre.length b.win)) ()
  calibration : inp.inc.getGroup 1 = .ok c.cal ()
  terms : inp.inc.problems.flatMap (fun k => (inp.B k).errorTerms) = allTerms c pre ++ c.termIds pre.length b.win
  values : c.cal.map inp.heap.params = b.before
  made : ∀ k w, (pre ++ [b])[k]? = some w → Made c k w.win inp.heap
  fitted : ∀ j < c.ntr b.win + c.nro b.win, inp.heap.params (splVar pre.length j) = c.value b.win j

/-- what happens in window `b`, after the windows `pre`. -/
structure Decided (c : Env X V F M) (g : GroupId) (o : EstOptions F) (st0 : Stats F M) (v0 : List V)
    (pre : List (Sub X V F M)) (b : Sub X V F M) : Prop where
  /-- between the calls nobody changes the calibration. -/
  before : b.before = calAfter v0 pre
  /-- the call returns: it reports the result of the optimizer, with the information gain against the last accepted window;
  the window is accepted exactly if the gain exceeds the threshold or the rank grows, and the solution counts as valid; then its
  batch stays and the calibration is that of the optimizer.  Otherwise the batch is out and the calibration is as before. -/
  returned : ∀ r, b.ret = some r → ∃ inp sc, Sees c g pre b inp ∧
    (c.oracle pre.length inp).report = some (r.srv, sc) ∧ (c.oracle pre.length inp).marginal = some r.marginal ∧
    r.scaled = EWorld.scaledOf c.m0 o sc ∧
    r.informationGain = c.D.halfDiff r.marginal.svLog2Sum (statsAfter st0 pre).marginal.svLog2Sum ∧
    (r.batchAccepted = true ↔
      (c.D.gt r.informationGain o.infoGainDelta = true ∨ r.marginal.rankTheta > (statsAfter st0 pre).marginal.rankTheta) ∧
      (o.checkValidity = true → r.srv.iterations ≠ o.maxIterations ∧ c.D.ge r.srv.JFinal r.srv.JStart = false)) ∧
    b.inside = r.batchAccepted ∧
    b.after = if r.batchAccepted then c.cal.map (c.oracle pre.length inp).params else b.before
  /-- the call throws: the optimizer failed, and the batch stays, with what the optimizer left; or the batch was refused and the
  matrices could not be rebuilt, and the batch is out and the calibration as before. -/
  threw : b.ret = none → ∃ inp, Sees c g pre b inp ∧
    (((c.oracle pre.length inp).report = none ∨ (c.oracle pre.length inp).marginal = none) ∧ b.inside = true ∧
      b.after = c.cal.map (c.oracle pre.length inp).params ∨
     c.buildOk pre.length = false ∧ inside pre ≠ [] ∧ b.inside = false ∧ b.after = b.before)

/-- all histories of an estimator fed by a calibrator, exceptions being caught by the caller. -/
inductive Reach (c : Env X V F M) (s0 : St X V F M) : St X V F M → Prop
  | start : Reach c s0 s0
  | step {s s' : St X V F M} {x : X} : Reach c s0 s → (c.submit s x).state? = some s' → Reach c s0 s'

/-- the information gains of the calls that returned. -/
def gainsOf (log : List (Sub X V F M)) : List F := (log.filterMap Sub.ret).map RetVal.informationGain

/-- the calibrations after the calls that returned. -/
def paramsOf (log : List (Sub X V F M)) : List (List V) := (log.filter fun b => b.ret.isSome).map Sub.after

/-- the histories a calibrator offers are those of its estimator. -/
structure Recorded (v0 : List V) (e : St X V F M) (gains : List F) (params : List (List V)) (sent : Nat) : Prop where
  gains : gains = gainsOf e.log
  params : params = v0 :: paramsOf e.log
  sent : e.log.length = sent

end CalibLib
end Verif
