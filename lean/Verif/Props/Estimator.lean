import Verif.Lemmas.Estimator3
import Mathlib.Algebra.Field.Basic
import Mathlib.Tactic.Ring

/-! Properties of the incremental estimator, `/repo/incremental_calibration/src/core/IncrementalEstimator.cpp`.

The optimizer is an arbitrary oracle: each call of `addBatch`/`reoptimize`/`removeBatch` comes with its own, and
the theorems hold for all of them.  `EReach D m0 w0 w`: `w` is reachable from `w0` by calls on the estimator and
on batches. -/

namespace Verif
variable {V F M : Type _}

/-- What the client sees of a call: `none` an exception, `some none` a return without value, `some (some r)` the
returned `ReturnValue`. -/
abbrev EObs (F M : Type _) := Option (Option (RetVal F M))

/-- Observation and next world (`none`: undefined behaviour or non-termination). -/
def Res.observe (r : Res (EWorld V F M) (Option (RetVal F M))) : Option (EObs F M × EWorld V F M) :=
  match r with
  | .ok a w => some (some a, w)
  | .throw _ w => some (none, w)
  | .ub => none
  | .diverge => none

/-- `EOp.Regular`, decided. -/
def EOp.regularB (op : EOp V F M) (w : EWorld V F M) : Bool :=
  match op with
  | .addBatch (some b) _ _ _ => (w.est.inc.add w.B (some b)).isOk
  | .batch b bop => (IOp.batch b bop).regularB w.toWorld (bop.step (w.B b, w.heap)).isOk
  | _ => true

theorem EOp.regularB_iff {op : EOp V F M} {w : EWorld V F M} (h : op.regularB w = true) : op.Regular w := by
  cases op with
  | addBatch b f o k => cases b <;> first | exact trivial | exact h
  | batch b bop =>
    exact IOp.regularB_iff (op := .batch b bop) h
  | _ => trivial

/-- Run a program of regular calls. -/
def EOp.run (D : Dbl F) (m0 : M) : List (EOp V F M) → EWorld V F M → Option (List (EObs F M) × EWorld V F M)
  | [], w => some ([], w)
  | op :: ops, w =>
    if op.regularB w then
      match (op.step D m0 w).observe with
      | some (o, w') =>
        match EOp.run D m0 ops w' with
        | some (os, w'') => some (o :: os, w'')
        | none => none
      | none => none
    else none

theorem run_cons {D : Dbl F} {m0 : M} {op : EOp V F M} {ops : List (EOp V F M)} {w w'' : EWorld V F M} {os}
    (h : EOp.run D m0 (op :: ops) w = some (os, w'')) : ∃ o os' w', os = o :: os' ∧ op.Regular w ∧
      (op.step D m0 w).observe = some (o, w') ∧ EOp.run D m0 ops w' = some (os', w'') := by
  rw [EOp.run] at h
  split at h
  · rename_i hreg
    split at h
    · rename_i o w' heq
      split at h
      · rename_i os' w2 heq2
        simp only [Option.some.injEq, Prod.mk.injEq] at h
        obtain ⟨rfl, rfl⟩ := h
        exact ⟨o, os', w', rfl, EOp.regularB_iff hreg, heq, heq2⟩
      · simp at h
    · simp at h
  · simp at h

theorem observe_outcome {r : Res (EWorld V F M) (Option (RetVal F M))} {o : EObs F M} {w' : EWorld V F M}
    (h : r.observe = some (o, w')) : ∃ ok, r.outcome = some (ok, w') := by
  cases r <;> simp [Res.observe] at h
  · exact ⟨true, by simp [Res.outcome, h.2]⟩
  · exact ⟨false, by simp [Res.outcome, h.2]⟩

theorem reach_of_run {D : Dbl F} {m0 : M} {w0 : EWorld V F M} {ops : List (EOp V F M)} {w w'' : EWorld V F M} {os}
    (h0 : EReach D m0 w0 w) (h : EOp.run D m0 ops w = some (os, w'')) : EReach D m0 w0 w'' := by
  induction ops generalizing w os with
  | nil => simp [EOp.run] at h; rw [← h.2]; exact h0
  | cons op ops ih =>
    obtain ⟨o, os', w', rfl, hreg, h1, h2⟩ := run_cons h
    obtain ⟨ok, hok⟩ := observe_outcome h1
    exact ih (h0.step op hreg hok) h2

/-- What the statistics getters show after a call that returned `r` and kept the batch. -/
def RetVal.stats (r : RetVal F M) : Stats F M := ⟨r.informationGain, r.marginal, r.scaled, r.srv.JStart, r.srv.JFinal⟩

/-! ### a concrete estimator for the examples -/

/-- Integer arithmetic in place of doubles. -/
def dblInt : Dbl Int := ⟨0, fun a b => (a - b) / 2, fun a b => decide (a > b), fun a b => decide (a ≥ b)⟩

/-- An optimizer that reports the log sum `sv` and adds `sv` to the values of the problem's variables. -/
def oracle0 (sv : Int) (rank : Int) (iters : Nat) : OptInput Nat → OptCall Nat Int Nat := fun i =>
  { params := fun d => i.heap.params d + if i.inc.isDVInProblem d then sv.toNat else 0
    layout := ⟨fun _ => 5, fun _ => 5, fun _ => 5, [], []⟩
    report := some (⟨iters, 10, 4⟩, ⟨1, 2, 3, 4, 5⟩)
    marginal := some ⟨sv, 1, 1, 1, 1, 1, 0, 0, rank, 0, 2, 0, 100, 50, 3⟩ }

/-- An optimizer that throws. -/
def oracleThrow : OptInput Nat → OptCall Nat Int Nat := fun _ =>
  ⟨fun _ => 78, ⟨fun _ => 0, fun _ => 0, fun _ => 0, [], []⟩, none, none⟩

def estOpts0 : EstOptions Int := ⟨3, true, 20, true⟩

def est0 : EWorld Nat Int Nat := EWorld.fresh dblInt (-1) 0 1 estOpts0 heap0

/-- Batch 0: variables 3,4 (group 0), 5 (marginalised group 1); batch 1: variable 3 (group 0), 5 (group 1), 8 and
9 (group 2); batch 2: variable 6 (group 7). -/
def ebatches0 : List (EOp Nat Int Nat) :=
  [.batch 0 (.addDV (some 5) 1), .batch 0 (.addDV (some 3) 0), .batch 0 (.addDV (some 4) 0),
   .batch 0 (.addET (some 3)),
   .batch 1 (.addDV (some 3) 0), .batch 1 (.addDV (some 5) 1), .batch 1 (.addDV (some 9) 2),
   .batch 1 (.addDV (some 8) 2), .batch 1 (.addET (some 8)), .batch 2 (.addDV (some 6) 7)]

/-- Batch 0 accepted, batch 1 rejected (gain too small). -/
def eprog0 : List (EOp Nat Int Nat) :=
  ebatches0 ++ [.addBatch (some 0) false (oracle0 8 1 5) true, .addBatch (some 1) false (oracle0 14 1 5) true]

/-- The flags returned. -/
def flags (os : List (EObs F M)) : List (Option (Option Bool)) := os.map fun o => o.map fun r => r.map RetVal.batchAccepted

set_option synthInstance.maxSize 1000 in
example : (EOp.run dblInt 0 eprog0 est0).map (fun x => (flags (x.1.drop 10), x.2.est.inc.problems, x.2.est.inc.ordering,
      [3, 4, 5, 8, 9].map x.2.heap.params, x.2.est.stats.informationGain)) =
    some ([some (some true), some (some false)], [0], [0, 1], [38, 48, 58, 80, 90], 4) := by decide

/-! ### C18 -/

/-- **C18.** A batch that is new to the estimator, or holds an error term, and is reported as not
accepted leaves no trace: batches, variables, groups, their order, error terms, statistics, options and the values
of all variables of the problem and of the batch are as before.  (Variables that belong to neither can only have
been changed by the optimizer itself.)
(Batches that are already contained are outside the property; without error terms it is false for them, see
`C18_rejected_readd_reorders`.) -/
theorem C18_rejected_batch_leaves_no_trace {D : Dbl F} {m0 : M} {mo : F} {g : GroupId} {o : EstOptions F}
    {h0 : Heap V} {w w' : EWorld V F M} (h : EReach D m0 (EWorld.fresh D mo m0 g o h0) w)
    {b : BatchId} {force buildOk : Bool} {oracle : OptInput V → OptCall V F M} {r : RetVal F M}
    (hnew : b ∉ w.est.inc.problems ∨ (w.B b).numErrorTerms > 0)
    (hres : w.addBatch D m0 oracle buildOk (some b) force = .ok r w') (hrej : r.batchAccepted = false) :
    w'.B = w.B ∧ w'.est.inc.problems = w.est.inc.problems ∧ w'.getNumBatches = w.getNumBatches ∧
    w'.est.inc.ordering = w.est.inc.ordering ∧ (∀ g, w'.est.inc.getGroup g = w.est.inc.getGroup g) ∧
    (∀ d, w'.est.inc.isDVInProblem d = w.est.inc.isDVInProblem d) ∧
    (∀ d, w'.est.inc.getGroupId d = w.est.inc.getGroupId d) ∧
    w'.est.inc.numDesignVariables = w.est.inc.numDesignVariables ∧
    (∀ i, w'.est.inc.designVariable i = w.est.inc.designVariable i) ∧
    w'.est.inc.numErrorTerms w'.B = w.est.inc.numErrorTerms w.B ∧
    (∀ i, w'.est.inc.errorTerm w'.B i = w.est.inc.errorTerm w.B i) ∧
    w'.est.stats = w.est.stats ∧ w'.est.options = w.est.options ∧ w'.est.margGroup = w.est.margGroup ∧
    (∀ d, w.est.inc.isDVInProblem d = true ∨ (w.B b).isDVInProblem d = true →
      w'.heap.params d = w.heap.params d) ∧
    (∃ input, w'.est.calls = w.est.calls ++ [input] ∧
      ∀ d, w.est.inc.isDVInProblem d = false → (w.B b).isDVInProblem d = false →
        w'.heap.params d = (oracle input).params d) ∧
    w'.heap.active = w.heap.active ∧ w'.heap.minDim = w.heap.minDim ∧ w'.heap.etDVs = w.heap.etDVs ∧
    w'.heap.etDim = w.heap.etDim :=
  h.inv.rejected hnew hres hrej

example : ∃ w r w', EReach dblInt 0 est0 w ∧ (1 ∉ w.est.inc.problems ∨ (w.B 1).numErrorTerms > 0) ∧
    w.addBatch dblInt 0 (oracle0 14 1 5) true (some 1) false = .ok r w' ∧ r.batchAccepted = false := by
  have h1 : (EOp.run dblInt 0 (ebatches0 ++ [.addBatch (some 0) false (oracle0 8 1 5) true]) est0).isSome = true := by
    decide
  obtain ⟨⟨os, w⟩, hw⟩ := Option.isSome_iff_exists.1 h1
  have h2 : (EOp.run dblInt 0 (ebatches0 ++ [.addBatch (some 0) false (oracle0 8 1 5) true]) est0).map (fun x =>
      (x.2.est.inc.problems, (x.2.addBatch dblInt 0 (oracle0 14 1 5) true (some 1) false).view fun _ => ()).map id fun o =>
        o.map fun y => y.1.batchAccepted) = some ([0], some false) := by decide
  rw [hw] at h2
  simp only [Option.map_some, Prod.map, id, Option.some.injEq, Prod.mk.injEq] at h2
  cases hr : w.addBatch dblInt 0 (oracle0 14 1 5) true (some 1) false with
  | ok r w' =>
    rw [hr] at h2
    simp [Res.view] at h2
    exact ⟨w, r, w', reach_of_run .init hw, .inl (by rw [h2.1]; decide), hr, h2.2⟩
  | _ => rw [hr] at h2; simp [Res.view] at h2

/-- **C18**, its limit: re-adding a contained batch without error terms and rejecting it moves the batch
to the end. -/
theorem C18_rejected_readd_reorders : ∃ (w w' : EWorld Nat Int Nat) (r : RetVal Int Nat) (b : BatchId),
    EReach dblInt 0 est0 w ∧ w.addBatch dblInt 0 (oracle0 14 1 5) true (some b) false = .ok r w' ∧
    r.batchAccepted = false ∧ w.est.inc.problems = [2, 0] ∧ w'.est.inc.problems = [0, 2] := by
  have h1 : (EOp.run dblInt 0 (ebatches0 ++ [.batch 2 (.addDV (some 5) 1), .addBatch (some 2) true (oracle0 14 1 5) true,
    .addBatch (some 0) true (oracle0 14 1 5) true]) est0).isSome = true := by decide
  obtain ⟨⟨os, w⟩, hw⟩ := Option.isSome_iff_exists.1 h1
  have h2 : (EOp.run dblInt 0 (ebatches0 ++ [.batch 2 (.addDV (some 5) 1), .addBatch (some 2) true (oracle0 14 1 5) true,
    .addBatch (some 0) true (oracle0 14 1 5) true]) est0).map (fun x =>
      (x.2.est.inc.problems, ((x.2.addBatch dblInt 0 (oracle0 14 1 5) true (some 2) false).view fun w => w.est.inc.problems).map fun
        y => (y.1.batchAccepted, y.2))) = some ([2, 0], some (false, [0, 2])) := by decide
  rw [hw] at h2
  simp only [Option.map_some, Option.some.injEq, Prod.mk.injEq] at h2
  cases hr : w.addBatch dblInt 0 (oracle0 14 1 5) true (some 2) false with
  | ok r w' =>
    rw [hr] at h2
    simp [Res.view] at h2
    exact ⟨w, w', r, 2, reach_of_run .init hw, hr, h2.2.1, h2.1, h2.2.2⟩
  | _ => rw [hr] at h2; simp [Res.view] at h2

/-! ### C19, C50: acceptance and statistics -/

/-- **C19.** Whenever `addBatch` returns, it accepts iff forced, or the solution is valid and the information gain
exceeds the threshold or the rank went up; the numbers are those reported by the solver, compared with the
statistics before the call. -/
theorem C19_acceptance_rule {D : Dbl F} {m0 : M} {mo : F} {g : GroupId} {o : EstOptions F}
    {h0 : Heap V} {w w' : EWorld V F M} (h : EReach D m0 (EWorld.fresh D mo m0 g o h0) w)
    {b : BatchId} {force buildOk : Bool} {oracle : OptInput V → OptCall V F M} {r : RetVal F M}
    (hres : w.addBatch D m0 oracle buildOk (some b) force = .ok r w') :
    (r.batchAccepted = true ↔
      force = true ∨
      ((D.gt r.informationGain w.est.options.infoGainDelta = true ∨
          r.marginal.rankTheta > w.est.stats.marginal.rankTheta) ∧
        ¬ (w.est.options.checkValidity = true ∧
          (r.srv.iterations = w.est.options.maxIterations ∨ D.ge r.srv.JFinal r.srv.JStart = true)))) ∧
    r.informationGain = D.halfDiff r.marginal.svLog2Sum w.est.stats.marginal.svLog2Sum ∧
    (∃ input sc, w'.est.calls = w.est.calls ++ [input] ∧ (oracle input).report = some (r.srv, sc) ∧
      (oracle input).marginal = some r.marginal ∧
      r.scaled = if w.est.options.columnScaling then sc else ⟨m0, m0, m0, m0, m0⟩) := by
  have hw := h.inv
  obtain ⟨b', hb', ha⟩ := addBatch_ok_addable hw hres
  obtain rfl : b = b' := by simpa using hb'
  obtain ⟨q1, hadd, hr, heff⟩ := addBatch_eff D m0 oracle buildOk hw.winv ha force
  rw [hres] at heff
  have hkeep : ∀ gain srv mg, EWorld.keep D w.est.options w.est.stats gain srv mg force = true ↔ (force = true ∨
      ((D.gt gain w.est.options.infoGainDelta = true ∨ mg.rankTheta > w.est.stats.marginal.rankTheta) ∧
        ¬ (w.est.options.checkValidity = true ∧
          (srv.iterations = w.est.options.maxIterations ∨ D.ge srv.JFinal srv.JStart = true)))) := by
    intro gain srv mg
    simp only [EWorld.keep, EWorld.solutionValid, Bool.or_eq_true, Bool.and_eq_true, decide_eq_true_eq,
      Bool.not_eq_true', Bool.and_eq_false_iff, Bool.or_eq_false_iff, decide_eq_false_iff_not, not_and_or, not_or,
      Bool.not_eq_true]
    tauto
  cases heff with
  | kept call srv sc mg gain hc hm h1 h2 hg hk =>
    refine ⟨⟨fun _ => (hkeep _ _ _).1 hk, fun _ => rfl⟩, hg, _, sc, rfl, by rw [← hc]; exact h1, by rw [← hc]; exact h2, rfl⟩
  | rejected call srv sc mg gain idx h5 q2 L hc hm h1 h2 hg hk hh hi hq2 hr2 hL r hres =>
    simp only at hres
    split at hres <;> simp at hres
    obtain ⟨rfl, rfl⟩ := hres
    refine ⟨⟨fun h => by simp at h, fun hacc => ?_⟩, hg, _, sc, rfl, by rw [← hc]; exact h1,
      by rw [← hc]; exact h2, rfl⟩
    rw [(hkeep _ _ _).2 hacc] at hk; simp at hk

/-- Both outcomes occur, also with `checkValidity` deciding. -/
example : ((EOp.run dblInt 0 (ebatches0 ++ [.addBatch (some 0) false (oracle0 8 1 20) true,
      .addBatch (some 0) false (oracle0 8 1 19) true, .addBatch (some 1) false (oracle0 14 1 5) true,
      .addBatch (some 1) false (oracle0 16 1 5) true]) est0).map fun x => flags (x.1.drop 10)) =
    some [some (some false), some (some true), some (some false), some (some true)] := by decide

/-- How the statistics getters may change (`old` before, `new` after a call). -/
def StatsSpec (D : Dbl F) (old new : Stats F M) : EOp V F M → EObs F M → Prop
  | .addBatch _ _ _ _, some (some r) => new = if r.batchAccepted then r.stats else old
  | .addBatch _ _ _ _, some none => False
  | .addBatch _ _ _ _, none => new = old
  | .reoptimize _, some (some r) => new = r.stats ∧ r.informationGain = D.zero ∧ r.batchAccepted = true
  | .reoptimize _, some none => False
  | .reoptimize _, none => ∃ sc, new = { old with scaled := sc }
  | .setOptions _, _ => new = old
  | .batch _ _, _ => new = old
  | .removeBatchIdx _ _, _ => True
  | .removeBatch _ _, _ => True

/-- **C50.** The statistics getters always show the last kept result: after an accepted batch or a `reoptimize`
they show what was returned, a rejected or throwing `addBatch` and every call on batches or options leaves them
alone; `reoptimize` reports information gain zero.  (For `removeBatch` see C23.) -/
theorem C50_statistics {D : Dbl F} {m0 : M} {mo : F} {g : GroupId} {o : EstOptions F}
    {h0 : Heap V} {w w' : EWorld V F M} (h : EReach D m0 (EWorld.fresh D mo m0 g o h0) w) (op : EOp V F M)
    (hreg : op.Regular w) (ob : EObs F M) (hs : (op.step D m0 w).observe = some (ob, w')) :
    StatsSpec D w.est.stats w'.est.stats op ob := by
  have hw := h.inv
  cases op with
  | addBatch b force oracle buildOk =>
    cases b with
    | none =>
      simp [EOp.step, EWorld.addBatch, IncProblem.add, Res.mapState, Res.bind, Res.observe, EWorld.setInc] at hs
      obtain ⟨rfl, rfl⟩ := hs
      rfl
    | some b =>
      have ha := addable_of_isOk hw.winv hreg
      obtain ⟨q1, hadd, hr, heff⟩ := addBatch_eff D m0 oracle buildOk hw.winv ha force
      simp only [EOp.step] at hs
      generalize w.addBatch D m0 oracle buildOk (some b) force = r at heff hs
      cases heff with
      | noMarg hm =>
        simp [Res.bind, Res.observe] at hs
        obtain ⟨rfl, rfl⟩ := hs
        rfl
      | optThrows call hc hm ht =>
        simp [Res.bind, Res.observe] at hs
        obtain ⟨rfl, rfl⟩ := hs
        cases force <;> rfl
      | kept call srv sc mg gain hc hm h1 h2 hg hk =>
        simp [Res.bind, Res.observe] at hs
        obtain ⟨rfl, rfl⟩ := hs
        simp [StatsSpec, RetVal.stats]
      | rejected call srv sc mg gain idx h5 q2 L hc hm h1 h2 hg hk hh hi hq2 hr2 hL r hres =>
        subst hres
        simp only at hs
        split at hs <;> simp [Res.bind, Res.observe] at hs <;> obtain ⟨rfl, rfl⟩ := hs <;> simp [StatsSpec]
  | reoptimize oracle =>
    simp only [EOp.step] at hs
    rcases reoptimize_eff (D := D) (m0 := m0) (oracle := oracle) hw with ⟨-, he⟩ | ⟨hm, call, -, he⟩
    · rw [he] at hs
      simp [Res.bind, Res.observe] at hs
      obtain ⟨rfl, rfl⟩ := hs
      exact ⟨_, rfl⟩
    · rw [he] at hs
      rcases hrep : call.report with _ | ⟨srv, sc⟩
      · simp [hrep, Res.bind, Res.observe] at hs
        obtain ⟨rfl, rfl⟩ := hs
        exact ⟨_, rfl⟩
      · rcases hmg : call.marginal with _ | mg
        · simp [hrep, hmg, Res.bind, Res.observe] at hs
          obtain ⟨rfl, rfl⟩ := hs
          exact ⟨_, rfl⟩
        · simp [hrep, hmg, Res.bind, Res.observe] at hs
          obtain ⟨rfl, rfl⟩ := hs
          exact ⟨rfl, rfl, rfl⟩
  | removeBatchIdx i oracle => trivial
  | removeBatch b oracle => trivial
  | setOptions o =>
    simp [EOp.step, Res.observe] at hs
    obtain ⟨rfl, rfl⟩ := hs
    rfl
  | batch b bop =>
    simp only [EOp.step] at hs
    cases hb : bop.step (w.B b, w.heap) <;> simp [hb, Res.mapState, Res.bind, Res.observe] at hs <;>
      obtain ⟨rfl, rfl⟩ := hs <;> rfl

example : ((EOp.run dblInt 0 (eprog0 ++ [.reoptimize (oracle0 6 0 3), .reoptimize oracleThrow]) est0).map fun x =>
      (x.2.est.stats.marginal.svLog2Sum, x.2.est.stats.marginal.rankTheta, x.2.est.stats.informationGain,
       x.2.est.stats.finalCost)) = some (6, 0, 0, 4) := by decide

/-- The calls of a history in which nothing has been kept yet: batches are built, options set, batches submitted –
no `reoptimize`, no removal (specification). -/
def EOp.submitsOnly : EOp V F M → Bool
  | .addBatch _ _ _ _ => true
  | .setOptions _ => true
  | .batch _ _ => true
  | .reoptimize _ => false
  | .removeBatchIdx _ _ => false
  | .removeBatch _ _ => false

theorem run_stats_fixed {D : Dbl F} {m0 : M} {mo : F} {g : GroupId} {o : EstOptions F} {h0 : Heap V} :
    ∀ (ops : List (EOp V F M)) {w w' : EWorld V F M} {os : List (EObs F M)},
      EReach D m0 (EWorld.fresh D mo m0 g o h0) w → EOp.run D m0 ops w = some (os, w') →
      (∀ op ∈ ops, op.submitsOnly = true) → (∀ r, some (some r) ∈ os → r.batchAccepted = false) →
      EReach D m0 (EWorld.fresh D mo m0 g o h0) w' ∧ w'.est.stats = w.est.stats
  | [], w, w', os, hw, h, _, _ => by
    simp only [EOp.run, Option.some.injEq, Prod.mk.injEq] at h
    obtain ⟨-, rfl⟩ := h
    exact ⟨hw, rfl⟩
  | op :: ops, w, w', os, hw, h, hsub, hacc => by
    obtain ⟨ob, os', w1, rfl, hreg, hs, hrun⟩ := run_cons h
    have hst := C50_statistics hw op hreg ob hs
    have hr1 : EReach D m0 (EWorld.fresh D mo m0 g o h0) w1 := by
      cases hstep : op.step D m0 w with
      | ok a w2 =>
        rw [hstep] at hs
        simp only [Res.observe, Option.some.injEq, Prod.mk.injEq] at hs
        obtain ⟨-, rfl⟩ := hs
        exact EReach.step (ok := true) op hw hreg (by rw [hstep]; rfl)
      | throw e w2 =>
        rw [hstep] at hs
        simp only [Res.observe, Option.some.injEq, Prod.mk.injEq] at hs
        obtain ⟨-, rfl⟩ := hs
        exact EReach.step (ok := false) op hw hreg (by rw [hstep]; rfl)
      | ub => rw [hstep] at hs; simp [Res.observe] at hs
      | diverge => rw [hstep] at hs; simp [Res.observe] at hs
    obtain ⟨hr2, he⟩ := run_stats_fixed ops hr1 hrun (fun q hq => hsub q (List.mem_cons_of_mem _ hq))
      (fun r hr => hacc r (List.mem_cons_of_mem _ hr))
    refine ⟨hr2, he.trans ?_⟩
    have hop := hsub op List.mem_cons_self
    cases op with
    | addBatch b force oracle buildOk =>
      rcases ob with _ | _ | r
      · exact hst
      · exact hst.elim
      · have := hacc r List.mem_cons_self
        simpa [StatsSpec, this] using hst
    | setOptions o => exact hst
    | batch b bop => exact hst
    | reoptimize oracle => simp [EOp.submitsOnly] at hop
    | removeBatchIdx i oracle => simp [EOp.submitsOnly] at hop
    | removeBatch b oracle => simp [EOp.submitsOnly] at hop

/-- **C50** / **C19**, before anything is kept.  As long as no submitted batch has been accepted, the getters show
"nothing estimated": information gain, log sum, tolerance, costs and memory figures zero, QR tolerance and all four
ranks minus one, empty matrices.  Hence the next batch with a valid solution is accepted as soon as any rank at all
(zero or more) is reported, and the gain it reports is half its own log sum. -/
theorem C50_nothing_kept {D : Dbl F} {m0 : M} {mo : F} {g : GroupId} {o : EstOptions F} {h0 : Heap V}
    {ops : List (EOp V F M)} {w : EWorld V F M} {os : List (EObs F M)}
    (hrun : EOp.run D m0 ops (EWorld.fresh D mo m0 g o h0) = some (os, w))
    (hsub : ∀ op ∈ ops, op.submitsOnly = true) (hacc : ∀ r, some (some r) ∈ os → r.batchAccepted = false) :
    w.est.stats = ⟨D.zero, ⟨D.zero, m0, m0, m0, m0, m0, D.zero, mo, -1, -1, -1, -1, 0, 0, D.zero⟩,
      ⟨m0, m0, m0, m0, m0⟩, D.zero, D.zero⟩ ∧
    (∀ (b : BatchId) (force buildOk : Bool) (oracle : OptInput V → OptCall V F M) (r : RetVal F M)
      (w' : EWorld V F M), w.addBatch D m0 oracle buildOk (some b) force = .ok r w' →
      r.informationGain = D.halfDiff r.marginal.svLog2Sum D.zero ∧
      (0 ≤ r.marginal.rankTheta →
        ¬ (w.est.options.checkValidity = true ∧
          (r.srv.iterations = w.est.options.maxIterations ∨ D.ge r.srv.JFinal r.srv.JStart = true)) →
        r.batchAccepted = true ∧ w'.est.stats = r.stats)) := by
  obtain ⟨hr, he⟩ := run_stats_fixed ops .init hrun hsub hacc
  have hst : w.est.stats = ⟨D.zero, ⟨D.zero, m0, m0, m0, m0, m0, D.zero, mo, -1, -1, -1, -1, 0, 0, D.zero⟩,
      ⟨m0, m0, m0, m0, m0⟩, D.zero, D.zero⟩ := he.trans rfl
  refine ⟨hst, fun b force buildOk oracle r w' hres => ?_⟩
  obtain ⟨hrule, hgain, -⟩ := C19_acceptance_rule hr hres
  refine ⟨by rw [hgain, hst], fun hrank hvalid => ?_⟩
  have ha : r.batchAccepted = true := hrule.2 (.inr ⟨.inr (by rw [hst]; simp only; omega), hvalid⟩)
  obtain ⟨b', hb', hadd⟩ := addBatch_ok_addable hr.inv hres
  obtain rfl : b = b' := by simpa using hb'
  have hs : ((EOp.addBatch (some b) force oracle buildOk).step D m0 w).observe = some (some (some r), w') := by
    simp [EOp.step, hres, Res.bind, Res.observe]
  refine ⟨ha, ?_⟩
  have hreg : (EOp.addBatch (some b) force oracle buildOk).Regular w := by
    obtain ⟨q1, h1, -⟩ := addBatch_eff D m0 oracle buildOk hr.inv.winv hadd force
    simp [EOp.Regular, h1, Res.isOk]
  have := C50_statistics hr _ hreg _ hs
  simpa [StatsSpec, ha] using this

/-- A history with a rejected (did not converge) submission, after which the first valid batch with rank zero and no
information is accepted. -/
example : ((EOp.run dblInt 0 (ebatches0 ++ [.addBatch (some 0) false (oracle0 8 1 20) true]) est0).map fun x =>
      (flags (x.1.drop 10), x.2.est.stats.marginal.rankTheta, x.2.est.stats.marginal.qrTolerance)) =
      some ([some (some false)], -1, -1) ∧
    ((EOp.run dblInt 0 (ebatches0 ++ [.addBatch (some 0) false (oracle0 8 1 20) true,
      .addBatch (some 0) false (oracle0 0 0 5) true]) est0).map fun x => flags (x.1.drop 10)) =
      some [some (some false), some (some true)] := by decide

/-! ### C20 -/

theorem activeDim_filter (h : Heap V) (l : List DVId) : activeDim h l = ((l.filter h.active).map h.minDim).sum := by
  induction l with
  | nil => rfl
  | cons a l ih =>
    simp only [activeDim, List.map_cons, List.sum_cons, List.filter_cons] at ih ⊢
    rw [ih]
    cases h.active a <;> simp

theorem optInput_shape {c : OptInput V} {g : GroupId} (hcw : WInv ⟨c.B, c.inc, c.heap⟩)
    (hlast : c.inc.ordering.getLast? = some g) (hms : c.margStart = margIndex ⟨c.B, c.inc, c.heap⟩ g) :
    ∃ others : List GroupId, c.inc.ordering = others ++ [g] ∧ g ∉ others ∧
      (∃ dims : List Nat, others.map (fun g' => c.inc.getGroupDim c.heap g') = dims.map (fun n => .ok n ()) ∧
        c.margStart = dims.sum) ∧
      ∃ (e : List DVId) (dim : Nat), c.inc.getGroupDim c.heap g = .ok dim () ∧
        c.inc.numDesignVariables = e.length ∧ (∀ i (hi : i < e.length), c.inc.designVariable i = .ok e[i] ()) ∧
        c.margStart + dim = ((e.filter c.heap.active).map c.heap.minDim).sum ∧
        ∃ k, (∀ d ∈ e.take k, c.inc.getGroupId d ≠ .ok g ()) ∧ (∀ d ∈ e.drop k, c.inc.getGroupId d = .ok g ()) ∧
          c.margStart = (((e.take k).filter c.heap.active).map c.heap.minDim).sum := by
  obtain ⟨others, ho⟩ : ∃ others, c.inc.ordering = others ++ [g] := by
    rcases List.eq_nil_or_concat c.inc.ordering with h1 | ⟨l, x, h1⟩
    · rw [h1] at hlast; simp at hlast
    · rw [h1, List.concat_eq_append] at hlast
      rw [List.getLast?_append] at hlast
      simp at hlast
      exact ⟨l, by rw [h1, hlast, List.concat_eq_append]⟩
  have hn := hcw.g.nodupO
  simp only [ho] at hn
  have hng : g ∉ others := by
    intro hg
    exact (List.disjoint_of_nodup_append hn) hg (by simp)
  have hgm : g ∈ c.inc.ordering := by rw [ho]; simp
  have hfil : c.inc.ordering.filter (fun g' => decide (g' ≠ g)) = others := by
    rw [ho, List.filter_append]
    have : others.filter (fun g' => decide (g' ≠ g)) = others := by
      rw [List.filter_eq_self]; intro x hx; simpa using fun e : x = g => hng (e ▸ hx)
    rw [this]; simp
  have hms' : c.margStart = activeDim c.heap (enumDV c.inc.groups others) := by
    rw [hms, margIndex, hfil]
  have hsum : ∀ gs : List GroupId, activeDim c.heap (enumDV c.inc.groups gs) =
      (gs.map fun g' => activeDim c.heap ((AL.get g' c.inc.groups).getD [])).sum := fun gs =>
    (sum_activeDim c.heap c.inc.groups gs).symm
  have henum : enumDV c.inc.groups c.inc.ordering = enumDV c.inc.groups others ++ (AL.get g c.inc.groups).getD [] := by
    rw [ho]; simp [enumDV]
  have hmemdv := fun (d : DVId) (g' : GroupId) => hcw.g.mem g'
  refine ⟨others, ho, hng, ⟨others.map fun g' => activeDim c.heap ((AL.get g' c.inc.groups).getD []), ?_, ?_⟩, ?_⟩
  · rw [List.map_map]
    apply List.map_congr_left
    intro g' hg'
    exact getGroupDim_of hcw (by show g' ∈ c.inc.ordering; rw [ho]; simp [hg'])
  · rw [hms', hsum]
  · refine ⟨enumDV c.inc.groups c.inc.ordering, activeDim c.heap ((AL.get g c.inc.groups).getD []),
      getGroupDim_of hcw hgm, ?_, ?_, ?_, (enumDV c.inc.groups others).length, ?_, ?_, ?_⟩
    · have hp : (enumDV c.inc.groups c.inc.ordering).Perm (AL.keys c.inc.counts) :=
        hcw.g.enum_perm hcw.nd (fun d => by
          rw [AL.mem_keys_iff]
          simp only
          cases AL.get d c.inc.counts <;> simp)
      rw [hp.length_eq]; simp [AL.keys, IncProblem.numDesignVariables]
    · intro i hi
      have := inc_designVariable_eq hcw i
      simp only at this
      rw [this, List.getElem?_eq_getElem hi]
    · rw [henum, hms']
      rw [← activeDim_append, activeDim_filter]
    · rw [henum, List.take_left]
      intro d hd hgd
      rw [inc_getGroupId_iff] at hgd
      simp only [enumDV, List.mem_flatMap] at hd
      obtain ⟨g', hg', hd'⟩ := hd
      cases hl : AL.get g' c.inc.groups with
      | none => rw [hl] at hd'; simp at hd'
      | some l =>
        rw [hl] at hd'
        have := (hcw.g.mem g' l hl d).1 hd'
        simp only at this
        rw [hgd] at this
        simp only [Option.some.injEq] at this
        exact hng (this ▸ hg')
    · rw [henum, List.drop_left]
      intro d hd
      rw [inc_getGroupId_iff]
      cases hl : AL.get g c.inc.groups with
      | none => rw [hl] at hd; simp at hd
      | some l =>
        rw [hl] at hd
        exact (hcw.g.mem g l hl d).1 hd
    · rw [henum, List.take_left, hms', activeDim_filter]

/-- **C20.** At every optimizer run in every history the marginalised group is last in the groups ordering, and
the marginalisation index handed to the solver is the number of Jacobian columns of all the other groups: the
remaining columns up to the total are exactly those of the marginalised group. -/
theorem C20_marginalised_group_last {D : Dbl F} {m0 : M} {mo : F} {g : GroupId} {o : EstOptions F}
    {h0 : Heap V} {w : EWorld V F M} (h : EReach D m0 (EWorld.fresh D mo m0 g o h0) w) :
    w.est.margGroup = g ∧
    ∀ c ∈ w.est.calls, ∃ others : List GroupId, c.inc.ordering = others ++ [g] ∧ g ∉ others ∧
      (∃ dims : List Nat, others.map (fun g' => c.inc.getGroupDim c.heap g') = dims.map (fun n => .ok n ()) ∧
        c.margStart = dims.sum) ∧
      ∃ (e : List DVId) (dim : Nat), c.inc.getGroupDim c.heap g = .ok dim () ∧
        c.inc.numDesignVariables = e.length ∧ (∀ i (hi : i < e.length), c.inc.designVariable i = .ok e[i] ()) ∧
        c.margStart + dim = ((e.filter c.heap.active).map c.heap.minDim).sum ∧
        ∃ k, (∀ d ∈ e.take k, c.inc.getGroupId d ≠ .ok g ()) ∧ (∀ d ∈ e.drop k, c.inc.getGroupId d = .ok g ()) ∧
          c.margStart = (((e.take k).filter c.heap.active).map c.heap.minDim).sum := by
  have hw := h.inv
  have hmg : w.est.margGroup = g := by
    clear hw
    induction h with
    | init => rfl
    | @step w w' ok op hr hreg hs ih =>
      have hw := hr.inv
      cases op with
      | addBatch b force oracle buildOk =>
        have hs := outcome_bind_ok (f := some) hs
        cases b with
        | none =>
          simp [EWorld.addBatch, IncProblem.add, Res.mapState, Res.bind, Res.outcome, EWorld.setInc] at hs
          rw [← hs.2]; exact ih
        | some b =>
          have ha := addable_of_isOk hw.winv hreg
          obtain ⟨q1, hadd, hr, heff⟩ := addBatch_eff D m0 oracle buildOk hw.winv ha force
          generalize w.addBatch D m0 oracle buildOk (some b) force = r at heff hs
          cases heff with
          | noMarg hm => simp [Res.outcome] at hs; rw [← hs.2]; exact ih
          | optThrows call hc hm ht =>
            simp [Res.outcome] at hs; rw [← hs.2]
            have : (afterOpt (optWorld w q1 force) call).est.margGroup = w.est.margGroup := by cases force <;> rfl
            rw [this]; exact ih
          | kept => simp [Res.outcome] at hs; rw [← hs.2]; exact ih
          | rejected call srv sc mg gain idx h5 q2 L hc hm h1 h2 hg hk hh hi hq2 hr2 hL r hres =>
            subst hres
            simp only at hs
            split at hs <;> simp [Res.outcome] at hs <;> rw [← hs.2] <;> exact ih
      | reoptimize oracle =>
        have hs := outcome_bind_ok (f := some) hs
        rw [(reoptimize_frame hw hs).2.2.2.1]; exact ih
      | removeBatchIdx i oracle =>
        have hs := outcome_bind_ok (f := fun _ => none) hs
        rw [removeIdx_marg hw hs]; exact ih
      | removeBatch b oracle =>
        have hs := outcome_bind_ok (f := fun _ => none) hs
        unfold EWorld.removeBatch at hs
        split at hs
        · rw [removeIdx_marg hw hs]; exact ih
        · simp [Res.outcome] at hs; rw [← hs.2]; exact ih
      | setOptions o => simp [EOp.step, Res.outcome] at hs; rw [← hs.2]; exact ih
      | batch b bop =>
        have hs := outcome_bind_ok (f := fun _ => none) hs
        obtain ⟨s, h1, h2⟩ := outcome_mapState hs
        subst h2; exact ih
  refine ⟨hmg, ?_⟩
  intro c hc
  obtain ⟨hcw, hlast, hms⟩ := hw.log c hc
  rw [hmg] at hlast hms
  exact optInput_shape hcw hlast hms

/-- Two optimizer runs, with 9 = 4+5 and 28 = 9+10+9 … columns before the marginalised group. -/
example : ((EOp.run dblInt 0 eprog0 est0).map fun x => x.2.est.calls.map fun c => (c.inc.ordering, c.margStart)) =
    some [([0, 1], 9), ([0, 2, 1], 28)] := by decide

/-! ### C21, C22: the batches -/

/-- Effect of each call on the list of batches. -/
theorem batches_step {D : Dbl F} {m0 : M} {w w' : EWorld V F M} (hw : EInv w) (op : EOp V F M)
    (hreg : op.Regular w) (ob : EObs F M) (hs : (op.step D m0 w).observe = some (ob, w')) :
    match (generalizing := false) op with
    | .addBatch none _ _ _ => ob = none ∧ w' = w
    | .addBatch (some b) _ _ _ =>
      (∃ r, ob = some (some r) ∧ w'.est.inc.problems =
        if r.batchAccepted then w.est.inc.problems ++ [b] else (w.est.inc.problems ++ [b]).erase b) ∨
      (ob = none ∧ (w'.est.inc.problems = w.est.inc.problems ++ [b] ∨
        w'.est.inc.problems = (w.est.inc.problems ++ [b]).erase b))
    | .removeBatchIdx i _ => w'.est.inc.problems = w.est.inc.problems.eraseIdx i
    | .removeBatch none _ => w' = w
    | .removeBatch (some b) _ => w'.est.inc.problems = w.est.inc.problems.erase b
    | _ => w'.est.inc.problems = w.est.inc.problems := by
  have herase : ∀ (l : List BatchId) (b : BatchId) (i : Nat), l.findIdx? (· == b) = some i → l.eraseIdx i = l.erase b := by
    intro l b i hi
    rw [List.erase_eq_eraseIdx]
    have : l.idxOf? b = some i := by rw [List.idxOf?]; exact hi
    rw [this]
  have hremi : ∀ (i : Nat) (oracle : OptInput V → OptCall V F M) ok,
      (w.removeBatchIdx D m0 oracle i).outcome = some (ok, w') → w'.est.inc.problems = w.est.inc.problems.eraseIdx i := by
    intro i oracle ok ho
    unfold EWorld.removeBatchIdx at ho
    cases hidx : w.est.inc.problems[i]? with
    | none =>
      simp [IncProblem.removeIdx, hidx, Res.outcome, Res.mapState, Res.bind, EWorld.setInc] at ho
      rw [← ho.2, List.eraseIdx_of_length_le (List.getElem?_eq_none_iff.1 hidx)]
    | some b =>
      obtain ⟨q2, h2, hr⟩ := removeIdx_ok hw.winv hidx
      have h2' : w.est.inc.removeIdx w.B i = .ok () q2 := h2
      have hw2 := hw.rem hidx hr
      rw [h2'] at ho
      simp only [Res.mapState, Res.bind] at ho
      rw [(reoptimize_frame hw2 (outcome_bind_ok (f := fun _ => ()) ho)).2.1]
      exact hr.problems
  obtain ⟨ok, ho⟩ := observe_outcome hs
  cases op with
  | addBatch b force oracle buildOk =>
    cases b with
    | none =>
      simp [EOp.step, EWorld.addBatch, IncProblem.add, Res.mapState, Res.bind, Res.observe, EWorld.setInc] at hs
      obtain ⟨rfl, rfl⟩ := hs
      exact ⟨rfl, rfl⟩
    | some b =>
      have ha := addable_of_isOk hw.winv hreg
      obtain ⟨q1, hadd, hr, heff⟩ := addBatch_eff D m0 oracle buildOk hw.winv ha force
      simp only [EOp.step] at hs
      generalize w.addBatch D m0 oracle buildOk (some b) force = r at heff hs
      cases heff with
      | noMarg hm =>
        simp [Res.bind, Res.observe] at hs
        obtain ⟨rfl, rfl⟩ := hs
        exact .inr ⟨rfl, .inl hr.problems⟩
      | optThrows call hc hm ht =>
        simp [Res.bind, Res.observe] at hs
        obtain ⟨rfl, rfl⟩ := hs
        refine .inr ⟨rfl, .inl ?_⟩
        exact (optWorld_inc w q1 force).1.trans hr.problems
      | kept call srv sc mg gain hc hm h1 h2 hg hk =>
        simp [Res.bind, Res.observe] at hs
        obtain ⟨rfl, rfl⟩ := hs
        exact .inl ⟨_, rfl, by simp only [if_true]; exact (optWorld_inc w q1 force).1.trans hr.problems⟩
      | rejected call srv sc mg gain idx h5 q2 L hc hm h1 h2 hg hk hh hi hq2 hr2 hL r hres =>
        have hp : q2.problems = (w.est.inc.problems ++ [b]).erase b := by
          have h1 := hr2.problems
          simp only [(optWorld_inc w q1 force).1] at h1
          rw [h1, herase _ _ _ hi, hr.problems]; rfl
        subst hres
        simp only at hs
        split at hs <;> simp [Res.bind, Res.observe] at hs <;> obtain ⟨rfl, rfl⟩ := hs
        · exact .inl ⟨_, rfl, by simpa using hp⟩
        · exact .inr ⟨rfl, .inr hp⟩
  | reoptimize oracle =>
    have ho := outcome_bind_ok (f := some) ho
    simp only
    rw [(reoptimize_frame hw ho).2.1]
  | removeBatchIdx i oracle => exact hremi i oracle ok (outcome_bind_ok (f := fun _ => none) ho)
  | removeBatch b oracle =>
    have ho := outcome_bind_ok (f := fun _ => none) ho
    unfold EWorld.removeBatch at ho
    cases b with
    | none => simp [Res.outcome] at ho; exact ho.2.symm
    | some b =>
      simp only [Option.bind_some] at ho ⊢
      cases hf : w.est.inc.findProblem b with
      | none =>
        rw [hf] at ho
        simp [Res.outcome] at ho
        rw [← ho.2, List.erase_of_not_mem (findIdx_none hf)]
      | some i =>
        rw [hf] at ho
        rw [hremi i oracle ok ho]
        exact herase _ _ _ hf
  | setOptions o =>
    simp [EOp.step, Res.observe] at hs
    obtain ⟨rfl, rfl⟩ := hs
    rfl
  | batch b bop =>
    have ho := outcome_bind_ok (f := fun _ => none) ho
    obtain ⟨s, h1, h2⟩ := outcome_mapState ho
    subst h2
    rfl

/-- What a client expects the batches to be after one more call: accepted batches are appended, rejected ones
are not there, removed ones are taken out.  `none` (nothing promised) once an `addBatch` of a batch has thrown or
a batch was offered that is still contained. -/
def expectedStep (l : List BatchId) : EOp V F M → EObs F M → Option (List BatchId)
  | .addBatch none _ _ _, _ => some l
  | .addBatch (some b) _ _ _, some (some r) =>
    if b ∈ l then none else if r.batchAccepted then some (l ++ [b]) else some l
  | .addBatch (some _) _ _ _, _ => none
  | .removeBatchIdx i _, _ => some (l.eraseIdx i)
  | .removeBatch none _, _ => some l
  | .removeBatch (some b) _, _ => some (l.erase b)
  | _, _ => some l

def expectedBatches : List (EOp V F M) → List (EObs F M) → List BatchId → Option (List BatchId)
  | op :: ops, ob :: obs, l => (expectedStep l op ob).bind (expectedBatches ops obs)
  | _, _, l => some l

/-- **C21 (what holds).** In every program in which no `addBatch` throws and no batch is offered while it is
contained, the estimator's batches are exactly those reported accepted and not removed since, in acceptance
order.  Missing (and false, see C18/C22): programs with a throwing `addBatch` or a re-offered batch. -/
theorem C21_estimator_batches_partial {D : Dbl F} {m0 : M} {mo : F} {g : GroupId} {o : EstOptions F}
    {h0 : Heap V} {w : EWorld V F M} (ops : List (EOp V F M)) (obs : List (EObs F M)) (l : List BatchId)
    (hrun : EOp.run D m0 ops (EWorld.fresh D mo m0 g o h0) = some (obs, w))
    (hexp : expectedBatches ops obs [] = some l) :
    w.est.inc.problems = l ∧ w.getNumBatches = l.length ∧ ∀ i, w.est.inc.getProblem i =
      match l[i]? with | some b => .ok b () | none => .throw .outOfBound () := by
  have key : ∀ (ops : List (EOp V F M)) (w0 : EWorld V F M) obs, EInv w0 → EOp.run D m0 ops w0 = some (obs, w) →
      expectedBatches ops obs w0.est.inc.problems = some l → w.est.inc.problems = l := by
    intro ops
    induction ops with
    | nil =>
      intro w0 obs _ h1 h2
      simp [EOp.run] at h1
      obtain ⟨rfl, rfl⟩ := h1
      simpa [expectedBatches] using h2
    | cons op ops ih =>
      intro w0 obs hw h1 h2
      obtain ⟨ob, os', w1, rfl, hreg, hs, hrest⟩ := run_cons h1
      obtain ⟨ok, hok⟩ := observe_outcome hs
      have hw1 := hw.step hreg hok
      have hstep := batches_step hw op hreg ob hs
      rw [expectedBatches, Option.bind_eq_some_iff] at h2
      obtain ⟨l1, hl1, hl2⟩ := h2
      have : w1.est.inc.problems = l1 := by
        cases op with
        | addBatch b force oracle buildOk =>
          cases b with
          | none => simp [expectedStep] at hl1; rw [hstep.2]; exact hl1
          | some b =>
            rcases hstep with ⟨r, rfl, hp⟩ | ⟨rfl, -⟩
            · simp only [expectedStep] at hl1
              split at hl1
              · simp at hl1
              · rename_i hb
                rw [List.erase_append_right _ hb] at hp
                split at hl1
                · rename_i hacc
                  rw [hp, if_pos hacc]; simpa using hl1
                · rename_i hacc
                  rw [hp, if_neg hacc]; simpa using hl1
            · simp [expectedStep] at hl1
        | reoptimize oracle => simp [expectedStep] at hl1; rw [← hl1]; exact hstep
        | removeBatchIdx i oracle => simp [expectedStep] at hl1; rw [← hl1]; exact hstep
        | removeBatch b oracle =>
          cases b with
          | none => simp [expectedStep] at hl1; rw [hstep]; exact hl1
          | some b => simp [expectedStep] at hl1; rw [← hl1]; exact hstep
        | setOptions o => simp [expectedStep] at hl1; rw [← hl1]; exact hstep
        | batch b bop => simp [expectedStep] at hl1; rw [← hl1]; exact hstep
      exact ih w1 os' hw1 hrest (by rw [this]; exact hl2)
  have hp := key ops _ obs (EInv.init D mo m0 g o h0) hrun hexp
  refine ⟨hp, by simp [EWorld.getNumBatches, IncProblem.numProblems, hp], ?_⟩
  intro i
  simp only [IncProblem.getProblem, hp]
  cases l[i]? <;> rfl

/-- Accept 0, reject 1, accept 1, remove 0. -/
example : ((EOp.run dblInt 0 (eprog0 ++ [.addBatch (some 1) true (oracle0 2 1 5) true,
      .removeBatchIdx 7 (oracle0 0 0 1), .removeBatch (some 0) (oracle0 7 1 5)]) est0).map fun x =>
      (expectedBatches (eprog0 ++ [.addBatch (some 1) true (oracle0 2 1 5) true,
      .removeBatchIdx 7 (oracle0 0 0 1), .removeBatch (some 0) (oracle0 7 1 5)]) x.1 [], x.2.est.inc.problems)) =
    some (some [1], [1]) := by decide

/-- **C22 (what holds).** A null batch throws and changes nothing.  If `addBatch(b)` throws on a batch the problem
can take, the statistics and options are unchanged and the batches are the old ones – except that, unless the
exception comes out of rebuilding the linear system after a rejection, `b` itself has been appended. -/
theorem C22_throwing_addBatch_partial {D : Dbl F} {m0 : M} {mo : F} {g : GroupId} {o : EstOptions F}
    {h0 : Heap V} {w w' : EWorld V F M} (h : EReach D m0 (EWorld.fresh D mo m0 g o h0) w)
    {force buildOk : Bool} {oracle : OptInput V → OptCall V F M} {e : Exc} :
    w.addBatch D m0 oracle buildOk none force = .throw .nullPointer w ∧
    ∀ b, (w.est.inc.add w.B (some b)).isOk = true →
      w.addBatch D m0 oracle buildOk (some b) force = .throw e w' →
      w'.est.stats = w.est.stats ∧ w'.est.options = w.est.options ∧ w'.B = w.B ∧
      ((e = .invalidOperation ∧ w'.heap = w.heap ∧ w'.est.inc.problems = w.est.inc.problems ++ [b] ∧
          ∀ d, (w.B b).getGroupId d ≠ .ok g ()) ∨
        (e = .external ∧ w'.est.inc.problems = w.est.inc.problems ++ [b]) ∨
        (e = .external ∧ buildOk = false ∧ w'.est.inc.problems = (w.est.inc.problems ++ [b]).erase b)) := by
  have hw := h.inv
  have hmg := (C20_marginalised_group_last h).1
  refine ⟨by simp [EWorld.addBatch, IncProblem.add, Res.mapState, Res.bind, EWorld.setInc], ?_⟩
  intro b hreg hs
  have ha := addable_of_isOk hw.winv hreg
  obtain ⟨q1, hadd, hr, heff⟩ := addBatch_eff D m0 oracle buildOk hw.winv ha force
  have hreg' : (EOp.addBatch (some b) force oracle buildOk : EOp V F M).Regular w := hreg
  have hst := C50_statistics h (.addBatch (some b) force oracle buildOk) hreg' none
    (by simp only [EOp.step, hs, Res.bind, Res.observe]; exact rfl)
  have hbs := batches_step hw (.addBatch (some b) force oracle buildOk) hreg' none
    (w' := w') (D := D) (m0 := m0) (by simp only [EOp.step, hs, Res.bind, Res.observe])
  rw [hs] at heff
  refine ⟨hst, ?_⟩
  cases heff with
  | noMarg hm =>
    refine ⟨rfl, rfl, .inl ⟨rfl, rfl, hr.problems, ?_⟩⟩
    intro d hd
    apply hm
    have hdd : AL.get d (w.B b).lookup = some g := (holds_iff w.toWorld b d g).1 hd
    have hk := (hr.inv hw.winv ha).g
    rw [hmg]
    refine (hk.mem_ordering_iff _).2 ⟨d, ?_⟩
    have := elems_get (hw.winv.batches b) d
    simp only [EWorld.toWorld] at this
    simp only [hr.c.cnt, addU, EWorld.toWorld, this, hdd, Option.map_some]
  | optThrows call hc hm ht =>
    refine ⟨by cases force <;> rfl, by simp only [afterOpt, optWorld_B], .inr (.inl ⟨rfl, ?_⟩)⟩
    exact (optWorld_inc w q1 force).1.trans hr.problems
  | rejected call srv sc mg gain idx h5 q2 L hc hm h1 h2 hg hk hh hi hq2 hr2 hL r hres =>
    simp only at hres
    split at hres <;> simp at hres
    rename_i hcond
    obtain ⟨rfl, rfl⟩ := hres
    refine ⟨rfl, rfl, .inr (.inr ⟨rfl, ?_, ?_⟩)⟩
    · cases buildOk <;> simp_all
    · have h1 := hr2.problems
      simp only [(optWorld_inc w q1 force).1] at h1
      simp only
      rw [h1, List.erase_eq_eraseIdx]
      have hp : q1.problems = w.est.inc.problems ++ [b] := hr.problems
      rw [← hp]
      have : q1.problems.idxOf? b = some idx := by rw [List.idxOf?]; exact hi
      rw [this]

/-- **C22 is false:** in every reachable state, offering a batch the problem can take when neither it nor any
contained batch has a variable of the marginalised group throws – and yet the batch is in. -/
theorem C22_missing_marginalised_group_keeps_batch {D : Dbl F} {m0 : M} {mo : F} {g : GroupId} {o : EstOptions F}
    {h0 : Heap V} {w : EWorld V F M} (h : EReach D m0 (EWorld.fresh D mo m0 g o h0) w)
    (force buildOk : Bool) (oracle : OptInput V → OptCall V F M) (b : BatchId)
    (hreg : (w.est.inc.add w.B (some b)).isOk = true) (hb : ∀ d, (w.B b).getGroupId d ≠ .ok g ())
    (hw : ∀ b' ∈ w.est.inc.problems, ∀ d, (w.B b').getGroupId d ≠ .ok g ()) :
    ∃ w', w.addBatch D m0 oracle buildOk (some b) force = .throw .invalidOperation w' ∧
      w'.getNumBatches = w.getNumBatches + 1 := by
  have hi := h.inv
  have hmg := (C20_marginalised_group_last h).1
  have ha := addable_of_isOk hi.winv hreg
  obtain ⟨q1, hadd, hr, heff⟩ := addBatch_eff D m0 oracle buildOk hi.winv ha force
  have hm : w.est.margGroup ∉ q1.ordering := by
    intro hm
    have hw1 := hr.inv hi.winv ha
    obtain ⟨d, hd⟩ := (hw1.g.mem_ordering_iff _).1 hm
    obtain ⟨b', hb', hd'⟩ := (hw1.group_iff d _).1 hd
    rw [hmg] at hd'
    simp only [hr.problems, List.mem_append, List.mem_singleton] at hb'
    rcases hb' with h1 | rfl
    · exact hw b' h1 d hd'
    · exact hb d hd'
  generalize w.addBatch D m0 oracle buildOk (some b) force = r at heff
  cases heff with
  | noMarg hm =>
    refine ⟨_, rfl, ?_⟩
    simp [EWorld.getNumBatches, EWorld.setInc, IncProblem.numProblems, hr.problems]
    rfl
  | optThrows call hc hm' ht => exact absurd hm' hm
  | kept call srv sc mg gain hc hm' h1 h2 hg hk => exact absurd hm' hm
  | rejected call srv sc mg gain idx h5 q2 L hc hm' h1 h2 hg hk hh hi hq2 hr2 hL r hres => exact absurd hm' hm

/-- The situation is reachable: batch 2 lacks the marginalised group, the estimator is empty. -/
example : ((EOp.run dblInt 0 (ebatches0 ++ [.addBatch (some 2) true (oracle0 1 1 1) true]) est0).map fun x =>
    (flags (x.1.drop 10), x.2.getNumBatches)) = some ([none], 1) := by decide

/-! ### C23 -/

/-- **C23 (what holds).** Removing an unknown or null batch changes nothing; removing a contained one takes out its
first occurrence, also if the reoptimisation throws; if a variable of the marginalised group remains and the
optimizer succeeds, the call returns and the information gain is zero.
Missing (and false, see `C23_removing_last_batch_throws`): reoptimisation of whatever remains. -/
theorem C23_removeBatch_partial {D : Dbl F} {m0 : M} {mo : F} {g : GroupId} {o : EstOptions F}
    {h0 : Heap V} {w : EWorld V F M} (h : EReach D m0 (EWorld.fresh D mo m0 g o h0) w)
    (oracle : OptInput V → OptCall V F M) :
    w.removeBatch D m0 oracle none = .ok () w ∧
    ∀ b, (b ∉ w.est.inc.problems → w.removeBatch D m0 oracle (some b) = .ok () w) ∧
      (b ∈ w.est.inc.problems →
        (∀ ok w', (w.removeBatch D m0 oracle (some b)).outcome = some (ok, w') →
          w'.est.inc.problems = w.est.inc.problems.erase b ∧ w'.B = w.B ∧
          (∀ d g', w'.est.inc.getGroupId d = .ok g' () ↔
            ∃ b' ∈ w.est.inc.problems.erase b, (w.B b').getGroupId d = .ok g' ())) ∧
        ((∃ b' ∈ w.est.inc.problems.erase b, ∃ d, (w.B b').getGroupId d = .ok g ()) →
          ∃ input, ∀ srv sc mg, (oracle input).report = some (srv, sc) → (oracle input).marginal = some mg →
            ∃ w', w.removeBatch D m0 oracle (some b) = .ok () w' ∧ w'.est.calls = w.est.calls ++ [input] ∧
              w'.est.stats.informationGain = D.zero ∧ w'.est.stats.marginal = mg ∧
              w'.est.stats.initialCost = srv.JStart ∧ w'.est.stats.finalCost = srv.JFinal)) := by
  have hw := h.inv
  have hmg := (C20_marginalised_group_last h).1
  refine ⟨rfl, ?_⟩
  intro b
  constructor
  · intro hb
    have : w.est.inc.findProblem b = none := by
      cases hf : w.est.inc.findProblem b with
      | none => rfl
      | some i => exact absurd (List.mem_of_getElem? (findIdx_some hf).1) hb
    simp [EWorld.removeBatch, this]
  · intro hb
    have hreg : (EOp.removeBatch (some b) oracle : EOp V F M).Regular w := trivial
    obtain ⟨i, hf⟩ : ∃ i, w.est.inc.findProblem b = some i := by
      cases hf : w.est.inc.findProblem b with
      | none => exact absurd hb (findIdx_none hf)
      | some i => exact ⟨i, rfl⟩
    have hidx : w.est.inc.problems[i]? = some b := (findIdx_some hf).1
    obtain ⟨q2, h2, hr⟩ := removeIdx_ok hw.winv hidx
    have h2' : w.est.inc.removeIdx w.B i = .ok () q2 := h2
    have hw2 := hw.rem hidx hr
    have heq : w.removeBatch D m0 oracle (some b) =
        ((w.setInc q2).reoptimize D m0 oracle).bind fun _ w2 => .ok () w2 := by
      simp [EWorld.removeBatch, hf, EWorld.removeBatchIdx, h2', Res.mapState, Res.bind]
    have hp2 : q2.problems = w.est.inc.problems.erase b := by
      rw [hr.problems, List.erase_eq_eraseIdx]
      have : w.est.inc.problems.idxOf? b = some i := by rw [List.idxOf?]; exact hf
      rw [this]; rfl
    have hgrp : ∀ d g', q2.getGroupId d = .ok g' () ↔
        ∃ b' ∈ w.est.inc.problems.erase b, (w.B b').getGroupId d = .ok g' () := by
      intro d g'
      rw [inc_getGroupId_iff]
      have := hw2.winv.group_iff d g'
      simp only [EWorld.toWorld, EWorld.setInc, hp2] at this
      exact this
    constructor
    · intro ok w' ho
      rw [heq] at ho
      have hf := reoptimize_frame hw2 (outcome_bind_ok (f := fun _ => ()) ho)
      rw [hf.2.1]
      exact ⟨hp2, hf.1, hgrp⟩
    · intro hex
      have hm : (w.setInc q2).est.margGroup ∈ (w.setInc q2).est.inc.ordering := by
        obtain ⟨b', hb', d, hd⟩ := hex
        have h1 := (hgrp d g).2 ⟨b', hb', hd⟩
        rw [inc_getGroupId_iff] at h1
        have h2 : (w.setInc q2).est.margGroup = g := hmg
        rw [h2]
        exact (hw2.winv.g.mem_ordering_iff _).2 ⟨d, h1⟩
      refine ⟨optInput (w.setInc q2), ?_⟩
      intro srv sc mg e1 e2
      rcases reoptimize_eff (D := D) (m0 := m0) (oracle := oracle) hw2 with ⟨hn, -⟩ | ⟨-, call, hc, he⟩
      · exact absurd hm hn
      · rw [← hc] at e1 e2
        simp only [e1, e2] at he
        rw [heq, he]
        exact ⟨_, rfl, rfl, rfl, rfl, rfl, rfl⟩

example : ((EOp.run dblInt 0 (eprog0 ++ [.addBatch (some 1) true (oracle0 2 1 5) true,
      .removeBatch (some 0) (oracle0 7 1 5)]) est0).map fun x =>
      (flags (x.1.drop 12), x.2.est.inc.problems, x.2.est.stats.informationGain, x.2.est.stats.marginal.svLog2Sum)) =
    some ([some (some true), some none], [1], 0, 7) := by decide

/-- **C23 is false in general:** in every reachable state with a single batch, removing it throws
`InvalidOperationException` after the batch has been taken out, and no reoptimisation takes place. -/
theorem C23_removing_last_batch_throws {D : Dbl F} {m0 : M} {mo : F} {g : GroupId} {o : EstOptions F}
    {h0 : Heap V} {w : EWorld V F M} (h : EReach D m0 (EWorld.fresh D mo m0 g o h0) w)
    (oracle : OptInput V → OptCall V F M) (b : BatchId) (hone : w.est.inc.problems = [b]) :
    ∃ w', w.removeBatch D m0 oracle (some b) = .throw .invalidOperation w' ∧ w'.getNumBatches = 0 ∧
      w'.est.calls = w.est.calls ∧ w'.est.stats = w.est.stats := by
  have hw := h.inv
  have hidx : w.est.inc.problems[0]? = some b := by rw [hone]; rfl
  have hf : w.est.inc.findProblem b = some 0 := by simp [IncProblem.findProblem, hone]
  obtain ⟨q2, h2, hr⟩ := removeIdx_ok hw.winv hidx
  have h2' : w.est.inc.removeIdx w.B 0 = .ok () q2 := h2
  have hw2 := hw.rem hidx hr
  have heq : w.removeBatch D m0 oracle (some b) =
      ((w.setInc q2).reoptimize D m0 oracle).bind fun _ w2 => .ok () w2 := by
    simp [EWorld.removeBatch, hf, EWorld.removeBatchIdx, h2', Res.mapState, Res.bind]
  have hp2 : q2.problems = [] := by
    have := hr.problems
    simp only [EWorld.toWorld, hone] at this
    rw [this]; rfl
  have hm : (w.setInc q2).est.margGroup ∉ (w.setInc q2).est.inc.ordering := by
    intro hm
    obtain ⟨d, hd⟩ := (hw2.winv.g.mem_ordering_iff _).1 hm
    obtain ⟨b', hb', -⟩ := (hw2.winv.group_iff d _).1 hd
    simp only [EWorld.toWorld, EWorld.setInc, hp2] at hb'
    simp at hb'
  rcases reoptimize_eff (D := D) (m0 := m0) (oracle := oracle) hw2 with ⟨-, he⟩ | ⟨hm', -⟩
  · refine ⟨w.setInc q2, by rw [heq, he]; rfl, ?_, rfl, rfl⟩
    simp [EWorld.getNumBatches, EWorld.setInc, IncProblem.numProblems, hp2]
  · exact absurd hm' hm

example : ((EOp.run dblInt 0 eprog0 est0).map fun x => x.2.est.inc.problems) = some [0] := by decide

/-! ### C24 -/

/-- Consecutive ranges given by prefix sums partition `[0, total)`. -/
theorem prefix_partition (f : Nat → Nat) (l : List Nat) (j : Nat) (hj : j < (l.map f).sum) :
    ∃! i, i < l.length ∧ ∀ (hi : i < l.length), prefixDim f l i ≤ j ∧ j < prefixDim f l i + f l[i] := by
  induction l generalizing j with
  | nil => simp at hj
  | cons a l ih =>
    have hp : ∀ i, prefixDim f (a :: l) (i + 1) = f a + prefixDim f l i := by
      intro i; simp [prefixDim]
    have hp0 : prefixDim f (a :: l) 0 = 0 := by simp [prefixDim]
    by_cases h : j < f a
    · refine ⟨0, ⟨by simp, ?_⟩, ?_⟩
      · intro _; rw [hp0]; simpa using h
      · rintro ⟨⟩ ⟨h1, h2⟩
        · rfl
        · have := (h2 h1).1
          rw [hp] at this; omega
    · simp only [List.map_cons, List.sum_cons] at hj
      obtain ⟨i, ⟨h1, h2⟩, h3⟩ := ih (j - f a) (by omega)
      refine ⟨i + 1, ⟨by simpa using h1, ?_⟩, ?_⟩
      · intro _
        have := h2 h1
        rw [hp]; simp only [List.getElem_cons_succ]; omega
      · rintro ⟨⟩ ⟨k1, k2⟩
        · have := (k2 k1).2
          rw [hp0] at this; simp at this; omega
        · rename_i k
          simp only [List.length_cons, Nat.add_lt_add_iff_right] at k1
          have := h3 k ⟨k1, fun _ => by
            have := k2 (by simpa using k1)
            rw [hp] at this; simp only [List.getElem_cons_succ] at this; omega⟩
          rw [this]

theorem prefix_le (f : Nat → Nat) (l : List Nat) (k : Nat) (hk : k < l.length) :
    prefixDim f l k + f l[k] ≤ (l.map f).sum := by
  induction l generalizing k with
  | nil => simp at hk
  | cons a l ih =>
    cases k with
    | zero => simp [prefixDim]
    | succ k =>
      have := ih k (by simpa using hk)
      simp [prefixDim] at this ⊢; omega

/-- **C24.** After a rejection that leaves batches behind, the active design variables have the block indices
`0..k-1` in enumeration order and column ranges starting at 0 that follow each other, so every Jacobian column
belongs to exactly one of them; the error terms have row ranges that follow each other, so every row belongs to
exactly one. -/
theorem C24_layout_after_rejection {D : Dbl F} {m0 : M} {mo : F} {g : GroupId} {o : EstOptions F}
    {h0 : Heap V} {w w' : EWorld V F M} (h : EReach D m0 (EWorld.fresh D mo m0 g o h0) w)
    {b : BatchId} {force buildOk : Bool} {oracle : OptInput V → OptCall V F M} {r : RetVal F M}
    (hres : w.addBatch D m0 oracle buildOk (some b) force = .ok r w') (hrej : r.batchAccepted = false)
    (hne : w'.getNumBatches > 0) :
    ∃ (e : List DVId) (t : List ETId), (∀ i, w'.est.inc.designVariable i =
        match e[i]? with | some d => .ok d () | none => .throw .outOfBound ()) ∧
      (∀ i, w'.est.inc.errorTerm w'.B i = match t[i]? with | some d => .ok d () | none => .throw .outOfBound ()) ∧
      let a := e.filter w'.heap.active
      let L := w'.est.layout
      a.Nodup ∧ t.Nodup ∧ L.dvs = a ∧ L.ets = t ∧
      (∀ i (hi : i < a.length), L.blockIndex a[i] = i ∧
        L.columnBase a[i] = ((a.take i).map w'.heap.minDim).sum) ∧
      (∀ j < (a.map w'.heap.minDim).sum, ∃! d, d ∈ a ∧ L.columnBase d ≤ j ∧ j < L.columnBase d + w'.heap.minDim d) ∧
      (∀ d ∈ a, L.columnBase d + w'.heap.minDim d ≤ (a.map w'.heap.minDim).sum) ∧
      (∀ i (hi : i < t.length), L.rowBase t[i] = ((t.take i).map w'.heap.etDim).sum) ∧
      (∀ j < (t.map w'.heap.etDim).sum, ∃! d, d ∈ t ∧ L.rowBase d ≤ j ∧ j < L.rowBase d + w'.heap.etDim d) := by
  have hw := h.inv
  obtain ⟨b', hb', ha⟩ := addBatch_ok_addable hw hres
  obtain rfl : b = b' := by simpa using hb'
  obtain ⟨q1, hadd, hr, heff⟩ := addBatch_eff D m0 oracle buildOk hw.winv ha force
  have hw' : EInv w' := hw.add_inv ha hr heff (ok := true) (by rw [hres]; rfl)
  rw [hres] at heff
  cases heff with
  | kept => simp at hrej
  | rejected call srv sc mg gain idx h5 q2 L hc hm h1 h2 hg hk hh hi hq2 hr2 hL r hres =>
    simp only at hres
    split at hres <;> simp at hres
    obtain ⟨rfl, rfl⟩ := hres
    have hne' : q2.problems ≠ [] := by
      intro he; simp [EWorld.getNumBatches, IncProblem.numProblems, he] at hne
    rw [if_neg hne'] at hL
    obtain ⟨hL1, hL2⟩ := hL
    have gen : ∀ (a : List Nat) (f base : Nat → Nat), (∀ i (hi : i < a.length), base a[i] = prefixDim f a i) →
        ∀ j < (a.map f).sum, ∃! d, d ∈ a ∧ base d ≤ j ∧ j < base d + f d := by
      intro a f base hb j hj
      obtain ⟨i, ⟨i1, i2⟩, i3⟩ := prefix_partition f a j hj
      refine ⟨a[i], ⟨List.getElem_mem i1, ?_⟩, ?_⟩
      · rw [hb i i1]; exact i2 i1
      · rintro d ⟨hd, hd2⟩
        obtain ⟨k, hk, rfl⟩ := List.getElem_of_mem hd
        rw [hb k hk] at hd2
        obtain rfl := i3 k ⟨hk, fun _ => hd2⟩
        rfl
    refine ⟨enumDV q2.groups q2.ordering, q2.problems.flatMap fun b => (w.B b).errorTerms, inc_designVariable_eq hw'.winv,
      inc_errorTerm_eq hw'.winv, ?_, inc_errorTerms_nodup hw'.winv, hL1.dvsEq, hL2.etsEq, ?_, ?_, ?_, hL2.rb, ?_⟩
    · exact List.Nodup.filter _ hw'.winv.g.nodup_enum
    · intro i hi; exact ⟨hL1.bi i hi, hL1.cb i hi⟩
    · exact gen _ _ _ hL1.cb
    · intro d hd
      obtain ⟨k, hk, rfl⟩ := List.getElem_of_mem hd
      have := hL1.cb k hk
      simp only at this ⊢
      rw [this]
      exact prefix_le _ _ k hk
    · exact gen _ _ _ hL2.rb

set_option synthInstance.maxSize 1000 in
example : ((EOp.run dblInt 0 eprog0 est0).map fun x => (x.2.est.layout.dvs, [3, 4, 5].map x.2.est.layout.blockIndex,
      [3, 4, 5].map x.2.est.layout.columnBase, [3, 4, 5].map x.2.heap.minDim, x.2.est.layout.ets,
      x.2.est.layout.rowBase 3)) =
    some ([3, 4, 5], [0, 1, 2], [0, 4, 9], [4, 5, 6], [3], 0) := by decide

/-! ### C25 -/

/-- The information gains of the accepted batches. -/
def acceptedGains (obs : List (EObs F M)) : List F := obs.filterMap fun o => match o with
  | some (some r) => if r.batchAccepted then some r.informationGain else none
  | _ => none

/-- **C25.** Exact arithmetic: over any program of `addBatch` calls (interleaved with calls on batches and option
changes) the information gains of the accepted batches sum to half of the increase of the singular value log sum;
rejected and throwing calls contribute nothing. -/
theorem C25_information_gains_telescope {K : Type _} [Field K] {M : Type _} {D : Dbl K}
    (hD : ∀ a b, D.halfDiff a b = (a - b) / 2)
    {m0 : M} {mo : K} {g : GroupId} {o : EstOptions K} {h0 : Heap V} {w0 w : EWorld V K M}
    (h : EReach D m0 (EWorld.fresh D mo m0 g o h0) w0) (ops : List (EOp V K M)) (obs : List (EObs K M))
    (hops : ∀ op ∈ ops, (∃ b f oc bo, op = .addBatch b f oc bo) ∨ (∃ b bop, op = .batch b bop) ∨ ∃ o, op = .setOptions o)
    (hrun : EOp.run D m0 ops w0 = some (obs, w)) :
    (acceptedGains obs).sum = (w.est.stats.marginal.svLog2Sum - w0.est.stats.marginal.svLog2Sum) / 2 := by
  induction ops generalizing w0 obs with
  | nil =>
    simp [EOp.run] at hrun
    obtain ⟨rfl, rfl⟩ := hrun
    simp [acceptedGains]
  | cons op ops ih =>
    obtain ⟨ob, os', w1, rfl, hreg, hs, hrest⟩ := run_cons hrun
    obtain ⟨ok, hok⟩ := observe_outcome hs
    have hw1 := h.step op hreg hok
    have ih := ih hw1 os' (fun op hop => hops op (by simp [hop])) hrest
    have hstat := C50_statistics h op hreg ob hs
    have hcons : ∀ x : K, (acceptedGains [ob]).sum = x → (acceptedGains (ob :: os')).sum = x + (acceptedGains os').sum := by
      intro x hx
      rw [← hx]
      have : acceptedGains (ob :: os') = acceptedGains [ob] ++ acceptedGains os' := by
        unfold acceptedGains
        rw [← List.filterMap_append]; rfl
      rw [this, List.sum_append]
    rcases hops op (by simp) with ⟨b, f, oc, bo, rfl⟩ | ⟨b, bop, rfl⟩ | ⟨o, rfl⟩
    · rcases ob with _ | _ | r
      · simp only [StatsSpec] at hstat
        rw [hcons 0 (by simp [acceptedGains]), ih, hstat]; ring
      · exact absurd hstat (by simp [StatsSpec])
      · simp only [StatsSpec] at hstat
        by_cases hacc : r.batchAccepted = true
        · rw [if_pos hacc] at hstat
          have hgain : r.informationGain = (w1.est.stats.marginal.svLog2Sum - w0.est.stats.marginal.svLog2Sum) / 2 := by
            cases hr : w0.addBatch D m0 oc bo b f with
            | ok r' w' =>
              simp [EOp.step, hr, Res.bind, Res.observe] at hs
              obtain ⟨rfl, rfl⟩ := hs
              obtain ⟨b', hb', -⟩ := addBatch_ok_addable h.inv hr
              subst hb'
              rw [(C19_acceptance_rule h hr).2.1, hD, hstat]; rfl
            | _ => simp [EOp.step, hr, Res.bind, Res.observe] at hs
          rw [hcons r.informationGain (by simp [acceptedGains, hacc]), ih, hgain]; ring
        · rw [if_neg hacc] at hstat
          rw [hcons 0 (by simp [acceptedGains, hacc]), ih, hstat]; ring
    · have hob : acceptedGains [ob] = [] := by
        simp only [EOp.step] at hs
        cases hb : bop.step (w0.B b, w0.heap) <;> simp [hb, Res.mapState, Res.bind, Res.observe] at hs <;>
          obtain ⟨rfl, -⟩ := hs <;> simp [acceptedGains]
      simp only [StatsSpec] at hstat
      rw [hcons 0 (by rw [hob]; rfl), ih, hstat]; ring
    · have hob : acceptedGains [ob] = [] := by
        simp [EOp.step, Res.observe] at hs
        obtain ⟨rfl, -⟩ := hs; simp [acceptedGains]
      simp only [StatsSpec] at hstat
      rw [hcons 0 (by rw [hob]; rfl), ih, hstat]; ring

/-- Gains 4 and 4 (log sum 0 → 8 → 16), one rejection in between. -/
example : ((EOp.run dblInt 0 (eprog0 ++ [.addBatch (some 1) false (oracle0 16 1 5) true]) est0).map fun x =>
    (acceptedGains x.1, x.2.est.stats.marginal.svLog2Sum)) = some ([4, 4], 16) := by decide

end Verif
