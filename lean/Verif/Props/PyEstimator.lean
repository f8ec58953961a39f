import Verif.Lemmas.PyEstimator
import Verif.Props.Estimator

/-! Property C119: `getProblem()` of the Python estimator hands out the estimator's own problem, on which `add`, `remove`
and `clear` can be called. -/

namespace Verif
variable {V F M : Type _}
open IncProblem

/-! ### specification -/

/-- Histories of a Python program: any sequence of calls on the estimator, on the problem it hands out and on the batches, in
which the batches offered are acceptable. -/
inductive PyReach (D : Dbl F) (m0 : M) (w0 : EWorld V F M) : EWorld V F M → Prop where
  | init : PyReach D m0 w0 w0
  | step {w w' : EWorld V F M} {ok : Bool} (op : PyOp V F M) (h : PyReach D m0 w0 w) (hreg : op.Regular w)
      (hs : (op.step D m0 w).outcome = some (ok, w')) : PyReach D m0 w0 w'

/-- The problem `q` is the sum of the batches it lists: it has exactly their variables, each once and in the group they give
it, and their error terms one batch after the other. -/
structure SumOfBatches (B : BatchId → OptProblem V) (q : IncProblem V) : Prop where
  groupOf : ∀ d g, q.getGroupId d = .ok g () ↔ ∃ b ∈ q.problems, (B b).getGroupId d = .ok g ()
  vars : ∃ e : List DVId, e.Nodup ∧ q.numDesignVariables = e.length ∧
    (∀ d, d ∈ e ↔ ∃ b ∈ q.problems, (B b).isDVInProblem d = true) ∧
    ∀ i : Nat, q.designVariable i = match e[i]? with | some d => .ok d () | none => .throw .outOfBound ()
  terms : (q.problems.flatMap fun b => (B b).errorTerms).Nodup ∧
    ∀ i : Nat, q.errorTerm B i = match (q.problems.flatMap fun b => (B b).errorTerms)[i]? with
      | some e => .ok e () | none => .throw .outOfBound ()

/-! ### proofs -/

theorem WInv.has_iff {w : World V} (hw : WInv w) (d : DVId) :
    (AL.get d w.inc.counts).isSome = true ↔ ∃ b ∈ w.inc.problems, (w.B b).isDVInProblem d = true := by
  simp only [OptProblem.isDVInProblem, AL.has_iff]
  rw [← useCount_pos_iff]
  have := hw.zero d
  cases hc : AL.get d w.inc.counts with
  | none => have := this.1 hc; simp [this]
  | some x =>
    rcases Nat.eq_zero_or_pos (useCount w.B w.inc.problems d) with h0 | h0
    · rw [this.2 h0] at hc; simp at hc
    · simp [h0]

theorem WInv.sum {w : World V} (hw : WInv w) : SumOfBatches w.B w.inc where
  groupOf := fun d g => by rw [inc_getGroupId_iff]; exact hw.group_iff d g
  vars := by
    refine ⟨enumDV w.inc.groups w.inc.ordering, hw.g.nodup_enum, ?_, ?_, inc_designVariable_eq hw⟩
    · have hp : (enumDV w.inc.groups w.inc.ordering).Perm (AL.keys w.inc.counts) :=
        hw.g.enum_perm hw.nd (fun d => by
          rw [AL.mem_keys_iff]
          cases AL.get d w.inc.counts <;> simp)
      rw [hp.length_eq]; simp [AL.keys, IncProblem.numDesignVariables]
    · intro d
      rw [hw.g.mem_enum, ← hw.has_iff d]
      cases AL.get d w.inc.counts <;> simp
  terms := ⟨inc_errorTerms_nodup hw, inc_errorTerm_eq hw⟩

theorem PInv.init (D : Dbl F) (mo : F) (m0 : M) (g : GroupId) (o : EstOptions F) (h : Heap V) :
    PInv (EWorld.fresh D mo m0 g o h) :=
  ⟨(EInv.init D mo m0 g o h).winv, (EInv.init D mo m0 g o h).log⟩

theorem PyReach.inv {D : Dbl F} {m0 : M} {mo : F} {g : GroupId} {o : EstOptions F} {h0 : Heap V} {w : EWorld V F M}
    (h : PyReach D m0 (EWorld.fresh D mo m0 g o h0) w) : PInv w ∧ w.est.margGroup = g := by
  induction h with
  | init => exact ⟨PInv.init D mo m0 g o h0, rfl⟩
  | step op _ hreg hs ih =>
    obtain ⟨h1, h2⟩ := ih.1.step hreg hs
    exact ⟨h1, by rw [h2, ih.2]⟩

/-- **C119 (what holds).** Whatever a Python program does with the problem handed out by `getProblem`, next to its calls on the
estimator and the batches: as long as the batches offered are acceptable, the problem is the sum of the batches it lists, and
so was the problem of every optimizer run, with the marginalised group last and the marginalisation index the number of
columns of the other groups. -/
theorem C119_consistent_partial {D : Dbl F} {m0 : M} {mo : F} {g : GroupId} {o : EstOptions F} {h0 : Heap V} {w : EWorld V F M}
    (h : PyReach D m0 (EWorld.fresh D mo m0 g o h0) w) :
    SumOfBatches w.B w.est.inc ∧ w.est.margGroup = g ∧
    ∀ c ∈ w.est.calls, SumOfBatches c.B c.inc ∧ ∃ others : List GroupId, c.inc.ordering = others ++ [g] ∧ g ∉ others ∧
      ∃ dims : List Nat, others.map (fun g' => c.inc.getGroupDim c.heap g') = dims.map (fun n => .ok n ()) ∧
        c.margStart = dims.sum := by
  obtain ⟨hw, hmg⟩ := h.inv
  refine ⟨hw.winv.sum, hmg, ?_⟩
  intro c hc
  obtain ⟨hcw, hlast, hms⟩ := hw.log c hc
  rw [hmg] at hlast hms
  obtain ⟨others, h1, h2, h3, -⟩ := optInput_shape hcw hlast hms
  exact ⟨hcw.sum, others, h1, h2, h3⟩

/-! ### running programs -/

/-- `PyOp.Regular`, decided. -/
def PyOp.regularB (op : PyOp V F M) (w : EWorld V F M) : Bool :=
  match op with
  | .est op => op.regularB w
  | .problemAdd (some b) => (w.est.inc.add w.B (some b)).isOk
  | _ => true

theorem PyOp.regularB_iff {op : PyOp V F M} {w : EWorld V F M} (h : op.regularB w = true) : op.Regular w := by
  cases op with
  | est op => exact EOp.regularB_iff h
  | problemAdd b => cases b <;> first | exact trivial | exact h
  | _ => trivial

/-- Run a Python program of regular calls. -/
def PyOp.run (D : Dbl F) (m0 : M) : List (PyOp V F M) → EWorld V F M → Option (List (EObs F M) × EWorld V F M)
  | [], w => some ([], w)
  | op :: ops, w =>
    if op.regularB w then
      match (op.step D m0 w).observe with
      | some (o, w') =>
        match PyOp.run D m0 ops w' with
        | some (os, w'') => some (o :: os, w'')
        | none => none
      | none => none
    else none

theorem pyRun_cons {D : Dbl F} {m0 : M} {op : PyOp V F M} {ops : List (PyOp V F M)} {w w'' : EWorld V F M} {os}
    (h : PyOp.run D m0 (op :: ops) w = some (os, w'')) : ∃ o os' w', os = o :: os' ∧ op.Regular w ∧
      (op.step D m0 w).observe = some (o, w') ∧ PyOp.run D m0 ops w' = some (os', w'') := by
  rw [PyOp.run] at h
  split at h
  · rename_i hreg
    split at h
    · rename_i o w' heq
      split at h
      · rename_i os' w2 heq2
        simp only [Option.some.injEq, Prod.mk.injEq] at h
        obtain ⟨rfl, rfl⟩ := h
        exact ⟨o, os', w', rfl, PyOp.regularB_iff hreg, heq, heq2⟩
      · simp at h
    · simp at h
  · simp at h

theorem pyReach_of_run {D : Dbl F} {m0 : M} {w0 : EWorld V F M} {ops : List (PyOp V F M)} {w w'' : EWorld V F M} {os}
    (h0 : PyReach D m0 w0 w) (h : PyOp.run D m0 ops w = some (os, w'')) : PyReach D m0 w0 w'' := by
  induction ops generalizing w os with
  | nil => simp [PyOp.run] at h; rw [← h.2]; exact h0
  | cons op ops ih =>
    obtain ⟨o, os', w', rfl, hreg, h1, h2⟩ := pyRun_cons h
    obtain ⟨ok, hok⟩ := observe_outcome h1
    exact ih (h0.step op hreg hok) h2

/-- the effect of an `addBatch` that returned. -/
theorem pyAdd_eff {D : Dbl F} {m0 : M} {w w' : EWorld V F M} (hw : PInv w) {b : BatchId} {force : Bool}
    {oracle : OptInput V → OptCall V F M} {k : Bool} {r : RetVal F M}
    (h : PyOp.run D m0 [.est (.addBatch (some b) force oracle k)] w = some ([some (some r)], w')) :
    ∃ q1, AddResult w.toWorld b q1 ∧ Addable w.B w.est.inc (w.B b) ∧ AddEff D m0 oracle k w b force q1 (.ok r w') := by
  obtain ⟨o, os', w1, h1, hreg, h2, h3⟩ := pyRun_cons h
  simp only [PyOp.run, Option.some.injEq, Prod.mk.injEq] at h3
  obtain ⟨rfl, rfl⟩ := h3
  simp only [List.cons.injEq, and_true] at h1
  subst h1
  have ha := addable_of_isOk hw.winv hreg
  obtain ⟨q1, -, hr, heff⟩ := addBatch_eff D m0 oracle k hw.winv ha force
  refine ⟨q1, hr, ha, ?_⟩
  have : w.addBatch D m0 oracle k (some b) force = .ok r w1 := by
    simp only [PyOp.step, EOp.step] at h2
    cases hx : w.addBatch D m0 oracle k (some b) force <;> rw [hx] at h2 <;>
      simp [Res.bind, Res.observe] at h2
    rw [h2.1, h2.2]
  rw [this] at heff
  exact heff

/-- calls on batches leave the estimator alone. -/
theorem pyBatch_run {D : Dbl F} {m0 : M} {calls : List (BatchId × BOp V)} {w w' : EWorld V F M} {os}
    (h : PyOp.run D m0 (calls.map fun c => .est (.batch c.1 c.2)) w = some (os, w')) : w'.est = w.est := by
  induction calls generalizing w os with
  | nil => simp [PyOp.run] at h; rw [← h.2]
  | cons c l ih =>
    obtain ⟨o, os', w1, -, -, h1, h2⟩ := pyRun_cons h
    rw [ih h2]
    obtain ⟨ok, hok⟩ := observe_outcome h1
    simp only [PyOp.step, EOp.step] at hok
    have hok := outcome_bind_ok (f := fun _ => none) hok
    obtain ⟨s, -, rfl⟩ := outcome_mapState hok
    rfl

/-- **C119 (what fails, 1).** `clear()` of the problem handed out forgets the batches but not the backup of the variables.
After a batch `b0` has been added (not forced), the problem cleared, and anything done to the variables since, the next batch
`b1` that is not accepted sets the variables of `b0` - which belong to neither the problem nor `b1` - back to the values
they had before `b0` was added.  (The variables and their batch need not even exist any more: the backup is by plain pointer.) -/
theorem C119_clear_reverts {D : Dbl F} {m0 : M} {mo : F} {g : GroupId} {o : EstOptions F} {h0 : Heap V}
    {w w1 w3 w4 : EWorld V F M} {b0 b1 : BatchId} {o1 o2 : OptInput V → OptCall V F M} {k1 k2 : Bool} {r1 r2 : RetVal F M}
    {calls : List (BatchId × BOp V)} {os}
    (h : PyReach D m0 (EWorld.fresh D mo m0 g o h0) w)
    (h1 : PyOp.run D m0 [.est (.addBatch (some b0) false o1 k1)] w = some ([some (some r1)], w1))
    (hr1 : r1.batchAccepted = true)
    (h3 : PyOp.run D m0 (.problemClear :: calls.map fun c => .est (.batch c.1 c.2)) w1 = some (os, w3))
    (h4 : PyOp.run D m0 [.est (.addBatch (some b1) false o2 k2)] w3 = some ([some (some r2)], w4))
    (hr2 : r2.batchAccepted = false)
    {d : DVId} (hd : (w.B b0).isDVInProblem d = true) (hd' : (w3.B b1).isDVInProblem d = false) :
    w3.est.inc.isDVInProblem d = false ∧ w4.est.inc.isDVInProblem d = false ∧
    w4.heap.params d = w.heap.params d := by
  have hw := h.inv.1
  have hx1 := pyReach_of_run h h1
  have hx3 := pyReach_of_run hx1 h3
  obtain ⟨q1, hq1, ha1, e1⟩ := pyAdd_eff hw h1
  obtain ⟨q3, hq3, ha3, e3⟩ := pyAdd_eff hx3.inv.1 h4
  -- the backup after the first call
  have hbk : AL.get d w1.est.inc.backup = some (w.heap.params d) := by
    cases e1 with
    | rejected call srv sc mg gain idx h5 q2 L hc hm h1 h2 hg hk hh hi hq2 hr2 hL r hres =>
      simp only at hres
      split at hres
      · simp only [Res.ok.injEq] at hres; rw [hres.1] at hr1; simp at hr1
      · simp at hres
    | kept call srv sc mg gain hc hm h1 h2 hg hk =>
      simp only [optWorld, EWorld.setInc, IncProblem.saveDesignVariables, saveLoop_get, Bool.false_eq_true, if_false]
      rw [if_pos]
      have hwi := (hq1.inv hw.winv ha1).has_iff d
      rw [AL.mem_keys_iff]
      have : (AL.get d q1.counts).isSome = true := hwi.2 ⟨b0, by simp [hq1.problems], hd⟩
      exact Option.isSome_iff_exists.1 this
  obtain ⟨ob, os', w2, -, -, hc1, hc2⟩ := pyRun_cons h3
  simp only [PyOp.step, Res.observe, Option.some.injEq, Prod.mk.injEq] at hc1
  have hest : w3.est.inc = w1.est.inc.clear := by rw [pyBatch_run hc2, ← hc1.2]; rfl
  have hno : w3.est.inc.isDVInProblem d = false := by rw [hest]; rfl
  have hdl : d ∉ AL.keys (w3.B b1).lookup := by
    simp only [OptProblem.isDVInProblem, ← Bool.not_eq_true, AL.has_iff] at hd'; exact hd'
  have hcnt : AL.get d q3.counts = none := by
    have := ((hq3.inv hx3.inv.1.winv ha3).has_iff d).not
    simp only [Bool.not_eq_true, Option.isSome_eq_false_iff, Option.isNone_iff_eq_none] at this
    apply this.2
    rintro ⟨b, hb, hbd⟩
    have hp : q3.problems = [b1] := by rw [hq3.problems]; simp only [EWorld.toWorld, hest]; rfl
    simp only [hp, List.mem_singleton] at hb
    subst hb
    have hbd : (w3.B b).isDVInProblem d = true := hbd
    rw [hd'] at hbd; simp at hbd
  cases e3 with
  | kept => simp at hr2
  | rejected call srv sc mg gain idx h5 q2 L hc hm h1 h2 hg hk hh hi hq2 hrr hL r hres =>
    have hw4 : w4 = ⟨w3.B, h5, { w3.est with
        inc := q2
        layout := L
        calls := w3.est.calls ++ [optInput (optWorld w3 q3 false)] }⟩ := by
      simp only at hres
      split at hres
      · simp only [Res.ok.injEq] at hres; exact hres.2
      · simp at hres
    have hbk3 : AL.get d (optWorld w3 q3 false).est.inc.backup = some (w.heap.params d) := by
      simp only [optWorld, EWorld.setInc, IncProblem.saveDesignVariables, saveLoop_get, Bool.false_eq_true, if_false]
      rw [if_neg]
      · rw [hq3.backup]; simp only [EWorld.toWorld, hest]; exact hbk
      · rw [AL.mem_keys_iff, hcnt]; simp
    have hbn : (AL.keys (optWorld w3 q3 false).est.inc.backup).Nodup :=
      (optWorld_winv hx3.inv.1.winv ha3 hq3 hm false).bkn
    refine ⟨hno, ?_, ?_⟩
    · have hidx : (optWorld w3 q3 false).est.inc.problems[idx]? = some b1 := by
        rw [(optWorld_inc w3 q3 false).1]; exact (findIdx_some hi).1
      have hx4 := pyReach_of_run hx3 h4
      have := (hx4.inv.1.winv.has_iff d).not
      simp only [Bool.not_eq_true] at this
      show AL.has d w4.est.inc.counts = false
      rw [AL.has]
      apply this.2
      rintro ⟨b, hb, -⟩
      have hp : q2.problems = [] := by
        rw [hrr.problems]
        have hpp : (optWorld w3 q3 false).est.inc.problems = [b1] := by
          rw [(optWorld_inc w3 q3 false).1, hq3.problems]; simp only [EWorld.toWorld, hest]; rfl
        simp only [hpp] at hidx ⊢
        rcases idx with _ | n
        · rfl
        · simp at hidx
      rw [hw4] at hb
      simp only [EWorld.toWorld, hp] at hb
      simp at hb
    · rw [hw4]
      simp only
      rw [hh, IncProblem.restoreDesignVariables, restoreLoop_params _ hbn, hbk3]
      rfl

/-- **C119 (what fails, 2).** `clear()` and `remove()` of the problem handed out leave the statistics of the estimator as they
were: the information gain of the next batch is measured against the log sum of batches that are gone. -/
theorem C119_gain_against_removed {D : Dbl F} {m0 : M} {mo : F} {g : GroupId} {o : EstOptions F} {h0 : Heap V}
    {w w1 w2 w3 : EWorld V F M} {b0 b1 : BatchId} {f0 f1 : Bool} {o1 o2 : OptInput V → OptCall V F M} {k1 k2 : Bool}
    {r1 r2 : RetVal F M} {op : PyOp V F M} {ob : EObs F M}
    (h : PyReach D m0 (EWorld.fresh D mo m0 g o h0) w)
    (h1 : PyOp.run D m0 [.est (.addBatch (some b0) f0 o1 k1)] w = some ([some (some r1)], w1))
    (hr1 : r1.batchAccepted = true) (hop : op = .problemClear ∨ ∃ i, op = .problemRemove i)
    (h2 : PyOp.run D m0 [op] w1 = some ([ob], w2))
    (h3 : PyOp.run D m0 [.est (.addBatch (some b1) f1 o2 k2)] w2 = some ([some (some r2)], w3)) :
    w2.est.stats = w1.est.stats ∧ w1.est.stats = r1.stats ∧
    r2.informationGain = D.halfDiff r2.marginal.svLog2Sum r1.marginal.svLog2Sum := by
  have hw := h.inv.1
  have hx1 := pyReach_of_run h h1
  have hx2 := pyReach_of_run hx1 h2
  obtain ⟨q1, hq1, ha1, e1⟩ := pyAdd_eff hw h1
  obtain ⟨q3, hq3, ha3, e3⟩ := pyAdd_eff hx2.inv.1 h3
  have hs1 : w1.est.stats = r1.stats := by
    cases e1 with
    | rejected call srv sc mg gain idx h5 q2 L hc hm h1 h2 hg hk hh hi hq2 hr2 hL r hres =>
      simp only at hres
      split at hres
      · simp only [Res.ok.injEq] at hres; rw [hres.1] at hr1; simp at hr1
      · simp at hres
    | kept call srv sc mg gain hc hm h1 h2 hg hk => rfl
  have hs2 : w2.est.stats = w1.est.stats := by
    obtain ⟨o', os', w', -, -, hc1, hc2⟩ := pyRun_cons h2
    simp only [PyOp.run, Option.some.injEq, Prod.mk.injEq] at hc2
    rw [← hc2.2]
    obtain ⟨ok, hok⟩ := observe_outcome hc1
    rcases hop with rfl | ⟨i, rfl⟩
    · simp only [PyOp.step, Res.outcome, Option.some.injEq, Prod.mk.injEq] at hok
      rw [← hok.2]; rfl
    · have hok := outcome_bind_ok (f := fun _ => none) hok
      obtain ⟨s, -, rfl⟩ := outcome_mapState hok
      rfl
  refine ⟨hs2, hs1, ?_⟩
  have hst : w2.est.stats.marginal.svLog2Sum = r1.marginal.svLog2Sum := by rw [hs2, hs1]; rfl
  cases e3 with
  | kept call srv sc mg gain hc hm h1 h2 hg hk => rw [← hst]; exact hg
  | rejected call srv sc mg gain idx h5 q2 L hc hm h1 h2 hg hk hh hi hq2 hr2 hL r hres =>
    simp only at hres
    split at hres
    · simp only [Res.ok.injEq] at hres
      rw [hres.1, ← hst]; exact hg
    · simp at hres

/-! ### concrete runs -/

/-- Batches 0 and 1 of `ebatches0`, and a batch 4 with a variable of the marginalised group only. -/
def pybatches0 : List (PyOp Nat Int Nat) :=
  ebatches0.map .est ++ [.est (.batch 4 (.addDV (some 5) 1))]

/-- Adding both batches, the second one directly to the problem, and optimizing: the sum of the two batches. -/
example : ((PyOp.run dblInt 0 (pybatches0 ++ [.est (.addBatch (some 0) false (oracle0 8 1 5) true), .problemAdd (some 1),
      .est (.reoptimize (oracle0 14 1 5)), .problemRemove 0, .est (.reoptimize (oracle0 6 1 5))]) est0).map fun x =>
      (x.2.est.inc.problems, x.2.est.calls.map fun c => (c.inc.problems, c.inc.ordering, c.margStart))) =
    some ([1], [([0], [0, 1], 9), ([0, 1], [0, 2, 1], 28), ([1], [0, 2, 1], 23)]) := by decide

/-- Batch 0 is accepted (3: 30 → 38), the problem cleared, variable 3 set to 99, and batch 4, without variable 3, offered and
not accepted: variable 3 is 30 again. -/
example : ((PyOp.run dblInt 0 (pybatches0 ++ [.est (.addBatch (some 0) false (oracle0 8 1 5) true), .problemClear,
      .est (.batch 4 (.setValue 3 99)), .est (.addBatch (some 4) false (oracle0 8 1 5) true)]) est0).map fun x =>
      (flags (x.1.drop 11), x.2.est.inc.problems, x.2.heap.params 3, est0.heap.params 3)) =
    some ([some (some true), some none, some none, some (some false)], [], 30, 30) := by decide

/-- Batch 0 accepted, removed directly, and offered again with the very same outcome of the optimization: not accepted,
since the gain is measured against itself. -/
example : ((PyOp.run dblInt 0 (pybatches0 ++ [.est (.addBatch (some 0) false (oracle0 8 1 5) true), .problemRemove 0,
      .est (.addBatch (some 0) false (oracle0 8 1 5) true)]) est0).map fun x =>
      (flags (x.1.drop 11), x.2.est.inc.problems)) =
    some ([some (some true), some none, some (some false)], []) := by decide

end Verif
