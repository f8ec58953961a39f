import Verif.Lemmas.Estimator

namespace Verif
variable {V F M : Type _}

/-- The world in which `addBatch` runs the optimizer, `q1` being the problem with the batch added. -/
def optWorld (w : EWorld V F M) (q1 : IncProblem V) (force : Bool) : EWorld V F M :=
  if force then w.setInc { q1 with ordering := margLast w.est.margGroup q1.ordering }
  else w.setInc (({ q1 with ordering := margLast w.est.margGroup q1.ordering } : IncProblem V).saveDesignVariables w.heap)

theorem optWorld_B (w : EWorld V F M) (q1 : IncProblem V) (f : Bool) : (optWorld w q1 f).B = w.B := by
  cases f <;> rfl
theorem optWorld_heap (w : EWorld V F M) (q1 : IncProblem V) (f : Bool) : (optWorld w q1 f).heap = w.heap := by
  cases f <;> rfl
theorem optWorld_est (w : EWorld V F M) (q1 : IncProblem V) (f : Bool) :
    (optWorld w q1 f).est = { w.est with inc := (optWorld w q1 f).est.inc } := by cases f <;> rfl
theorem optWorld_inc (w : EWorld V F M) (q1 : IncProblem V) (f : Bool) :
    (optWorld w q1 f).est.inc.problems = q1.problems ∧ (optWorld w q1 f).est.inc.counts = q1.counts ∧
    (optWorld w q1 f).est.inc.groups = q1.groups ∧
    (optWorld w q1 f).est.inc.ordering = margLast w.est.margGroup q1.ordering := by
  cases f <;> exact ⟨rfl, rfl, rfl, rfl⟩
theorem optWorld_marg (w : EWorld V F M) (q1 : IncProblem V) (f : Bool) :
    (optWorld w q1 f).est.margGroup = w.est.margGroup := by cases f <;> rfl

/-- The possible effects of `addBatch(b, force)` on a well-formed estimator whose problem accepts `b`. -/
inductive AddEff (D : Dbl F) (m0 : M) (oracle : OptInput V → OptCall V F M) (buildOk : Bool) (w : EWorld V F M)
    (b : BatchId) (force : Bool) (q1 : IncProblem V) : Res (EWorld V F M) (RetVal F M) → Prop
  | noMarg (hm : w.est.margGroup ∉ q1.ordering) : AddEff D m0 oracle buildOk w b force q1 (.throw .invalidOperation (w.setInc q1))
  | optThrows (call) (hc : call = oracle (optInput (optWorld w q1 force))) (hm : w.est.margGroup ∈ q1.ordering)
      (ht : call.report = none ∨ call.marginal = none) :
      AddEff D m0 oracle buildOk w b force q1 (.throw .external (afterOpt (optWorld w q1 force) call))
  | kept (call srv sc mg gain) (hc : call = oracle (optInput (optWorld w q1 force))) (hm : w.est.margGroup ∈ q1.ordering)
      (h1 : call.report = some (srv, sc)) (h2 : call.marginal = some mg)
      (hg : gain = D.halfDiff mg.svLog2Sum w.est.stats.marginal.svLog2Sum)
      (hk : EWorld.keep D w.est.options w.est.stats gain srv mg force = true) :
      AddEff D m0 oracle buildOk w b force q1 (.ok ⟨true, gain, mg, EWorld.scaledOf m0 w.est.options sc, srv⟩
        ⟨w.B, { w.heap with params := call.params }, { w.est with
          inc := (optWorld w q1 force).est.inc
          stats := ⟨gain, mg, EWorld.scaledOf m0 w.est.options sc, srv.JStart, srv.JFinal⟩
          layout := call.layout
          calls := w.est.calls ++ [optInput (optWorld w q1 force)] }⟩)
  | rejected (call srv sc mg gain idx h5 q2 L) (hc : call = oracle (optInput (optWorld w q1 force)))
      (hm : w.est.margGroup ∈ q1.ordering) (h1 : call.report = some (srv, sc)) (h2 : call.marginal = some mg)
      (hg : gain = D.halfDiff mg.svLog2Sum w.est.stats.marginal.svLog2Sum)
      (hk : EWorld.keep D w.est.options w.est.stats gain srv mg force = false)
      (hh : h5 = (optWorld w q1 force).est.inc.restoreDesignVariables { w.heap with params := call.params })
      (hi : q1.problems.findIdx? (· == b) = some idx)
      (hq2 : (optWorld w q1 force).est.inc.removeIdx w.B idx = .ok () q2)
      (hr : RemResult ⟨w.B, (optWorld w q1 force).est.inc, h5⟩ b idx q2)
      (hL : if q2.problems = [] then L = call.layout else
        LayoutDV h5 ((enumDV q2.groups q2.ordering).filter h5.active) L ∧
        LayoutET h5 (q2.problems.flatMap fun b => (w.B b).errorTerms) L)
      (r : Res (EWorld V F M) (RetVal F M))
      (hres : r = (let w' : EWorld V F M := ⟨w.B, h5, { w.est with
            inc := q2
            layout := L
            calls := w.est.calls ++ [optInput (optWorld w q1 force)] }⟩
        if q2.problems = [] ∨ buildOk = true then
          .ok ⟨false, gain, mg, EWorld.scaledOf m0 w.est.options sc, srv⟩ w'
        else .throw .external w')) :
      AddEff D m0 oracle buildOk w b force q1 r

theorem optWorld_winv {w : EWorld V F M} (hw : WInv w.toWorld) {b : BatchId} (ha : Addable w.B w.est.inc (w.B b))
    {q1 : IncProblem V} (hr : AddResult w.toWorld b q1) (hm : w.est.margGroup ∈ q1.ordering) (force : Bool) :
    WInv (optWorld w q1 force).toWorld := by
  have h1 : WInv { w.toWorld with inc := q1 } := hr.inv hw ha
  have h2 := h1.setOrd (o := margLast w.est.margGroup q1.ordering) (margLast_perm hm)
  cases force with
  | true => exact h2
  | false => exact h2.saved

theorem addBatch_eff (D : Dbl F) (m0 : M) (oracle : OptInput V → OptCall V F M) (buildOk : Bool) {w : EWorld V F M}
    (hw : WInv w.toWorld) {b : BatchId} (ha : Addable w.B w.est.inc (w.B b)) (force : Bool) :
    ∃ q1, w.est.inc.add w.B (some b) = .ok () q1 ∧ AddResult w.toWorld b q1 ∧
      AddEff D m0 oracle buildOk w b force q1 (w.addBatch D m0 oracle buildOk (some b) force) := by
  obtain ⟨q1, h1, hr⟩ := add_ok hw ha
  refine ⟨q1, h1, hr, ?_⟩
  have hw1 : WInv (w.setInc q1).toWorld := hr.inv hw ha
  have h1' : w.est.inc.add w.B (some b) = .ok () q1 := h1
  unfold EWorld.addBatch
  rw [h1']
  simp only [Res.mapState, Res.bind]
  rw [orderMarginalized_eq hw1]
  by_cases hm : w.est.margGroup ∈ q1.ordering
  · have hm' : (w.setInc q1).est.margGroup ∈ (w.setInc q1).est.inc.ordering := hm
    simp only [hm', if_true]
    have h3 : (if force = true then
          (w.setInc q1).setInc { (w.setInc q1).est.inc with
            ordering := margLast (w.setInc q1).est.margGroup (w.setInc q1).est.inc.ordering }
        else
          ((w.setInc q1).setInc { (w.setInc q1).est.inc with
            ordering := margLast (w.setInc q1).est.margGroup (w.setInc q1).est.inc.ordering }).setInc
            (((w.setInc q1).setInc { (w.setInc q1).est.inc with
            ordering := margLast (w.setInc q1).est.margGroup (w.setInc q1).est.inc.ordering }).est.inc.saveDesignVariables
              ((w.setInc q1).setInc { (w.setInc q1).est.inc with
            ordering := margLast (w.setInc q1).est.margGroup (w.setInc q1).est.inc.ordering }).heap)) =
        optWorld w q1 force := by
      cases force <;> rfl
    rw [h3]
    have hw3 := optWorld_winv hw ha hr hm force
    have hm3 : (optWorld w q1 force).est.margGroup ∈ (optWorld w q1 force).est.inc.ordering := by
      rw [(optWorld_inc w q1 force).2.2.2, optWorld_marg]
      exact (margLast_perm hm).mem_iff.2 hm
    rw [runOptimizer_eq hw3 hm3]
    generalize hcall : oracle (optInput (optWorld w q1 force)) = call
    rcases hrep : call.report with _ | ⟨srv, sc⟩
    · exact .optThrows call hcall.symm hm (.inl hrep)
    · simp only
      rcases hmg : call.marginal with _ | mg
      · exact .optThrows call hcall.symm hm (.inr hmg)
      · simp only
        have e1 : (afterOpt (optWorld w q1 force) call).est.options = w.est.options := by
          cases force <;> rfl
        have e2 : (afterOpt (optWorld w q1 force) call).est.stats = w.est.stats := by
          cases force <;> rfl
        rw [e1, e2]
        generalize hgain : D.halfDiff mg.svLog2Sum w.est.stats.marginal.svLog2Sum = gain
        cases hk : EWorld.keep D w.est.options w.est.stats gain srv mg force with
        | true =>
          simp only [if_true]
          have := AddEff.kept (D := D) (m0 := m0) (oracle := oracle) (buildOk := buildOk) (w := w) (b := b)
            (force := force) (q1 := q1) call srv sc mg gain hcall.symm hm hrep hmg hgain.symm hk
          convert this using 2
          simp only [afterOpt, optWorld_B, optWorld_heap]
          rw [optWorld_est]
        | false =>
          simp only [Bool.false_eq_true, if_false]
          generalize hh5 : (afterOpt (optWorld w q1 force) call).est.inc.restoreDesignVariables
            (afterOpt (optWorld w q1 force) call).heap = h5
          have hh5' : h5 = (optWorld w q1 force).est.inc.restoreDesignVariables { w.heap with params := call.params } := by
            rw [← hh5]; simp only [afterOpt, optWorld_heap]
          have hrest := restoreLoop_rest (optWorld w q1 force).est.inc.backup { w.heap with params := call.params }
          have hw5 : WInv (⟨w.B, (optWorld w q1 force).est.inc, h5⟩ : World V) := by
            have := hw3.heapParams (h' := h5) (by
              rw [hh5']; simp only [EWorld.toWorld, optWorld_heap]
              exact hrest.2.2.1)
            simp only [EWorld.toWorld, optWorld_B] at this
            exact this
          have hp : q1.problems = w.est.inc.problems ++ [b] := hr.problems
          have hfind : ∃ idx, q1.problems.findIdx? (· == b) = some idx := by
            cases h : q1.problems.findIdx? (· == b) with
            | some i => exact ⟨i, rfl⟩
            | none => exact absurd (by rw [hp]; simp) (findIdx_none h)
          obtain ⟨idx, hidx⟩ := hfind
          obtain ⟨q2, hq2, hr2⟩ := removeIdx_ok (w := ⟨w.B, (optWorld w q1 force).est.inc, h5⟩) (b := b) (idx := idx) hw5
            (by rw [(optWorld_inc w q1 force).1]; exact (findIdx_some hidx).1)
          have hrem : (afterOpt (optWorld w q1 force) call).est.inc.remove
              (afterOpt (optWorld w q1 force) call).B (some b) = .ok () q2 := by
            simp only [IncProblem.remove, IncProblem.findProblem, afterOpt, (optWorld_inc w q1 force).1, hidx, optWorld_B]
            exact hq2
          rw [hrem]
          simp only
          have hw6 := hr2.inv hw5 (by rw [(optWorld_inc w q1 force).1]; exact (findIdx_some hidx).1)
          by_cases hemp : q2.problems = []
          · have hnum : ¬ (q2.numProblems > 0) := by simp [IncProblem.numProblems, hemp]
            simp only [EWorld.setInc, hnum, if_false]
            refine .rejected call srv sc mg gain idx h5 q2 call.layout hcall.symm hm hrep hmg hgain.symm hk hh5' hidx hq2 hr2
              (by simp [hemp]) _ ?_
            simp only [hemp, true_or, if_true, afterOpt, optWorld_B]
            rw [optWorld_est]
          · have hnum : q2.numProblems > 0 := List.length_pos_of_ne_nil hemp
            simp only [EWorld.setInc, hnum, if_true]
            obtain ⟨L, hL1, hL2, hL3⟩ := restoreLinearSolver_eq (w := (⟨w.B, h5, { (afterOpt (optWorld w q1 force) call).est with inc := q2 }⟩ : EWorld V F M)) hw6 buildOk
            have e7 : (⟨(afterOpt (optWorld w q1 force) call).B, h5, { (afterOpt (optWorld w q1 force) call).est with inc := q2 }⟩ : EWorld V F M) = ⟨w.B, h5, { (afterOpt (optWorld w q1 force) call).est with inc := q2 }⟩ := by
              simp only [afterOpt, optWorld_B]
            rw [e7, hL1]
            refine .rejected call srv sc mg gain idx h5 q2 L hcall.symm hm hrep hmg hgain.symm hk hh5' hidx hq2 hr2
              (by simp only [hemp, if_false]; exact ⟨hL2, hL3⟩) _ ?_
            simp only [hemp, false_or, afterOpt]
            rw [optWorld_est]
            cases buildOk <;> simp
  · have hm' : ¬ (w.setInc q1).est.margGroup ∈ (w.setInc q1).est.inc.ordering := hm
    simp only [hm', if_false]
    exact .noMarg hm

/-! ### preservation of the invariant -/

theorem log_append {w w' : EWorld V F M} (hl : ∀ c ∈ w.est.calls, WInv ⟨c.B, c.inc, c.heap⟩ ∧
      c.inc.ordering.getLast? = some w.est.margGroup ∧ c.margStart = margIndex ⟨c.B, c.inc, c.heap⟩ w.est.margGroup)
    (hw' : WInv w'.toWorld) (hlast : w'.est.inc.ordering.getLast? = some w.est.margGroup)
    (hmg : w'.est.margGroup = w.est.margGroup) :
    ∀ c ∈ w.est.calls ++ [optInput w'], WInv ⟨c.B, c.inc, c.heap⟩ ∧
      c.inc.ordering.getLast? = some w.est.margGroup ∧ c.margStart = margIndex ⟨c.B, c.inc, c.heap⟩ w.est.margGroup := by
  intro c hc
  rcases List.mem_append.1 hc with h | h
  · exact hl c h
  · simp only [List.mem_singleton] at h
    subst h
    refine ⟨hw', hlast, ?_⟩
    simp only [optInput, hmg]; rfl

theorem getLast_filter_of_mem {m : GroupId} (o : List GroupId) (p : GroupId → Bool) (h : o.getLast? = some m)
    (hm : m ∈ o.filter p) : (o.filter p).getLast? = some m := by
  rcases List.eq_nil_or_concat o with rfl | ⟨o', x, rfl⟩
  · simp at h
  · rw [List.concat_eq_append] at *
    rw [List.getLast?_append] at h
    simp at h; subst h
    have hp : p x = true := (List.mem_filter.1 hm).2
    rw [List.filter_append, List.getLast?_append]
    simp [hp]

/-- Backup entries stay within the problem when variables are added. -/
theorem AddResult.counts_mono {w : World V} {b : BatchId} {q1 : IncProblem V} (hr : AddResult w b q1) {d : DVId}
    (h : d ∈ AL.keys w.inc.counts) : d ∈ AL.keys q1.counts := by
  rw [AL.mem_keys_iff] at h ⊢
  obtain ⟨x, hx⟩ := h
  rw [hr.c.cnt, addU]
  split
  · exact ⟨x, hx⟩
  · exact ⟨_, rfl⟩

theorem EInv.add_inv {w : EWorld V F M} (hw : EInv w) {D : Dbl F} {m0 : M} {oracle : OptInput V → OptCall V F M}
    {buildOk force : Bool} {b : BatchId} {q1 : IncProblem V} (ha : Addable w.B w.est.inc (w.B b))
    (hr : AddResult w.toWorld b q1) {r : Res (EWorld V F M) (RetVal F M)}
    (h : AddEff D m0 oracle buildOk w b force q1 r) {ok : Bool} {w' : EWorld V F M} (ho : r.outcome = some (ok, w')) :
    EInv w' := by
  have hbk1 : ∀ d ∈ AL.keys q1.backup, d ∈ AL.keys q1.counts := by
    intro d hd; rw [hr.backup] at hd; exact hr.counts_mono (hw.bk d hd)
  have hbkO : ∀ d ∈ AL.keys (optWorld w q1 force).est.inc.backup, d ∈ AL.keys (optWorld w q1 force).est.inc.counts := by
    intro d hd
    cases force with
    | true => exact hbk1 d hd
    | false =>
      rcases (saveLoop_keys _ _ _ _).1 hd with h1 | h1
      · exact h1
      · exact hbk1 d h1
  have hlastO : w.est.margGroup ∈ q1.ordering → (optWorld w q1 force).est.inc.ordering.getLast? = some w.est.margGroup := by
    intro hm; rw [(optWorld_inc w q1 force).2.2.2]; exact margLast_last hm
  have hmgO : ∀ f, (optWorld w q1 f).est.margGroup = w.est.margGroup := optWorld_marg w q1
  have hlogO : w.est.margGroup ∈ q1.ordering → ∀ c ∈ w.est.calls ++ [optInput (optWorld w q1 force)], WInv ⟨c.B, c.inc, c.heap⟩ ∧
      c.inc.ordering.getLast? = some w.est.margGroup ∧ c.margStart = margIndex ⟨c.B, c.inc, c.heap⟩ w.est.margGroup :=
    fun hm => log_append hw.log (optWorld_winv hw.winv ha hr hm force) (hlastO hm) (hmgO force)
  have hparams : ∀ (hm : w.est.margGroup ∈ q1.ordering) (h' : Heap V), h'.etDVs = w.heap.etDVs →
      WInv (⟨w.B, (optWorld w q1 force).est.inc, h'⟩ : World V) := by
    intro hm h' he
    have := (optWorld_winv hw.winv ha hr hm force).heapParams (h' := h') (by
      simp only [EWorld.toWorld, optWorld_heap]; exact he)
    simp only [EWorld.toWorld, optWorld_B] at this
    exact this
  cases h with
  | noMarg hm =>
    simp only [Res.outcome, Option.some.injEq, Prod.mk.injEq] at ho
    obtain ⟨-, rfl⟩ := ho
    exact ⟨hr.inv hw.winv ha, hbk1, fun h => absurd h hm, hw.log⟩
  | optThrows call hc hm ht =>
    simp only [Res.outcome, Option.some.injEq, Prod.mk.injEq] at ho
    obtain ⟨-, rfl⟩ := ho
    have e : (afterOpt (optWorld w q1 force) call).est.calls = w.est.calls ++ [optInput (optWorld w q1 force)] := by
      cases force <;> rfl
    refine ⟨?_, hbkO, fun _ => ?_, ?_⟩
    · have := hparams hm (afterOpt (optWorld w q1 force) call).heap (by simp only [afterOpt, optWorld_heap])
      simp only [EWorld.toWorld, afterOpt, optWorld_B] at this ⊢; exact this
    · have := hlastO hm
      simp only [afterOpt, hmgO]; exact this
    · rw [e]; simp only [afterOpt, hmgO]; exact hlogO hm
  | kept call srv sc mg gain hc hm h1 h2 hg hk =>
    simp only [Res.outcome, Option.some.injEq, Prod.mk.injEq] at ho
    obtain ⟨-, rfl⟩ := ho
    exact ⟨hparams hm _ rfl, hbkO, fun _ => hlastO hm, hlogO hm⟩
  | rejected call srv sc mg gain idx h5 q2 L hc hm h1 h2 hg hk hh hi hq2 hr2 hL r hres =>
    have hw5 := hparams hm h5 (by rw [hh]; exact (restoreLoop_rest _ _).2.2.1)
    have hidx : (optWorld w q1 force).est.inc.problems[idx]? = some b := by
      rw [(optWorld_inc w q1 force).1]; exact (findIdx_some hi).1
    have hw' : w' = ⟨w.B, h5, { w.est with
        inc := q2
        layout := L
        calls := w.est.calls ++ [optInput (optWorld w q1 force)] }⟩ := by
      rw [hres] at ho
      simp only at ho
      split at ho <;> simp only [Res.outcome, Option.some.injEq, Prod.mk.injEq] at ho <;> exact ho.2.symm
    subst hw'
    refine ⟨hr2.inv hw5 hidx, ?_, ?_, hlogO hm⟩
    · intro d hd
      rw [AL.mem_keys_iff] at hd ⊢
      obtain ⟨v, hv⟩ := hd
      simp only at hv ⊢
      rw [hr2.backup] at hv
      by_contra hnone
      have hnone : AL.get d q2.counts = none := by
        cases hx : AL.get d q2.counts with
        | none => rfl
        | some x => exact absurd ⟨x, hx⟩ hnone
      split at hv
      · simp at hv
      · rename_i hcond
        have hd1 := hbkO d ((AL.mem_keys_iff _ _).2 ⟨v, hv⟩)
        obtain ⟨x, hx⟩ := (AL.mem_keys_iff _ _).1 hd1
        have := hr2.counts hw5 d
        rw [hnone] at this
        by_cases hb : d ∈ AL.keys (w.B b).lookup
        · exact hcond ⟨hb, hnone⟩
        · simp only [hb, if_false] at this
          rw [hx] at this; simp at this
    · intro hmem
      have hlO := hlastO hm
      have ho := hr2.ordering
      simp only at ho hmem ⊢
      rw [ho] at hmem ⊢
      exact getLast_filter_of_mem _ _ hlO hmem

/-- `reoptimize` changes values, statistics, layout and the log, nothing else. -/
theorem reoptimize_eff {D : Dbl F} {m0 : M} {oracle : OptInput V → OptCall V F M} {w : EWorld V F M} (hw : EInv w) :
    (w.est.margGroup ∉ w.est.inc.ordering ∧ w.reoptimize D m0 oracle = .throw .invalidOperation w) ∨
    (w.est.margGroup ∈ w.est.inc.ordering ∧ ∃ call, call = oracle (optInput w) ∧
      w.reoptimize D m0 oracle = match call.report with
        | none => .throw .external (afterOpt w call)
        | some (srv, sc) =>
          let sc' := EWorld.scaledOf m0 w.est.options sc
          match call.marginal with
          | none => .throw .external
              { afterOpt w call with est := { (afterOpt w call).est with stats := { w.est.stats with scaled := sc' } } }
          | some mg => .ok ⟨true, D.zero, mg, sc', srv⟩
              { afterOpt w call with est := { (afterOpt w call).est with
                  stats := ⟨D.zero, mg, sc', srv.JStart, srv.JFinal⟩ } }) := by
  by_cases hm : w.est.margGroup ∈ w.est.inc.ordering
  · right
    refine ⟨hm, _, rfl, ?_⟩
    have h1 := orderMarginalized_eq hw.winv
    rw [if_pos hm, margLast, if_pos (hw.last hm)] at h1
    unfold EWorld.reoptimize
    rw [h1]
    simp only [Res.bind]
    have e : w.setInc { w.est.inc with ordering := w.est.inc.ordering } = w := rfl
    rw [e, runOptimizer_eq hw.winv hm]
    generalize oracle (optInput w) = call
    rcases hrep : call.report with _ | ⟨srv, sc⟩
    · rfl
    · simp only
      rcases hmg : call.marginal with _ | mg
      · rfl
      · rfl
  · left
    refine ⟨hm, ?_⟩
    unfold EWorld.reoptimize
    rw [orderMarginalized_eq hw.winv, if_neg hm]; rfl

/-- What every outcome of `reoptimize` has in common. -/
theorem reoptimize_frame {D : Dbl F} {m0 : M} {oracle : OptInput V → OptCall V F M} {w : EWorld V F M} (hw : EInv w)
    {ok : Bool} {w' : EWorld V F M} (ho : (w.reoptimize D m0 oracle).outcome = some (ok, w')) :
    w'.B = w.B ∧ w'.est.inc = w.est.inc ∧ w'.est.options = w.est.options ∧ w'.est.margGroup = w.est.margGroup ∧
    (∃ p, w'.heap = { w.heap with params := p }) ∧
    (w'.est.calls = w.est.calls ∨
      w.est.margGroup ∈ w.est.inc.ordering ∧ w'.est.calls = w.est.calls ++ [optInput w]) := by
  rcases reoptimize_eff (D := D) (m0 := m0) (oracle := oracle) hw with ⟨-, h⟩ | ⟨hm, call, -, h⟩
  · rw [h] at ho
    simp only [Res.outcome, Option.some.injEq, Prod.mk.injEq] at ho
    obtain ⟨-, rfl⟩ := ho
    exact ⟨rfl, rfl, rfl, rfl, ⟨_, rfl⟩, .inl rfl⟩
  · rw [h] at ho
    rcases hrep : call.report with _ | ⟨srv, sc⟩
    · simp only [hrep, Res.outcome, Option.some.injEq, Prod.mk.injEq] at ho
      obtain ⟨-, rfl⟩ := ho
      exact ⟨rfl, rfl, rfl, rfl, ⟨_, rfl⟩, .inr ⟨hm, rfl⟩⟩
    · rcases hmg : call.marginal with _ | mg
      · simp only [hrep, hmg, Res.outcome, Option.some.injEq, Prod.mk.injEq] at ho
        obtain ⟨-, rfl⟩ := ho
        exact ⟨rfl, rfl, rfl, rfl, ⟨_, rfl⟩, .inr ⟨hm, rfl⟩⟩
      · simp only [hrep, hmg, Res.outcome, Option.some.injEq, Prod.mk.injEq] at ho
        obtain ⟨-, rfl⟩ := ho
        exact ⟨rfl, rfl, rfl, rfl, ⟨_, rfl⟩, .inr ⟨hm, rfl⟩⟩

theorem EInv.reopt {D : Dbl F} {m0 : M} {oracle : OptInput V → OptCall V F M} {w : EWorld V F M} (hw : EInv w)
    {ok : Bool} {w' : EWorld V F M} (ho : (w.reoptimize D m0 oracle).outcome = some (ok, w')) : EInv w' := by
  obtain ⟨h1, h2, h3, h4, ⟨p, h5⟩, h6⟩ := reoptimize_frame hw ho
  refine ⟨?_, by rw [h2]; exact hw.bk, by rw [h2, h4]; exact hw.last, ?_⟩
  · have := hw.winv.heapParams (h' := w'.heap) (by rw [h5]; rfl)
    simp only [EWorld.toWorld, h1, h2] at this ⊢
    exact this
  · rw [h4]
    rcases h6 with h6 | ⟨hm, h6⟩
    · rw [h6]; exact hw.log
    · rw [h6]; exact log_append hw.log hw.winv (hw.last hm) rfl

theorem EInv.rem {w : EWorld V F M} (hw : EInv w) {b : BatchId} {idx : Nat} {q2 : IncProblem V}
    (hidx : w.est.inc.problems[idx]? = some b) (hr2 : RemResult w.toWorld b idx q2) : EInv (w.setInc q2) := by
  refine ⟨hr2.inv hw.winv hidx, ?_, ?_, hw.log⟩
  · intro d hd
    rw [AL.mem_keys_iff] at hd ⊢
    obtain ⟨v, hv⟩ := hd
    simp only [EWorld.setInc] at hv ⊢
    rw [hr2.backup] at hv
    by_contra hnone
    have hnone : AL.get d q2.counts = none := by
      cases hx : AL.get d q2.counts with
      | none => rfl
      | some x => exact absurd ⟨x, hx⟩ hnone
    split at hv
    · simp at hv
    · rename_i hcond
      have hd1 := hw.bk d ((AL.mem_keys_iff _ _).2 ⟨v, hv⟩)
      obtain ⟨x, hx⟩ := (AL.mem_keys_iff _ _).1 hd1
      have := hr2.counts hw.winv d
      rw [hnone] at this
      by_cases hb : d ∈ AL.keys (w.B b).lookup
      · exact hcond ⟨hb, hnone⟩
      · simp only [EWorld.toWorld, hb, if_false] at this
        rw [hx] at this; simp at this
  · intro hmem
    have ho := hr2.ordering
    simp only [EWorld.setInc] at ho hmem ⊢
    rw [ho] at hmem ⊢
    exact getLast_filter_of_mem _ _ (hw.last (List.mem_of_mem_filter hmem)) hmem

/-- Histories covered by the estimator theorems: every batch offered to `addBatch` is acceptable to the
incremental problem (its `add` does not throw), and calls on a batch directly are as in `IOp.Regular`. -/
def EOp.Regular (op : EOp V F M) (w : EWorld V F M) : Prop :=
  match op with
  | .addBatch (some b) _ _ _ => (w.est.inc.add w.B (some b)).isOk = true
  | .batch b bop => (IOp.batch b bop).Regular w.toWorld (bop.step (w.B b, w.heap)).isOk
  | _ => True

theorem addable_of_isOk {w : World V} (hw : WInv w) {b : BatchId} (h : (w.inc.add w.B (some b)).isOk = true) :
    Addable w.B w.inc (w.B b) := by
  by_contra hn
  obtain ⟨e, q', he, -⟩ := add_not_ok hw hn
  rw [he] at h; simp [Res.isOk] at h

theorem outcome_bind {σ α β : Type _} {r : Res σ α} {f : α → σ → Res σ β} {ok : Bool} {t : σ}
    (h : (r.bind f).outcome = some (ok, t)) :
    (∃ a s, r = .ok a s ∧ (f a s).outcome = some (ok, t)) ∨ (∃ e, r = .throw e t ∧ ok = false) := by
  cases r <;> simp [Res.bind, Res.outcome] at h ⊢
  · exact h
  · exact ⟨h.2, h.1⟩

theorem outcome_bind_ok {σ α β : Type _} {r : Res σ α} {f : α → β} {ok : Bool} {t : σ}
    (h : (r.bind fun a s => .ok (f a) s).outcome = some (ok, t)) : r.outcome = some (ok, t) := by
  cases r <;> simp [Res.bind, Res.outcome] at h ⊢ <;> exact h

theorem EInv.removeIdx {D : Dbl F} {m0 : M} {oracle : OptInput V → OptCall V F M} {w w' : EWorld V F M} (hw : EInv w)
    {ok : Bool} {i : Nat} (h : (w.removeBatchIdx D m0 oracle i).outcome = some (ok, w')) : EInv w' := by
  unfold EWorld.removeBatchIdx at h
  cases hidx : w.est.inc.problems[i]? with
  | none =>
    simp [IncProblem.removeIdx, hidx, Res.outcome, Res.mapState, Res.bind, EWorld.setInc] at h
    rw [← h.2]; exact hw
  | some b =>
    obtain ⟨q2, h2, hr⟩ := removeIdx_ok hw.winv hidx
    have h2' : w.est.inc.removeIdx w.B i = .ok () q2 := h2
    have hw2 := hw.rem hidx hr
    rw [h2'] at h
    simp only [Res.mapState, Res.bind] at h
    exact hw2.reopt (outcome_bind_ok (f := fun _ => ()) h)

theorem removeIdx_marg {D : Dbl F} {m0 : M} {oracle : OptInput V → OptCall V F M} {w w' : EWorld V F M} (hw : EInv w)
    {ok : Bool} {i : Nat} (h : (w.removeBatchIdx D m0 oracle i).outcome = some (ok, w')) :
    w'.est.margGroup = w.est.margGroup := by
  unfold EWorld.removeBatchIdx at h
  cases hidx : w.est.inc.problems[i]? with
  | none =>
    simp [IncProblem.removeIdx, hidx, Res.outcome, Res.mapState, Res.bind, EWorld.setInc] at h
    rw [← h.2]
  | some b =>
    obtain ⟨q2, h2, hr⟩ := removeIdx_ok hw.winv hidx
    have h2' : w.est.inc.removeIdx w.B i = .ok () q2 := h2
    have hw2 := hw.rem hidx hr
    rw [h2'] at h
    simp only [Res.mapState, Res.bind] at h
    exact (reoptimize_frame hw2 (outcome_bind_ok (f := fun _ => ()) h)).2.2.2.1

theorem addBatch_ok_addable {D : Dbl F} {m0 : M} {oracle : OptInput V → OptCall V F M} {buildOk force : Bool}
    {w w' : EWorld V F M} {b : Option BatchId} {r : RetVal F M} (hw : EInv w)
    (h : w.addBatch D m0 oracle buildOk b force = .ok r w') :
    ∃ b', b = some b' ∧ Addable w.B w.est.inc (w.B b') := by
  cases b with
  | none => simp [EWorld.addBatch, IncProblem.add, Res.mapState, Res.bind] at h
  | some b =>
    refine ⟨b, rfl, addable_of_isOk hw.winv ?_⟩
    unfold EWorld.addBatch at h
    change (w.est.inc.add w.B (some b)).isOk = true
    cases hadd : w.est.inc.add w.B (some b) with
    | ok a q => rfl
    | _ => rw [hadd] at h; simp [Res.mapState, Res.bind] at h

theorem EInv.step {D : Dbl F} {m0 : M} {op : EOp V F M} {w w' : EWorld V F M} {ok : Bool} (hw : EInv w)
    (hreg : op.Regular w) (h : (op.step D m0 w).outcome = some (ok, w')) : EInv w' := by
  cases op with
  | addBatch b force oracle buildOk =>
    simp only [EOp.step] at h
    have h := outcome_bind_ok (f := some) h
    cases b with
    | none =>
      simp [EWorld.addBatch, IncProblem.add, Res.mapState, Res.bind, Res.outcome, EWorld.setInc] at h
      rw [← h.2]; exact hw
    | some b =>
      have ha := addable_of_isOk hw.winv hreg
      obtain ⟨q1, -, hr, heff⟩ := addBatch_eff D m0 oracle buildOk hw.winv ha force
      exact hw.add_inv ha hr heff h
  | reoptimize oracle => exact hw.reopt (outcome_bind_ok (f := some) h)
  | removeBatchIdx i oracle =>
    exact hw.removeIdx (outcome_bind_ok (f := fun _ => none) h)
  | removeBatch b oracle =>
    have h := outcome_bind_ok (f := fun _ => none) h
    unfold EWorld.removeBatch at h
    split at h
    · exact hw.removeIdx h
    · simp [Res.outcome] at h; rw [← h.2]; exact hw
  | setOptions o =>
    simp [EOp.step, Res.outcome] at h
    rw [← h.2]
    exact ⟨hw.winv, hw.bk, hw.last, hw.log⟩
  | batch b bop =>
    have h := outcome_bind_ok (f := fun _ => none) h
    obtain ⟨s, h1, h2⟩ := outcome_mapState h
    subst h2
    have hws : WInv ({ w.toWorld with B := fun b' => if b' = b then s.1 else w.B b', heap := s.2 } : World V) := by
      apply WInv.step (op := .batch b bop) (b := ok) hw.winv
      · simp only [IOp.step]
        cases hh : bop.step (w.toWorld.B b, w.toWorld.heap) with
        | ok a t =>
          have : bop.step (w.B b, w.heap) = .ok a t := hh
          rw [this] at h1
          simp only [Res.outcome, Option.some.injEq, Prod.mk.injEq] at h1
          simp [Res.mapState, Res.outcome, h1, EWorld.toWorld]
        | throw a t =>
          have : bop.step (w.B b, w.heap) = .throw a t := hh
          rw [this] at h1
          simp only [Res.outcome, Option.some.injEq, Prod.mk.injEq] at h1
          simp [Res.mapState, Res.outcome, h1, EWorld.toWorld]
        | ub =>
          have : bop.step (w.B b, w.heap) = .ub := hh
          rw [this] at h1; simp [Res.outcome] at h1
        | diverge =>
          have : bop.step (w.B b, w.heap) = .diverge := hh
          rw [this] at h1; simp [Res.outcome] at h1
      · have hok : (bop.step (w.B b, w.heap)).isOk = ok := by
          cases hh : bop.step (w.B b, w.heap) <;> rw [hh] at h1 <;> simp [Res.outcome] at h1 <;> simp [Res.isOk, ← h1.1]
        rw [← hok]
        exact hreg
    exact ⟨hws, hw.bk, hw.last, hw.log⟩

/-- Worlds reachable from a fresh estimator by regular calls, whatever the optimizer does. -/
inductive EReach (D : Dbl F) (m0 : M) (w0 : EWorld V F M) : EWorld V F M → Prop where
  | init : EReach D m0 w0 w0
  | step {w w' : EWorld V F M} {ok : Bool} (op : EOp V F M) (h : EReach D m0 w0 w) (hreg : op.Regular w)
      (hs : (op.step D m0 w).outcome = some (ok, w')) : EReach D m0 w0 w'

/-- A fresh estimator over empty batches. -/
def EWorld.fresh (D : Dbl F) (minusOne : F) (m0 : M) (g : GroupId) (o : EstOptions F) (h : Heap V) : EWorld V F M :=
  ⟨fun _ => OptProblem.empty, h, Estimator.construct D minusOne m0 g o⟩

theorem EReach.inv {D : Dbl F} {m0 : M} {mo : F} {g : GroupId} {o : EstOptions F} {h0 : Heap V} {w : EWorld V F M}
    (h : EReach D m0 (EWorld.fresh D mo m0 g o h0) w) : EInv w := by
  induction h with
  | init => exact EInv.init D mo m0 g o h0
  | step op _ hreg hs ih => exact ih.step hreg hs

end Verif
