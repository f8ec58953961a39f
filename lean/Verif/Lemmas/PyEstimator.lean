import Verif.Model.PyEstimator
import Verif.Lemmas.Estimator2

/-! Helper lemmas for property C119: the estimator under direct calls on its problem. -/

namespace Verif
open IncProblem
variable {V F M : Type _}

/-- what holds in every history of a Python program. -/
structure PInv (w : EWorld V F M) : Prop where
  winv : WInv w.toWorld
  log : ∀ c ∈ w.est.calls, WInv ⟨c.B, c.inc, c.heap⟩ ∧ c.inc.ordering.getLast? = some w.est.margGroup ∧
    c.margStart = margIndex ⟨c.B, c.inc, c.heap⟩ w.est.margGroup

theorem PInv.add_inv {w : EWorld V F M} (hw : PInv w) {D : Dbl F} {m0 : M} {oracle : OptInput V → OptCall V F M}
    {buildOk force : Bool} {b : BatchId} {q1 : IncProblem V} (ha : Addable w.B w.est.inc (w.B b))
    (hr : AddResult w.toWorld b q1) {r : Res (EWorld V F M) (RetVal F M)}
    (h : AddEff D m0 oracle buildOk w b force q1 r) {ok : Bool} {w' : EWorld V F M} (ho : r.outcome = some (ok, w')) :
    PInv w' ∧ w'.est.margGroup = w.est.margGroup := by
  have hlastO : w.est.margGroup ∈ q1.ordering → (optWorld w q1 force).est.inc.ordering.getLast? = some w.est.margGroup := by
    intro hm; rw [(optWorld_inc w q1 force).2.2.2]; exact margLast_last hm
  have hmgO : ∀ f, (optWorld w q1 f).est.margGroup = w.est.margGroup := optWorld_marg w q1
  have hlogO : w.est.margGroup ∈ q1.ordering → ∀ c ∈ w.est.calls ++ [optInput (optWorld w q1 force)], WInv ⟨c.B, c.inc, c.heap⟩ ∧
      c.inc.ordering.getLast? = some w.est.margGroup ∧ c.margStart = margIndex ⟨c.B, c.inc, c.heap⟩ w.est.margGroup :=
    fun hm => log_append hw.log (optWorld_winv hw.winv ha hr hm force) (hlastO hm) (hmgO force)
  have hparams : ∀ (hm : w.est.margGroup ∈ q1.ordering) (h' : Heap V), h'.etDVs = w.heap.etDVs →
      WInv (⟨w.B, (optWorld w q1 force).est.inc, h'⟩ : World V) := by
    intro hm h' he
    have := (optWorld_winv hw.winv ha hr hm force).heapParams (h' := h') (by
      simp only [EWorld.toWorld, optWorld_heap]; exact he)
    simp only [EWorld.toWorld, optWorld_B] at this
    exact this
  cases h with
  | noMarg hm =>
    simp only [Res.outcome, Option.some.injEq, Prod.mk.injEq] at ho
    obtain ⟨-, rfl⟩ := ho
    exact ⟨⟨hr.inv hw.winv ha, hw.log⟩, rfl⟩
  | optThrows call hc hm ht =>
    simp only [Res.outcome, Option.some.injEq, Prod.mk.injEq] at ho
    obtain ⟨-, rfl⟩ := ho
    have e : (afterOpt (optWorld w q1 force) call).est.calls = w.est.calls ++ [optInput (optWorld w q1 force)] := by
      cases force <;> rfl
    refine ⟨⟨?_, ?_⟩, by simp only [afterOpt, hmgO]⟩
    · have := hparams hm (afterOpt (optWorld w q1 force) call).heap (by simp only [afterOpt, optWorld_heap])
      simp only [EWorld.toWorld, afterOpt, optWorld_B] at this ⊢; exact this
    · rw [e]; simp only [afterOpt, hmgO]; exact hlogO hm
  | kept call srv sc mg gain hc hm h1 h2 hg hk =>
    simp only [Res.outcome, Option.some.injEq, Prod.mk.injEq] at ho
    obtain ⟨-, rfl⟩ := ho
    exact ⟨⟨hparams hm _ rfl, hlogO hm⟩, rfl⟩
  | rejected call srv sc mg gain idx h5 q2 L hc hm h1 h2 hg hk hh hi hq2 hr2 hL r hres =>
    have hw5 := hparams hm h5 (by rw [hh]; exact (restoreLoop_rest _ _).2.2.1)
    have hidx : (optWorld w q1 force).est.inc.problems[idx]? = some b := by
      rw [(optWorld_inc w q1 force).1]; exact (findIdx_some hi).1
    have hw' : w' = ⟨w.B, h5, { w.est with
        inc := q2
        layout := L
        calls := w.est.calls ++ [optInput (optWorld w q1 force)] }⟩ := by
      rw [hres] at ho
      simp only at ho
      split at ho <;> simp only [Res.outcome, Option.some.injEq, Prod.mk.injEq] at ho <;> exact ho.2.symm
    subst hw'
    exact ⟨⟨hr2.inv hw5 hidx, hlogO hm⟩, rfl⟩

theorem PInv.reopt {D : Dbl F} {m0 : M} {oracle : OptInput V → OptCall V F M} {w : EWorld V F M} (hw : PInv w)
    {ok : Bool} {w' : EWorld V F M} (ho : (w.reoptimize D m0 oracle).outcome = some (ok, w')) :
    PInv w' ∧ w'.est.margGroup = w.est.margGroup := by
  unfold EWorld.reoptimize at ho
  rw [orderMarginalized_eq hw.winv] at ho
  by_cases hm : w.est.margGroup ∈ w.est.inc.ordering
  · rw [if_pos hm] at ho
    simp only [Res.bind] at ho
    have hw1 : WInv (w.setInc { w.est.inc with ordering := margLast w.est.margGroup w.est.inc.ordering }).toWorld :=
      hw.winv.setOrd (margLast_perm hm)
    have hlast : (margLast w.est.margGroup w.est.inc.ordering).getLast? = some w.est.margGroup := margLast_last hm
    have hm1 : w.est.margGroup ∈ margLast w.est.margGroup w.est.inc.ordering := (margLast_perm hm).mem_iff.2 hm
    generalize he : w.setInc { w.est.inc with ordering := margLast w.est.margGroup w.est.inc.ordering } = w1 at ho hw1
    have e1 : w1.est.margGroup = w.est.margGroup := by rw [← he]; rfl
    have e2 : w1.est.calls = w.est.calls := by rw [← he]; rfl
    have e3 : w1.est.inc.ordering = margLast w.est.margGroup w.est.inc.ordering := by rw [← he]; rfl
    rw [runOptimizer_eq hw1 (by rw [e1, e3]; exact hm1)] at ho
    have hlog : ∀ c ∈ w1.est.calls ++ [optInput w1], WInv ⟨c.B, c.inc, c.heap⟩ ∧
        c.inc.ordering.getLast? = some w1.est.margGroup ∧ c.margStart = margIndex ⟨c.B, c.inc, c.heap⟩ w1.est.margGroup :=
      log_append (by rw [e2, e1]; exact hw.log) hw1 (by rw [e1, e3]; exact hlast) rfl
    have hwin : ∀ call : OptCall V F M, WInv (afterOpt w1 call).toWorld := fun call =>
      hw1.heapParams (h' := { w1.heap with params := call.params }) rfl
    generalize oracle (optInput w1) = call at ho
    rcases hrep : call.report with _ | ⟨srv, sc⟩
    · rw [hrep] at ho
      simp only [Res.bind, Res.outcome, Option.some.injEq, Prod.mk.injEq] at ho
      obtain ⟨-, rfl⟩ := ho
      exact ⟨⟨hwin call, hlog⟩, e1⟩
    · rw [hrep] at ho
      simp only at ho
      rcases hmg : call.marginal with _ | mg
      · simp only [hmg, Res.bind, Res.outcome, Option.some.injEq, Prod.mk.injEq] at ho
        obtain ⟨-, rfl⟩ := ho
        exact ⟨⟨hwin call, hlog⟩, e1⟩
      · simp only [hmg, Res.bind, Res.outcome, Option.some.injEq, Prod.mk.injEq] at ho
        obtain ⟨-, rfl⟩ := ho
        exact ⟨⟨hwin call, hlog⟩, e1⟩
  · rw [if_neg hm] at ho
    simp only [Res.bind, Res.outcome, Option.some.injEq, Prod.mk.injEq] at ho
    obtain ⟨-, rfl⟩ := ho
    exact ⟨hw, rfl⟩

theorem PInv.removeIdx {D : Dbl F} {m0 : M} {oracle : OptInput V → OptCall V F M} {w w' : EWorld V F M} (hw : PInv w)
    {ok : Bool} {i : Nat} (h : (w.removeBatchIdx D m0 oracle i).outcome = some (ok, w')) :
    PInv w' ∧ w'.est.margGroup = w.est.margGroup := by
  unfold EWorld.removeBatchIdx at h
  cases hidx : w.est.inc.problems[i]? with
  | none =>
    simp [IncProblem.removeIdx, hidx, Res.outcome, Res.mapState, Res.bind, EWorld.setInc] at h
    rw [← h.2]; exact ⟨hw, rfl⟩
  | some b =>
    obtain ⟨q2, h2, hr⟩ := removeIdx_ok hw.winv hidx
    have h2' : w.est.inc.removeIdx w.B i = .ok () q2 := h2
    have hw2 : PInv (w.setInc q2) := ⟨hr.inv hw.winv hidx, hw.log⟩
    rw [h2'] at h
    simp only [Res.mapState, Res.bind] at h
    exact hw2.reopt (outcome_bind_ok (f := fun _ => ()) h)

/-- regular calls: batches offered are acceptable; calls on a batch as in `EOp.Regular`. -/
def PyOp.Regular (op : PyOp V F M) (w : EWorld V F M) : Prop :=
  match op with
  | .est op => op.Regular w
  | .problemAdd (some b) => (w.est.inc.add w.B (some b)).isOk = true
  | _ => True

theorem PInv.step {D : Dbl F} {m0 : M} {op : PyOp V F M} {w w' : EWorld V F M} {ok : Bool} (hw : PInv w)
    (hreg : op.Regular w) (h : (op.step D m0 w).outcome = some (ok, w')) :
    PInv w' ∧ w'.est.margGroup = w.est.margGroup := by
  cases op with
  | problemAdd b =>
    have h := outcome_bind_ok (f := fun _ => none) h
    obtain ⟨q, h1, rfl⟩ := outcome_mapState h
    cases b with
    | none => simp [IncProblem.add, Res.outcome] at h1; rw [← h1.2]; exact ⟨hw, rfl⟩
    | some b =>
      have ha := addable_of_isOk hw.winv hreg
      obtain ⟨q1, h2, hr⟩ := add_ok hw.winv ha
      have h2' : w.est.inc.add w.B (some b) = .ok () q1 := h2
      rw [h2'] at h1
      simp only [Res.outcome, Option.some.injEq, Prod.mk.injEq] at h1
      rw [← h1.2]
      exact ⟨⟨hr.inv hw.winv ha, hw.log⟩, rfl⟩
  | problemRemove i =>
    have h := outcome_bind_ok (f := fun _ => none) h
    obtain ⟨q, h1, rfl⟩ := outcome_mapState h
    cases hidx : w.est.inc.problems[i]? with
    | none => simp [IncProblem.removeIdx, hidx, Res.outcome] at h1; rw [← h1.2]; exact ⟨hw, rfl⟩
    | some b =>
      obtain ⟨q2, h2, hr⟩ := removeIdx_ok hw.winv hidx
      have h2' : w.est.inc.removeIdx w.B i = .ok () q2 := h2
      rw [h2'] at h1
      simp only [Res.outcome, Option.some.injEq, Prod.mk.injEq] at h1
      rw [← h1.2]
      exact ⟨⟨hr.inv hw.winv hidx, hw.log⟩, rfl⟩
  | problemClear =>
    simp only [PyOp.step, Res.outcome, Option.some.injEq, Prod.mk.injEq] at h
    obtain ⟨-, rfl⟩ := h
    refine ⟨⟨?_, hw.log⟩, rfl⟩
    exact WInv.step (op := .clear) (b := true) (w := w.toWorld) hw.winv rfl trivial
  | est op =>
    simp only [PyOp.step] at h
    cases op with
    | addBatch b force oracle buildOk =>
      have h := outcome_bind_ok (f := some) h
      cases b with
      | none =>
        simp [EWorld.addBatch, IncProblem.add, Res.mapState, Res.bind, Res.outcome, EWorld.setInc] at h
        rw [← h.2]; exact ⟨hw, rfl⟩
      | some b =>
        have ha := addable_of_isOk hw.winv hreg
        obtain ⟨q1, -, hr, heff⟩ := addBatch_eff D m0 oracle buildOk hw.winv ha force
        exact hw.add_inv ha hr heff h
    | reoptimize oracle => exact hw.reopt (outcome_bind_ok (f := some) h)
    | removeBatchIdx i oracle => exact hw.removeIdx (outcome_bind_ok (f := fun _ => none) h)
    | removeBatch b oracle =>
      have h := outcome_bind_ok (f := fun _ => none) h
      unfold EWorld.removeBatch at h
      split at h
      · exact hw.removeIdx h
      · simp [Res.outcome] at h; rw [← h.2]; exact ⟨hw, rfl⟩
    | setOptions o =>
      simp [EOp.step, Res.outcome] at h
      rw [← h.2]
      exact ⟨⟨hw.winv, hw.log⟩, rfl⟩
    | batch b bop =>
      have h := outcome_bind_ok (f := fun _ => none) h
      obtain ⟨s, h1, h2⟩ := outcome_mapState h
      subst h2
      have hok : (bop.step (w.B b, w.heap)).isOk = ok := by
        cases hh : bop.step (w.B b, w.heap) <;> rw [hh] at h1 <;> simp [Res.outcome] at h1 <;> simp [Res.isOk, ← h1.1]
      refine ⟨⟨?_, hw.log⟩, rfl⟩
      refine WInv.step (op := .batch b bop) (b := ok) (w := w.toWorld) hw.winv ?_ (by rw [← hok]; exact hreg)
      simp only [IOp.step]
      cases hh : bop.step (w.B b, w.heap) with
      | ok a t =>
        rw [hh] at h1
        simp only [Res.outcome, Option.some.injEq, Prod.mk.injEq] at h1
        have : bop.step (w.toWorld.B b, w.toWorld.heap) = .ok a t := hh
        rw [this]; simp [Res.mapState, Res.outcome, h1, EWorld.toWorld]
      | throw a t =>
        rw [hh] at h1
        simp only [Res.outcome, Option.some.injEq, Prod.mk.injEq] at h1
        have : bop.step (w.toWorld.B b, w.toWorld.heap) = .throw a t := hh
        rw [this]; simp [Res.mapState, Res.outcome, h1, EWorld.toWorld]
      | ub => rw [hh] at h1; simp [Res.outcome] at h1
      | diverge => rw [hh] at h1; simp [Res.outcome] at h1

end Verif
