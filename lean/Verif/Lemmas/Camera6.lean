import Verif.Lemmas.Camera5

/-! The statistics of the estimator behind a camera calibrator. -/

namespace Verif
namespace Camera
variable {V F M : Type _}

open Cam

/-- What every report of the linear solver used by the call satisfies. -/
def Op.Solver (Q : Marginal F M → Prop) : Op V F M → Prop
  | .addImage _ oracle _ => ∀ i mg, (oracle i).marginal = some mg → Q mg
  | .processBatch oracle _ => ∀ i mg, (oracle i).marginal = some mg → Q mg
  | _ => True

theorem bind_ok' {σ α β : Type _} (a : α) (s : σ) (f : α → σ → Res σ β) : (Res.ok a s).bind f = f a s := rfl

theorem orderMarginalized_stats {w w' : EWorld V F M} {ok : Bool} (h : w.orderMarginalized.outcome = some (ok, w')) :
    w'.est.stats = w.est.stats := by
  unfold EWorld.orderMarginalized at h
  simp only at h
  split at h
  · split at h
    · obtain ⟨q, -, rfl⟩ := outcome_mapState h
      rfl
    · simp only [Res.outcome, Option.some.injEq, Prod.mk.injEq] at h
      rw [← h.2]
  · simp only [Res.outcome, Option.some.injEq, Prod.mk.injEq] at h
    rw [← h.2]

theorem runOptimizer_stats {oracle : OptInput V → OptCall V F M} {w w' : EWorld V F M} {ok : Bool}
    (h : (w.runOptimizer oracle).outcome = some (ok, w')) : w'.est.stats = w.est.stats := by
  unfold EWorld.runOptimizer at h
  split at h
  · split at h
    · simp only at h
      split at h <;> (simp only [Res.outcome, Option.some.injEq, Prod.mk.injEq] at h; rw [← h.2])
    all_goals simp only [Res.outcome, Option.some.injEq, Prod.mk.injEq, reduceCtorEq] at h
    rw [← h.2]
  all_goals simp only [Res.outcome, Option.some.injEq, Prod.mk.injEq, reduceCtorEq] at h
  rw [← h.2]

theorem runOptimizer_marginal {oracle : OptInput V → OptCall V F M} {w w' : EWorld V F M} {r : Srv F × Scaled M × Option (Marginal F M)}
    (h : w.runOptimizer oracle = .ok r w') : ∃ i, (oracle i).marginal = r.2.2 := by
  unfold EWorld.runOptimizer at h
  split at h
  · split at h
    · simp only at h
      split at h
      · simp only [Res.ok.injEq] at h
        exact ⟨_, by rw [← h.1]⟩
      · cases h
    all_goals cases h
  all_goals cases h

theorem restoreLinearSolver_stats {buildOk : Bool} {w w' : EWorld V F M} {ok : Bool}
    (h : (w.restoreLinearSolver buildOk).outcome = some (ok, w')) : w'.est.stats = w.est.stats := by
  unfold EWorld.restoreLinearSolver at h
  split at h
  · split at h
    · simp only at h
      split at h <;> (simp only [Res.outcome, Option.some.injEq, Prod.mk.injEq] at h; rw [← h.2])
    all_goals simp only [Res.outcome, Option.some.injEq, Prod.mk.injEq, reduceCtorEq] at h
    rw [← h.2]
  all_goals simp only [Res.outcome, Option.some.injEq, Prod.mk.injEq, reduceCtorEq] at h
  rw [← h.2]

/-- A submission changes the statistics exactly if it is accepted. -/
theorem addBatch_stats {D : Dbl F} {m0 : M} {oracle : OptInput V → OptCall V F M} {buildOk force : Bool}
    {w : EWorld V F M} {b : Option BatchId} :
    (∀ e w', w.addBatch D m0 oracle buildOk b force = .throw e w' → w'.est.stats = w.est.stats) ∧
    (∀ r w', w.addBatch D m0 oracle buildOk b force = .ok r w' →
      (r.batchAccepted = false → w'.est.stats = w.est.stats) ∧
      (r.batchAccepted = true → ∃ i, (oracle i).marginal = some w'.est.stats.marginal)) := by
  have key : ∀ ok w', (w.addBatch D m0 oracle buildOk b force).outcome = some (ok, w') →
      (w'.est.stats = w.est.stats ∧ ∀ r, w.addBatch D m0 oracle buildOk b force = .ok r w' → r.batchAccepted = false) ∨
      ∃ r, w.addBatch D m0 oracle buildOk b force = .ok r w' ∧ r.batchAccepted = true ∧
        ∃ i, (oracle i).marginal = some w'.est.stats.marginal := by
    intro ok w' h
    have h0 := h
    unfold EWorld.addBatch at h
    rcases outcome_bind h with ⟨_, w1, h1, h⟩ | ⟨e, h1, he⟩
    swap
    · have h1' : (Res.mapState w.setInc (w.est.inc.add w.B b)).outcome = some (false, w') := by rw [h1]; rfl
      obtain ⟨q, -, rfl⟩ := outcome_mapState h1'
      refine Or.inl ⟨rfl, fun r hr => ?_⟩
      rw [hr] at h0; subst he; cases h0
    have k1 : w1.est.stats = w.est.stats := by
      have h1' : (Res.mapState w.setInc (w.est.inc.add w.B b)).outcome = some (true, w1) := by rw [h1]; rfl
      obtain ⟨q, -, rfl⟩ := outcome_mapState h1'
      rfl
    rcases outcome_bind h with ⟨_, w2, h2, h⟩ | ⟨e, h2, he⟩
    swap
    · refine Or.inl ⟨(orderMarginalized_stats (ok := false) (by rw [h2]; rfl)).trans k1, fun r hr => ?_⟩
      rw [hr] at h0; subst he; cases h0
    have k2 := (orderMarginalized_stats (ok := true) (w' := w2) (by rw [h2]; rfl)).trans k1
    have k3 : (if force = true then w2 else w2.setInc (w2.est.inc.saveDesignVariables w2.heap)).est.stats = w.est.stats := by
      cases force <;> exact k2
    rcases outcome_bind h with ⟨r, w4, h4, h⟩ | ⟨e, h4, he⟩
    swap
    · refine Or.inl ⟨(runOptimizer_stats (ok := false) (by rw [h4]; rfl)).trans k3, fun r hr => ?_⟩
      rw [hr] at h0; subst he; cases h0
    have k4 := (runOptimizer_stats (ok := true) (w' := w4) (by rw [h4]; rfl)).trans k3
    obtain ⟨i, hi⟩ := runOptimizer_marginal h4
    have hfull : w.addBatch D m0 oracle buildOk b force = w.addBatch D m0 oracle buildOk b force := rfl
    conv at hfull => rhs; unfold EWorld.addBatch
    simp only [h1, bind_ok', h2, h4] at hfull
    simp only at h
    split at h
    · simp only [Res.outcome, Option.some.injEq, Prod.mk.injEq] at h
      refine Or.inl ⟨by rw [← h.2]; exact k4, fun r' hr => ?_⟩
      rw [hr] at h0; rw [← h.1] at h0; cases h0
    · rename_i mg hmg
      simp only [hmg] at hfull
      split at h
      · rename_i hk
        rw [if_pos hk] at hfull
        simp only [Res.outcome, Option.some.injEq, Prod.mk.injEq] at h
        refine Or.inr ⟨_, by rw [hfull, h.2], rfl, i, ?_⟩
        rw [← h.2, hi, hmg]
      · rename_i hk
        rw [if_neg hk] at hfull
        have hrej : ∀ r', w.addBatch D m0 oracle buildOk b force = .ok r' w' → r'.batchAccepted = false := by
          intro r' hr'
          rw [hfull] at hr'
          obtain ⟨_, _, -, hr'⟩ := bind_ok_inv hr'
          obtain ⟨_, _, -, hr'⟩ := bind_ok_inv hr'
          simp only [Res.ok.injEq] at hr'
          rw [← hr'.1]
        refine Or.inl ⟨?_, hrej⟩
        rcases outcome_bind h with ⟨_, w6, h6, h⟩ | ⟨e, h6, -⟩
        swap
        · obtain ⟨q, -, rfl⟩ := outcome_mapState (b := false) (t := w') (by rw [h6]; rfl)
          exact k4
        have k6 : w6.est.stats = w.est.stats := by
          obtain ⟨q, -, rfl⟩ := outcome_mapState (b := true) (t := w6) (by rw [h6]; rfl)
          exact k4
        rcases outcome_bind h with ⟨_, w7, h7, h⟩ | ⟨e, h7, -⟩
        · simp only [Res.outcome, Option.some.injEq, Prod.mk.injEq] at h
          rw [← h.2]
          split at h7
          · exact (restoreLinearSolver_stats (ok := true) (by rw [h7]; rfl)).trans k6
          · cases h7; exact k6
        · split at h7
          · exact (restoreLinearSolver_stats (ok := false) (by rw [h7]; rfl)).trans k6
          · cases h7
  constructor
  · intro e w' h
    rcases key false w' (by rw [h]; rfl) with ⟨h1, -⟩ | ⟨r, h1, -⟩
    · exact h1
    · rw [h] at h1; cases h1
  · intro r w' h
    rcases key true w' (by rw [h]; rfl) with ⟨h1, h2⟩ | ⟨r', h1, h2, h3⟩
    · exact ⟨fun _ => h1, fun ha => by rw [h2 r h] at ha; cases ha⟩
    · rw [h] at h1
      cases h1
      exact ⟨fun ha => absurd (h2.symm.trans ha) (by decide), fun _ => h3⟩

/-- The statistics: those of construction before the first accepted submission, a report of the solver afterwards. -/
structure StatInv (S : Setup V F M) (Q : Marginal F M → Prop) (s : Cam V F M) : Prop where
  yes : (∃ x ∈ s.subs, x.accepted = true) → Q s.w.est.stats.marginal
  no : (∀ x ∈ s.subs, x.accepted = false) → s.w.est.stats = S.start.w.est.stats

theorem StatInv.congr {S : Setup V F M} {Q : Marginal F M → Prop} {s s' : Cam V F M} (h : StatInv S Q s) (h1 : s'.subs = s.subs)
    (h2 : s'.w.est.stats = s.w.est.stats) : StatInv S Q s' :=
  ⟨by rw [h1, h2]; exact h.yes, by rw [h1, h2]; exact h.no⟩

theorem StatInv.process {S : Setup V F M} {Q : Marginal F M → Prop} {s s' : Cam V F M} {oracle : OptInput V → OptCall V F M}
    {buildOk ok : Bool} (h : StatInv S Q s) (hs : Base s) (hc : Cur s) (hQ : ∀ i mg, (oracle i).marginal = some mg → Q mg)
    (ho : (s.processBatch S.D S.m0 oracle buildOk).outcome = some (ok, s')) : StatInv S Q s' := by
  obtain ⟨-, -, -, -, -, -, ⟨-, rfl, -⟩ | ⟨b, hb, ⟨e, w', ha, rfl, -⟩ | ⟨r, w', ha, -, he, -, -, -, -, -, -, hsub, -⟩⟩⟩ :=
    processBatch_eff hs hc ho
  · exact h
  · exact h.congr rfl (addBatch_stats.1 e w' ha)
  · obtain ⟨k1, k2⟩ := addBatch_stats.2 r w' ha
    cases hr : r.batchAccepted with
    | false =>
      rw [hr] at hsub
      have e1 : s'.w.est.stats = s.w.est.stats := by rw [he]; exact k1 hr
      constructor
      · rintro ⟨x, hx, hxa⟩
        rw [e1]
        rw [hsub] at hx
        rcases List.mem_append.1 hx with hx | hx
        · exact h.yes ⟨x, hx, hxa⟩
        · rw [List.mem_singleton] at hx; subst hx; cases hxa
      · intro hall
        rw [e1]
        exact h.no fun x hx => hall x (by rw [hsub]; exact List.mem_append_left _ hx)
    | true =>
      rw [hr] at hsub
      obtain ⟨i, hi⟩ := k2 hr
      refine ⟨fun _ => by rw [he]; exact hQ i _ hi, fun hall => ?_⟩
      have := hall ⟨b, s.batchObs, true⟩ (by rw [hsub]; simp)
      cases this

theorem StatInv.step {S : Setup V F M} {Q : Marginal F M → Prop} {s s' : Cam V F M} {seen : List (Obs V)} {ok : Bool} {op : Op V F M}
    (hl : LInv S s seen) (h : StatInv S Q s) (hop : op.Solver Q) (ho : (op.step S.D S.m0 s).outcome = some (ok, s')) :
    StatInv S Q s' := by
  cases op with
  | initGeometry found =>
    have ho := outcome_bind_ok (f := some) ho
    unfold Cam.initGeometry at ho
    split at ho
    · simp only [Res.outcome, Option.some.injEq, Prod.mk.injEq] at ho
      rw [← ho.2]; exact h
    · split at ho <;> simp only [Res.outcome, Option.some.injEq, Prod.mk.injEq] at ho <;> rw [← ho.2] <;> exact h.congr rfl rfl
  | setNum n =>
    simp only [Op.step, Res.outcome, Option.some.injEq, Prod.mk.injEq] at ho
    rw [← ho.2]; exact h.congr rfl rfl
  | processBatch oracle buildOk =>
    exact h.process hl.base hl.cur hop (outcome_bind_ok (f := fun _ => none) ho)
  | addImage found oracle buildOk =>
    have ho := outcome_bind_ok (f := some) ho
    unfold Cam.addImage at ho
    split at ho
    · simp only [Res.outcome, Option.some.injEq, Prod.mk.injEq] at ho
      rw [← ho.2]; exact h
    · cases found with
      | none =>
        simp only [Res.outcome, Option.some.injEq, Prod.mk.injEq] at ho
        rw [← ho.2]; exact h
      | some o =>
        obtain ⟨en, s1, h1, h2, h3, -, h7, h8, h9, h10, h11, h12, h13, h14, h15, -⟩ := hl.observe o
        have hj1 : StatInv S Q ({ s1 with batchObs := s1.batchObs ++ [en] } : Cam V F M) :=
          h.congr h15 (by simp only [h9])
        simp only [h1] at ho
        obtain ⟨a, s3, e, ho⟩ | ⟨e, e', -⟩ := outcome_bind ho
        · simp only [Res.ok.injEq] at e
          obtain ⟨rfl, rfl⟩ := e
          split at ho
          · exact hj1.process h3.base h3.cur hop (outcome_bind_ok (f := fun _ => true) ho)
          · simp only [Res.outcome, Option.some.injEq, Prod.mk.injEq] at ho
            rw [← ho.2]; exact hj1
        · simp at e'

theorem StatInv.later {S : Setup V F M} (hS : S.Ok) {Q : Marginal F M → Prop} {s : Cam V F M}
    (hl : Later S.D S.m0 (fun op _ => op.Solver Q) S.start s) : StatInv S Q s := by
  have h0 : Reach S S.start [] := .init
  generalize hst : S.start = s0 at hl
  induction hl with
  | refl => subst hst; exact ⟨fun ⟨x, hx, _⟩ => by simp [Setup.start, Camera.init] at hx, fun _ => rfl⟩
  | step op hprev hop ho ih =>
    subst hst
    obtain ⟨seen, hr⟩ := h0.later hprev
    exact StatInv.step (hr.inv hS) ih hop ho

end Camera
end Verif
