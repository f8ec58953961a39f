import Verif.Lemmas.Refused2

/-! Helper lemmas for property C118 (continued): what any estimator call does to a predicate on the problem, and counts that are
too large. -/

namespace Verif
open IncProblem
variable {V F M : Type _}

/-- a predicate on the problem is carried through one estimator call: `P` before, `Q` after and at every optimizer run. -/
structure Carried (P Q : IncProblem V → Prop) (B : BatchId → OptProblem V) : Prop where
  weaken : ∀ q, P q → Q q
  add : ∀ q q' b, P q → (q.add B b).state? = some q' → Q q'
  removeP : ∀ q q' i, P q → (q.removeIdx B i).state? = some q' → P q'
  removeQ : ∀ q q' i, Q q → (q.removeIdx B i).state? = some q' → Q q'
  orderP : ∀ q o, P q → P { q with ordering := o }
  orderQ : ∀ q o, Q q → Q { q with ordering := o }
  backupQ : ∀ q bk, Q q → Q { q with backup := bk }

/-- what a call leaves alone, and what it establishes. -/
def After (Q : IncProblem V → Prop) (w w' : EWorld V F M) : Prop :=
  Q w'.est.inc ∧ w'.B = w.B ∧ w'.heap.etDVs = w.heap.etDVs ∧
    ∃ l, w'.est.calls = w.est.calls ++ l ∧ ∀ i ∈ l, Q i.inc ∧ i.B = w.B

theorem orderMarginalized_state {w w' : EWorld V F M} (h : w.orderMarginalized.state? = some w') :
    ∃ o, w' = w.setInc { w.est.inc with ordering := o } := by
  unfold EWorld.orderMarginalized at h
  simp only at h
  split at h
  · split at h
    · unfold IncProblem.setGroupsOrdering at h
      split at h
      · simp only [Res.mapState, Res.state?, Option.some.injEq] at h; exact ⟨_, h.symm⟩
      · split at h
        · simp only [Res.mapState, Res.state?, Option.some.injEq] at h; exact ⟨_, h.symm⟩
        · simp only [Res.mapState, Res.state?, Option.some.injEq] at h; exact ⟨_, h.symm⟩
    · simp only [Res.state?, Option.some.injEq] at h; exact ⟨w.est.inc.ordering, h.symm⟩
  · simp only [Res.state?, Option.some.injEq] at h; exact ⟨w.est.inc.ordering, h.symm⟩

theorem runOptimizer_after {Q : IncProblem V → Prop} {w w' : EWorld V F M} {oracle : OptInput V → OptCall V F M}
    (hQ : Q w.est.inc) (h : (w.runOptimizer oracle).state? = some w') : After Q w w' ∧ w'.est.inc = w.est.inc := by
  unfold EWorld.runOptimizer at h
  have hnil : ∀ {w'}, some w = some w' → After Q w w' ∧ w'.est.inc = w.est.inc := by
    rintro w' he
    cases he
    exact ⟨⟨hQ, rfl, rfl, [], by simp, by simp⟩, rfl⟩
  cases h1 : EWorld.sumDims w.heap w.est.inc w.est.inc.ordering 0 with
  | ok jc u =>
    rw [h1] at h; simp only at h
    cases h2 : w.est.inc.getGroupDim w.heap w.est.margGroup with
    | ok dm u =>
      rw [h2] at h; simp only at h
      have key : ∀ call : OptCall V F M, After Q w
          ({ w with
            heap := { w.heap with params := call.params }
            est := { w.est with layout := call.layout, calls := w.est.calls ++
              [⟨w.B, w.est.inc, w.heap, EWorld.usub jc dm⟩] } } : EWorld V F M) := by
        intro call
        refine ⟨hQ, rfl, rfl, [_], rfl, ?_⟩
        intro i hi
        simp only [List.mem_singleton] at hi
        subst hi
        exact ⟨hQ, rfl⟩
      split at h
      · simp only [Res.state?, Option.some.injEq] at h; subst h; exact ⟨key _, rfl⟩
      · simp only [Res.state?, Option.some.injEq] at h; subst h; exact ⟨key _, rfl⟩
    | throw e u => rw [h2] at h; exact hnil h
    | ub => rw [h2] at h; simp [Res.state?] at h
    | diverge => rw [h2] at h; simp [Res.state?] at h
  | throw e u => rw [h1] at h; exact hnil h
  | ub => rw [h1] at h; simp [Res.state?] at h
  | diverge => rw [h1] at h; simp [Res.state?] at h

theorem reoptimize_after {Q : IncProblem V → Prop} (hord : ∀ q o, Q q → Q { q with ordering := o }) {D : Dbl F} {m0 : M}
    {w w' : EWorld V F M} {oracle : OptInput V → OptCall V F M} (hQ : Q w.est.inc)
    (h : (w.reoptimize D m0 oracle).state? = some w') : After Q w w' := by
  unfold EWorld.reoptimize at h
  rcases state?_bind h with ⟨u, w1, h1, h2⟩ | ⟨e, h1⟩
  · obtain ⟨o, rfl⟩ := orderMarginalized_state (by rw [h1]; rfl : Res.state? _ = some w1)
    have hQ1 : Q (w.setInc { w.est.inc with ordering := o }).est.inc := hord _ _ hQ
    rcases state?_bind h2 with ⟨r, w2, h3, h4⟩ | ⟨e, h3⟩
    · obtain ⟨⟨a1, a2, a3, l, a4, a5⟩, -⟩ := runOptimizer_after hQ1 (by rw [h3]; rfl : Res.state? _ = some w2)
      simp only at h4
      split at h4
      · simp only [Res.state?, Option.some.injEq] at h4; subst h4; exact ⟨a1, a2, a3, l, a4, a5⟩
      · simp only [Res.state?, Option.some.injEq] at h4; subst h4; exact ⟨a1, a2, a3, l, a4, a5⟩
    · exact (runOptimizer_after hQ1 (by rw [h3]; rfl : Res.state? _ = some w')).1
  · obtain ⟨o, rfl⟩ := orderMarginalized_state (by rw [h1]; rfl : Res.state? _ = some w')
    exact ⟨hord _ _ hQ, rfl, rfl, [], by simp [EWorld.setInc], by simp⟩

theorem restoreLinearSolver_state {w w' : EWorld V F M} {ok : Bool} (h : (w.restoreLinearSolver ok).state? = some w') :
    ∃ L, w' = { w with est := { w.est with layout := L } } := by
  unfold EWorld.restoreLinearSolver at h
  split at h
  · split at h
    · simp only at h
      split at h
      · simp only [Res.state?, Option.some.injEq] at h; exact ⟨_, h.symm⟩
      · simp only [Res.state?, Option.some.injEq] at h; exact ⟨_, h.symm⟩
    · simp only [Res.state?, Option.some.injEq] at h; exact ⟨w.est.layout, h.symm⟩
    · simp [Res.state?] at h
    · simp [Res.state?] at h
  · simp only [Res.state?, Option.some.injEq] at h; exact ⟨w.est.layout, h.symm⟩
  · simp [Res.state?] at h
  · simp [Res.state?] at h

theorem removeOpt_state {P : IncProblem V → Prop} {B : BatchId → OptProblem V}
    (hr : ∀ q q' i, P q → (q.removeIdx B i).state? = some q' → P q') {q q' : IncProblem V} {b : Option BatchId} (h0 : P q)
    (h : (q.remove B b).state? = some q') : P q' := by
  unfold IncProblem.remove at h
  cases b with
  | none => simp only [Res.state?, Option.some.injEq] at h; rw [← h]; exact h0
  | some b =>
    simp only at h
    cases hf : q.findProblem b with
    | none => rw [hf] at h; simp only [Res.state?, Option.some.injEq] at h; rw [← h]; exact h0
    | some i => rw [hf] at h; exact hr _ _ _ h0 h

theorem state?_mapState {σ τ α : Type _} {r : Res σ α} {f : σ → τ} {t : τ} (h : (r.mapState f).state? = some t) :
    ∃ s, r.state? = some s ∧ t = f s := by
  cases r <;> simp [Res.mapState, Res.state?] at h
  · exact ⟨_, rfl, h.symm⟩
  · exact ⟨_, rfl, h.symm⟩

theorem addBatch_after {P Q : IncProblem V → Prop} {D : Dbl F} {m0 : M} {w w' : EWorld V F M} (hc : Carried P Q w.B)
    {oracle : OptInput V → OptCall V F M} {buildOk force : Bool} {b : Option BatchId} (hP : P w.est.inc)
    (h : (w.addBatch D m0 oracle buildOk b force).state? = some w') : After Q w w' := by
  unfold EWorld.addBatch at h
  rcases state?_bind h with ⟨u, w1, h1, h2⟩ | ⟨e, h1⟩
  · obtain ⟨q1, hq1, rfl⟩ := state?_mapState (by rw [h1]; rfl : Res.state? _ = some w1)
    have hQ1 : Q q1 := hc.add _ _ b hP hq1
    rcases state?_bind h2 with ⟨u2, w2, h3, h4⟩ | ⟨e, h3⟩
    · obtain ⟨o, rfl⟩ := orderMarginalized_state (by rw [h3]; rfl : Res.state? _ = some w2)
      have hQ2 : Q ((w.setInc q1).setInc { (w.setInc q1).est.inc with ordering := o }).est.inc := hc.orderQ _ _ hQ1
      generalize hw2 : (w.setInc q1).setInc { (w.setInc q1).est.inc with ordering := o } = w2 at h4 hQ2
      have hw2B : w2.B = w.B ∧ w2.heap = w.heap ∧ w2.est.calls = w.est.calls := by
        rw [← hw2]; exact ⟨rfl, rfl, rfl⟩
      have hQ3 : Q (if force then w2 else w2.setInc (w2.est.inc.saveDesignVariables w2.heap)).est.inc := by
        split
        · exact hQ2
        · exact hc.backupQ _ _ hQ2
      have hw3B : (if force then w2 else w2.setInc (w2.est.inc.saveDesignVariables w2.heap)).B = w.B ∧
          (if force then w2 else w2.setInc (w2.est.inc.saveDesignVariables w2.heap)).heap = w.heap ∧
          (if force then w2 else w2.setInc (w2.est.inc.saveDesignVariables w2.heap)).est.calls = w.est.calls := by
        split <;> exact hw2B
      generalize (if force then w2 else w2.setInc (w2.est.inc.saveDesignVariables w2.heap)) = w3 at h4 hQ3 hw3B
      have lift : ∀ {w4 : EWorld V F M}, After Q w3 w4 → After Q w w4 := by
        rintro w4 ⟨a1, a2, a3, l, a4, a5⟩
        refine ⟨a1, a2.trans hw3B.1, a3.trans (by rw [hw3B.2.1]), l, by rw [a4, hw3B.2.2], ?_⟩
        intro i hi
        exact ⟨(a5 i hi).1, (a5 i hi).2.trans hw3B.1⟩
      rcases state?_bind h4 with ⟨r, w4, h5, h6⟩ | ⟨e, h5⟩
      · obtain ⟨a4, -⟩ := runOptimizer_after hQ3 (by rw [h5]; rfl : Res.state? _ = some w4)
        have a4 := lift a4
        obtain ⟨b1, b2, b3, l, b4, b5⟩ := a4
        simp only at h6
        split at h6
        · simp only [Res.state?, Option.some.injEq] at h6; subst h6; exact ⟨b1, b2, b3, l, b4, b5⟩
        · split at h6
          · simp only [Res.state?, Option.some.injEq] at h6; subst h6; exact ⟨b1, b2, b3, l, b4, b5⟩
          · have hrem : ∀ {q6}, (w4.est.inc.remove w4.B b).state? = some q6 → Q q6 := by
              intro q6 h
              exact removeOpt_state (fun q q' i => by rw [b2]; exact hc.removeQ q q' i) b1 h
            have he : (w4.est.inc.restoreDesignVariables w4.heap).etDVs = w.heap.etDVs :=
              (restoreLoop_rest _ _).2.2.1.trans b3
            rcases state?_bind h6 with ⟨u6, w6, h7, h8⟩ | ⟨e, h7⟩
            · obtain ⟨q6, hq6, rfl⟩ := state?_mapState (by rw [h7]; rfl : Res.state? _ = some w6)
              have hQ6 := hrem hq6
              rcases state?_bind h8 with ⟨u7, w7, h9, h10⟩ | ⟨e, h9⟩
              · simp only [Res.state?, Option.some.injEq] at h10
                subst h10
                split at h9
                · obtain ⟨L, rfl⟩ := restoreLinearSolver_state (by rw [h9]; rfl : Res.state? _ = some w7)
                  exact ⟨hQ6, b2, he, l, b4, b5⟩
                · simp only [Res.ok.injEq, true_and] at h9
                  subst h9
                  exact ⟨hQ6, b2, he, l, b4, b5⟩
              · split at h9
                · obtain ⟨L, rfl⟩ := restoreLinearSolver_state (by rw [h9]; rfl : Res.state? _ = some w')
                  exact ⟨hQ6, b2, he, l, b4, b5⟩
                · simp at h9
            · obtain ⟨q6, hq6, rfl⟩ := state?_mapState (by rw [h7]; rfl : Res.state? _ = some w')
              exact ⟨hrem hq6, b2, he, l, b4, b5⟩
      · exact lift (runOptimizer_after hQ3 (by rw [h5]; rfl : Res.state? _ = some w')).1
    · obtain ⟨o, rfl⟩ := orderMarginalized_state (by rw [h3]; rfl : Res.state? _ = some w')
      exact ⟨hc.orderQ _ _ hQ1, rfl, rfl, [], by simp [EWorld.setInc], by simp⟩
  · obtain ⟨q1, hq1, rfl⟩ := state?_mapState (by rw [h1]; rfl : Res.state? _ = some w')
    exact ⟨hc.add _ _ b hP hq1, rfl, rfl, [], by simp [EWorld.setInc], by simp⟩

theorem removeBatchIdx_after {P Q : IncProblem V → Prop} {D : Dbl F} {m0 : M} {w w' : EWorld V F M} (hc : Carried P Q w.B)
    {oracle : OptInput V → OptCall V F M} {i : Nat} (hP : P w.est.inc)
    (h : (w.removeBatchIdx D m0 oracle i).state? = some w') : After Q w w' := by
  unfold EWorld.removeBatchIdx at h
  rcases state?_bind h with ⟨u, w1, h1, h2⟩ | ⟨e, h1⟩
  · obtain ⟨q1, hq1, rfl⟩ := state?_mapState (by rw [h1]; rfl : Res.state? _ = some w1)
    have hQ1 : Q (w.setInc q1).est.inc := hc.weaken _ (hc.removeP _ _ i hP hq1)
    have lift : ∀ {w4 : EWorld V F M}, After Q (w.setInc q1) w4 → After Q w w4 := fun h => h
    rcases state?_bind h2 with ⟨r, w2, h3, h4⟩ | ⟨e, h3⟩
    · simp only [Res.state?, Option.some.injEq] at h4
      subst h4
      exact lift (reoptimize_after hc.orderQ hQ1 (by rw [h3]; rfl))
    · exact lift (reoptimize_after hc.orderQ hQ1 (by rw [h3]; rfl))
  · obtain ⟨q1, hq1, rfl⟩ := state?_mapState (by rw [h1]; rfl : Res.state? _ = some w')
    exact ⟨hc.weaken _ (hc.removeP _ _ i hP hq1), rfl, rfl, [], by simp [EWorld.setInc], by simp⟩

theorem state?_bind_ret {σ α β : Type _} {r : Res σ α} {f : α → β} {t : σ}
    (h : (r.bind fun a s => .ok (f a) s).state? = some t) : r.state? = some t := by
  rcases state?_bind h with ⟨a, s, h1, h2⟩ | ⟨e, h1⟩
  · simp only [Res.state?, Option.some.injEq] at h2; rw [h1, ← h2]; rfl
  · rw [h1]; rfl

/-- one call that is not a call on a batch. -/
theorem estep_after {P Q : IncProblem V → Prop} {D : Dbl F} {m0 : M} {w w' : EWorld V F M} (hc : Carried P Q w.B)
    (hP : P w.est.inc) (op : EOp V F M) (hop : ∀ b bop, op ≠ .batch b bop) (hs : (op.step D m0 w).state? = some w') :
    After Q w w' := by
  have hsame : After Q w w := ⟨hc.weaken _ hP, rfl, rfl, [], by simp, by simp⟩
  cases op with
  | addBatch b force oracle buildOk => exact addBatch_after hc hP (state?_bind_ret hs)
  | reoptimize oracle => exact reoptimize_after hc.orderQ (hc.weaken _ hP) (state?_bind_ret hs)
  | removeBatchIdx i oracle => exact removeBatchIdx_after hc hP (state?_bind_ret (r := w.removeBatchIdx D m0 oracle i) (f := fun _ => none) hs)
  | removeBatch b oracle =>
    have hs := state?_bind_ret (r := w.removeBatch D m0 oracle b) (f := fun _ => none) hs
    unfold EWorld.removeBatch at hs
    split at hs
    · exact removeBatchIdx_after hc hP hs
    · simp only [Res.state?, Option.some.injEq] at hs; subst hs; exact hsame
  | setOptions o =>
    simp only [EOp.step, Res.state?, Option.some.injEq] at hs
    subst hs; exact hsame
  | batch b bop => exact absurd rfl (hop b bop)

end Verif
