import Verif.Lemmas.Inc

/-! Facts about the incremental problem that hold in every state whatsoever. -/

namespace Verif
variable {V : Type _}
open IncProblem

theorem findIdx_some {ps : List BatchId} {b : BatchId} {i : Nat} (h : ps.findIdx? (· == b) = some i) :
    ps[i]? = some b ∧ ∀ j < i, ps[j]? ≠ some b := by
  rw [List.findIdx?_eq_some_iff_getElem] at h
  obtain ⟨h1, h2, h3⟩ := h
  refine ⟨by rw [List.getElem?_eq_getElem h1]; simpa using h2, ?_⟩
  intro j hj hh
  obtain ⟨h4, h5⟩ := List.getElem?_eq_some_iff.1 hh
  exact h3 j hj (by simpa using h5)

theorem findIdx_none {ps : List BatchId} {b : BatchId} (h : ps.findIdx? (· == b) = none) : b ∉ ps := by
  rw [List.findIdx?_eq_none_iff] at h
  intro hb
  simpa using h b hb

theorem outcome_mapState {σ τ α : Type _} {r : Res σ α} {f : σ → τ} {b : Bool} {t : τ}
    (h : (r.mapState f).outcome = some (b, t)) : ∃ s, r.outcome = some (b, s) ∧ t = f s := by
  cases r <;> simp [Res.mapState, Res.outcome] at h
  · exact ⟨_, by simp [Res.outcome, h.1], h.2.symm⟩
  · exact ⟨_, by simp [Res.outcome, h.1], h.2.symm⟩

/-! ### what a failing `add` can never touch -/

theorem addOne_rest (q : IncProblem V) (d : DVId) (g : GroupId) {q' : IncProblem V}
    (h : (q.addOne d g).state? = some q') : q'.problems = q.problems ∧ q'.backup = q.backup := by
  unfold IncProblem.addOne at h
  by_cases hg : q.isGroupInProblem g = true
  · simp only [hg, if_true] at h
    cases hc : AL.get d q.counts with
    | none => rw [hc] at h; simp [Res.state?] at h; rw [← h]; exact ⟨rfl, rfl⟩
    | some x =>
      rw [hc] at h
      by_cases hne : x.2 = g
      · simp [Res.state?, hne] at h; rw [← h]; exact ⟨rfl, rfl⟩
      · simp [Res.state?, hne] at h; rw [← h]; exact ⟨rfl, rfl⟩
  · simp only [hg, if_false, Bool.false_eq_true] at h
    cases hc : AL.get d q.counts with
    | none => rw [hc] at h; simp [Res.state?] at h; rw [← h]; exact ⟨rfl, rfl⟩
    | some x =>
      rw [hc] at h
      by_cases hne : x.2 = g
      · simp [Res.state?, hne] at h; rw [← h]; exact ⟨rfl, rfl⟩
      · simp [Res.state?, hne] at h; rw [← h]; exact ⟨rfl, rfl⟩

theorem addList_rest (es : List (DVId × GroupId)) (q : IncProblem V) {q' : IncProblem V}
    (h : (addList q es).state? = some q') : q'.problems = q.problems ∧ q'.backup = q.backup := by
  induction es generalizing q with
  | nil => simp [addList, Res.state?] at h; rw [h]; exact ⟨rfl, rfl⟩
  | cons e es ih =>
    obtain ⟨d, g⟩ := e
    rw [addList] at h
    cases h1 : q.addOne d g with
    | ok a q1 =>
      rw [h1] at h
      obtain ⟨a1, a2⟩ := ih q1 h
      obtain ⟨b1, b2⟩ := addOne_rest q d g (by rw [h1]; rfl : (q.addOne d g).state? = some q1)
      exact ⟨a1.trans b1, a2.trans b2⟩
    | throw e q1 =>
      rw [h1] at h
      simp [Res.bind, Res.state?] at h
      subst h
      exact addOne_rest q d g (by rw [h1]; rfl)
    | ub => rw [h1] at h; simp [Res.bind, Res.state?] at h
    | diverge => rw [h1] at h; simp [Res.bind, Res.state?] at h


theorem addLoop_rest (p : OptProblem V) (n i : Nat) (q : IncProblem V) {q' : IncProblem V}
    (h : (addLoop p n i q).state? = some q') : q'.problems = q.problems ∧ q'.backup = q.backup := by
  induction n generalizing i q with
  | zero => simp [addLoop, Res.state?] at h; rw [h]; exact ⟨rfl, rfl⟩
  | succ n ih =>
    rw [addLoop] at h
    cases hd : p.designVariable i with
    | ok d _ =>
      rw [hd] at h; simp only at h
      cases hg : p.getGroupId d with
      | ok g _ =>
        rw [hg] at h; simp only at h
        cases h1 : q.addOne d g with
        | ok a q1 =>
          rw [h1] at h
          obtain ⟨a1, a2⟩ := ih _ q1 h
          obtain ⟨b1, b2⟩ := addOne_rest q d g (by rw [h1]; rfl : (q.addOne d g).state? = some q1)
          exact ⟨a1.trans b1, a2.trans b2⟩
        | throw e q1 =>
          rw [h1] at h
          simp [Res.bind, Res.state?] at h
          subst h
          exact addOne_rest q d g (by rw [h1]; rfl)
        | ub => rw [h1] at h; simp [Res.bind, Res.state?] at h
        | diverge => rw [h1] at h; simp [Res.bind, Res.state?] at h
      | throw e _ => rw [hg] at h; simp [Res.state?] at h; rw [h]; exact ⟨rfl, rfl⟩
      | ub => rw [hg] at h; simp [Res.state?] at h
      | diverge => rw [hg] at h; simp [Res.state?] at h
    | throw e _ => rw [hd] at h; simp [Res.state?] at h; rw [h]; exact ⟨rfl, rfl⟩
    | ub => rw [hd] at h; simp [Res.state?] at h
    | diverge => rw [hd] at h; simp [Res.state?] at h

theorem addErrorLoop_rest (B : BatchId → OptProblem V) (p : OptProblem V) (n i : Nat) (q : IncProblem V) {q' : IncProblem V}
    (h : (addErrorLoop B p n i q).state? = some q') : q' = q := by
  induction n generalizing i with
  | zero => simp [addErrorLoop, Res.state?] at h; rw [h]
  | succ n ih =>
    rw [addErrorLoop] at h
    cases he : p.errorTerm i with
    | ok e _ =>
      rw [he] at h; simp only at h
      split at h
      · simp [Res.state?] at h; rw [h]
      · exact ih _ h
    | throw e _ => rw [he] at h; simp [Res.state?] at h; rw [h]
    | ub => rw [he] at h; simp [Res.state?] at h
    | diverge => rw [he] at h; simp [Res.state?] at h

/-- What `add` does to the list of batches and the backup, in any state. -/
theorem add_any (B : BatchId → OptProblem V) (q : IncProblem V) (b : BatchId) {ok : Bool} {q' : IncProblem V}
    (h : (q.add B (some b)).outcome = some (ok, q')) :
    q'.problems = (if ok then q.problems ++ [b] else q.problems) ∧ q'.backup = q.backup := by
  simp only [IncProblem.add] at h
  cases h1 : addLoop (B b) (B b).numDesignVariables 0 q with
  | ok a q1 =>
    obtain ⟨r1, r2⟩ := addLoop_rest (B b) _ 0 q (by rw [h1]; rfl : Res.state? _ = some q1)
    rw [h1] at h; simp only [Res.bind] at h
    cases h2 : addErrorLoop B (B b) (B b).numErrorTerms 0 q1 with
    | ok a q2 =>
      have := addErrorLoop_rest B (B b) _ 0 q1 (by rw [h2]; rfl : Res.state? _ = some q2)
      subst this
      rw [h2] at h
      simp only at h
      split at h
      · simp [Res.outcome] at h; obtain ⟨rfl, rfl⟩ := h; simp [r1, r2]
      · simp [Res.outcome] at h; obtain ⟨rfl, rfl⟩ := h; simp [r1, r2]
    | throw e q2 =>
      have := addErrorLoop_rest B (B b) _ 0 q1 (by rw [h2]; rfl : Res.state? _ = some q2)
      subst this
      rw [h2] at h; simp [Res.outcome] at h
      obtain ⟨rfl, rfl⟩ := h; simp [r1, r2]
    | ub => rw [h2] at h; simp [Res.outcome] at h
    | diverge => rw [h2] at h; simp [Res.outcome] at h
  | throw e q1 =>
    obtain ⟨r1, r2⟩ := addLoop_rest (B b) _ 0 q (by rw [h1]; rfl : Res.state? _ = some q1)
    rw [h1] at h; simp [Res.bind, Res.outcome] at h
    obtain ⟨rfl, rfl⟩ := h; simp [r1, r2]
  | ub => rw [h1] at h; simp [Res.bind, Res.outcome] at h
  | diverge => rw [h1] at h; simp [Res.bind, Res.outcome] at h

theorem removeOne_rest (q : IncProblem V) (d : DVId) {q' : IncProblem V} (h : (q.removeOne d).state? = some q') :
    q'.problems = q.problems := by
  unfold IncProblem.removeOne at h
  simp only at h
  repeat' split at h
  all_goals (simp [Res.state?] at h; try rw [← h])

theorem removeLoop_rest (p : OptProblem V) (n i : Nat) (q : IncProblem V) {q' : IncProblem V}
    (h : (removeLoop p n i q).state? = some q') : q'.problems = q.problems := by
  induction n generalizing i q with
  | zero => simp [removeLoop, Res.state?] at h; rw [h]
  | succ n ih =>
    rw [removeLoop] at h
    cases hd : p.designVariable i with
    | ok d _ =>
      rw [hd] at h; simp only at h
      cases h1 : q.removeOne d with
      | ok a q1 =>
        rw [h1] at h
        exact (ih _ q1 h).trans (removeOne_rest q d (by rw [h1]; rfl))
      | throw e q1 =>
        rw [h1] at h
        simp [Res.bind, Res.state?] at h
        subst h
        exact removeOne_rest q d (by rw [h1]; rfl)
      | ub => rw [h1] at h; simp [Res.bind, Res.state?] at h
      | diverge => rw [h1] at h; simp [Res.bind, Res.state?] at h
    | throw e _ => rw [hd] at h; simp [Res.state?] at h; rw [h]
    | ub => rw [hd] at h; simp [Res.state?] at h
    | diverge => rw [hd] at h; simp [Res.state?] at h

theorem removeIdx_any (B : BatchId → OptProblem V) (q : IncProblem V) (i : Nat) {ok : Bool} {q' : IncProblem V}
    (h : (q.removeIdx B i).outcome = some (ok, q')) :
    q'.problems = (if ok then q.problems.eraseIdx i else q.problems) ∧ (ok = true → i < q.problems.length) := by
  simp only [IncProblem.removeIdx] at h
  cases hidx : q.problems[i]? with
  | none => rw [hidx] at h; simp [Res.outcome] at h; obtain ⟨rfl, rfl⟩ := h; simp
  | some b =>
    have hlt : i < q.problems.length := by
      by_contra hn
      rw [List.getElem?_eq_none (by omega)] at hidx; simp at hidx
    rw [hidx] at h; simp only at h
    cases h1 : removeLoop (B b) (B b).numDesignVariables 0 q with
    | ok a q1 =>
      have r1 := removeLoop_rest (B b) _ 0 q (by rw [h1]; rfl : Res.state? _ = some q1)
      rw [h1] at h; simp [Res.bind, Res.outcome] at h
      obtain ⟨rfl, rfl⟩ := h; simp [r1, hlt]
    | throw e q1 =>
      have r1 := removeLoop_rest (B b) _ 0 q (by rw [h1]; rfl : Res.state? _ = some q1)
      rw [h1] at h; simp [Res.bind, Res.outcome] at h
      obtain ⟨rfl, rfl⟩ := h; simp [r1]
    | ub => rw [h1] at h; simp [Res.bind, Res.outcome] at h
    | diverge => rw [h1] at h; simp [Res.bind, Res.outcome] at h

theorem setOrdering_any (q : IncProblem V) (o : List GroupId) {ok : Bool} {q' : IncProblem V}
    (h : (q.setGroupsOrdering o).outcome = some (ok, q')) : q'.problems = q.problems := by
  unfold IncProblem.setGroupsOrdering at h
  split at h
  · simp [Res.outcome] at h; rw [← h.2]
  · split at h
    · simp [Res.outcome] at h; rw [← h.2]
    · simp [Res.outcome] at h; rw [← h.2]

/-- What one call does to the list of batches, in any state. -/
theorem step_problems {w w' : World V} (op : IOp V) (ok : Bool) (hs : (op.step w).outcome = some (ok, w')) :
    (∀ b, op = .add (some b) → ok = true → w'.inc.problems = w.inc.problems ++ [b]) ∧
    (∀ i, op = .removeIdx i → ok = true → i < w.inc.problems.length ∧ w'.inc.problems = w.inc.problems.eraseIdx i) ∧
    (∀ b, op = .remove (some b) → ok = true → b ∈ w.inc.problems ∧ w'.inc.problems = w.inc.problems.erase b) ∧
    (op = .clear → w'.inc.problems = []) ∧
    (∀ perm, op = .permProblems perm → w'.inc.problems.Perm w.inc.problems) ∧
    (((∀ b, op ≠ .add (some b)) ∧ (∀ i, op ≠ .removeIdx i) ∧ (∀ b, op ≠ .remove (some b)) ∧ op ≠ .clear ∧
      (∀ perm, op ≠ .permProblems perm)) ∨ (ok = false ∧ ∀ perm, op ≠ .permProblems perm) →
      w'.inc.problems = w.inc.problems) := by
  cases op with
  | add b =>
    obtain ⟨q, hq, rfl⟩ := outcome_mapState hs
    cases b with
    | none => simp [IncProblem.add, Res.outcome] at hq; simp [← hq.1, ← hq.2]
    | some b =>
      have := (add_any w.B w.inc b hq).1
      cases ok <;> simp at this <;> simp [this]
  | removeIdx i =>
    obtain ⟨q, hq, rfl⟩ := outcome_mapState hs
    obtain ⟨h1, h2⟩ := removeIdx_any w.B w.inc i hq
    cases ok <;> simp at h1 h2 <;> simp [h1, h2]
  | remove b =>
    obtain ⟨q, hq, rfl⟩ := outcome_mapState hs
    cases b with
    | none => simp [IncProblem.remove, Res.outcome] at hq; simp [← hq.1, ← hq.2]
    | some b =>
      simp only [IncProblem.remove] at hq
      cases hf : w.inc.findProblem b with
      | none => rw [hf] at hq; simp [Res.outcome] at hq; simp [← hq.1, ← hq.2]
      | some i =>
        rw [hf] at hq
        obtain ⟨h1, h2⟩ := removeIdx_any w.B w.inc i hq
        have hm : w.inc.problems[i]? = some b := (findIdx_some hf).1
        have hidx : w.inc.problems.idxOf b = i := by
          have h3 := List.findIdx?_eq_some_iff_findIdx_eq.1 hf
          exact h3.2
        have hb : b ∈ w.inc.problems := List.mem_of_getElem? hm
        cases ok <;> simp at h1 h2 <;> simp [h1, hb, List.erase_eq_eraseIdx_of_idxOf hidx]
  | clear => simp [IOp.step, Res.outcome] at hs; simp [← hs.1, ← hs.2, IncProblem.clear]
  | setOrdering o =>
    obtain ⟨q, hq, rfl⟩ := outcome_mapState hs
    simp [setOrdering_any _ _ hq]
  | permProblems perm =>
    simp only [IOp.step, IncProblem.permuteProblems] at hs
    obtain ⟨l, hl, rfl⟩ := permute_outcome _ _ hs
    simp [hl]
  | permDV perm g =>
    simp only [IOp.step, IncProblem.permuteDesignVariables] at hs
    cases hg : AL.get g w.inc.groups with
    | none => rw [hg] at hs; simp [Res.mapState, Res.outcome] at hs; simp [← hs.2]
    | some l =>
      rw [hg] at hs
      obtain ⟨l', hl, rfl⟩ := permute_outcome _ _ hs
      simp
  | save => simp [IOp.step, Res.outcome] at hs; simp [← hs.2, IncProblem.saveDesignVariables]
  | restore => simp [IOp.step, Res.outcome] at hs; simp [← hs.2]
  | batch b bop =>
    obtain ⟨s, h1, rfl⟩ := outcome_mapState hs
    simp

/-- The number of batches grows by successful additions only. -/
theorem step_length {w w' : World V} (op : IOp V) (ok : Bool) (hs : (op.step w).outcome = some (ok, w')) :
    w'.inc.problems.length ≤ w.inc.problems.length ∨
    ∃ b, op = .add (some b) ∧ ok = true ∧ w'.inc.problems.length = w.inc.problems.length + 1 := by
  obtain ⟨h1, h2, h3, h4, h5, h6⟩ := step_problems op ok hs
  by_cases hp : ∃ perm, op = .permProblems perm
  · obtain ⟨perm, rfl⟩ := hp
    exact Or.inl (h5 perm rfl).length_eq.le
  have hp' : ∀ perm, op ≠ .permProblems perm := fun perm e => hp ⟨perm, e⟩
  cases ok with
  | false => exact Or.inl (by rw [h6 (Or.inr ⟨rfl, hp'⟩)])
  | true =>
    by_cases ha : ∃ b, op = .add (some b)
    · obtain ⟨b, rfl⟩ := ha
      exact Or.inr ⟨b, rfl, rfl, by rw [h1 b rfl rfl]; simp⟩
    by_cases hi : ∃ i, op = .removeIdx i
    · obtain ⟨i, rfl⟩ := hi
      rw [(h2 i rfl rfl).2]; exact Or.inl (List.length_eraseIdx_le _ _)
    by_cases hr : ∃ b, op = .remove (some b)
    · obtain ⟨b, rfl⟩ := hr
      rw [(h3 b rfl rfl).2]; exact Or.inl List.length_erase_le
    by_cases hc : op = .clear
    · rw [h4 hc]; simp
    refine Or.inl (by rw [h6 (Or.inl ⟨fun b e => ha ⟨b, e⟩, fun i e => hi ⟨i, e⟩, fun b e => hr ⟨b, e⟩, hc, hp'⟩)])

end Verif
