import Verif.Lemmas.IncIrregular
import Verif.Lemmas.Estimator3

/-! Helper lemmas for property C118: what stays behind after a refused batch. -/

namespace Verif
open IncProblem
variable {V F M : Type _}

/-! ### predicates kept by the loops, in any state -/

theorem state?_bind {σ α β : Type _} {r : Res σ α} {f : α → σ → Res σ β} {t : σ} (h : (r.bind f).state? = some t) :
    (∃ a s, r = .ok a s ∧ (f a s).state? = some t) ∨ (∃ e, r = .throw e t) := by
  cases r with
  | ok a s => exact .inl ⟨a, s, rfl, h⟩
  | throw e s => simp [Res.bind, Res.state?] at h; exact .inr ⟨e, by rw [h]⟩
  | ub => simp [Res.bind, Res.state?] at h
  | diverge => simp [Res.bind, Res.state?] at h

theorem addLoop_pres {P : IncProblem V → Prop} {p : OptProblem V}
    (hP : ∀ q d g q', p.getGroupId d = .ok g () → P q → (q.addOne d g).state? = some q' → P q') :
    ∀ (n i : Nat) {q q' : IncProblem V}, P q → (addLoop p n i q).state? = some q' → P q'
  | 0, _, q, q', h0, h => by
    simp only [addLoop, Res.state?, Option.some.injEq] at h
    rw [← h]; exact h0
  | n + 1, i, q, q', h0, h => by
    rw [addLoop] at h
    cases hd : p.designVariable i with
    | ok d u =>
      rw [hd] at h; simp only at h
      cases hg : p.getGroupId d with
      | ok g u =>
        rw [hg] at h; simp only at h
        rcases state?_bind h with ⟨a, s, h1, h2⟩ | ⟨e, h1⟩
        · exact addLoop_pres hP n (i + 1) (hP q d g s hg h0 (by rw [h1]; rfl)) h2
        · exact hP q d g q' hg h0 (by rw [h1]; rfl)
      | throw e u => rw [hg] at h; simp only [Res.state?, Option.some.injEq] at h; rw [← h]; exact h0
      | ub => rw [hg] at h; simp [Res.state?] at h
      | diverge => rw [hg] at h; simp [Res.state?] at h
    | throw e u => rw [hd] at h; simp only [Res.state?, Option.some.injEq] at h; rw [← h]; exact h0
    | ub => rw [hd] at h; simp [Res.state?] at h
    | diverge => rw [hd] at h; simp [Res.state?] at h

theorem add_pres {P : IncProblem V → Prop} (hprob : ∀ q ps, P q → P { q with problems := ps })
    {B : BatchId → OptProblem V} {b : Option BatchId}
    (hP : ∀ b', b = some b' → ∀ q d g q', (B b').getGroupId d = .ok g () → P q → (q.addOne d g).state? = some q' → P q')
    {q q' : IncProblem V} (h0 : P q) (h : (q.add B b).state? = some q') : P q' := by
  cases b with
  | none => simp only [IncProblem.add, Res.state?, Option.some.injEq] at h; rw [← h]; exact h0
  | some b =>
    simp only [IncProblem.add] at h
    rcases state?_bind h with ⟨a, q1, h1, h2⟩ | ⟨e, h1⟩
    · have p1 : P q1 := addLoop_pres (hP b rfl) _ _ h0 (by rw [h1]; rfl)
      rcases state?_bind h2 with ⟨a, q2, h3, h4⟩ | ⟨e, h3⟩
      · have := addErrorLoop_rest B (B b) _ 0 q1 (by rw [h3]; rfl : Res.state? _ = some q2)
        subst this
        split at h4
        · simp only [Res.state?, Option.some.injEq] at h4; rw [← h4]; exact hprob _ _ p1
        · simp only [Res.state?, Option.some.injEq] at h4; rw [← h4]; exact p1
      · have := addErrorLoop_rest B (B b) _ 0 q1 (by rw [h3]; rfl : Res.state? _ = some q')
        rw [this]; exact p1
    · exact addLoop_pres (hP b rfl) _ _ h0 (by rw [h1]; rfl)

theorem removeLoop_pres {P : IncProblem V → Prop}
    (hP : ∀ q d q', P q → (q.removeOne d).state? = some q' → P q') {p : OptProblem V} :
    ∀ (n i : Nat) {q q' : IncProblem V}, P q → (removeLoop p n i q).state? = some q' → P q'
  | 0, _, q, q', h0, h => by
    simp only [removeLoop, Res.state?, Option.some.injEq] at h
    rw [← h]; exact h0
  | n + 1, i, q, q', h0, h => by
    rw [removeLoop] at h
    cases hd : p.designVariable i with
    | ok d u =>
      rw [hd] at h; simp only at h
      rcases state?_bind h with ⟨a, s, h1, h2⟩ | ⟨e, h1⟩
      · exact removeLoop_pres hP n (i + 1) (hP q d s h0 (by rw [h1]; rfl)) h2
      · exact hP q d q' h0 (by rw [h1]; rfl)
    | throw e u => rw [hd] at h; simp only [Res.state?, Option.some.injEq] at h; rw [← h]; exact h0
    | ub => rw [hd] at h; simp [Res.state?] at h
    | diverge => rw [hd] at h; simp [Res.state?] at h

theorem removeIdx_pres {P : IncProblem V → Prop} (hprob : ∀ q ps, P q → P { q with problems := ps })
    (hP : ∀ q d q', P q → (q.removeOne d).state? = some q' → P q') {B : BatchId → OptProblem V} {i : Nat}
    {q q' : IncProblem V} (h0 : P q) (h : (q.removeIdx B i).state? = some q') : P q' := by
  unfold IncProblem.removeIdx at h
  cases hi : q.problems[i]? with
  | none => rw [hi] at h; simp only [Res.state?, Option.some.injEq] at h; rw [← h]; exact h0
  | some b =>
    rw [hi] at h; simp only at h
    rcases state?_bind h with ⟨a, q1, h1, h2⟩ | ⟨e, h1⟩
    · simp only [Res.state?, Option.some.injEq] at h2
      rw [← h2]
      exact hprob _ _ (removeLoop_pres hP _ _ h0 (by rw [h1]; rfl))
    · exact removeLoop_pres hP _ _ h0 (by rw [h1]; rfl)

theorem remove_pres {P : IncProblem V → Prop} (hprob : ∀ q ps, P q → P { q with problems := ps })
    (hP : ∀ q d q', P q → (q.removeOne d).state? = some q' → P q') {B : BatchId → OptProblem V} {b : Option BatchId}
    {q q' : IncProblem V} (h0 : P q) (h : (q.remove B b).state? = some q') : P q' := by
  unfold IncProblem.remove at h
  cases b with
  | none => simp only [Res.state?, Option.some.injEq] at h; rw [← h]; exact h0
  | some b =>
    simp only at h
    cases hf : q.findProblem b with
    | none => rw [hf] at h; simp only [Res.state?, Option.some.injEq] at h; rw [← h]; exact h0
    | some i => rw [hf] at h; exact removeIdx_pres hprob hP h0 h

/-! ### a listed group that does not exist -/

/-- the ordering lists the group `g`, which does not exist. -/
def Ghost (g : GroupId) (q : IncProblem V) : Prop := g ∈ q.ordering ∧ g ∉ AL.keys q.groups

theorem Ghost.addOne {g : GroupId} {q q' : IncProblem V} {d : DVId} {g' : GroupId} (hne : g' ≠ g) (h0 : Ghost g q)
    (h : (q.addOne d g').state? = some q') : Ghost g q' := by
  unfold IncProblem.addOne at h
  simp only at h
  have h1 : Ghost g (if q.isGroupInProblem g' then q else { q with ordering := q.ordering ++ [g'] }) := by
    split
    · exact h0
    · exact ⟨List.mem_append_left _ h0.1, h0.2⟩
  generalize (if q.isGroupInProblem g' then q else { q with ordering := q.ordering ++ [g'] }) = q1 at h h1
  split at h
  · simp only [Res.state?, Option.some.injEq] at h
    rw [← h]
    refine ⟨h1.1, ?_⟩
    simp only [AL.mem_keys_set, not_or]
    exact ⟨fun hc => hne hc.symm, h1.2⟩
  · split at h
    · simp only [Res.state?, Option.some.injEq] at h; rw [← h]; exact h1
    · simp only [Res.state?, Option.some.injEq] at h; rw [← h]; exact h1

theorem Ghost.removeOne {g : GroupId} {q q' : IncProblem V} {d : DVId} (h0 : Ghost g q)
    (h : (q.removeOne d).state? = some q') : Ghost g q' := by
  unfold IncProblem.removeOne at h
  simp only at h
  split at h
  · split at h
    · rename_i hd
      have hne : ((AL.get d q.counts).getD (0, 0)).2 ≠ g := by
        intro hc
        rw [hc, (AL.get_eq_none_iff g q.groups).2 h0.2] at hd
        simp at hd
      have hk : g ∉ AL.keys (AL.set ((AL.get d q.counts).getD (0, 0)).2
          (((AL.get ((AL.get d q.counts).getD (0, 0)).2 q.groups).getD []).erase d) q.groups) := by
        simp only [AL.mem_keys_set, not_or]
        exact ⟨fun hc => hne hc.symm, h0.2⟩
      split at h
      · split at h
        · simp only [Res.state?, Option.some.injEq] at h
          rw [← h]
          refine ⟨(List.mem_erase_of_ne (Ne.symm hne)).2 h0.1, ?_⟩
          simp only [AL.keys_del]
          exact fun hc => hk (List.mem_of_mem_erase hc)
        · simp [Res.state?] at h
      · simp only [Res.state?, Option.some.injEq] at h
        rw [← h]; exact ⟨h0.1, hk⟩
    · simp [Res.state?] at h
  · simp only [Res.state?, Option.some.injEq] at h; rw [← h]; exact h0

theorem checkOrdering_mem {q : IncProblem V} : ∀ {o seen : List GroupId}, q.checkOrdering seen o = true →
    ∀ g ∈ o, q.isGroupInProblem g = true
  | [], _, _, g, hg => by simp at hg
  | x :: o, seen, h, g, hg => by
    rw [IncProblem.checkOrdering] at h
    split at h
    · simp at h
    · rename_i hx
      split at h
      · simp at h
      · rcases List.mem_cons.1 hg with rfl | hg
        · simpa using hx
        · exact checkOrdering_mem h g hg

theorem mem_swapBack {m g : GroupId} {o : List GroupId} (hm : m ∈ o) (hl : o.getLast? ≠ some m) (hg : g ∈ o) :
    g ∈ swapBack m o := by
  obtain ⟨a, x, c, rfl, -, h2⟩ := swapBack_spec hm hl
  rw [h2]
  simp only [List.mem_append, List.mem_cons, List.mem_singleton, List.not_mem_nil, or_false] at hg ⊢
  tauto

theorem Ghost.isGroup {g : GroupId} {q : IncProblem V} (h : Ghost g q) : q.isGroupInProblem g = false := by
  rw [IncProblem.isGroupInProblem, AL.has_eq_false_iff]; exact h.2

/-- putting the marginalised group last never succeeds with a change; the estimator is unchanged either way. -/
theorem Ghost.orderMarginalized {g : GroupId} {w w' : EWorld V F M} (h0 : Ghost g w.est.inc) {u : Unit}
    (h : w.orderMarginalized = .ok u w') : w' = w := by
  unfold EWorld.orderMarginalized at h
  simp only at h
  split at h
  · rename_i hm
    split at h
    · rename_i hl
      exfalso
      unfold IncProblem.setGroupsOrdering at h
      split at h
      · simp [Res.mapState] at h
      · split at h
        · rename_i hc
          have := checkOrdering_mem hc g (mem_swapBack hm hl h0.1)
          rw [h0.isGroup] at this
          simp at this
        · simp [Res.mapState] at h
    · simp only [Res.ok.injEq, true_and] at h; exact h.symm
  · simp at h

theorem orderMarginalized_throw {w w' : EWorld V F M} {e : Exc} (h : w.orderMarginalized = .throw e w') : w' = w := by
  unfold EWorld.orderMarginalized at h
  simp only at h
  split at h
  · split at h
    · unfold IncProblem.setGroupsOrdering at h
      split at h
      · simp only [Res.mapState, Res.throw.injEq] at h; rw [← h.2]; rfl
      · split at h
        · simp [Res.mapState] at h
        · simp only [Res.mapState, Res.throw.injEq] at h; rw [← h.2]; rfl
    · simp at h
  · simp only [Res.throw.injEq] at h; exact h.2.symm

theorem sumDims_throw {h : Heap V} {q : IncProblem V} {g : GroupId} (hk : g ∉ AL.keys q.groups) :
    ∀ {o : List GroupId} {n : Nat}, g ∈ o → EWorld.sumDims h q o n = .throw .outOfBound ()
  | [], _, hg => by simp at hg
  | x :: o, n, hg => by
    rw [EWorld.sumDims]
    cases hx : AL.get x q.groups with
    | none => simp [IncProblem.getGroupDim, IncProblem.getGroup, hx]
    | some l =>
      simp only [IncProblem.getGroupDim, IncProblem.getGroup, hx]
      refine sumDims_throw hk ?_
      rcases List.mem_cons.1 hg with rfl | hg
      · rw [(AL.get_eq_none_iff g q.groups).2 hk] at hx; simp at hx
      · exact hg

theorem Ghost.runOptimizer {g : GroupId} {w : EWorld V F M} (h0 : Ghost g w.est.inc)
    (oracle : OptInput V → OptCall V F M) : w.runOptimizer oracle = .throw .outOfBound w := by
  unfold EWorld.runOptimizer
  rw [sumDims_throw h0.2 h0.1]

end Verif
