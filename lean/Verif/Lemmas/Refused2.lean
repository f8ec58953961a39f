import Verif.Lemmas.Refused

/-! Helper lemmas for property C118 (continued): how a group without variables comes to be listed, and what each estimator
call does while there is one. -/

namespace Verif
open IncProblem
variable {V F M : Type _}

theorem addList_clean {d : DVId} {g : GroupId} : ∀ (es : List (DVId × GroupId)) (q : IncProblem V),
    (AL.keys es).Nodup → d ∉ AL.keys es → (∀ x ∈ es, x.2 ≠ g) →
    (∀ x ∈ es, ∀ cg, AL.get x.1 q.counts = some cg → cg.2 = x.2) →
    ∃ q1, addList q es = .ok () q1 ∧ AL.get d q1.counts = AL.get d q.counts ∧
      (g ∉ AL.keys q.groups → g ∉ AL.keys q1.groups)
  | [], q, _, _, _, _ => ⟨q, rfl, rfl, id⟩
  | (d1, g1) :: es, q, hn, hd, hg, hc => by
    have hd1 : d1 ≠ d := fun h => hd (by simp [AL.keys, h])
    have hg1 : g1 ≠ g := hg (d1, g1) List.mem_cons_self
    have hn' : d1 ∉ AL.keys es ∧ (AL.keys es).Nodup := by simpa [AL.keys] using hn
    obtain ⟨q1, h1, hcnt, hgrp⟩ : ∃ q1, q.addOne d1 g1 = .ok () q1 ∧
        (∀ d', d' ≠ d1 → AL.get d' q1.counts = AL.get d' q.counts) ∧
        (g ∉ AL.keys q.groups → g ∉ AL.keys q1.groups) := by
      unfold IncProblem.addOne
      simp only
      have e1 : (if q.isGroupInProblem g1 then q else { q with ordering := q.ordering ++ [g1] }).counts = q.counts := by
        split <;> rfl
      have e2 : (if q.isGroupInProblem g1 then q else { q with ordering := q.ordering ++ [g1] }).groups = q.groups := by
        split <;> rfl
      rw [e1]
      cases hx : AL.get d1 q.counts with
      | none =>
        refine ⟨_, rfl, fun d' hd' => ?_, fun h => ?_⟩
        · simp only [e1]; rw [AL.get_set_ne (Ne.symm hd')]
        · simp only [e2, AL.mem_keys_set, not_or]; exact ⟨fun hc => hg1 hc.symm, h⟩
      | some cg =>
        have := hc (d1, g1) List.mem_cons_self cg hx
        simp only at this
        obtain ⟨c, g'⟩ := cg
        simp only at this
        subst this
        refine ⟨_, if_neg (by simp), fun d' hd' => ?_, fun h => ?_⟩
        · simp only [e1]; rw [AL.get_set_ne (Ne.symm hd')]
        · simp only [e2]; exact h
    obtain ⟨q2, h2, hc2, hg2⟩ := addList_clean es q1 hn'.2 (fun h => hd (by simp [AL.keys] at h ⊢; exact .inr h))
      (fun x hx => hg x (List.mem_cons_of_mem _ hx)) (fun x hx cg hcg => by
        have : x.1 ≠ d1 := fun h => hn'.1 (by rw [← h]; exact List.mem_map_of_mem hx)
        rw [hcnt _ this] at hcg
        exact hc x (List.mem_cons_of_mem _ hx) cg hcg)
    exact ⟨q2, by rw [addList, h1]; exact h2, by rw [hc2, hcnt d (Ne.symm hd1)], fun h => hg2 (hgrp h)⟩

theorem addList_append (q : IncProblem V) (l m : List (DVId × GroupId)) :
    addList q (l ++ m) = (addList q l).bind fun _ q' => addList q' m := by
  induction l generalizing q with
  | nil => rfl
  | cons e l ih =>
    obtain ⟨d, g⟩ := e
    rw [List.cons_append, addList, addList]
    cases q.addOne d g with
    | ok a q1 => simp only [Res.bind]; exact ih q1
    | throw e q1 => rfl
    | ub => rfl
    | diverge => rfl

theorem mem_elems_iff {h : Heap V} {p : OptProblem V} (hi : BInv h p) (d : DVId) (g : GroupId) :
    (d, g) ∈ elems p ↔ AL.get d p.lookup = some g := by
  constructor
  · intro hm
    have hk : d ∈ AL.keys (elems p) := List.mem_map_of_mem hm
    have hk2 := (elems_perm hi).mem_iff.1 hk
    obtain ⟨g', hg'⟩ := (AL.mem_keys_iff d _).1 hk2
    simp only [elems, List.mem_map, Prod.mk.injEq] at hm
    obtain ⟨d', -, rfl, he⟩ := hm
    rw [hg'] at he ⊢
    simpa using he
  · intro hg
    have hk2 : d ∈ AL.keys p.lookup := (AL.mem_keys_iff d _).2 ⟨g, hg⟩
    have hk := (elems_perm hi).mem_iff.2 hk2
    rw [elems_keys] at hk
    simp only [elems, List.mem_map, Prod.mk.injEq]
    exact ⟨d, hk, rfl, by rw [hg]; rfl⟩

/-- a batch whose only variable in a group new to the problem is one the problem has in another group. -/
theorem add_makes_ghost {h : Heap V} {B : BatchId → OptProblem V} {b : BatchId} (hi : BInv h (B b)) {q : IncProblem V}
    {d : DVId} {g : GroupId} (hd : AL.get d (B b).lookup = some g) {cg : Nat × GroupId}
    (hq : AL.get d q.counts = some cg) (hne : cg.2 ≠ g) (hg : g ∉ AL.keys q.groups)
    (hrest : ∀ d', d' ≠ d → ∀ g1, AL.get d' (B b).lookup = some g1 → g1 ≠ g ∧
      ∀ cg', AL.get d' q.counts = some cg' → cg'.2 = g1) :
    ∃ q', q.add B (some b) = .throw .invalidOperation q' ∧ Ghost g q' := by
  obtain ⟨l, m, hlm⟩ := List.append_of_mem ((mem_elems_iff hi d g).2 hd)
  have hn := elems_nodup hi
  have hn0 := hn
  rw [hlm] at hn
  simp only [AL.keys, List.map_append, List.map_cons, List.nodup_append, List.nodup_cons] at hn
  have hdl : d ∉ AL.keys l := fun hm => hn.2.2 d hm d List.mem_cons_self rfl
  have hin : ∀ x ∈ l, x.1 ≠ d ∧ AL.get x.1 (B b).lookup = some x.2 := fun x hx =>
    ⟨fun hc => hdl (hc ▸ List.mem_map_of_mem hx),
      (mem_elems_iff hi x.1 x.2).1 (by rw [hlm]; exact List.mem_append_left _ hx)⟩
  obtain ⟨q1, h1, hc1, hg1⟩ := addList_clean (d := d) (g := g) l q hn.1 hdl
    (fun x hx => (hrest x.1 (hin x hx).1 x.2 (hin x hx).2).1)
    (fun x hx cg' => (hrest x.1 (hin x hx).1 x.2 (hin x hx).2).2 cg')
  have hlen : (B b).numDesignVariables = (elems (B b)).length := (elems_length hi).symm
  have hloop := addLoop_eq hi (B b).numDesignVariables 0 q (by rw [hlen]; omega)
  rw [List.drop_zero, hlm, addList_append, h1] at hloop
  simp only [Res.bind] at hloop
  have hng : q1.isGroupInProblem g = false := by
    rw [IncProblem.isGroupInProblem, AL.has_eq_false_iff]; exact hg1 hg
  have hone : q1.addOne d g = .throw .invalidOperation { q1 with ordering := q1.ordering ++ [g] } := by
    unfold IncProblem.addOne
    obtain ⟨c, g'⟩ := cg
    simp only at hne
    simp only [hng, Bool.false_eq_true, if_false, hc1, hq, hne, ne_eq, not_false_eq_true, if_true]
  rw [addList, hone] at hloop
  refine ⟨{ q1 with ordering := q1.ordering ++ [g] }, ?_, by simp, hg1 hg⟩
  simp only [IncProblem.add, hloop, Res.bind]

/-- what one call does while a listed group does not exist. -/
theorem Ghost.step {g : GroupId} {D : Dbl F} {m0 : M} {w w' : EWorld V F M} (h0 : Ghost g w.est.inc) (op : EOp V F M)
    (hop : ∀ b f o k, op = .addBatch (some b) f o k → ∀ d, AL.get d (w.B b).lookup ≠ some g)
    (hs : (op.step D m0 w).state? = some w') :
    Ghost g w'.est.inc ∧ w'.est.calls = w.est.calls ∧ w'.est.stats = w.est.stats ∧
      w'.est.margGroup = w.est.margGroup ∧
      match op with
      | .addBatch _ _ _ _ => ∃ e, op.step D m0 w = .throw e w'
      | .reoptimize _ => ∃ e, op.step D m0 w = .throw e w'
      | .removeBatchIdx _ _ => ∃ e, op.step D m0 w = .throw e w'
      | .removeBatch b _ => (∃ e, op.step D m0 w = .throw e w') ∨
          (w' = w ∧ ∀ b', b = some b' → b' ∉ w.est.inc.problems)
      | _ => True := by
  have hprob : ∀ (q : IncProblem V) ps, Ghost g q → Ghost g { q with problems := ps } := fun _ _ h => h
  have hre : ∀ (w : EWorld V F M) (o : OptInput V → OptCall V F M), Ghost g w.est.inc → ∀ w',
      (w.reoptimize D m0 o).state? = some w' → w' = w ∧ ∃ e, w.reoptimize D m0 o = .throw e w := by
    intro w o hg w' hs
    unfold EWorld.reoptimize at hs ⊢
    rcases state?_bind hs with ⟨u, w1, h1, h2⟩ | ⟨e, h1⟩
    · have := hg.orderMarginalized h1
      subst this
      rw [hg.runOptimizer] at h2
      simp only [Res.bind, Res.state?, Option.some.injEq] at h2
      refine ⟨h2.symm, .outOfBound, ?_⟩
      rw [h1]; simp only [Res.bind, hg.runOptimizer]
    · have := orderMarginalized_throw h1
      subst this
      exact ⟨rfl, e, by rw [h1]; rfl⟩
  have hrem : ∀ (i : Nat) (o : OptInput V → OptCall V F M) (w' : EWorld V F M),
      (w.removeBatchIdx D m0 o i).state? = some w' → Ghost g w'.est.inc ∧ w'.est.calls = w.est.calls ∧
        w'.est.stats = w.est.stats ∧ w'.est.margGroup = w.est.margGroup ∧
        ∃ e, w.removeBatchIdx D m0 o i = .throw e w' := by
    intro i o w' hs
    unfold EWorld.removeBatchIdx at hs ⊢
    cases h1 : w.est.inc.removeIdx w.B i with
    | ok u q1 =>
      have g1 : Ghost g q1 := removeIdx_pres hprob (fun q d q' => Ghost.removeOne) h0 (by rw [h1]; rfl)
      rw [h1] at hs
      simp only [Res.mapState, Res.bind] at hs ⊢
      have g2 : Ghost g (w.setInc q1).est.inc := g1
      rcases state?_bind hs with ⟨a, w2, h2, h3⟩ | ⟨e, h2⟩
      · obtain ⟨-, e, he⟩ := hre _ o g2 w2 (by rw [h2]; rfl)
        rw [he] at h2; simp at h2
      · obtain ⟨rfl, -⟩ := hre _ o g2 w' (by rw [h2]; rfl)
        exact ⟨g2, rfl, rfl, rfl, e, by rw [h2]⟩
    | throw e q1 =>
      have g1 : Ghost g q1 := removeIdx_pres hprob (fun q d q' => Ghost.removeOne) h0 (by rw [h1]; rfl)
      rw [h1] at hs
      simp only [Res.mapState, Res.bind, Res.state?, Option.some.injEq] at hs ⊢
      subst hs
      exact ⟨g1, rfl, rfl, rfl, e, rfl⟩
    | ub => rw [h1] at hs; simp [Res.mapState, Res.bind, Res.state?] at hs
    | diverge => rw [h1] at hs; simp [Res.mapState, Res.bind, Res.state?] at hs
  cases op with
  | addBatch b force oracle buildOk =>
    simp only [EOp.step] at hs ⊢
    suffices hh : Ghost g w'.est.inc ∧ w'.est.calls = w.est.calls ∧ w'.est.stats = w.est.stats ∧
        w'.est.margGroup = w.est.margGroup ∧ ∃ e, w.addBatch D m0 oracle buildOk b force = .throw e w' by
      obtain ⟨a1, a2, a3, a4, e, a5⟩ := hh
      exact ⟨a1, a2, a3, a4, e, by rw [a5]; rfl⟩
    have hs' : (w.addBatch D m0 oracle buildOk b force).state? = some w' := by
      rcases state?_bind hs with ⟨a, w1, h1, h2⟩ | ⟨e, h1⟩
      · simp only [Res.state?, Option.some.injEq] at h2; rw [h1, ← h2]; rfl
      · rw [h1]; rfl
    have hadd : ∀ q', (w.est.inc.add w.B b).state? = some q' → Ghost g q' := by
      intro q' hq'
      refine add_pres hprob (fun b' hb' q d g' q'' hgid hq hq'' => ?_) h0 hq'
      refine Ghost.addOne ?_ hq hq''
      rintro rfl
      refine hop b' force oracle buildOk (by rw [hb']) d ?_
      unfold OptProblem.getGroupId at hgid
      cases hx : AL.get d (w.B b').lookup with
      | none => rw [hx] at hgid; simp at hgid
      | some g1 => rw [hx] at hgid; simp at hgid; rw [hgid]
    unfold EWorld.addBatch at hs' ⊢
    cases h1 : w.est.inc.add w.B b with
    | ok u q1 =>
      have g1 : Ghost g (w.setInc q1).est.inc := hadd q1 (by rw [h1]; rfl)
      rw [h1] at hs'
      simp only [Res.mapState, Res.bind] at hs' ⊢
      have key : ∀ w2, Ghost g w2.est.inc →
          Ghost g (if force then w2 else w2.setInc (w2.est.inc.saveDesignVariables w2.heap) : EWorld V F M).est.inc := by
        intro w2 h2
        split
        · exact h2
        · exact h2
      rcases state?_bind hs' with ⟨u2, w2, h2, h3⟩ | ⟨e, h2⟩
      · have := g1.orderMarginalized h2
        subst this
        rw [(key _ g1).runOptimizer] at h3
        simp only [Res.bind, Res.state?, Option.some.injEq] at h3
        have hx := key _ g1
        rw [h3] at hx
        refine ⟨hx, ?_, ?_, ?_, .outOfBound, ?_⟩
        · rw [← h3]; split <;> rfl
        · rw [← h3]; split <;> rfl
        · rw [← h3]; split <;> rfl
        · rw [h2]
          simp only
          rw [(key _ g1).runOptimizer]
          simp only [Res.throw.injEq, true_and]
          exact h3
      · have := orderMarginalized_throw h2
        subst this
        exact ⟨g1, rfl, rfl, rfl, e, by rw [h2]⟩
    | throw e q1 =>
      have g1 : Ghost g q1 := hadd q1 (by rw [h1]; rfl)
      rw [h1] at hs'
      simp only [Res.mapState, Res.bind, Res.state?, Option.some.injEq] at hs' ⊢
      subst hs'
      exact ⟨g1, rfl, rfl, rfl, e, rfl⟩
    | ub => rw [h1] at hs'; simp [Res.mapState, Res.bind, Res.state?] at hs'
    | diverge => rw [h1] at hs'; simp [Res.mapState, Res.bind, Res.state?] at hs'
  | reoptimize oracle =>
    simp only [EOp.step] at hs ⊢
    rcases state?_bind hs with ⟨a, w1, h1, h2⟩ | ⟨e, h1⟩
    · obtain ⟨-, e, he⟩ := hre w oracle h0 w1 (by rw [h1]; rfl)
      rw [he] at h1; simp at h1
    · obtain ⟨rfl, -⟩ := hre w oracle h0 w' (by rw [h1]; rfl)
      exact ⟨h0, rfl, rfl, rfl, e, by rw [h1]; rfl⟩
  | removeBatchIdx i oracle =>
    simp only [EOp.step] at hs ⊢
    rcases state?_bind hs with ⟨a, w1, h1, h2⟩ | ⟨e, h1⟩
    · obtain ⟨-, -, -, -, e, he⟩ := hrem i oracle w1 (by rw [h1]; rfl)
      rw [he] at h1; simp at h1
    · obtain ⟨a1, a2, a3, a4, -⟩ := hrem i oracle w' (by rw [h1]; rfl)
      exact ⟨a1, a2, a3, a4, e, by rw [h1]; rfl⟩
  | removeBatch b oracle =>
    simp only [EOp.step, EWorld.removeBatch] at hs ⊢
    cases hf : b.bind w.est.inc.findProblem with
    | none =>
      rw [hf] at hs
      simp only [Res.bind, Res.state?, Option.some.injEq] at hs
      subst hs
      refine ⟨h0, rfl, rfl, rfl, .inr ⟨rfl, ?_⟩⟩
      rintro b' rfl
      simp only [Option.bind_some, IncProblem.findProblem] at hf
      exact findIdx_none hf
    | some i =>
      rw [hf] at hs
      simp only at hs ⊢
      rcases state?_bind hs with ⟨a, w1, h1, h2⟩ | ⟨e, h1⟩
      · obtain ⟨-, -, -, -, e, he⟩ := hrem i oracle w1 (by rw [h1]; rfl)
        rw [he] at h1; simp at h1
      · obtain ⟨a1, a2, a3, a4, -⟩ := hrem i oracle w' (by rw [h1]; rfl)
        exact ⟨a1, a2, a3, a4, .inl ⟨e, by rw [h1]; rfl⟩⟩
  | setOptions o =>
    simp only [EOp.step, Res.state?, Option.some.injEq] at hs
    subst hs
    exact ⟨h0, rfl, rfl, rfl, trivial⟩
  | batch b bop =>
    simp only [EOp.step] at hs
    cases hb : bop.step (w.B b, w.heap) with
    | ok a s =>
      rw [hb] at hs; simp only [Res.mapState, Res.bind, Res.state?, Option.some.injEq] at hs
      subst hs; exact ⟨h0, rfl, rfl, rfl, trivial⟩
    | throw e s =>
      rw [hb] at hs; simp only [Res.mapState, Res.bind, Res.state?, Option.some.injEq] at hs
      subst hs; exact ⟨h0, rfl, rfl, rfl, trivial⟩
    | ub => rw [hb] at hs; simp [Res.mapState, Res.bind, Res.state?] at hs
    | diverge => rw [hb] at hs; simp [Res.mapState, Res.bind, Res.state?] at hs

end Verif
