import Verif.Spec.SameProblem
import Verif.Props.IncProblem
import Verif.Props.Estimator

/-! C129: an incremental problem is determined by its batches. -/

namespace Verif
open IncProblem
variable {V : Type _}

theorem same_of_batches {w1 w2 : World V} (h1 : WInv w1) (h2 : WInv w2) (hB : w2.B = w1.B) (hh : w2.heap = w1.heap)
    (hp : w1.inc.problems.Perm w2.inc.problems) : SameProblem w1.B w1.heap w1.inc w2.inc := by
  have hgrp : ∀ d, (AL.get d w1.inc.counts).map Prod.snd = (AL.get d w2.inc.counts).map Prod.snd := by
    intro d
    have key : ∀ g, (AL.get d w1.inc.counts).map Prod.snd = Option.some g ↔ (AL.get d w2.inc.counts).map Prod.snd = Option.some g := by
      intro g
      rw [h1.group_iff, h2.group_iff]
      simp only [World.Holds, hB, hp.mem_iff]
    cases e1 : (AL.get d w1.inc.counts).map Prod.snd with
    | some g => exact ((key g).1 e1).symm
    | none =>
      cases e2 : (AL.get d w2.inc.counts).map Prod.snd with
      | some g => rw [(key g).2 e2] at e1; exact e1.symm
      | none => rfl
  have hord : w1.inc.ordering.Perm w2.inc.ordering := by
    rw [List.perm_ext_iff_of_nodup h1.g.nodupO h2.g.nodupO]
    intro g
    rw [h1.g.mem_ordering_iff, h2.g.mem_ordering_iff]
    simp only [hgrp]
  have hvar : ∀ d, w1.inc.isDVInProblem d = w2.inc.isDVInProblem d := by
    intro d
    have := hgrp d
    rw [IncProblem.isDVInProblem, IncProblem.isDVInProblem, AL.has, AL.has]
    cases e1 : AL.get d w1.inc.counts <;> cases e2 : AL.get d w2.inc.counts <;> rw [e1, e2] at this <;> simp at this ⊢
  have hgroups : ∀ g, (∃ l1 l2, w1.inc.getGroup g = .ok l1 () ∧ w2.inc.getGroup g = .ok l2 () ∧ l1.Perm l2) ∨
      w1.inc.getGroup g = .throw .outOfBound () ∧ w2.inc.getGroup g = .throw .outOfBound () := by
    intro g
    by_cases hg : g ∈ w1.inc.ordering
    · have hg2 := hord.mem_iff.1 hg
      obtain ⟨l1, e1⟩ := (AL.mem_keys_iff _ _).1 ((h1.g.ord g).1 hg)
      obtain ⟨l2, e2⟩ := (AL.mem_keys_iff _ _).1 ((h2.g.ord g).1 hg2)
      refine .inl ⟨l1, l2, by simp [IncProblem.getGroup, e1], by simp [IncProblem.getGroup, e2], ?_⟩
      rw [List.perm_ext_iff_of_nodup (h1.g.nodupL g l1 e1) (h2.g.nodupL g l2 e2)]
      intro d
      rw [h1.g.mem g l1 e1, h2.g.mem g l2 e2, hgrp]
    · have hg2 := fun h => hg (hord.mem_iff.2 h)
      have e1 : AL.get g w1.inc.groups = none := (AL.get_eq_none_iff _ _).2 (fun hh => hg ((h1.g.ord g).2 hh))
      have e2 : AL.get g w2.inc.groups = none := (AL.get_eq_none_iff _ _).2 (fun hh => hg2 ((h2.g.ord g).2 hh))
      exact .inr ⟨by simp [IncProblem.getGroup, e1], by simp [IncProblem.getGroup, e2]⟩
  refine ⟨hp, hvar, ?_, ?_, hord, ?_, hgroups, ?_, ?_, ?_⟩
  · intro d
    have := hgrp d
    simp only [IncProblem.getGroupId]
    cases e1 : AL.get d w1.inc.counts <;> cases e2 : AL.get d w2.inc.counts <;> rw [e1, e2] at this <;> simp at this ⊢
    exact this
  · have : (AL.keys w1.inc.counts).Perm (AL.keys w2.inc.counts) := by
      rw [List.perm_ext_iff_of_nodup h1.nd h2.nd]
      intro d
      have := hvar d
      simp only [IncProblem.isDVInProblem] at this
      rw [← AL.has_iff, ← AL.has_iff, this]
    have := this.length_eq
    simpa [AL.keys, IncProblem.numDesignVariables] using this
  · have e : ∀ {w : World V}, WInv w → w.inc.getNumGroups = w.inc.ordering.length := by
      intro w hw
      have : w.inc.ordering.Perm (AL.keys w.inc.groups) :=
        (List.perm_ext_iff_of_nodup hw.g.nodupO hw.g.nodupG).2 hw.g.ord
      rw [this.length_eq]; simp [AL.keys, IncProblem.getNumGroups]
    rw [e h1, e h2, hord.length_eq]
  · intro g
    rcases hgroups g with ⟨l1, l2, e1, e2, hl⟩ | ⟨e1, e2⟩
    · simp only [IncProblem.getGroupDim, e1, e2, Res.ok.injEq, and_true]
      rw [dimLoop_eq, dimLoop_eq]
      simp only [activeDim]
      rw [(hl.map _).sum_eq]
    · simp only [IncProblem.getGroupDim, e1, e2]
  · intro e
    rw [Bool.eq_iff_iff, isET_iff, isET_iff]
    simp only [hp.mem_iff]
  · have hfold : ∀ (l : List BatchId) n, l.foldl (fun n b => n + (w1.B b).numErrorTerms) n =
        n + (l.map fun b => (w1.B b).numErrorTerms).sum := by
      intro l
      induction l with
      | nil => simp
      | cons b l ih => intro n; rw [List.foldl_cons, ih]; simp; omega
    simp only [IncProblem.numErrorTerms, hfold]
    rw [(hp.map _).sum_eq]

/-- adding some of the batches of a problem, in any order, to an empty one. -/
theorem readd {w : World V} (hw : WInv w) (ps : List BatchId) : ∀ (pre : List BatchId) (w1 : World V), WInv w1 →
    w1.B = w.B → w1.heap = w.heap → w1.inc.problems = pre → (pre ++ ps).Perm w.inc.problems →
    ∃ w2 : World V, offerAll w.B ps w1.inc = some w2.inc ∧ WInv w2 ∧ w2.B = w.B ∧ w2.heap = w.heap ∧
      w2.inc.problems = pre ++ ps := by
  induction ps with
  | nil => intro pre w1 h1 hB hh hp _; exact ⟨w1, rfl, h1, hB, hh, by simpa using hp⟩
  | cons b ps ih =>
    intro pre w1 h1 hB hh hp hperm
    have hb : b ∈ w.inc.problems := hperm.mem_iff.1 (by simp)
    have ha : Addable w1.B w1.inc (w1.B b) := by
      refine ⟨?_, ?_, ?_⟩
      · intro d g hd c g' hc
        obtain ⟨b', hb', hd'⟩ := (h1.group_iff d g').1 (by rw [hc]; rfl)
        have hb'' : b' ∈ w.inc.problems := hperm.mem_iff.1 (by rw [hp] at hb'; simp [hb'])
        rw [hB] at hd
        have e1 := (hw.group_iff d g).2 ⟨b, hb, (holds_iff w b d g).2 hd⟩
        have e2 := (hw.group_iff d g').2 ⟨b', hb'', by rw [holds_iff] at hd' ⊢; rw [← hB]; exact hd'⟩
        rw [e1] at e2
        exact (Option.some.inj e2).symm
      · intro e he b' hb' he'
        rw [hB] at he he'
        rw [hp] at hb'
        have hnd := (hperm.flatMap_right (fun b => (w.B b).etLookup)).nodup_iff.2 hw.et
        rw [List.flatMap_append, List.nodup_append] at hnd
        exact hnd.2.2 e (List.mem_flatMap.2 ⟨b', hb', he'⟩) e (List.mem_flatMap.2 ⟨b, by simp, he⟩) rfl
      · have := hperm.length_eq
        have := hw.len
        simp only [List.length_append, List.length_cons] at *
        rw [hp]; omega
    obtain ⟨q, hq, hr⟩ := add_ok h1 ha
    have h2 := hr.inv h1 ha
    obtain ⟨w2, e1, e2⟩ := ih (pre ++ [b]) { w1 with inc := q } h2 hB hh (by rw [← hp]; exact hr.problems) (by simpa using hperm)
    refine ⟨w2, ?_, by simpa using e2⟩
    have hq' : w1.inc.add w.B (some b) = .ok () q := by rw [← hB]; exact hq
    simp only [offerAll, hq']
    exact e1

theorem WInv.emptied {w1 : World V} (r1 : WInv w1) : WInv ({ w1 with inc := IncProblem.empty } : World V) :=
  { WInv.init w1.heap with
    batches := r1.batches
    zero := by simp [IncProblem.empty, useCount]
    some := by simp [IncProblem.empty]
    et := by simp [IncProblem.empty] }

/-- **C129.** What an incremental problem consists of depends only on the batches in it, not on how they came in: two
problems with the same batches, whatever calls led there, give the same answers up to order; with the batches in the same
order also every error term has the same index; and offering the batches, in any order, to an empty problem succeeds and
gives such a problem. -/
theorem C129_determined_by_batches {h0 h0' : Heap V} {w1 w2 : World V} (r1 : Reach h0 w1) (r2 : Reach h0' w2)
    (hB : w2.B = w1.B) (hh : w2.heap = w1.heap) (hp : w1.inc.problems.Perm w2.inc.problems) :
    SameProblem w1.B w1.heap w1.inc w2.inc ∧
    (w1.inc.problems = w2.inc.problems → ∀ i, w1.inc.errorTerm w1.B i = w2.inc.errorTerm w1.B i) ∧
    ∀ ps, ps.Perm w1.inc.problems → ∃ q, offerAll w1.B ps IncProblem.empty = some q ∧ q.problems = ps ∧
      SameProblem w1.B w1.heap w1.inc q := by
  refine ⟨same_of_batches r1.inv r2.inv hB hh hp, fun he i => ?_, fun ps hps => ?_⟩
  · rw [inc_errorTerm_eq r1.inv, ← hB, inc_errorTerm_eq r2.inv, he, hB]
  · have h0 := r1.inv.emptied
    obtain ⟨w3, e1, e2, e3, e4, e5⟩ := readd r1.inv ps [] { w1 with inc := IncProblem.empty } h0 rfl rfl rfl (by simpa using hps)
    exact ⟨w3.inc, e1, by simpa using e5, same_of_batches r1.inv e2 e3 e4 (by rw [e5]; exact hps.symm)⟩

/-- **C129 (estimator).** The same holds for the problem of the estimator and for every problem its optimizer was ever run
on: it is, up to order, what one gets by offering its batches to an empty problem. -/
theorem C129_estimator {F M : Type _} {D : Dbl F} {m0 : M} {mo : F} {g : GroupId} {o : EstOptions F} {h0 : Heap V}
    {w : EWorld V F M} (h : EReach D m0 (EWorld.fresh D mo m0 g o h0) w) :
    (∀ ps, ps.Perm w.est.inc.problems → ∃ q, offerAll w.B ps IncProblem.empty = some q ∧ q.problems = ps ∧
      SameProblem w.B w.heap w.est.inc q) ∧
    ∀ c ∈ w.est.calls, ∀ ps, ps.Perm c.inc.problems → ∃ q, offerAll c.B ps IncProblem.empty = some q ∧ q.problems = ps ∧
      SameProblem c.B c.heap c.inc q := by
  have key : ∀ {w1 : World V}, WInv w1 → ∀ ps, ps.Perm w1.inc.problems → ∃ q, offerAll w1.B ps IncProblem.empty = some q ∧
      q.problems = ps ∧ SameProblem w1.B w1.heap w1.inc q := by
    intro w1 r1 ps hps
    obtain ⟨w3, e1, e2, e3, e4, e5⟩ := readd r1 ps [] { w1 with inc := IncProblem.empty } r1.emptied rfl rfl rfl
      (by simpa using hps)
    exact ⟨w3.inc, e1, by simpa using e5, same_of_batches r1 e2 e3 e4 (by rw [e5]; exact hps.symm)⟩
  exact ⟨key h.inv.winv, fun c hc => key (w1 := ⟨c.B, c.inc, c.heap⟩) (h.inv.log c hc).1⟩

/-- Batch 0 has variables 5 (group 1) and 3 (group 0), batch 1 has variable 3. -/
def sprog0 : List (IOp Nat) :=
  [.batch 0 (.addDV (some 5) 1), .batch 0 (.addDV (some 3) 0), .batch 1 (.addDV (some 3) 0)]

/-- **C129 holds only up to order:** after adding batch 0, and after adding batches 1 and 0 and removing 1, the problem has the
same batch, but the groups are in a different order, and so are the variables. -/
theorem C129_order_depends_on_history : ∃ w1 w2 : World Nat, Reach heap0 w1 ∧ Reach heap0 w2 ∧ w2.B = w1.B ∧
    w2.heap = w1.heap ∧ w1.inc.problems = w2.inc.problems ∧ w1.inc.ordering ≠ w2.inc.ordering ∧
    w1.inc.designVariable 0 ≠ w2.inc.designVariable 0 := by
  have e1 : ((IOp.exec (sprog0 ++ [.add (some 0)]) (World.init heap0)).map fun w =>
    (w.inc.problems, w.inc.ordering, w.inc.designVariable 0)) = some ([0], [1, 0], .ok 5 ()) := by decide
  have e2 : ((IOp.exec (sprog0 ++ [.add (some 1), .add (some 0), .remove (some 1)]) (World.init heap0)).map fun w =>
    (w.inc.problems, w.inc.ordering, w.inc.designVariable 0)) = some ([0], [0, 1], .ok 3 ()) := by decide
  cases h1 : IOp.exec (sprog0 ++ [.add (some 0)]) (World.init heap0) with
  | none => rw [h1] at e1; simp at e1
  | some w1 =>
    cases h2 : IOp.exec (sprog0 ++ [.add (some 1), .add (some 0), .remove (some 1)]) (World.init heap0) with
    | none => rw [h2] at e2; simp at e2
    | some w2 =>
      rw [h1] at e1; rw [h2] at e2
      simp only [Option.map_some, Option.some.injEq, Prod.mk.injEq] at e1 e2
      refine ⟨w1, w2, reach_of_exec h1, reach_of_exec h2, ?_, ?_, by rw [e1.1, e2.1], by rw [e1.2.1, e2.2.1]; decide,
        by rw [e1.2.2, e2.2.2]; decide⟩
      · have := Option.some.inj (h1.symm.trans rfl); have := Option.some.inj (h2.symm.trans rfl); subst_vars; rfl
      · have := Option.some.inj (h1.symm.trans rfl); have := Option.some.inj (h2.symm.trans rfl); subst_vars; rfl

set_option synthInstance.maxSize 1000 in
/-- These two histories meet the hypotheses of `C129_determined_by_batches`, and so does re-offering in another order. -/
example : ((IOp.exec iprog0 (World.init heap0)).bind fun w => (offerAll w.B [1, 0] IncProblem.empty).map fun q =>
    (w.inc.problems, q.problems, w.inc.ordering, q.ordering, w.inc.numDesignVariables, q.numDesignVariables)) =
    some ([0, 1], [1, 0], [2, 1, 0], [0, 2, 1], 5, 5) := by decide

end Verif
