import Verif.Model.Ownership
import Verif.Props.Ownership
import Verif.Props.Refused

/-!
# C150, for the estimator: the variables its problem points to are held by its batches
-/

namespace Verif
variable {V F M : Type _}

/-- a shared pointer to the variable is in a batch the problem holds: it exists whatever the client has released. -/
def HeldBy (B : BatchId → OptProblem V) (q : IncProblem V) (d : DVId) : Prop := ∃ b ∈ q.problems, (B b).isDVInProblem d = true

theorem held_of_keys {w : World V} (hw : WInv w) {d : DVId} (hd : d ∈ AL.keys w.inc.counts) : HeldBy w.B w.inc d := by
  have h0 : 0 < useCount w.B w.inc.problems d := by
    rcases Nat.eq_zero_or_pos (useCount w.B w.inc.problems d) with h0 | h0
    · exact absurd hd ((AL.get_eq_none_iff _ _).1 ((hw.zero d).2 h0))
    · exact h0
  obtain ⟨b, hb, hd⟩ := useCount_pos_iff.1 h0
  exact ⟨b, hb, by rw [OptProblem.isDVInProblem, AL.has_iff]; exact hd⟩

theorem held_of_winv {w : World V} (hw : WInv w) :
    (∀ d, w.inc.isDVInProblem d = true → HeldBy w.B w.inc d) ∧
    (∀ i d, w.inc.designVariable i = .ok d () → HeldBy w.B w.inc d) ∧
    (∀ g l, w.inc.getGroup g = .ok l () → ∀ d ∈ l, HeldBy w.B w.inc d) ∧
    (∀ b ∈ w.inc.problems, ∀ e, (w.B b).isETInProblem e = true → ∀ d ∈ w.heap.etDVs e, HeldBy w.B w.inc d) := by
  have h1 : ∀ d, w.inc.isDVInProblem d = true → HeldBy w.B w.inc d := fun d hd =>
    held_of_keys hw (by rwa [IncProblem.isDVInProblem, AL.has_iff] at hd)
  have hgrp : ∀ g l, AL.get g w.inc.groups = some l → ∀ d ∈ l, HeldBy w.B w.inc d := by
    intro g l hg d hd
    have := (hw.g.mem g l hg d).1 hd
    refine held_of_keys hw ((AL.mem_keys_iff _ _).2 ?_)
    cases hc : AL.get d w.inc.counts with
    | none => rw [hc] at this; cases this
    | some v => exact ⟨v, rfl⟩
  refine ⟨h1, ?_, ?_, ?_⟩
  · intro i d hd
    rw [inc_designVariable_eq hw i] at hd
    cases hg : (enumDV w.inc.groups w.inc.ordering)[i]? with
    | none => rw [hg] at hd; cases hd
    | some d' =>
      rw [hg] at hd
      simp only [Res.ok.injEq, and_true] at hd
      subst hd
      obtain ⟨g, -, hm⟩ := List.mem_flatMap.1 (List.mem_of_getElem? hg)
      cases hgg : AL.get g w.inc.groups with
      | none => rw [hgg] at hm; simp at hm
      | some l => rw [hgg] at hm; exact hgrp g l hgg _ hm
  · intro g l hl d hd
    unfold IncProblem.getGroup at hl
    split at hl
    · rename_i l' hg
      simp only [Res.ok.injEq, and_true] at hl
      subst hl
      exact hgrp g _ hg d hd
    · cases hl
  · intro b hb e he d hd
    exact ⟨b, hb, inBatch_iff.2 ((hw.batches b).cl e (by simpa [OptProblem.isETInProblem] using he) d hd)⟩

/-- **C150** (partial), for the estimator: after any regular calls, and whenever the optimizer is run, every variable the estimator's problem has,
enumerates, lists in a group, would restore, or that a contained error term points to, is held by a batch in the problem: it exists whatever the
client has released. -/
theorem C150_estimator_partial {D : Dbl F} {m0 : M} {mo : F} {g : GroupId} {o : EstOptions F} {h0 : Heap V} {w : EWorld V F M}
    (h : EReach D m0 (EWorld.fresh D mo m0 g o h0) w) :
    (∀ d ∈ AL.keys w.est.inc.backup, HeldBy w.B w.est.inc d) ∧
    ∀ x ∈ (⟨w.B, w.est.inc, w.heap⟩ : World V) :: w.est.calls.map fun c => ⟨c.B, c.inc, c.heap⟩,
      (∀ d, x.inc.isDVInProblem d = true → HeldBy x.B x.inc d) ∧
      (∀ i d, x.inc.designVariable i = .ok d () → HeldBy x.B x.inc d) ∧
      (∀ g l, x.inc.getGroup g = .ok l () → ∀ d ∈ l, HeldBy x.B x.inc d) ∧
      (∀ b ∈ x.inc.problems, ∀ e, (x.B b).isETInProblem e = true → ∀ d ∈ x.heap.etDVs e, HeldBy x.B x.inc d) := by
  have hi := h.inv
  refine ⟨fun d hd => held_of_keys (w := w.toWorld) hi.winv (hi.bk d hd), ?_⟩
  intro x hx
  rcases List.mem_cons.1 hx with rfl | hx
  · exact held_of_winv (w := w.toWorld) hi.winv
  · obtain ⟨c, hc, rfl⟩ := List.mem_map.1 hx
    exact held_of_winv (hi.log c hc).1

/-- **C150** (what is wrong, for the estimator): in any regular history let a batch be offered whose groups agree, with an error term that is already in
and a variable that no contained batch has.  The call throws; the variable is in the estimator's problem, with no batch in the problem holding it. -/
theorem C150_estimator_refused {D : Dbl F} {m0 : M} {mo : F} {g0 : GroupId} {o : EstOptions F} {h0 : Heap V} {w : EWorld V F M}
    (h : EReach D m0 (EWorld.fresh D mo m0 g0 o h0) w) {b : BatchId}
    (hgroups : ∀ d g g', (w.B b).getGroupId d = .ok g () → w.est.inc.getGroupId d = .ok g' () → g' = g)
    (hdup : ∃ e, (w.B b).isETInProblem e = true ∧ w.est.inc.isETInProblem w.B e = true)
    {d : DVId} (hd : (w.B b).isDVInProblem d = true) (hnew : ∀ b' ∈ w.est.inc.problems, (w.B b').isDVInProblem d = false)
    (oracle : OptInput V → OptCall V F M) (buildOk force : Bool) :
    ∃ w1, w.addBatch D m0 oracle buildOk (some b) force = .throw .invalidOperation w1 ∧
      w1.est.inc.isDVInProblem d = true ∧ ¬ HeldBy w1.B w1.est.inc d := by
  obtain ⟨e, he, hin⟩ := hdup
  obtain ⟨q', hadd, hp, hleak⟩ := add_dup_leak h.inv.winv (b := b)
    (fun d g hg c g' hc => hgroups d g g' ((getGroupId_lookup _ _ _).2 hg)
      (by rw [inc_getGroupId_iff, show AL.get d w.est.inc.counts = _ from hc]; rfl))
    (e := e) (show e ∈ (w.B b).etLookup by simpa [OptProblem.isETInProblem] using he) hin
  have hadd' : w.est.inc.add w.B (some b) = .throw .invalidOperation q' := hadd
  refine ⟨w.setInc q', by simp only [EWorld.addBatch, hadd', Res.mapState, Res.bind], ?_, ?_⟩
  · obtain ⟨c, g, r1, -⟩ := hleak d ((AL.has_iff _ _).1 hd)
    exact (AL.has_iff _ _).2 ((AL.mem_keys_iff _ _).2 ⟨_, r1⟩)
  · rintro ⟨b', hb', hdb⟩
    have hb2 : b' ∈ w.est.inc.problems := by rw [← show q'.problems = w.est.inc.problems from hp]; exact hb'
    have := hnew b' hb2
    rw [show (w.setInc q').B = w.B from rfl] at hdb
    rw [this] at hdb
    cases hdb

/-- batch 0, contained; batch 1 has a variable of its own and an error term of batch 0. -/
def oprog : List (EOp Nat Int Nat) :=
  [.batch 0 (.addDV (some 5) 1), .batch 0 (.addDV (some 3) 0), .batch 0 (.addDV (some 4) 0), .batch 0 (.addET (some 3)),
   .batch 1 (.addDV (some 5) 1), .batch 1 (.addDV (some 3) 0), .batch 1 (.addDV (some 4) 0), .batch 1 (.addET (some 3)),
   .batch 1 (.addDV (some 9) 1), .addBatch (some 0) false (oracle0 8 1 5) true]

set_option synthInstance.maxSize 1000 in
/-- non-vacuity of both: the contained variables are held; the hypotheses of the second theorem hold for batch 1 and variable 9. -/
example : ∃ w, EReach dblInt 0 est0 w ∧ w.est.inc.isDVInProblem 3 = true ∧ w.est.calls.length = 1 ∧
    (∀ d g g', (w.B 1).getGroupId d = .ok g () → w.est.inc.getGroupId d = .ok g' () → g' = g) ∧
    (∃ e, (w.B 1).isETInProblem e = true ∧ w.est.inc.isETInProblem w.B e = true) ∧
    (w.B 1).isDVInProblem 9 = true ∧ ∀ b' ∈ w.est.inc.problems, (w.B b').isDVInProblem 9 = false := by
  have hr : ((EOp.run dblInt 0 oprog est0).map
      fun x => ((x.2.B 1).lookup, x.2.est.inc.counts, (x.2.B 1).isETInProblem 3, x.2.est.inc.isETInProblem x.2.B 3,
        x.2.est.inc.isDVInProblem 3, x.2.est.calls.length, x.2.est.inc.problems, (x.2.B 0).isDVInProblem 9)) =
      some ([(5, 1), (3, 0), (4, 0), (9, 1)], [(5, 1, 1), (3, 1, 0), (4, 1, 0)], true, true, true, 1, [0], false) := by decide
  cases hw : EOp.run dblInt 0 oprog est0 with
  | none => rw [hw] at hr; simp at hr
  | some x =>
    rw [hw] at hr
    simp only [Option.map_some, Option.some.injEq, Prod.mk.injEq] at hr
    obtain ⟨k1, k2, k3, k4, k5, k6, k7, k8⟩ := hr
    refine ⟨x.2, reach_of_run .init hw, k5, k6, ?_, ⟨3, k3, k4⟩, ?_, ?_⟩
    · intro d g g' h1 h2
      rw [getGroupId_lookup, k1] at h1
      rw [inc_getGroupId_iff, k2] at h2
      simp only [AL.get_cons, AL.get_nil] at h1 h2
      clear k1 k2 k3 k4 k5 k6 k7 k8 hw
      by_cases z : 9 = d
      · subst z; simp at h2
      by_cases a : 5 = d
      · subst a; simp at h1 h2; rw [← h1, ← h2]
      by_cases b : 3 = d
      · subst b; simp at h1 h2; rw [← h1, ← h2]
      by_cases c : 4 = d
      · subst c; simp at h1 h2; rw [← h1, ← h2]
      · simp [z, a, b, c] at h1
    · rw [OptProblem.isDVInProblem, k1]; rfl
    · rw [k7]; simpa using k8

end Verif
