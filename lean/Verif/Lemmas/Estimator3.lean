import Verif.Lemmas.Estimator2

/-! A rejected batch leaves no trace, for any well-formed estimator. -/

namespace Verif
variable {V F M : Type _}

theorem EInv.rejected {D : Dbl F} {m0 : M} {w w' : EWorld V F M} (hw : EInv w)
    {b : BatchId} {force buildOk : Bool} {oracle : OptInput V → OptCall V F M} {r : RetVal F M}
    (hnew : b ∉ w.est.inc.problems ∨ (w.B b).numErrorTerms > 0)
    (hres : w.addBatch D m0 oracle buildOk (some b) force = .ok r w') (hrej : r.batchAccepted = false) :
    w'.B = w.B ∧ w'.est.inc.problems = w.est.inc.problems ∧ w'.getNumBatches = w.getNumBatches ∧
    w'.est.inc.ordering = w.est.inc.ordering ∧ (∀ g, w'.est.inc.getGroup g = w.est.inc.getGroup g) ∧
    (∀ d, w'.est.inc.isDVInProblem d = w.est.inc.isDVInProblem d) ∧
    (∀ d, w'.est.inc.getGroupId d = w.est.inc.getGroupId d) ∧
    w'.est.inc.numDesignVariables = w.est.inc.numDesignVariables ∧
    (∀ i, w'.est.inc.designVariable i = w.est.inc.designVariable i) ∧
    w'.est.inc.numErrorTerms w'.B = w.est.inc.numErrorTerms w.B ∧
    (∀ i, w'.est.inc.errorTerm w'.B i = w.est.inc.errorTerm w.B i) ∧
    w'.est.stats = w.est.stats ∧ w'.est.options = w.est.options ∧ w'.est.margGroup = w.est.margGroup ∧
    (∀ d, w.est.inc.isDVInProblem d = true ∨ (w.B b).isDVInProblem d = true →
      w'.heap.params d = w.heap.params d) ∧
    (∃ input, w'.est.calls = w.est.calls ++ [input] ∧
      ∀ d, w.est.inc.isDVInProblem d = false → (w.B b).isDVInProblem d = false →
        w'.heap.params d = (oracle input).params d) ∧
    w'.heap.active = w.heap.active ∧ w'.heap.minDim = w.heap.minDim ∧ w'.heap.etDVs = w.heap.etDVs ∧
    w'.heap.etDim = w.heap.etDim := by
  obtain ⟨b', hb', ha⟩ := addBatch_ok_addable hw hres
  obtain rfl : b = b' := by simpa using hb'
  have hnot : b ∉ w.est.inc.problems := by
    rcases hnew with h1 | h1
    · exact h1
    · intro hb
      obtain ⟨e, he⟩ := List.exists_mem_of_length_pos (l := (w.B b).etLookup) h1
      exact ha.2.1 e he b hb he
  obtain ⟨q1, hadd, hr, heff⟩ := addBatch_eff D m0 oracle buildOk hw.winv ha force
  rw [hres] at heff
  cases heff with
  | kept => simp at hrej
  | rejected call srv sc mg gain idx h5 q2 L hc hm h1 h2 hg hk hh hi hq2 hr2 hL r hres =>
    have hforce : force = false := by
      cases force with
      | false => rfl
      | true => simp [EWorld.keep] at hk
    have hw' : w' = ⟨w.B, h5, { w.est with
        inc := q2
        layout := L
        calls := w.est.calls ++ [optInput (optWorld w q1 force)] }⟩ := by
      simp only at hres
      split at hres <;> simp at hres
      exact hres.2
    subst hw'
    have hrest := restoreLoop_rest (optWorld w q1 force).est.inc.backup { w.heap with params := call.params }
    have hw3 := optWorld_winv hw.winv ha hr hm force
    have hw5 : WInv (⟨w.B, (optWorld w q1 force).est.inc, h5⟩ : World V) := by
      have := hw3.heapParams (h' := h5) (by rw [hh]; simp only [EWorld.toWorld, optWorld_heap]; exact hrest.2.2.1)
      simp only [EWorld.toWorld, optWorld_B] at this
      exact this
    obtain ⟨i1, i2, i3, i4⟩ := optWorld_inc w q1 force
    obtain ⟨q2', k1, k2, k3, k4, k5, k6, -⟩ := remove_after (w := w.toWorld)
      (w5 := ⟨w.B, (optWorld w q1 force).est.inc, h5⟩) hw.winv hnot ha hr rfl hw5 i2 i3 i1
    obtain rfl : q2' = q2 := by
      simp only [IncProblem.remove, IncProblem.findProblem, i1, hi, hq2, Res.ok.injEq, true_and] at k1
      exact k1.symm
    have hord : q2'.ordering = w.est.inc.ordering := by
      rw [k6, i4, hr.ordering]
      have hn : (w.est.inc.ordering ++ (w.B b).ordering.filter (fun g => decide (g ∉ w.est.inc.ordering))).Nodup := by
        have := (hr.inv hw.winv ha).g.nodupO
        simp only at this
        rw [hr.ordering] at this; exact this
      have hm' := hm
      rw [hr.ordering] at hm'
      exact margLast_filter hn hm' hw.last
    have henum : enumDV q2'.groups q2'.ordering = enumDV w.est.inc.groups w.est.inc.ordering := by
      rw [hord]; unfold enumDV
      apply List.flatMap_congr
      intro g _; rw [k5]; rfl
    have hlen : q2'.numDesignVariables = w.est.inc.numDesignVariables := by
      have e1 : ∀ (ww : World V) (hww : WInv ww), (enumDV ww.inc.groups ww.inc.ordering).length = ww.inc.numDesignVariables := by
        intro ww hww
        have hp : (enumDV ww.inc.groups ww.inc.ordering).Perm (AL.keys ww.inc.counts) :=
          hww.g.enum_perm hww.nd (fun d => by
            rw [AL.mem_keys_iff]
            cases AL.get d ww.inc.counts <;> simp)
        rw [hp.length_eq]; simp [AL.keys, IncProblem.numDesignVariables]
      exact (e1 _ k2).symm.trans ((congrArg List.length henum).trans (e1 _ hw.winv))
    have hin : ∀ d, d ∈ AL.keys (optWorld w q1 force).est.inc.counts ↔
        w.est.inc.isDVInProblem d = true ∨ (w.B b).isDVInProblem d = true := by
      intro d
      rw [i2, AL.mem_keys_iff, hr.c.cnt, addU]
      have := elems_get (hw.winv.batches b) d
      simp only [EWorld.toWorld] at this
      simp only [IncProblem.isDVInProblem, OptProblem.isDVInProblem, AL.has, EWorld.toWorld, this]
      cases AL.get d (w.B b).lookup <;> cases AL.get d w.est.inc.counts <;> simp
    refine ⟨rfl, k3, by simp only [EWorld.getNumBatches, IncProblem.numProblems]; rw [k3]; rfl, hord, ?_, ?_, ?_, hlen,
      ?_, ?_, ?_, rfl, rfl, rfl, ?_, ⟨_, rfl, ?_⟩, ?_, ?_, ?_, ?_⟩
    · intro g; simp only [IncProblem.getGroup]; rw [k5]; rfl
    · intro d; simp only [IncProblem.isDVInProblem, AL.has]; rw [k4]; rfl
    · intro d; simp only [IncProblem.getGroupId]; rw [k4]; rfl
    · intro i
      have e1 := inc_designVariable_eq k2 i
      have e2 := inc_designVariable_eq hw.winv i
      simp only [EWorld.toWorld, henum] at e1 e2 ⊢
      rw [e1, e2]
    · simp only [IncProblem.numErrorTerms]; rw [k3]; rfl
    · intro i
      simp only [IncProblem.errorTerm]; rw [k3]; rfl
    · intro d hd
      have hk := (hin d).2 hd
      simp only
      rw [hh, IncProblem.restoreDesignVariables, restoreLoop_params (optWorld w q1 force).est.inc.backup hw3.bkn]
      subst hforce
      have : AL.get d (optWorld w q1 false).est.inc.backup = some (w.heap.params d) := by
        simp only [optWorld, Bool.false_eq_true, if_false, EWorld.setInc, IncProblem.saveDesignVariables]
        rw [saveLoop_get]; exact if_pos hk
      rw [this]; rfl
    · intro d hd1 hd2
      simp only
      rw [hh, IncProblem.restoreDesignVariables, restoreLoop_params (optWorld w q1 force).est.inc.backup hw3.bkn]
      have hnk : d ∉ AL.keys (optWorld w q1 force).est.inc.counts := by
        rw [hin]; simp [hd1, hd2]
      have : AL.get d (optWorld w q1 force).est.inc.backup = none := by
        rw [AL.get_eq_none_iff]
        intro hkb
        apply hnk
        subst hforce
        simp only [optWorld, Bool.false_eq_true, if_false, EWorld.setInc, IncProblem.saveDesignVariables] at hkb ⊢
        rcases (saveLoop_keys _ _ _ _).1 hkb with h1 | h1
        · exact h1
        · rw [hr.backup] at h1; exact hr.counts_mono (hw.bk d h1)
      rw [this, hc]; rfl
    all_goals (simp only; rw [hh]; first | exact hrest.1 | exact hrest.2.1 | exact hrest.2.2.1 | exact hrest.2.2.2)

end Verif
