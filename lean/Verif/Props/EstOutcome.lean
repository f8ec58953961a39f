import Verif.Spec.EstOutcome
import Verif.Props.Estimator

/-! C127: how calls on the estimator end. -/

namespace Verif
variable {V F M : Type _}

/-- A group is listed iff some batch has a variable of it. -/
theorem WInv.lack_iff {w : EWorld V F M} (hw : WInv w.toWorld) (g : GroupId) :
    g ∉ w.est.inc.ordering ↔ w.Lack g w.est.inc.problems := by
  have h1 := hw.g.mem_ordering_iff g
  have h2 := fun d => hw.group_iff d g
  change g ∈ w.est.inc.ordering ↔ _ at h1
  rw [h1]
  simp only [h2]
  constructor
  · intro h b hb d hd
    exact h ⟨d, b, hb, hd⟩
  · rintro h ⟨d, b, hb, hd⟩
    exact h b hb d hd

/-- What a batch clashes with is what the incremental problem refuses. -/
theorem WInv.clash_iff {w : EWorld V F M} (hw : WInv w.toWorld) (hn : w.est.inc.problems.length < IncProblem.maxBatches)
    (b : BatchId) : Addable w.B w.est.inc (w.B b) ↔ ¬ w.Clash b := by
  have h2 := fun d g => hw.group_iff d g
  have hh := fun b d g => holds_iff w.toWorld b d g
  constructor
  · rintro ⟨ha, hb, -⟩ (⟨b', hb', d, g, g', h1, h2', hne⟩ | ⟨b', hb', e, h1, h2'⟩)
    · have h3 : AL.get d (w.B b).lookup = Option.some g := (hh b d g).1 h1
      have h4 := (h2 d g').2 ⟨b', hb', h2'⟩
      cases hc : AL.get d w.toWorld.inc.counts with
      | none => rw [hc] at h4; simp at h4
      | some x =>
        obtain ⟨c, g''⟩ := x
        rw [hc] at h4; simp at h4; subst h4
        exact hne (ha d g h3 c g'' hc)
    · simp only [OptProblem.isETInProblem, decide_eq_true_eq] at h1 h2'
      exact hb e (by simpa using h1) b' hb' (by simpa using h2')
  · intro hc
    refine ⟨fun d g hd c g' hcnt => ?_, fun e he b' hb' he' => ?_, hn⟩
    · by_contra hne
      have h4 : Option.map Prod.snd (AL.get d w.toWorld.inc.counts) = Option.some g' := by
        change Option.map Prod.snd (AL.get d w.est.inc.counts) = Option.some g'
        rw [hcnt]; rfl
      obtain ⟨b', hb', hd'⟩ := (h2 d g').1 h4
      exact hc (.inl ⟨b', hb', d, g, g', (hh b d g).2 hd, hd', hne⟩)
    · exact hc (.inr ⟨b', hb', e, by simpa [OptProblem.isETInProblem] using he,
        by simpa [OptProblem.isETInProblem] using he'⟩)

/-- How `reoptimize` ends. -/
theorem reoptimize_ends {D : Dbl F} {m0 : M} {oracle : OptInput V → OptCall V F M} {w : EWorld V F M} (hw : EInv w) :
    (w.Lack w.est.margGroup w.est.inc.problems ∧ w.reoptimize D m0 oracle = .throw .invalidOperation w) ∨
    (¬ w.Lack w.est.margGroup w.est.inc.problems ∧
      ((∃ i, ((oracle i).report = none ∨ (oracle i).marginal = none)) ∧
        (∃ w', w.reoptimize D m0 oracle = .throw .external w') ∨ ∃ r w', w.reoptimize D m0 oracle = .ok r w')) := by
  have hl := hw.winv.lack_iff w.est.margGroup
  rcases reoptimize_eff (D := D) (m0 := m0) (oracle := oracle) hw with ⟨h1, h2⟩ | ⟨h1, call, hc, h2⟩
  · exact .inl ⟨hl.1 h1, h2⟩
  · refine .inr ⟨fun h => hl.2 h h1, ?_⟩
    rw [h2]
    rcases hrep : call.report with _ | ⟨srv, sc⟩
    · exact .inl ⟨⟨_, .inl (hc ▸ hrep)⟩, _, rfl⟩
    · simp only
      rcases hmg : call.marginal with _ | mg
      · exact .inl ⟨⟨_, .inr (hc ▸ hmg)⟩, _, rfl⟩
      · exact .inr ⟨_, _, rfl⟩

/-- How `removeBatch(i)` ends. -/
theorem removeBatchIdx_ends {D : Dbl F} {m0 : M} {oracle : OptInput V → OptCall V F M} {w : EWorld V F M}
    (hw : EInv w) (i : Nat) :
    (w.est.inc.problems.length ≤ i ∧ w.removeBatchIdx D m0 oracle i = .throw .outOfBound w) ∨
    (i < w.est.inc.problems.length ∧ w.Lack w.est.margGroup (w.est.inc.problems.eraseIdx i) ∧
      ∃ w', w.removeBatchIdx D m0 oracle i = .throw .invalidOperation w') ∨
    (i < w.est.inc.problems.length ∧ ¬ w.Lack w.est.margGroup (w.est.inc.problems.eraseIdx i) ∧
      ((∃ i, ((oracle i).report = none ∨ (oracle i).marginal = none)) ∧
        (∃ w', w.removeBatchIdx D m0 oracle i = .throw .external w') ∨
        ∃ w', w.removeBatchIdx D m0 oracle i = .ok () w')) := by
  unfold EWorld.removeBatchIdx
  cases hidx : w.est.inc.problems[i]? with
  | none =>
    left
    refine ⟨by simpa using hidx, ?_⟩
    simp [IncProblem.removeIdx, hidx, Res.mapState, Res.bind, EWorld.setInc]
  | some b =>
    right
    have hi : i < w.est.inc.problems.length := (List.getElem?_eq_some_iff.1 hidx).1
    obtain ⟨q2, h2, hr⟩ := removeIdx_ok hw.winv hidx
    have h2' : w.est.inc.removeIdx w.B i = .ok () q2 := h2
    have hw2 := hw.rem hidx hr
    rw [h2']
    simp only [Res.mapState, Res.bind]
    have hp : (w.setInc q2).est.inc.problems = w.est.inc.problems.eraseIdx i := hr.problems
    rcases reoptimize_ends (D := D) (m0 := m0) (oracle := oracle) hw2 with ⟨h3, h4⟩ | ⟨h3, h4⟩
    · rw [hp] at h3
      exact .inl ⟨hi, h3, _, by rw [h4]⟩
    · rw [hp] at h3
      refine .inr ⟨hi, h3, ?_⟩
      rcases h4 with ⟨h5, w', h6⟩ | ⟨r, w', h6⟩
      · exact .inl ⟨h5, _, by rw [h6]⟩
      · exact .inr ⟨_, by rw [h6]⟩

theorem EInv.calls_end {D : Dbl F} {m0 : M} {w : EWorld V F M} (hw : EInv w)
    (hn : w.est.inc.problems.length < IncProblem.maxBatches) (op : EOp V F M) (hop : ∀ b bop, op ≠ .batch b bop) :
    (∀ e, Refused w op e → ∃ w', op.step D m0 w = .throw e w') ∧
    ((∀ e, ¬ Refused w op e) → ¬ op.Unreliable → ∃ r w', op.step D m0 w = .ok r w') ∧
    ((∀ e, ¬ Refused w op e) → op.Unreliable →
      (∃ r w', op.step D m0 w = .ok r w') ∨ ∃ w', op.step D m0 w = .throw .external w') := by
  cases op with
  | addBatch b force oracle buildOk =>
    cases b with
    | none =>
      have hs : (EOp.addBatch none force oracle buildOk : EOp V F M).step D m0 w = .throw .nullPointer w := by
        simp [EOp.step, EWorld.addBatch, IncProblem.add, Res.mapState, Res.bind, EWorld.setInc]
      refine ⟨fun e he => ?_, fun hno => absurd (.null force oracle buildOk) (hno _),
        fun hno => absurd (.null force oracle buildOk) (hno _)⟩
      cases he
      exact ⟨_, hs⟩
    | some b =>
      by_cases hc : w.Clash b
      · have ha : ¬ Addable w.B w.est.inc (w.B b) := fun ha => (hw.winv.clash_iff hn b).1 ha hc
        obtain ⟨e, q', he, hex⟩ := add_not_ok hw.winv ha
        have he' : w.est.inc.add w.B (some b) = .throw e q' := he
        have := hex hn
        subst this
        have hs : (EOp.addBatch (some b) force oracle buildOk : EOp V F M).step D m0 w =
            .throw .invalidOperation (w.setInc q') := by
          simp [EOp.step, EWorld.addBatch, he', Res.mapState, Res.bind]
        refine ⟨fun e he => ?_, fun hno => absurd (.clash b force oracle buildOk hc) (hno _),
          fun hno => absurd (.clash b force oracle buildOk hc) (hno _)⟩
        cases he <;> exact ⟨_, hs⟩
      · have ha := (hw.winv.clash_iff hn b).2 hc
        obtain ⟨q1, hadd, hr, heff⟩ := addBatch_eff D m0 oracle buildOk hw.winv ha force
        have hw1 : WInv (w.setInc q1).toWorld := hr.inv hw.winv ha
        have hlack : w.est.margGroup ∉ q1.ordering ↔ w.Lack w.est.margGroup (w.est.inc.problems ++ [b]) := by
          have := hw1.lack_iff w.est.margGroup
          have hp : (w.setInc q1).est.inc.problems = w.est.inc.problems ++ [b] := hr.problems
          rw [hp] at this
          exact this
        by_cases hm : w.est.margGroup ∈ q1.ordering
        · have hno : ∀ e, ¬ Refused w (.addBatch (some b) force oracle buildOk) e := by
            intro e he
            cases he with
            | clash _ _ _ _ h => exact hc h
            | addLack _ _ _ _ h => exact hlack.2 h hm
          have key : (∃ r w', w.addBatch D m0 oracle buildOk (some b) force = .ok r w') ∨
              ((EOp.addBatch (some b) force oracle buildOk : EOp V F M).Unreliable ∧
                ∃ w', w.addBatch D m0 oracle buildOk (some b) force = .throw .external w') := by
            generalize w.addBatch D m0 oracle buildOk (some b) force = r at heff
            cases heff with
            | noMarg hm' => exact absurd hm hm'
            | optThrows call hcall hm' ht => exact .inr ⟨.inl ⟨_, hcall ▸ ht⟩, _, rfl⟩
            | kept call srv sc mg gain hcall hm' h1 h2 hg hk => exact .inl ⟨_, _, rfl⟩
            | rejected call srv sc mg gain idx h5 q2 L hcall hm' h1 h2 hg hk hh hi hq2 hr2 hL r hres =>
              simp only at hres
              split at hres
              · exact .inl ⟨_, _, hres⟩
              · rename_i hcond
                exact .inr ⟨.inr (by cases buildOk <;> simp_all), _, hres⟩
          refine ⟨fun e he => absurd he (hno e), fun _ hrel => ?_, fun _ _ => ?_⟩
          · rcases key with ⟨r, w', hs⟩ | ⟨hu, -⟩
            · exact ⟨_, _, by simp only [EOp.step, hs, Res.bind]; rfl⟩
            · exact absurd hu hrel
          · rcases key with ⟨r, w', hs⟩ | ⟨-, w', hs⟩
            · exact .inl ⟨_, _, by simp only [EOp.step, hs, Res.bind]; rfl⟩
            · exact .inr ⟨_, by simp only [EOp.step, hs, Res.bind]; rfl⟩
        · have hL := hlack.1 hm
          have hs : w.addBatch D m0 oracle buildOk (some b) force = .throw .invalidOperation (w.setInc q1) := by
            generalize w.addBatch D m0 oracle buildOk (some b) force = r at heff
            cases heff with
            | noMarg hm' => rfl
            | optThrows call hcall hm' ht => exact absurd hm' hm
            | kept call srv sc mg gain hcall hm' h1 h2 hg hk => exact absurd hm' hm
            | rejected call srv sc mg gain idx h5 q2 L hcall hm' h1 h2 hg hk hh hi hq2 hr2 hL r hres =>
              exact absurd hm' hm
          refine ⟨fun e he => ?_, fun hno => absurd (.addLack b force oracle buildOk hL) (hno _),
            fun hno => absurd (.addLack b force oracle buildOk hL) (hno _)⟩
          cases he <;> exact ⟨_, by simp only [EOp.step, hs, Res.bind]; rfl⟩
  | reoptimize oracle =>
    rcases reoptimize_ends (D := D) (m0 := m0) (oracle := oracle) hw with ⟨h1, h2⟩ | ⟨h1, h2⟩
    · refine ⟨fun e he => ?_, fun hno => absurd (.lack oracle h1) (hno _), fun hno => absurd (.lack oracle h1) (hno _)⟩
      cases he
      exact ⟨_, by simp only [EOp.step, h2, Res.bind]; rfl⟩
    · refine ⟨fun e he => ?_, fun _ hrel => ?_, fun _ _ => ?_⟩
      · cases he with | lack _ h => exact absurd h h1
      · rcases h2 with ⟨hu, -⟩ | ⟨r, w', hs⟩
        · exact absurd hu hrel
        · exact ⟨_, _, by simp only [EOp.step, hs, Res.bind]; rfl⟩
      · rcases h2 with ⟨-, w', hs⟩ | ⟨r, w', hs⟩
        · exact .inr ⟨_, by simp only [EOp.step, hs, Res.bind]; rfl⟩
        · exact .inl ⟨_, _, by simp only [EOp.step, hs, Res.bind]; rfl⟩
  | removeBatchIdx i oracle =>
    rcases removeBatchIdx_ends (D := D) (m0 := m0) (oracle := oracle) hw i with
      ⟨h1, h2⟩ | ⟨h0, h1, w', h2⟩ | ⟨h0, h1, h2⟩
    · refine ⟨fun e he => ?_, fun hno => absurd (.index i oracle h1) (hno _),
        fun hno => absurd (.index i oracle h1) (hno _)⟩
      cases he with
      | index _ _ _ => exact ⟨_, by simp only [EOp.step, h2, Res.bind]; rfl⟩
      | idxLack _ _ hi _ => omega
    · refine ⟨fun e he => ?_, fun hno => absurd (.idxLack i oracle h0 h1) (hno _),
        fun hno => absurd (.idxLack i oracle h0 h1) (hno _)⟩
      cases he with
      | index _ _ hi => omega
      | idxLack _ _ _ _ => exact ⟨_, by simp only [EOp.step, h2, Res.bind]; rfl⟩
    · refine ⟨fun e he => ?_, fun _ hrel => ?_, fun _ _ => ?_⟩
      · cases he with
        | index _ _ hi => omega
        | idxLack _ _ _ h => exact absurd h h1
      · rcases h2 with ⟨hu, -⟩ | ⟨w', hs⟩
        · exact absurd hu hrel
        · exact ⟨_, _, by simp only [EOp.step, hs, Res.bind]; rfl⟩
      · rcases h2 with ⟨-, w', hs⟩ | ⟨w', hs⟩
        · exact .inr ⟨_, by simp only [EOp.step, hs, Res.bind]; rfl⟩
        · exact .inl ⟨_, _, by simp only [EOp.step, hs, Res.bind]; rfl⟩
  | removeBatch b oracle =>
    cases hf : b.bind w.est.inc.findProblem with
    | none =>
      have hs : (EOp.removeBatch b oracle : EOp V F M).step D m0 w = .ok none w := by
        simp [EOp.step, EWorld.removeBatch, hf, Res.bind]
      refine ⟨fun e he => ?_, fun _ _ => ⟨_, _, hs⟩, fun _ _ => .inl ⟨_, _, hs⟩⟩
      cases he with
      | remLack b _ hb _ => exact absurd hb (findIdx_none hf)
    | some i =>
      cases b with
      | none => simp at hf
      | some b =>
        have hf' : w.est.inc.problems.findIdx? (· == b) = some i := hf
        have hi := (findIdx_some hf').1
        have hb : b ∈ w.est.inc.problems := List.mem_of_getElem? hi
        have hlt : i < w.est.inc.problems.length := (List.getElem?_eq_some_iff.1 hi).1
        have her : w.est.inc.problems.erase b = w.est.inc.problems.eraseIdx i := by
          rw [List.erase_eq_eraseIdx]
          have : w.est.inc.problems.idxOf? b = some i := by rw [List.idxOf?]; exact hf'
          rw [this]
        have hs : w.removeBatch D m0 oracle (some b) = w.removeBatchIdx D m0 oracle i := by
          simp only [EWorld.removeBatch, hf]
        rcases removeBatchIdx_ends (D := D) (m0 := m0) (oracle := oracle) hw i with
          ⟨h1, h2⟩ | ⟨h0, h1, w', h2⟩ | ⟨h0, h1, h2⟩
        · omega
        · rw [← her] at h1
          refine ⟨fun e he => ?_, fun hno => absurd (.remLack b oracle hb h1) (hno _),
            fun hno => absurd (.remLack b oracle hb h1) (hno _)⟩
          cases he
          exact ⟨_, by simp only [EOp.step, hs, h2, Res.bind]; rfl⟩
        · rw [← her] at h1
          refine ⟨fun e he => ?_, fun _ hrel => ?_, fun _ _ => ?_⟩
          · cases he with
            | remLack _ _ _ h => exact absurd h h1
          · rcases h2 with ⟨hu, -⟩ | ⟨w', h2⟩
            · exact absurd hu hrel
            · exact ⟨_, _, by simp only [EOp.step, hs, h2, Res.bind]; rfl⟩
          · rcases h2 with ⟨-, w', h2⟩ | ⟨w', h2⟩
            · exact .inr ⟨_, by simp only [EOp.step, hs, h2, Res.bind]; rfl⟩
            · exact .inl ⟨_, _, by simp only [EOp.step, hs, h2, Res.bind]; rfl⟩
  | setOptions o =>
    refine ⟨fun e he => (by cases he), fun _ _ => ⟨_, _, rfl⟩, fun _ _ => .inl ⟨_, _, rfl⟩⟩
  | batch b bop => exact absurd rfl (hop b bop)

/-- **C127.** Whatever calls were made before, every call on the estimator returns or throws: it throws the
documented exception when it breaks one of the rules listed in `Refused`; it returns when it breaks none and the
optimizer and the solver do not throw; and if these throw, that exception is all the caller sees. -/
theorem C127_estimator_calls_end {D : Dbl F} {m0 : M} {mo : F} {g : GroupId} {o : EstOptions F} {h0 : Heap V}
    {w : EWorld V F M} (h : EReach D m0 (EWorld.fresh D mo m0 g o h0) w)
    (hn : w.getNumBatches < IncProblem.maxBatches) (op : EOp V F M) (hop : ∀ b bop, op ≠ .batch b bop) :
    (∀ e, Refused w op e → ∃ w', op.step D m0 w = .throw e w') ∧
    ((∀ e, ¬ Refused w op e) → ¬ op.Unreliable → ∃ r w', op.step D m0 w = .ok r w') ∧
    ((∀ e, ¬ Refused w op e) → op.Unreliable →
      (∃ r w', op.step D m0 w = .ok r w') ∨ ∃ w', op.step D m0 w = .throw .external w') :=
  h.inv.calls_end hn op hop

/-- The exception a call throws. -/
def Res.thrown {σ α : Type _} : Res σ α → Option Exc
  | .throw e _ => some e
  | _ => none

/-- All rows of the table occur: after `eprog0` (batch 0 in, batch 1 offered and rejected) and a batch 3 that has
variable 3 in another group. -/
example : ((EOp.run dblInt 0 (eprog0 ++ [.batch 3 (.addDV (some 3) 1)]) est0).map fun x =>
    ([.addBatch none true (oracle0 1 1 1) true, .addBatch (some 3) true (oracle0 1 1 1) true,
      .addBatch (some 0) true (oracle0 1 1 1) true, .reoptimize oracleThrow,
      .removeBatchIdx 1 (oracle0 1 1 1), .removeBatchIdx 0 (oracle0 1 1 1),
      .removeBatch (some 0) (oracle0 1 1 1)] : List (EOp Nat Int Nat)).map
      fun op => (op.step dblInt 0 x.2).thrown) =
    some [some .nullPointer, some .invalidOperation, some .invalidOperation, some .external, some .outOfBound,
      some .invalidOperation, some .invalidOperation] := by decide

example : ((EOp.run dblInt 0 (eprog0 ++ [.batch 3 (.addDV (some 3) 1)]) est0).map fun x =>
    ([.addBatch (some 1) true (oracle0 1 1 1) true, .addBatch (some 2) false (oracle0 0 0 1) true,
      .reoptimize (oracle0 1 1 1), .removeBatch (some 1) oracleThrow, .removeBatch none oracleThrow,
      .setOptions estOpts0] : List (EOp Nat Int Nat)).map
      fun op => (op.step dblInt 0 x.2).isOk) = some [true, true, true, true, true, true] := by decide

/-- The rules are met or broken in that state as `Refused` says: batch 3 clashes, batch 1 does not. -/
example : ∃ (w : EWorld Nat Int Nat), EReach dblInt 0 est0 w ∧ w.getNumBatches = 1 ∧
    w.Clash 3 ∧ ¬ w.Clash 1 ∧ ¬ w.Lack 1 [0] ∧ w.Lack 1 [2] := by
  have h : (EOp.run dblInt 0 (eprog0 ++ [.batch 3 (.addDV (some 3) 1)]) est0).isSome = true := by decide
  obtain ⟨⟨os, w⟩, hw⟩ := Option.isSome_iff_exists.1 h
  have hr := reach_of_run .init hw
  have hf : ∀ {P : EWorld Nat Int Nat → Bool},
      (EOp.run dblInt 0 (eprog0 ++ [.batch 3 (.addDV (some 3) 1)]) est0).all (fun x => P x.2) = true → P w = true := by
    intro P hP
    rw [hw] at hP
    simpa using hP
  refine ⟨w, hr, ?_, ?_, ?_, ?_, ?_⟩
  · have := hf (P := fun w => decide (w.getNumBatches = 1)) (by decide)
    simpa using this
  · have h0 := hf (P := fun w => decide (w.est.inc.problems = [0])) (by decide)
    have h1 := hf (P := fun w => decide ((w.B 3).getGroupId 3 = .ok 1 ())) (by decide)
    have h2 := hf (P := fun w => decide ((w.B 0).getGroupId 3 = .ok 0 ())) (by decide)
    simp only [decide_eq_true_eq] at h0 h1 h2
    exact .inl ⟨0, by simp [h0], 3, 1, 0, h1, h2, by decide⟩
  · have h1 := hf (P := fun w => (w.est.inc.add w.B (some 1)).isOk) (by decide)
    have hwi : EInv w := EReach.inv (mo := -1) hr
    have h0 := hf (P := fun w => decide (w.est.inc.problems = [0])) (by decide)
    simp only [decide_eq_true_eq] at h0
    exact (hwi.winv.clash_iff (by rw [h0]; decide) 1).1 (addable_of_isOk hwi.winv h1)
  · have h2 := hf (P := fun w => decide ((w.B 0).getGroupId 5 = .ok 1 ())) (by decide)
    simp only [decide_eq_true_eq] at h2
    exact fun hl => hl 0 (by simp) 5 h2
  · have h2 := hf (P := fun w => decide ((w.B 2).lookup = [(6, 7)])) (by decide)
    simp only [decide_eq_true_eq] at h2
    intro b hb d hd
    simp only [List.mem_singleton] at hb
    subst hb
    have := (holds_iff w.toWorld 2 d 1).1 hd
    change AL.get d (w.B 2).lookup = some 1 at this
    rw [h2] at this
    have := AL.get_mem this
    simp at this

end Verif
