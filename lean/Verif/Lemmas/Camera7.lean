import Verif.Lemmas.Camera6
import Verif.Lemmas.Estimator3
import Verif.Spec.CameraTogether

/-! What a camera calibrator offers comes from one run of the optimizer. -/

namespace Verif
namespace Camera
variable {V F M : Type _}

open Cam

/-- nothing accepted: as constructed; otherwise: the result of one run. -/
structure TogInv (S : Setup V F M) (R : OptInput V → OptCall V F M → Prop) (s : Cam V F M) : Prop where
  opts : s.w.est.options = S.eopts
  no : (∀ x ∈ s.subs, x.accepted = false) → s.w.est.stats = S.start.w.est.stats ∧
    ∀ d ∈ S.lms ++ S.cal, s.w.heap.params d = S.heap.params d
  yes : (∃ x ∈ s.subs, x.accepted = true) → ∃ inp call, R inp call ∧ s.IsResultOf S inp call

theorem mem_calibration {s : Cam V F M} {d : DVId} : d ∈ s.calibration ↔
    d ∈ s.lms ++ s.cal ∨ ∃ x ∈ s.subs, x.accepted = true ∧ d ∈ x.images.flatMap Entry.dvs := by
  unfold Cam.calibration Cam.acceptedImages
  rw [List.mem_append]
  simp only [List.mem_flatMap, List.mem_filter]
  constructor
  · rintro (h | ⟨e, ⟨x, ⟨h1, h2⟩, h3⟩, h4⟩)
    · exact .inl h
    · exact .inr ⟨x, h1, h2, e, h3, h4⟩
  · rintro (h | ⟨x, h1, h2, e, h3, h4⟩)
    · exact .inl h
    · exact .inr ⟨e, ⟨x, ⟨h1, h2⟩, h3⟩, h4⟩

theorem Base.sub_mem {s : Cam V F M} (hs : Base s) {x : Sub V} (hx : x ∈ s.subs) {d : DVId} (hd : d ∈ x.images.flatMap Entry.dvs) :
    d ∈ AL.keys (s.w.B x.batch).lookup :=
  (AL.mem_keys_iff _ _).2 ⟨_, AL.get_of_mem (hs.binv _).lk (((hs.subsOk x hx).2.mem_lookup d _).2 (.inr (.inr ⟨hd, rfl⟩)))⟩

theorem Base.calibration_lt {s : Cam V F M} (hs : Base s) {d : DVId} (hd : d ∈ s.calibration) : d < s.nd := by
  rcases mem_calibration.1 hd with h | ⟨x, hx, -, h⟩
  · exact hs.lt d h
  · exact hs.dvlt _ d (hs.sub_mem hx h)

/-- the variables of the calibration are in the estimator's problem or in the batch that is submitted. -/
theorem EI.calibration_in {s : Cam V F M} (hi : EI s) (hs : Base s) {b : BatchId} {es : List (Entry V)}
    (hc : Contents s.w.heap s.opt.lmGroup s.opt.calGroup s.opt.trGroup s.lms s.cal (s.w.B b) es) {d : DVId} (hd : d ∈ s.calibration) :
    s.w.est.inc.isDVInProblem d = true ∨ (s.w.B b).isDVInProblem d = true := by
  rcases mem_calibration.1 hd with h | ⟨x, hx, ha, h⟩
  · right
    rw [OptProblem.isDVInProblem, AL.has_iff]
    rcases List.mem_append.1 h with h | h
    · exact (AL.mem_keys_iff _ _).2 ⟨_, AL.get_of_mem (hs.binv b).lk ((hc.mem_lookup d _).2 (.inl ⟨h, rfl⟩))⟩
    · exact (AL.mem_keys_iff _ _).2 ⟨_, AL.get_of_mem (hs.binv b).lk ((hc.mem_lookup d _).2 (.inr (.inl ⟨h, rfl⟩)))⟩
  · left
    have hm := hs.sub_mem hx h
    have hz := hi.einv.winv.zero d
    rw [IncProblem.isDVInProblem, AL.has_iff]
    by_contra hn
    have hn' : AL.get d s.w.est.inc.counts = none := (AL.get_eq_none_iff _ _).2 hn
    have h0 := hz.1 hn'
    unfold useCount at h0
    rw [List.countP_eq_zero] at h0
    refine h0 x.batch ?_ ?_
    · show x.batch ∈ s.w.est.inc.problems
      rw [hi.probs]
      exact List.mem_map.2 ⟨x, List.mem_filter.2 ⟨hx, ha⟩, rfl⟩
    · show (s.w.B x.batch).isDVInProblem d = true
      rw [OptProblem.isDVInProblem, AL.has_iff]; exact hm

theorem TogInv.start (S : Setup V F M) (R : OptInput V → OptCall V F M → Prop) : TogInv S R S.start :=
  ⟨rfl, fun _ => ⟨rfl, fun _ _ => rfl⟩, fun ⟨x, hx, _⟩ => by simp [Setup.start, Camera.init] at hx⟩

/-- what does not touch the estimator, the accepted batches and the variables of the calibration. -/
theorem TogInv.congr {S : Setup V F M} {R : OptInput V → OptCall V F M → Prop} {s s' : Cam V F M} (h : TogInv S R s) (hi : EI s)
    (hl1 : s.lms = S.lms) (hl2 : s.cal = S.cal)
    (e1 : s'.subs = s.subs) (e2 : s'.w.est = s.w.est) (e3 : s'.lms = s.lms) (e4 : s'.cal = s.cal)
    (e5 : ∀ d ∈ s.calibration, s'.w.heap.params d = s.w.heap.params d)
    (e6 : ∀ b ∈ s.w.est.inc.problems, s'.w.B b = s.w.B b) : TogInv S R s' := by
  have ec : s'.calibration = s.calibration := by simp [Cam.calibration, Cam.acceptedImages, e1, e3, e4]
  refine ⟨by rw [e2]; exact h.opts, ?_, ?_⟩
  · rw [e1, e2]
    intro hall
    obtain ⟨h1, h2⟩ := h.no hall
    refine ⟨h1, fun d hd => ?_⟩
    rw [e5 d (by rw [mem_calibration, hl1, hl2]; exact .inl hd)]
    exact h2 d hd
  · rw [e1]
    intro hex
    obtain ⟨inp, call, h1, h2⟩ := h.yes hex
    refine ⟨inp, call, h1, ⟨by rw [e2]; exact h2.run, by rw [e1]; exact h2.batches, ?_, ?_, by rw [e2]; exact h2.marginal,
      by rw [e2]; exact h2.report⟩⟩
    · intro b hb
      rw [e6 b (by rw [hi.probs, ← h2.batches]; exact hb)]
      exact h2.contents b hb
    · intro d hd
      rw [ec] at hd
      rw [e5 d hd]; exact h2.values d hd

theorem TogInv.process {S : Setup V F M} {R : OptInput V → OptCall V F M → Prop} {s s' : Cam V F M} {seen : List (Obs V)}
    {oracle : OptInput V → OptCall V F M} {buildOk : Bool} (h : TogInv S R s) (hl : LInv S s seen) (hi : EI s)
    (hR : ∀ i, R i (oracle i)) (ho : (s.processBatch S.D S.m0 oracle buildOk).outcome = some (true, s')) : TogInv S R s' := by
  obtain ⟨-, -, -, e3, e4, -, ⟨-, rfl, -⟩ | ⟨b, hb, ⟨e, w', -, -, h6, -⟩ | ⟨r, w', ha, -, k1, k2, k3, k4, -, -, -, k8, k9, -⟩⟩⟩ :=
    processBatch_eff hl.base hl.cur ho
  · exact h
  · cases h6
  · have hcur := hl.cur
    simp only [Cur, hb] at hcur
    obtain ⟨hc1, hc2, hcc⟩ := hcur
    obtain ⟨-, hp2, -, -⟩ := hi.submit hl.base hc2 hcc ha
    have hsame : SameB s.w w' := addBatch_same (ok := true) (by rw [ha]; rfl)
    have hBk : ∀ b' ∈ s.w.est.inc.problems, s'.w.B b' = s.w.B b' := fun b' hb' => k2 b' (Nat.ne_of_lt (hi.lt hl.base hb'))
    have hnp : b ∉ s.w.est.inc.problems := (hi.addable hl.base hc2 hcc).2.2.1
    cases hr : r.batchAccepted with
    | false =>
      rw [hr] at k8
      obtain ⟨-, -, -, -, -, -, -, -, -, -, -, r1, r2, r3, r4, ⟨input, r5, -⟩, -⟩ := hi.einv.rejected (.inl hnp) ha hr
      have hpar : ∀ d ∈ s.calibration, s'.w.heap.params d = s.w.heap.params d := by
        intro d hd
        rw [k3]
        exact r4 d (hi.calibration_in hl.base hcc hd)
      have hsub : ∀ x ∈ s'.subs, x.accepted = true → x ∈ s.subs := by
        intro x hx hxa
        rw [k8] at hx
        rcases List.mem_append.1 hx with hx | hx
        · exact hx
        · rw [List.mem_singleton.1 hx] at hxa; cases hxa
      have hcal : ∀ d, d ∈ s'.calibration → d ∈ s.calibration := by
        intro d hd
        rw [mem_calibration] at hd ⊢
        rw [e3, e4] at hd
        rcases hd with hd | ⟨x, hx, hxa, hd⟩
        · exact .inl hd
        · exact .inr ⟨x, hsub x hx hxa, hxa, hd⟩
      refine ⟨by rw [k1, r2]; exact h.opts, ?_, ?_⟩
      · intro hall
        obtain ⟨h1, h2⟩ := h.no fun x hx => hall x (by rw [k8]; exact List.mem_append_left _ hx)
        refine ⟨by rw [k1, r1]; exact h1, fun d hd => ?_⟩
        rw [hpar d (by rw [mem_calibration, hl.lms, hl.cal]; exact .inl hd)]
        exact h2 d hd
      · rintro ⟨x, hx, hxa⟩
        obtain ⟨inp, call, h1, h2⟩ := h.yes ⟨x, hsub x hx hxa, hxa⟩
        refine ⟨inp, call, h1, ?_, ?_, ?_, ?_, ?_, ?_⟩
        · rw [k1, r5]; exact List.mem_append_left _ h2.run
        · rw [h2.batches, k8, List.filter_append]; simp
        · intro b' hb'
          rw [hBk b' (by rw [hi.probs, ← h2.batches]; exact hb')]
          exact h2.contents b' hb'
        · intro d hd
          rw [hpar d (hcal d hd)]; exact h2.values d (hcal d hd)
        · rw [k1, r1]; exact h2.marginal
        · rw [k1, r1]; exact h2.report
    | true =>
      rw [hr] at k8
      have hadd : Addable s.w.B s.w.est.inc (s.w.B b) := by
        obtain ⟨b', hb', h⟩ := addBatch_ok_addable hi.einv ha
        rw [Option.some.inj hb']; exact h
      obtain ⟨q1, hq1, hres, heff⟩ := addBatch_eff S.D S.m0 oracle buildOk hi.einv.winv hadd false
      rw [ha] at heff
      have hyes : s'.w.est.options = S.eopts ∧ ∃ inp call, R inp call ∧ s'.IsResultOf S inp call := by
        cases heff with
        | kept call srv sc mg gain hcall hm h1 h2 hg hk =>
          refine ⟨by rw [k1]; exact h.opts, optInput (optWorld s.w q1 false), call, by rw [hcall]; exact hR _, ?_, ?_, ?_, ?_, ?_, ?_⟩
          · rw [k1]; simp
          · show (optWorld s.w q1 false).est.inc.problems = _
            rw [(optWorld_inc _ _ _).1, hres.problems, k8, List.filter_append]
            show s.w.est.inc.problems ++ [b] = _
            rw [hi.probs]; simp
          · intro b' hb'
            have hb2 : b' ∈ s.w.est.inc.problems ++ [b] := by
              have : (optWorld s.w q1 false).est.inc.problems = s.w.est.inc.problems ++ [b] := by
                rw [(optWorld_inc _ _ _).1]; exact hres.problems
              rw [← this]; exact hb'
            show (optWorld s.w q1 false).B b' = _
            rw [optWorld_B]
            rcases List.mem_append.1 hb2 with hb2 | hb2
            · exact (hBk b' hb2).symm
            · rw [List.mem_singleton.1 hb2]
              exact (k2 b (Nat.ne_of_lt hc1)).symm
          · intro d _
            rw [k3]
          · rw [k1, h2]
          · rw [k1]
            exact ⟨srv, sc, h1, by simp only [h.opts], rfl, rfl⟩
        | rejected call srv sc mg gain idx h5 q2 L hcall hm h1 h2 hg hk hh hidx hq2 hr2 hL _ hres' =>
          exfalso
          simp only at hres'
          split at hres'
          · simp only [Res.ok.injEq] at hres'
            rw [hres'.1] at hr; cases hr
          · simp at hres'
      refine ⟨hyes.1, fun hall => ?_, fun _ => hyes.2⟩
      have := hall ⟨b, s.batchObs, true⟩ (by rw [k8]; simp)
      cases this

/-- a public call that returned. -/
theorem TogInv.step {S : Setup V F M} {R : OptInput V → OptCall V F M → Prop} {s s' : Cam V F M} {seen : List (Obs V)}
    {op : Op V F M} (hl : LInv S s seen) (hi : EI s) (h : TogInv S R s) (hop : op.Runs R)
    (ho : (op.step S.D S.m0 s).outcome = some (true, s')) : TogInv S R s' := by
  cases op with
  | initGeometry found =>
    have ho := outcome_bind_ok (f := some) ho
    unfold Cam.initGeometry at ho
    split at ho
    · simp only [Res.outcome, Option.some.injEq, Prod.mk.injEq] at ho
      rw [← ho.2]; exact h
    · split at ho <;> simp only [Res.outcome, Option.some.injEq, Prod.mk.injEq] at ho <;> rw [← ho.2] <;>
        exact h.congr hi hl.lms hl.cal rfl rfl rfl rfl (fun _ _ => rfl) (fun _ _ => rfl)
  | setNum n =>
    simp only [Op.step, Res.outcome, Option.some.injEq, Prod.mk.injEq] at ho
    rw [← ho.2]; exact h.congr hi hl.lms hl.cal rfl rfl rfl rfl (fun _ _ => rfl) (fun _ _ => rfl)
  | processBatch oracle buildOk =>
    exact h.process hl hi hop (outcome_bind_ok (f := fun _ => none) ho)
  | addImage found oracle buildOk =>
    have ho := outcome_bind_ok (f := some) ho
    unfold Cam.addImage at ho
    split at ho
    · simp only [Res.outcome, Option.some.injEq, Prod.mk.injEq] at ho
      rw [← ho.2]; exact h
    · cases found with
      | none =>
        simp only [Res.outcome, Option.some.injEq, Prod.mk.injEq] at ho
        rw [← ho.2]; exact h
      | some o =>
        obtain ⟨en, s1, h1, h2, h3, ⟨b, h4, h5, h6⟩, h7, h8, h9, h10, h11, h12, h13, h14, h15, h16, -, -, -, -, h20⟩ := hl.observe o
        have hBk : ∀ b' ∈ s.w.est.inc.problems, s1.w.B b' = s.w.B b' := by
          intro b' hbm
          apply h6 b' (hi.lt hl.base hbm)
          rintro rfl
          rcases h5 with h5 | ⟨-, h5⟩
          · have hcur := hl.cur
            simp only [Cur, h5] at hcur
            obtain ⟨x, hx, hxb, -⟩ := hi.mem_sub hbm
            exact hcur.2.1 (List.mem_map.2 ⟨x, hx, hxb⟩)
          · exact absurd (hi.lt hl.base hbm) (Nat.not_lt.2 h5)
        have hei : EI ({ s1 with batchObs := s1.batchObs ++ [en] } : Cam V F M) :=
          ⟨EInv.frame hi.einv h9 h3.base.binv hBk, by simp only [h9, h15]; exact hi.probs,
            by simp only [h9, h15, h10]; exact hi.tr⟩
        have hj1 : TogInv S R ({ s1 with batchObs := s1.batchObs ++ [en] } : Cam V F M) :=
          h.congr hi hl.lms hl.cal h15 h9 h11 h12 (fun d hd => h20 d (hl.base.calibration_lt hd)) hBk
        simp only [h1] at ho
        obtain ⟨a, s3, e, ho⟩ | ⟨e, e', -⟩ := outcome_bind ho
        · simp only [Res.ok.injEq] at e
          obtain ⟨rfl, rfl⟩ := e
          split at ho
          · exact hj1.process h3 hei hop (outcome_bind_ok (f := fun _ => true) ho)
          · simp only [Res.outcome, Option.some.injEq, Prod.mk.injEq] at ho
            rw [← ho.2]; exact hj1
        · simp at e'

theorem TogInv.later {S : Setup V F M} (hS : S.Ok) {R : OptInput V → OptCall V F M → Prop} {s : Cam V F M}
    (hl : Later S.D S.m0 (fun op ok => ok = true ∧ op.Runs R) S.start s) : TogInv S R s ∧ ∃ seen, ReachOk S s seen := by
  generalize hst : S.start = s0 at hl
  induction hl with
  | refl => subst hst; exact ⟨TogInv.start S R, [], .init⟩
  | step op hprev hop ho ih =>
    subst hst
    obtain ⟨h1, seen, hr⟩ := ih
    obtain ⟨rfl, hop⟩ := hop
    obtain ⟨a, ha⟩ := outcome_true ho
    exact ⟨TogInv.step (hr.reach.inv hS) (hr.ei hS) h1 hop ho, _, .step op hr ha⟩

end Camera
end Verif
