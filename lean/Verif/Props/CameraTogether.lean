import Verif.Lemmas.Camera7
import Verif.Props.Camera

/-! Property C124: camera, landmarks, poses, uncertainties and costs offered by the camera calibrator belong to the same run of
the optimizer. -/

namespace Verif
namespace Camera
variable {V F M : Type _}

open Cam

/-- **C124** (partial: no call threw).  `R` is anything known about every run of the optimizer.  Either no submission was accepted,
and camera, landmarks and statistics are those of construction and the estimator has no batch; or all variables of the
calibration, the statistics and the batches are those of one and the same run, over exactly the accepted submissions. -/
theorem C124_together_partial {S : Setup V F M} (hS : S.Ok) {R : OptInput V → OptCall V F M → Prop} {s : Cam V F M}
    (hl : Later S.D S.m0 (fun op ok => ok = true ∧ op.Runs R) S.start s) :
    ((∀ x ∈ s.subs, x.accepted = false) ∧ s.w.est.inc.problems = [] ∧
      s.w.est.stats = Estimator.initStats S.D S.minusOne S.m0 ∧
      ∀ d ∈ S.lms ++ S.cal, s.w.heap.params d = S.heap.params d) ∨
    ((∃ x ∈ s.subs, x.accepted = true) ∧ ∃ inp call, R inp call ∧ s.IsResultOf S inp call ∧
      s.w.est.inc.problems = inp.inc.problems) := by
  obtain ⟨h1, seen, hr⟩ := TogInv.later hS hl
  have hi := hr.ei hS
  by_cases hex : ∃ x ∈ s.subs, x.accepted = true
  · right
    obtain ⟨inp, call, k1, k2⟩ := h1.yes hex
    exact ⟨hex, inp, call, k1, k2, by rw [hi.probs, k2.batches]⟩
  · left
    have hno : ∀ x ∈ s.subs, x.accepted = false := by
      intro x hx
      by_contra hne
      exact hex ⟨x, hx, by simpa using hne⟩
    obtain ⟨k1, k2⟩ := h1.no hno
    refine ⟨hno, ?_, k1, k2⟩
    rw [hi.probs, List.map_eq_nil_iff, List.filter_eq_nil_iff]
    intro x hx; rw [hno x hx]; simp

/-- **C124** (poses): every pose the calibrator offers was computed in that run, too. -/
theorem C124_poses {S : Setup V F M} (hS : S.Ok) (h1 : S.opt.trGroup ≠ S.opt.lmGroup) (h2 : S.opt.trGroup ≠ S.opt.calGroup)
    {R : OptInput V → OptCall V F M → Prop} {s : Cam V F M}
    (hl : Later S.D S.m0 (fun op ok => ok = true ∧ op.Runs R) S.start s) {idx : Nat} {qt : V × V}
    (hg : s.getTransformation idx = .ok qt ()) :
    ∃ inp call en, R inp call ∧ s.IsResultOf S inp call ∧ s.acceptedImages[idx]? = some en ∧
      qt = (call.params en.qdv, call.params en.tdv) := by
  obtain ⟨k, seen, hr⟩ := TogInv.later hS hl
  obtain ⟨o1, o2⟩ := C78_order hS h1 h2 hr
  have hlt : idx < s.acceptedImages.length := by
    rw [o1]
    by_contra hn
    rw [(o2 idx).1 (by omega)] at hg
    cases hg
  have hen : s.acceptedImages[idx]? = some s.acceptedImages[idx] := List.getElem?_eq_getElem hlt
  rw [(o2 idx).2 _ hen] at hg
  have hmem : s.acceptedImages[idx] ∈ s.acceptedImages := List.getElem_mem hlt
  have hex : ∃ x ∈ s.subs, x.accepted = true := by
    unfold Cam.acceptedImages at hmem
    obtain ⟨x, hx, -⟩ := List.mem_flatMap.1 hmem
    obtain ⟨hx1, hx2⟩ := List.mem_filter.1 hx
    exact ⟨x, hx1, hx2⟩
  obtain ⟨inp, call, k1, k2⟩ := k.yes hex
  refine ⟨inp, call, _, k1, k2, hen, ?_⟩
  have hd : ∀ d ∈ (s.acceptedImages[idx]).dvs, s.w.heap.params d = call.params d := fun d hd =>
    k2.values d (List.mem_append_right _ (List.mem_flatMap.2 ⟨_, hmem, hd⟩))
  rw [← hd _ (by simp [Entry.dvs]), ← hd (s.acceptedImages[idx]).tdv (by simp [Entry.dvs])]
  simp only [Res.ok.injEq, and_true] at hg
  exact hg.symm

/-- **C124** (negation): if the optimizer fails in a submission, all variables have the values the failed run left and the batch is
in the estimator, but the uncertainties, costs and other statistics are still those of before. -/
theorem C124_failed_run {S : Setup V F M} (hS : S.Ok) {s s' : Cam V F M} {seen : List (Obs V)} (h : ReachOk S s seen)
    {oracle : OptInput V → OptCall V F M} (hroom : s.w.getNumBatches < IncProblem.maxBatches)
    (hf : s.processBatch S.D S.m0 oracle true = .throw .external s') :
    s'.w.est.stats = s.w.est.stats ∧ s'.subs = s.subs ∧ (∃ b, s'.w.est.inc.problems = s.w.est.inc.problems ++ [b]) ∧
    ∃ inp, inp.inc.problems = s'.w.est.inc.problems ∧ ((oracle inp).report = none ∨ (oracle inp).marginal = none) ∧
      ∀ d, s'.w.heap.params d = (oracle inp).params d := by
  have hl := h.reach.inv hS
  have he := h.ei hS
  obtain ⟨-, -, -, -, -, -, h5⟩ := processBatch_eff hl.base hl.cur (ok := false) (s' := s') (by rw [hf]; rfl)
  rcases h5 with ⟨-, -, h5⟩ | ⟨b, hb, ⟨e', w', ha, rfl, -, hp⟩ | ⟨_, _, -, h5, -⟩⟩
  · simp at h5
  · rw [hf] at hp
    simp only [Res.throw.injEq, and_true] at hp
    subst hp
    have hcur := hl.cur
    simp only [Cur, hb] at hcur
    obtain ⟨hadd1, hadd2, hnp, -⟩ := he.addable hl.base hcur.2.1 hcur.2.2
    have hadd : Addable s.w.B s.w.est.inc (s.w.B b) := ⟨hadd1, hadd2, hroom⟩
    have hst := addBatch_stats.1 _ _ ha
    obtain ⟨q1, hq1, hr, heff⟩ := addBatch_eff S.D S.m0 oracle true he.einv.winv hadd false
    rw [ha] at heff
    have hprob : q1.problems = s.w.est.inc.problems ++ [b] := hr.problems
    cases heff with
    | optThrows call hc hm ht =>
      have hp1 : (afterOpt (optWorld s.w q1 false) call).est.inc.problems = s.w.est.inc.problems ++ [b] :=
        (optWorld_inc s.w q1 false).1.trans hprob
      refine ⟨hst, rfl, ⟨b, hp1⟩, optInput (optWorld s.w q1 false), rfl, by rw [← hc]; exact ht, ?_⟩
      intro d
      rw [← hc]; rfl
    | rejected call srv sc mg gain idx h5 q2 L hc hm h1 h2 hg hk hh hidx hq2 hr2 hL r hres =>
      simp at hres
  · simp at h5

/-! ### The theorems apply -/

/-- an optimizer that sets every variable to `v` and reports the log sum `sv`. -/
def camSet (v : Nat) (sv : Int) : OptInput Nat → OptCall Nat Int Nat := fun i => { camOracle sv i with params := fun _ => v }

/-- one that sets every variable to `v` and throws. -/
def camSetThrow (v : Nat) : OptInput Nat → OptCall Nat Int Nat := fun i => { camOracleThrow i with params := fun _ => v }

theorem later_of_run {D : Dbl F} {m0 : M} {P : Op V F M → Bool → Prop} {s0 : Cam V F M} : ∀ (ops : List (Op V F M)) {s s' : Cam V F M}
    {oks : List Bool}, Later D m0 P s0 s → run D m0 ops s = some (s', oks) → (∀ op ∈ ops, ∀ ok ∈ oks, P op ok) →
    Later D m0 P s0 s'
  | [], s, s', oks, hl, hr, _ => by
    simp only [run, Option.some.injEq, Prod.mk.injEq] at hr
    rw [← hr.1]; exact hl
  | op :: ops, s, s', oks, hl, hr, hP => by
    simp only [run] at hr
    split at hr
    · cases hr
    · rename_i ok s1 ho
      obtain ⟨⟨s2, oks2⟩, h2, he⟩ := Option.map_eq_some_iff.1 hr
      simp only [Prod.mk.injEq] at he
      obtain ⟨rfl, rfl⟩ := he
      exact later_of_run ops (.step op hl (hP op (by simp) ok (by simp)) ho) h2
        fun op' h' ok' h'' => hP op' (by simp [h']) ok' (by simp [h''])

/-- a history with an accepted and a refused submission. -/
def camHistory : List (Op Nat Int Nat) := [.initGeometry true, .addImage (some (camObs 0)) (camSet 77 8) true,
  .processBatch (camSet 77 8) true, .addImage (some (camObs 1)) (camSet 88 9) true, .processBatch (camSet 88 9) true]

/-- the decisions, the values of landmarks, camera and first image, and the log sum. -/
def togView (r : Option (Cam Nat Int Nat × List Bool)) : Option (List Bool × List Bool × List Nat × Int × List BatchId) :=
  r.map fun x => (x.2, x.1.subs.map Sub.accepted, [0, 1, 2, 3, 4, 5].map x.1.w.heap.params, x.1.w.est.stats.marginal.svLog2Sum,
    x.1.w.est.inc.problems)

set_option synthInstance.maxSize 1000 in
theorem camHistory_view : togView (run camDbl 0 camHistory (camSetup 2).start) =
    some ([true, true, true, true, true], [true, false], [77, 77, 77, 77, 77, 77], 8, [0]) := by decide

/-- The hypotheses of `C124_together_partial` and of `C124_poses` can be met, after an accepted and a refused submission. -/
example : ∃ s, Later (camSetup 2).D (camSetup 2).m0 (fun op ok => ok = true ∧ op.Runs fun i c => ∃ v sv, c = camSet v sv i)
    (camSetup 2).start s ∧ s.subs.map Sub.accepted = [true, false] ∧ (camSetup 2).opt.trGroup ≠ (camSetup 2).opt.lmGroup ∧
    (camSetup 2).opt.trGroup ≠ (camSetup 2).opt.calGroup := by
  have h := camHistory_view
  unfold togView at h
  obtain ⟨⟨s, oks⟩, hr, hv⟩ := Option.map_eq_some_iff.1 h
  simp only [Prod.mk.injEq] at hv
  obtain ⟨h1, h2, -⟩ := hv
  refine ⟨s, later_of_run camHistory (.refl _) hr ?_, h2, by decide, by decide⟩
  intro op hop ok hok
  rw [h1] at hok
  refine ⟨by simpa using hok, ?_⟩
  simp only [camHistory, List.mem_cons, List.not_mem_nil, or_false] at hop
  rcases hop with rfl | rfl | rfl | rfl | rfl <;> simp only [Op.Runs]
  all_goals exact fun i => ⟨_, _, rfl⟩

set_option synthInstance.maxSize 1000 in
/-- **C124**, witness: after an accepted submission and one in which the optimizer fails, the values are those of the failed run and
the statistics those of the accepted submission. -/
theorem C124_witness : togView (run camDbl 0 [.initGeometry true, .addImage (some (camObs 0)) (camSet 77 8) true,
      .processBatch (camSet 77 8) true, .addImage (some (camObs 1)) (camSet 88 9) true, .processBatch (camSetThrow 99) true]
      (camSetup 2).start) =
    some ([true, true, true, true, false], [true], [99, 99, 99, 99, 99, 99], 8, [0, 1]) := by decide

end Camera
end Verif
