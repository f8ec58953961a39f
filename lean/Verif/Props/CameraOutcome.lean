import Verif.Props.Camera
import Verif.Props.EstOutcome

/-! C128: how calls on the camera calibrator end. -/

namespace Verif
namespace Camera
variable {V F M : Type _}

open Cam

/-- Every batch of the calibrator has something to marginalise: the camera parameters or the landmarks, whichever the
estimator marginalises, are not empty. -/
def Setup.HasMarg (S : Setup V F M) : Prop :=
  (S.margGroup = S.opt.calGroup ∧ S.cal ≠ []) ∨ (S.margGroup = S.opt.lmGroup ∧ S.lms ≠ [])

/-- The estimator marginalises a group the calibrator does not have. -/
def Setup.WrongMarg (S : Setup V F M) : Prop :=
  S.margGroup ≠ S.opt.calGroup ∧ S.margGroup ≠ S.opt.lmGroup ∧ S.margGroup ≠ S.opt.trGroup

/-- The optimizer or the linear solver used by this call throws on some input. -/
def Op.Unreliable : Op V F M → Prop
  | .addImage _ oracle buildOk | .processBatch oracle buildOk =>
    (∃ i, (oracle i).report = none ∨ (oracle i).marginal = none) ∨ buildOk = false
  | _ => False

/-- The call comes too early: an image before the geometry has been initialised. -/
def Op.Early (s : Cam V F M) : Op V F M → Prop
  | .addImage _ _ _ => s.ready = false
  | _ => False

theorem EInv.addBatch_marg {D : Dbl F} {m0 : M} {oracle : OptInput V → OptCall V F M} {buildOk force : Bool}
    {w w' : EWorld V F M} {b : BatchId} {r : RetVal F M} (hw : EInv w)
    (h : w.addBatch D m0 oracle buildOk (some b) force = .ok r w') : w'.est.margGroup = w.est.margGroup := by
  obtain ⟨b', hb', ha⟩ := addBatch_ok_addable hw h
  obtain rfl := Option.some.inj hb'
  obtain ⟨q1, -, hr, heff⟩ := addBatch_eff D m0 oracle buildOk hw.winv ha force
  rw [h] at heff
  cases heff with
  | kept call srv sc mg gain hcall hm h1 h2 hg hk => rfl
  | rejected call srv sc mg gain idx h5 q2 L hcall hm h1 h2 hg hk hh hi hq2 hr2 hL r hres =>
    simp only at hres
    split at hres
    · simp only [Res.ok.injEq] at hres
      rw [hres.2]
    · simp at hres

/-- the estimator's view while an image is added. -/
theorem EI.observe {S : Setup V F M} {s s1 : Cam V F M} {seen : List (Obs V)} (ih : EI s) (hl : LInv S s seen) {o : Obs V}
    {en : Entry V} (h : s.addObservation o = .ok en s1) : EI ({ s1 with batchObs := s1.batchObs ++ [en] } : Cam V F M) := by
  obtain ⟨en', s1', h1, h2, h3, ⟨b, h4, h5, h6⟩, h7, h8, h9, h10, h11, h12, h13, h14, h15, h16, -⟩ := hl.observe o
  rw [h] at h1
  simp only [Res.ok.injEq] at h1
  obtain ⟨rfl, rfl⟩ := h1
  refine ⟨?_, ?_, ?_⟩
  · apply EInv.frame ih.einv h9 h3.base.binv
    intro b' hbm
    apply h6 b' (ih.lt hl.base hbm)
    rintro rfl
    rcases h5 with h5 | ⟨-, h5⟩
    · have hcur := hl.cur
      simp only [Cur, h5] at hcur
      obtain ⟨x, hx, hxb, -⟩ := ih.mem_sub hbm
      exact hcur.2.1 (List.mem_map.2 ⟨x, hx, hxb⟩)
    · exact absurd (ih.lt hl.base hbm) (Nat.not_lt.2 h5)
  · simp only [h9, h15]; exact ih.probs
  · simp only [h9, h15, h10]; exact ih.tr

/-- the marginalised group never changes. -/
theorem ReachOk.marg {S : Setup V F M} (hS : S.Ok) {s : Cam V F M} {seen : List (Obs V)} (h : ReachOk S s seen) :
    s.w.est.margGroup = S.margGroup := by
  induction h with
  | init => rfl
  | @step s s' seen r op hprev hst ih =>
    have hl := hprev.reach.inv hS
    have hei := hprev.ei hS
    cases op with
    | initGeometry found =>
      simp only [Op.step, Cam.initGeometry] at hst
      split at hst
      · simp only [Res.bind, Res.ok.injEq] at hst; rw [← hst.2]; exact ih
      · split at hst
        · simp only [Res.bind, Res.ok.injEq] at hst; rw [← hst.2]; exact ih
        · simp only [Res.bind, Res.ok.injEq] at hst; rw [← hst.2]; exact ih
    | setNum n =>
      simp only [Op.step, Res.ok.injEq] at hst
      rw [← hst.2]; exact ih
    | processBatch oracle buildOk =>
      obtain ⟨a, t, hp, hst⟩ := bind_ok_inv hst
      simp only [Res.ok.injEq] at hst
      rw [← hst.2]
      obtain ⟨-, -, -, -, -, -, h5⟩ := processBatch_eff hl.base hl.cur (ok := true) (s' := t) (by rw [hp]; rfl)
      rcases h5 with ⟨-, rfl, -⟩ | ⟨b, hb, ⟨e, w', -, -, h6, -⟩ | ⟨r, w', ha, -, k1, -⟩⟩
      · exact ih
      · simp at h6
      · rw [k1, EInv.addBatch_marg hei.einv ha]; exact ih
    | addImage found oracle buildOk =>
      obtain ⟨a, t, hp, hst⟩ := bind_ok_inv hst
      simp only [Res.ok.injEq] at hst
      obtain ⟨-, rfl⟩ := hst
      unfold Cam.addImage at hp
      split at hp
      · simp at hp
      · cases found with
        | none => simp only [Res.ok.injEq] at hp; rw [← hp.2]; exact ih
        | some o =>
          obtain ⟨en, s1, hp1, hp⟩ := bind_ok_inv hp
          have hei1 := hei.observe hl hp1
          obtain ⟨en', s1', h1, h2, h3, -, h7, h8, h9, -⟩ := hl.observe o
          rw [hp1] at h1
          simp only [Res.ok.injEq] at h1
          obtain ⟨rfl, rfl⟩ := h1
          simp only at hp
          split at hp
          · obtain ⟨a, t', hp, hst⟩ := bind_ok_inv hp
            simp only [Res.ok.injEq] at hst
            rw [← hst.2]
            obtain ⟨-, -, -, -, -, -, h5⟩ := processBatch_eff h3.base h3.cur (ok := true) (s' := t') (by rw [hp]; rfl)
            rcases h5 with ⟨-, rfl, -⟩ | ⟨b, hb, ⟨e, w', -, -, h6, -⟩ | ⟨r, w', ha, -, k1, -⟩⟩
            · exact (congrArg Estimator.margGroup h9).trans ih
            · simp at h6
            · rw [k1, EInv.addBatch_marg hei1.einv ha]; exact (congrArg Estimator.margGroup h9).trans ih
          · simp only [Res.ok.injEq] at hp
            rw [← hp.2]; exact (congrArg Estimator.margGroup h9).trans ih

/-- how a submission ends. -/
theorem process_ends {S : Setup V F M} {s : Cam V F M} {seen : List (Obs V)} (hl : LInv S s seen) (hei : EI s)
    (hm : s.w.est.margGroup = S.margGroup) (hn : s.w.getNumBatches < IncProblem.maxBatches)
    (oracle : OptInput V → OptCall V F M) (buildOk : Bool) :
    (S.HasMarg → (∃ s', s.processBatch S.D S.m0 oracle buildOk = .ok () s') ∨
      ((∃ i, (oracle i).report = none ∨ (oracle i).marginal = none) ∨ buildOk = false) ∧
        ∃ s', s.processBatch S.D S.m0 oracle buildOk = .throw .external s') ∧
    (S.WrongMarg → s.batch ≠ none → ∃ s', s.processBatch S.D S.m0 oracle buildOk = .throw .invalidOperation s') := by
  cases hb : s.batch with
  | none => exact ⟨fun _ => .inl ⟨_, processBatch_none hb⟩, fun _ h => absurd rfl h⟩
  | some b =>
    have hcur := hl.cur
    simp only [Cur, hb] at hcur
    obtain ⟨a1, a2, a3, a4⟩ := hei.addable hl.base hcur.2.1 hcur.2.2
    have hcl : ¬ s.w.Clash b := (hei.einv.winv.clash_iff hn b).1 ⟨a1, a2, hn⟩
    have hc := hcur.2.2
    have hk := fun d g hd => AL.get_of_mem (hl.base.binv b).lk ((hc.mem_lookup d g).2 hd)
    obtain ⟨e1, e2, e3⟩ := hei.einv.calls_end (D := S.D) (m0 := S.m0) hn (.addBatch (some b) false oracle buildOk)
      (fun _ _ => by simp)
    refine ⟨fun hM => ?_, fun hW _ => ?_⟩
    · have hlack : ¬ s.w.Lack s.w.est.margGroup (s.w.est.inc.problems ++ [b]) := by
        intro hlk
        rw [hm] at hlk
        rcases hM with ⟨g1, g2⟩ | ⟨g1, g2⟩
        · obtain ⟨d, hd⟩ := List.exists_mem_of_ne_nil _ g2
          rw [← hl.cal] at hd
          refine hlk b (by simp) d ((holds_iff s.w.toWorld b d _).2 ?_)
          rw [g1, ← hl.opt.2.1]
          exact hk d _ (.inr (.inl ⟨hd, rfl⟩))
        · obtain ⟨d, hd⟩ := List.exists_mem_of_ne_nil _ g2
          rw [← hl.lms] at hd
          refine hlk b (by simp) d ((holds_iff s.w.toWorld b d _).2 ?_)
          rw [g1, ← hl.opt.1]
          exact hk d _ (.inl ⟨hd, rfl⟩)
      have hno : ∀ e, ¬ Refused s.w (.addBatch (some b) false oracle buildOk) e := by
        intro e he
        cases he with
        | clash _ _ _ _ h => exact hcl h
        | addLack _ _ _ _ h => exact hlack h
      have key : (∃ r w', s.w.addBatch S.D S.m0 oracle buildOk (some b) false = .ok r w') ∨
          ((∃ i, (oracle i).report = none ∨ (oracle i).marginal = none) ∨ buildOk = false) ∧
          ∃ w', s.w.addBatch S.D S.m0 oracle buildOk (some b) false = .throw .external w' := by
        by_cases hu : (EOp.addBatch (some b) false oracle buildOk : EOp V F M).Unreliable
        · rcases e3 hno hu with ⟨r, w', h⟩ | ⟨w', h⟩
          · obtain ⟨r, w', h, -⟩ := bind_ok_inv h
            exact .inl ⟨r, w', h⟩
          · simp only [EOp.step] at h
            cases ha : s.w.addBatch S.D S.m0 oracle buildOk (some b) false with
            | throw e w'' => rw [ha] at h; simp only [Res.bind, Res.throw.injEq] at h; exact .inr ⟨hu, _, by rw [h.1]⟩
            | ok a w'' => rw [ha] at h; simp [Res.bind] at h
            | ub => rw [ha] at h; simp [Res.bind] at h
            | diverge => rw [ha] at h; simp [Res.bind] at h
        · obtain ⟨r, w', h⟩ := e2 hno hu
          obtain ⟨r, w', h, -⟩ := bind_ok_inv h
          exact .inl ⟨r, w', h⟩
      rcases key with ⟨r, w', h⟩ | ⟨hu, w', h⟩
      · obtain ⟨s2, hpb, -⟩ := processBatch_returns hl.base hl.cur hb h
        exact .inl ⟨s2, hpb⟩
      · exact .inr ⟨hu, _, processBatch_throw hb h⟩
    · have hlack : s.w.Lack s.w.est.margGroup (s.w.est.inc.problems ++ [b]) := by
        intro b' hb' d hd
        have hd := AL.get_mem ((holds_iff s.w.toWorld b' d _).1 hd)
        have hc' : ∃ es, Contents s.w.heap s.opt.lmGroup s.opt.calGroup s.opt.trGroup s.lms s.cal (s.w.B b') es := by
          rcases List.mem_append.1 hb' with hb' | hb'
          · obtain ⟨x, hx, rfl, -⟩ := hei.mem_sub hb'
            exact ⟨_, (hl.base.subsOk x hx).2⟩
          · rw [List.mem_singleton] at hb'
            rw [hb']; exact ⟨_, hc⟩
        obtain ⟨es, hc'⟩ := hc'
        rw [hm] at hd
        rcases (hc'.mem_lookup d _).1 hd with ⟨-, h⟩ | ⟨-, h⟩ | ⟨-, h⟩
        · exact hW.2.1 (h.trans hl.opt.1)
        · exact hW.1 (h.trans hl.opt.2.1)
        · exact hW.2.2 (h.trans hl.opt.2.2)
      obtain ⟨w', h⟩ := e1 _ (.addLack b false oracle buildOk hlack)
      simp only [EOp.step] at h
      cases ha : s.w.addBatch S.D S.m0 oracle buildOk (some b) false with
      | throw e w'' =>
        rw [ha] at h; simp only [Res.bind, Res.throw.injEq] at h
        exact ⟨_, processBatch_throw hb (by rw [ha, h.1])⟩
      | ok a w'' => rw [ha] at h; simp [Res.bind] at h
      | ub => rw [ha] at h; simp [Res.bind] at h
      | diverge => rw [ha] at h; simp [Res.bind] at h

/-- **C128.** Whatever has been done with the camera calibrator, as long as no call threw: a call is refused only if an image
is offered before the geometry has been initialised – it throws `InvalidOperationException` and nothing has happened – and
every other call returns, unless the optimizer or the linear solver throws, whose exception the caller then gets.  In
particular no submission is ever refused, whatever the images and the number of images per batch.
(The marginalised group is that of the camera parameters or of the landmarks, which are not empty.) -/
theorem C128_camera_calls_end {S : Setup V F M} (hS : S.Ok) (hM : S.HasMarg) {s : Cam V F M} {seen : List (Obs V)}
    (h : ReachOk S s seen) (hn : s.w.getNumBatches < IncProblem.maxBatches) (op : Op V F M) :
    (op.Early s → op.step S.D S.m0 s = .throw .invalidOperation s) ∧
    (¬ op.Early s → (∃ r s', op.step S.D S.m0 s = .ok r s') ∨
      op.Unreliable ∧ ∃ s', op.step S.D S.m0 s = .throw .external s') := by
  have hl := h.reach.inv hS
  have hei := h.ei hS
  have hmg := h.marg hS
  cases op with
  | initGeometry found =>
    refine ⟨fun he => he.elim, fun _ => .inl ?_⟩
    simp only [Op.step, Cam.initGeometry]
    split
    · exact ⟨_, _, rfl⟩
    · split <;> exact ⟨_, _, rfl⟩
  | setNum n => exact ⟨fun he => he.elim, fun _ => .inl ⟨_, _, rfl⟩⟩
  | processBatch oracle buildOk =>
    refine ⟨fun he => he.elim, fun _ => ?_⟩
    rcases (process_ends hl hei hmg hn oracle buildOk).1 hM with ⟨s', hs⟩ | ⟨hu, s', hs⟩
    · exact .inl ⟨_, _, by simp only [Op.step, hs, Res.bind]; rfl⟩
    · exact .inr ⟨hu, _, by simp only [Op.step, hs, Res.bind]; rfl⟩
  | addImage found oracle buildOk =>
    refine ⟨fun he => ?_, fun he => ?_⟩
    · simp only [Op.Early] at he
      simp [Op.step, Cam.addImage, he, Res.bind]
    · simp only [Op.Early] at he
      simp only [Op.step, Cam.addImage, he, if_false]
      cases found with
      | none => exact .inl ⟨_, _, rfl⟩
      | some o =>
        obtain ⟨en, s1, h1, h2, h3, -, h7, h8, h9, -⟩ := hl.observe o
        have hei1 := hei.observe hl h1
        simp only [h1, Res.bind]
        by_cases hb : s1.num = s1.opt.batchNumImages
        · rw [if_pos hb]
          rcases (process_ends h3 hei1 ((congrArg Estimator.margGroup h9).trans hmg)
            (by simpa only [EWorld.getNumBatches, h9] using hn) oracle buildOk).1 hM with ⟨s', hs⟩ | ⟨hu, s', hs⟩
          · exact .inl ⟨_, _, by simp only [hs]; rfl⟩
          · exact .inr ⟨hu, _, by simp only [hs]; rfl⟩
        · rw [if_neg hb]
          exact .inl ⟨_, _, rfl⟩

/-- **C128 needs the right group:** if the estimator marginalises a group that is none of the calibrator's, every
submission of a batch throws, also the first. -/
theorem C128_wrong_group {S : Setup V F M} (hS : S.Ok) (hW : S.WrongMarg) {s : Cam V F M} {seen : List (Obs V)}
    (h : ReachOk S s seen) (hn : s.w.getNumBatches < IncProblem.maxBatches) (hb : s.batch ≠ none)
    (oracle : OptInput V → OptCall V F M) (buildOk : Bool) :
    ∃ s', s.processBatch S.D S.m0 oracle buildOk = .throw .invalidOperation s' :=
  (process_ends (h.reach.inv hS) (h.ei hS) (h.marg hS) hn oracle buildOk).2 hW hb

/-- The hypotheses are met: a run with an accepted and a rejected batch and a pending image. -/
example : (camSetup 2).Ok ∧ (camSetup 2).HasMarg ∧ ∃ s seen, ReachOk (camSetup 2) s seen ∧ s.w.getNumBatches = 1 ∧
    s.num = 1 ∧ s.ready = true := by
  refine ⟨camSetup_ok 2, .inl ⟨rfl, by simp [camSetup]⟩, ?_⟩
  have h : ((run camDbl 0 [.initGeometry true, camAdd 0 8, camAdd 1 8, camAdd 2 9, camAdd 3 9, camAdd 4 9]
    (camSetup 2).start).map fun x => (x.2, x.1.w.getNumBatches, x.1.num, x.1.ready)) =
      some ([true, true, true, true, true, true], 1, 1, true) := by decide
  cases hr : run camDbl 0 [.initGeometry true, camAdd 0 8, camAdd 1 8, camAdd 2 9, camAdd 3 9, camAdd 4 9]
    (camSetup 2).start with
  | none => rw [hr] at h; simp at h
  | some x =>
    rw [hr] at h
    simp only [Option.map_some, Option.some.injEq, Prod.mk.injEq] at h
    obtain ⟨seen, hs⟩ := run_reachOk (S := camSetup 2) ReachOk.init hr (by rw [h.1]; decide)
    exact ⟨_, _, hs, h.2.1, h.2.2.1, h.2.2.2⟩

/-- An image too early, and a wrong group. -/
example : (Op.step camDbl 0 (camAdd 0 8) (camSetup 2).start).isOk = false ∧
    ((run camDbl 0 [.initGeometry true, camAdd 0 8, camAdd 1 8] { camSetup 2 with margGroup := 7 }.start).map
      fun x => x.2) = some [true, true, false] ∧ ({ camSetup 2 with margGroup := 7 } : Setup Nat Int Nat).WrongMarg := by
  refine ⟨by decide, by decide, ?_⟩
  simp [Setup.WrongMarg, camSetup]

end Camera
end Verif
