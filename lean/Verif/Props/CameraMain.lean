import Verif.Model.CameraMain
import Verif.Props.CameraReport

/-! Property C85: the camera calibration program. -/

namespace Verif
namespace CamMain

open Camera CamReport

variable {V F M : Type _}

theorem initGeometry_eq (s : Cam V F M) (found : Bool) :
    s.initGeometry found = .ok (s.ready || found) { s with ready := s.ready || found } := by
  unfold Cam.initGeometry
  obtain ⟨w, opt, lms, cal, ready, batch, num, bo, eo, nd, ne, nb, subs⟩ := s
  cases ready <;> cases found <;> rfl

theorem initLoop_eq (frames : List (Frame V F M)) (s : Cam V F M) :
    initLoop frames s = .ok () { s with ready := s.ready || frames.any Frame.geo } := by
  induction frames generalizing s with
  | nil => simp [initLoop]
  | cons f fs ih =>
    rw [initLoop, initGeometry_eq]
    simp only [Res.bind]
    rw [ih]
    cases h : s.ready || f.geo
    · simp only [Bool.false_eq_true, if_false, List.any_cons, ← Bool.or_assoc, h]
    · simp only [if_true, List.any_cons, ← Bool.or_assoc, h, Bool.true_or]

/-- **C85 (no geometry).** If the camera geometry cannot be initialised from any image of a bag that is not empty, the program
ends with an exception at the first image. -/
theorem C85_no_geometry (S : Setup V F M) (save : Bool) (f : Frame V F M) (fs : List (Frame V F M)) (last : OptInput V → OptCall V F M)
    (lastOk : Bool) (h : ∀ g ∈ f :: fs, g.geo = false) :
    calibrate S.D S.m0 save (f :: fs) last lastOk S.start = .throw .invalidOperation S.start := by
  have hany : (f :: fs).any Frame.geo = false := by
    rw [List.any_eq_false]; intro x hx; rw [h x hx]; simp
  unfold calibrate
  rw [initLoop_eq, hany]
  simp only [Res.bind, imageLoop]
  have : ({ S.start with ready := S.start.ready || false } : Cam V F M) = S.start := rfl
  rw [this, (C76_geometry S.start S.D S.m0 f.oracle f.buildOk false f.found).1 rfl]

/-- what one image does to the calibrator in a history without exceptions. -/
theorem addImage_step {S : Setup V F M} (hS : S.Ok) {s s' : Cam V F M} {seen : List (Obs V)} (h : ReachOk S s seen)
    (hlt : s.num < s.opt.batchNumImages) {f : Frame V F M} {r : Bool}
    (hr : s.addImage S.D S.m0 f.oracle f.buildOk f.found = .ok r s') :
    ReachOk S s' (seen ++ f.found.toList) ∧ s'.num < s'.opt.batchNumImages ∧ s'.opt = s.opt ∧
    ((s'.subs = s.subs ∧ s'.estObs = s.estObs) ∨
      ∃ x o, f.found = some o ∧ s'.subs = s.subs ++ [x] ∧ x.images.length = s.opt.batchNumImages ∧
        x.images.getLast?.map (fun e => e.obs.id) = some o.id ∧
        s'.estObs = if x.accepted then x.images ++ s.estObs else s.estObs) := by
  have hready : s.ready = true := by
    by_contra hc
    rw [(C76_geometry s S.D S.m0 f.oracle f.buildOk false f.found).1 (by simpa using hc)] at hr
    cases hr
  have hstep : (Op.addImage f.found f.oracle f.buildOk).step S.D S.m0 s = .ok (some r) s' := by
    simp only [Op.step, hr, Res.bind]
  have hdet : (Op.addImage f.found f.oracle f.buildOk).detected s = f.found.toList := by
    cases hf : f.found with
    | none => rfl
    | some o => simp [Op.detected, hready]
  have hreach : ReachOk S s' (seen ++ f.found.toList) := by
    have := h.step _ hstep
    rwa [hdet] at this
  have hl := h.reach.inv hS
  have hl' := hreach.reach.inv hS
  have hb := C76_bound hS h.reach hlt (s' := s')
    (.step (.addImage f.found f.oracle f.buildOk) (.refl s) ⟨rfl, fun n hn => by cases hn⟩ (by rw [hstep]; rfl))
  have hopt : s'.opt = s.opt ∧ ((s'.subs = s.subs ∧ s'.estObs = s.estObs) ∨
      ∃ x o, f.found = some o ∧ s'.subs = s.subs ++ [x] ∧ x.images.length = s.opt.batchNumImages ∧
        x.images.getLast?.map (fun e => e.obs.id) = some o.id ∧
        s'.estObs = if x.accepted then x.images ++ s.estObs else s.estObs) := by
    cases hf : f.found with
    | none =>
      rw [hf, (C76_geometry s S.D S.m0 f.oracle f.buildOk false none).2.1 hready] at hr
      cases hr
      exact ⟨rfl, .inl ⟨rfl, rfl⟩⟩
    | some o =>
      rw [hf] at hr
      obtain ⟨en, s1, h1, h2, h3, -, h7, h8, h9, h10, h11, h12, h13, h14, h15, -⟩ := hl.observe o
      unfold Cam.addImage at hr
      rw [if_neg (by rw [hready]; simp)] at hr
      simp only [h1, Res.bind] at hr
      split at hr
      · rename_i hn
        have hp : (Cam.processBatch S.D S.m0 f.oracle f.buildOk ({ s1 with batchObs := s1.batchObs ++ [en] } : Cam V F M)).outcome =
            some (true, s') := by
          cases hq : Cam.processBatch S.D S.m0 f.oracle f.buildOk ({ s1 with batchObs := s1.batchObs ++ [en] } : Cam V F M) <;>
            rw [hq] at hr <;> simp at hr
          rw [hr.2]; rfl
        obtain ⟨-, -, k1, -, -, -, ⟨k3, -, -⟩ | ⟨b, -, ⟨_, _, -, -, k3, -⟩ | ⟨r, w', -, -, -, -, -, -, -, -, -, k4, k5, -⟩⟩⟩ :=
          processBatch_eff h3.base h3.cur hp
        · have hc := h3.cur
          obtain ⟨_, _, hh, -, -, ⟨b, hb1, -⟩, -⟩ := hl.observe o
          rw [h1] at hh
          cases hh
          simp only [hb1] at k3
          cases k3
        · cases k3
        · refine ⟨k1.trans h10, .inr ⟨⟨b, s1.batchObs ++ [en], r.batchAccepted⟩, o, rfl, ?_, ?_, ?_, ?_⟩⟩
          · rw [k4]; simp only [h15]
          · simp only [h10] at hn
            have := h3.num
            simp only at this
            rw [← this, hn]
          · simp [h2]
          · rw [k5]; simp only [h14]
      · cases hr
        exact ⟨h10, .inl ⟨h15, h14⟩⟩
  refine ⟨hreach, by rw [hopt.1]; exact hb.1, hopt.1, hopt.2⟩

/-- the loop over the images. -/
theorem imageLoop_inv {S : Setup V F M} (hS : S.Ok) (save : Bool) (frames : List (Frame V F M)) :
    ∀ {s s' : Cam V F M} {seen : List (Obs V)} {saved out : List Nat}, ReachOk S s seen → s.num < s.opt.batchNumImages →
    imageLoop S.D S.m0 save frames saved s = .ok out s' →
    ReachOk S s' (seen ++ frames.filterMap Frame.found) ∧ s'.opt = s.opt ∧ s'.num < s'.opt.batchNumImages ∧
    ∃ new, s'.subs = s.subs ++ new ∧ (∀ x ∈ new, x.images.length = s.opt.batchNumImages) ∧
      out.map some = saved.map some ++
        if save then (new.filter Sub.accepted).map fun x => x.images.getLast?.map fun e => e.obs.id else [] := by
  induction frames with
  | nil =>
    intro s s' seen saved out h hlt hr
    simp only [imageLoop, Res.ok.injEq] at hr
    obtain ⟨rfl, rfl⟩ := hr
    exact ⟨by simpa using h, rfl, hlt, [], by simp, by simp, by simp⟩
  | cons f fs ih =>
    intro s s' seen saved out h hlt hr
    rw [imageLoop] at hr
    obtain ⟨r, s1, h1, hr⟩ := bind_ok_inv hr
    obtain ⟨k1, k2, k3, k4⟩ := addImage_step hS h hlt h1
    obtain ⟨j1, j2, j3, new, j4, j5, j6⟩ := ih k1 k2 hr
    have hseen : seen ++ f.found.toList ++ fs.filterMap Frame.found = seen ++ (f :: fs).filterMap Frame.found := by
      rw [List.append_assoc, List.filterMap_cons]
      cases f.found <;> rfl
    refine ⟨hseen ▸ j1, j2.trans k3, j3, ?_⟩
    rcases k4 with ⟨e1, e2⟩ | ⟨x, o, ho, e1, e2, e3, e4⟩
    · refine ⟨new, by rw [j4, e1], by rw [← k3]; exact j5, ?_⟩
      rw [j6]
      have : savedBy save s s1 f = [] := by
        unfold savedBy
        rw [e2]; simp
      rw [this, List.append_nil]
    · refine ⟨x :: new, by rw [j4, e1]; simp, ?_, ?_⟩
      · intro y hy
        rcases List.mem_cons.1 hy with rfl | hy
        · exact e2
        · rw [← k3]; exact j5 y hy
      · rw [j6]
        cases save with
        | false => simp [savedBy]
        | true =>
          cases ha : x.accepted with
          | false =>
            have : savedBy true s s1 f = [] := by
              unfold savedBy
              rw [e4, ha]; simp
            rw [this]
            simp [ha]
          | true =>
            have hne : s1.estObs.length ≠ s.estObs.length := by
              rw [e4, ha]
              simp only [if_true, List.length_append, e2]
              omega
            have : savedBy true s s1 f = [o.id] := by
              unfold savedBy
              simp [hne, ho]
            rw [this]
            simp [ha, e3]

/-- **C85 (every image).** Unless an exception ends the program: every image of the bag in which the target was detected is in
exactly one submission, in the order of the bag; none is left over; no call threw; every submission but the last one has
`batchNumImages` images. -/
theorem C85_every_image {S : Setup V F M} (hS : S.Ok) (hn : 0 < S.opt.batchNumImages) (save : Bool) (frames : List (Frame V F M))
    (last : OptInput V → OptCall V F M) (lastOk : Bool) {s : Cam V F M} {saved : List Nat}
    (h : calibrate S.D S.m0 save frames last lastOk S.start = .ok saved s) :
    ReachOk S s (frames.filterMap Frame.found) ∧ s.batchObs = [] ∧
    (s.subs.flatMap Sub.images).map Entry.obs = frames.filterMap Frame.found ∧
    ∃ full rest, s.subs = full ++ rest ∧ rest.length ≤ 1 ∧ (∀ x ∈ full, x.images.length = S.opt.batchNumImages) ∧
      (∀ x ∈ rest, x.images.length < S.opt.batchNumImages) ∧
      saved.map some = if save then (full.filter Sub.accepted).map fun x => x.images.getLast?.map fun e => e.obs.id else [] := by
  unfold calibrate at h
  rw [initLoop_eq] at h
  simp only [Res.bind] at h
  have h0 : ReachOk S ({ S.start with ready := S.start.ready || frames.any Frame.geo } : Cam V F M) [] := by
    have := ReachOk.step (S := S) (s := S.start) (s' := { S.start with ready := S.start.ready || frames.any Frame.geo }) (r := some (S.start.ready || frames.any Frame.geo))
      (.initGeometry (frames.any Frame.geo)) .init (by
        simp only [Op.step, initGeometry_eq, Res.bind])
    simpa [Op.detected] using this
  have hb : imageLoop S.D S.m0 save frames [] { S.start with ready := S.start.ready || frames.any Frame.geo } ≠ .ub := by
    intro hc; rw [hc] at h; cases h
  cases hi : imageLoop S.D S.m0 save frames [] { S.start with ready := S.start.ready || frames.any Frame.geo } with
  | throw e t => rw [hi] at h; cases h
  | ub => rw [hi] at h; cases h
  | diverge => rw [hi] at h; cases h
  | ok out s2 =>
    rw [hi] at h
    simp only at h
    obtain ⟨k1, k2, k3, new, k4, k5, k6⟩ := imageLoop_inv hS save frames h0 hn hi
    have hl2 := k1.reach.inv hS
    have hlast : ∃ s3, s2.processBatch S.D S.m0 last lastOk = .ok () s3 ∧ saved = out ∧ s = s3 := by
      cases hp : s2.processBatch S.D S.m0 last lastOk with
      | ok a s3 => rw [hp] at h; cases h; exact ⟨_, rfl, rfl, rfl⟩
      | throw e t => rw [hp] at h; cases h
      | ub => rw [hp] at h; cases h
      | diverge => rw [hp] at h; cases h
    obtain ⟨s3, hp, rfl, rfl⟩ := hlast
    have hreach : ReachOk S s (frames.filterMap Frame.found) := by
      have := k1.step (s' := s) (r := none) (.processBatch last lastOk) (by simp only [Op.step, hp, Res.bind])
      simpa [Op.detected] using this
    have hopt2 : s2.opt.batchNumImages = S.opt.batchNumImages := by rw [k2]; rfl
    have hnew : s2.subs = new := by rw [k4]; rfl
    have hbo : s.batchObs = [] ∧ ∃ rest, s.subs = new ++ rest ∧ rest.length ≤ 1 ∧ ∀ x ∈ rest, x.images.length < S.opt.batchNumImages := by
      obtain ⟨-, -, -, -, -, -, ⟨c1, c2, -⟩ | ⟨b, cb, ⟨_, _, -, -, c3, -⟩ | ⟨r, w', -, -, -, -, -, -, -, c5, -, c6, -⟩⟩⟩ :=
        processBatch_eff hl2.base hl2.cur (ok := true) (s' := s) (by rw [hp]; rfl)
      · have hcur := hl2.cur
        simp only [Cur, c1] at hcur
        subst c2
        refine ⟨?_, [], by rw [hnew]; simp, by simp, by simp⟩
        exact hcur
      · cases c3
      · refine ⟨c5, [⟨b, s2.batchObs, r.batchAccepted⟩], by rw [c6, hnew], by simp, ?_⟩
        intro x hx
        rw [List.mem_singleton] at hx
        subst hx
        have := hl2.num
        simp only
        rw [← this, ← hopt2]; exact k3
    obtain ⟨hbo, rest, hs, hr1, hr2⟩ := hbo
    refine ⟨hreach, hbo, ?_, new, rest, hs, hr1, ?_, hr2, ?_⟩
    · have := (hreach.reach.inv hS).seen
      rw [hbo, List.append_nil] at this
      exact this.symm
    · exact k5
    · simpa using k6

/-- **C85 (negation: images saved).** With `saveEstimatorImages` exactly one image per accepted full batch is written, the last
one of the batch, none for the final batch: `batchNumImages` images are used for each one written. -/
theorem C85_saved_images {S : Setup V F M} (hS : S.Ok) (hn : 0 < S.opt.batchNumImages) (frames : List (Frame V F M))
    (last : OptInput V → OptCall V F M) (lastOk : Bool) {s : Cam V F M} {saved : List Nat}
    (h : calibrate S.D S.m0 true frames last lastOk S.start = .ok saved s) :
    S.opt.batchNumImages * saved.length ≤ s.estObs.length ∧
    s.estObs.length < S.opt.batchNumImages * (saved.length + 1) ∧
    (∀ i ∈ saved, ∃ e ∈ s.estObs, e.obs.id = i) := by
  obtain ⟨h1, -, -, full, rest, h2, h3, h4, h5, h6⟩ := C85_every_image hS hn true frames last lastOk h
  have hest := (h1.reach.inv hS).est
  have hlenSum : ∀ l : List (Camera.Sub V), (l.reverse.flatMap Sub.images).length = (l.map fun x => x.images.length).sum := by
    intro l
    rw [List.length_flatMap, List.map_reverse, List.sum_reverse]
  have hlen : s.estObs.length = ((s.subs.filter Sub.accepted).map fun x => x.images.length).sum := by
    rw [hest]; exact hlenSum _
  have hfull : ((full.filter Sub.accepted).map fun x => x.images.length).sum = S.opt.batchNumImages * saved.length := by
    have e1 : saved.length = (full.filter Sub.accepted).length := by
      have := congrArg List.length h6
      simpa using this
    rw [e1]
    have : ∀ l : List (Camera.Sub V), (∀ x ∈ l, x.images.length = S.opt.batchNumImages) →
        (l.map fun x => x.images.length).sum = S.opt.batchNumImages * l.length := by
      intro l
      induction l with
      | nil => simp
      | cons x l ih =>
        intro hx
        rw [List.map_cons, List.sum_cons, ih fun y hy => hx y (List.mem_cons_of_mem _ hy), hx x List.mem_cons_self, List.length_cons]
        ring
    exact this _ fun x hx => h4 x (List.mem_filter.1 hx).1
  have hrest : ((rest.filter Sub.accepted).map fun x => x.images.length).sum < S.opt.batchNumImages := by
    match rest, h3, h5 with
    | [], _, _ => simpa using hn
    | [x], _, h5 =>
      have := h5 x List.mem_cons_self
      rw [List.filter_cons]
      split
      · simpa using this
      · simpa using hn
    | _ :: _ :: _, h3, _ => simp at h3
  rw [hlen, h2, List.filter_append, List.map_append, List.sum_append, hfull]
  refine ⟨Nat.le_add_right _ _, by rw [Nat.mul_add, Nat.mul_one]; omega, ?_⟩
  intro i hi
  have hi' : some i ∈ saved.map some := List.mem_map.2 ⟨i, hi, rfl⟩
  rw [h6] at hi'
  simp only [if_true] at hi'
  obtain ⟨x, hx, hxi⟩ := List.mem_map.1 hi'
  obtain ⟨e, he, hei⟩ := Option.map_eq_some_iff.1 hxi
  refine ⟨e, ?_, hei⟩
  rw [hest, List.mem_flatMap]
  refine ⟨x, ?_, List.mem_of_getLast? he⟩
  rw [List.mem_reverse, h2, List.filter_append]
  exact List.mem_append_left _ hx

/-- the calls of the loop, as a history. -/
theorem imageLoop_later {D : Dbl F} {m0 : M} {Q : Marginal F M → Prop} (save : Bool) (frames : List (Frame V F M))
    (hq : ∀ f ∈ frames, ∀ i mg, (f.oracle i).marginal = some mg → Q mg) :
    ∀ {s0 s s' : Cam V F M} {saved out : List Nat}, Later D m0 (fun op ok => ok = true ∧ op.Solver Q) s0 s →
    imageLoop D m0 save frames saved s = .ok out s' → Later D m0 (fun op ok => ok = true ∧ op.Solver Q) s0 s' := by
  induction frames with
  | nil =>
    intro s0 s s' saved out h hr
    simp only [imageLoop, Res.ok.injEq] at hr
    rw [← hr.2]; exact h
  | cons f fs ih =>
    intro s0 s s' saved out h hr
    rw [imageLoop] at hr
    obtain ⟨r, s1, h1, hr⟩ := bind_ok_inv hr
    exact ih (fun g hg => hq g (List.mem_cons_of_mem _ hg))
      (.step (.addImage f.found f.oracle f.buildOk) h ⟨rfl, hq f List.mem_cons_self⟩ (by simp only [Op.step, h1, Res.bind]; rfl)) hr

/-- **C85 (the end of the program, partial: the linear solver reports a matrix of the right size).** If no exception ends the
calibration and the linear solver always reports a covariance matrix for exactly the parameters of the camera: the program
writes its result – with the square roots of the diagonal of the last accepted covariance matrix – exactly if a submission was
accepted; otherwise its behaviour is undefined. -/
theorem C85_result_partial {S : Setup V F M} (hS : S.Ok) (hn : 0 < S.opt.batchNumImages) (save : Bool) (frames : List (Frame V F M))
    (last : OptInput V → OptCall V F M) (lastOk : Bool) (diag : M → List ℝ) (omni : Bool) (np nd : Nat)
    (hnp : (if omni then 5 else 4) = np) (hnd : nd = 4) (isPos : Matrix (Fin 2) (Fin 2) ℝ → Bool) (q : ℝ)
    (err : Heap V → ETId → Vec2) (md2 : Heap V → ETId → ℝ)
    (hq : ∀ f ∈ frames, ∀ i mg, (f.oracle i).marginal = some mg → (diag mg.sigma2Theta).length = np + nd)
    (hql : ∀ i mg, (last i).marginal = some mg → (diag mg.sigma2Theta).length = np + nd)
    {s : Cam V F M} {saved : List Nat} (h : calibrate S.D S.m0 save frames last lastOk S.start = .ok saved s) :
    ((∀ x ∈ s.subs, x.accepted = false) →
      program S.D S.m0 save frames last lastOk diag omni np nd isPos q err md2 S.start = .ub) ∧
    ((∃ x ∈ s.subs, x.accepted = true) → ∃ st,
      program S.D S.m0 save frames last lastOk diag omni np nd isPos q err md2 S.start =
        .ok (saved, st, ((diag s.w.est.stats.marginal.sigma2Theta).take np).map Real.sqrt,
          ((diag s.w.est.stats.marginal.sigma2Theta).drop np).map Real.sqrt) s ∧
      getStatistics isPos q s.w (err s.w.heap) (md2 s.w.heap) = .ok st ()) := by
  have hreach := (C85_every_image hS hn save frames last lastOk h).1
  have hlater : Later S.D S.m0 (fun op ok => ok = true ∧ op.Solver fun mg => (diag mg.sigma2Theta).length = np + nd) S.start s := by
    have h' := h
    unfold calibrate at h'
    obtain ⟨_, s1, h1, h'⟩ := bind_ok_inv h'
    rw [initLoop_eq] at h1
    cases h1
    obtain ⟨out, s2, h2, h'⟩ := bind_ok_inv h'
    obtain ⟨_, s3, h3, h'⟩ := bind_ok_inv h'
    cases h'
    have l1 : Later S.D S.m0 (fun op ok => ok = true ∧ op.Solver fun mg => (diag mg.sigma2Theta).length = np + nd) S.start
        { S.start with ready := S.start.ready || frames.any Frame.geo } :=
      .step (.initGeometry (frames.any Frame.geo)) (.refl _) ⟨rfl, trivial⟩ (by simp only [Op.step, initGeometry_eq, Res.bind]; rfl)
    exact .step (.processBatch last lastOk) (imageLoop_later save frames hq l1 h2) ⟨rfl, hql⟩ (by simp only [Op.step, h3, Res.bind]; rfl)
  obtain ⟨w1, w2⟩ := C84_write_partial hS diag omni np nd hnp hnd hlater
  have hst := StatInv.later hS (Q := fun mg => (diag mg.sigma2Theta).length = np + nd) (s := s) (by
    clear hreach w1 w2 h
    generalize S.start = s0 at hlater
    induction hlater with
    | refl => exact .refl _
    | step op _ hP ho ih => exact .step op ih hP.2 ho)
  have hge := C83_errors hS hreach.reach (err s.w.heap) (md2 s.w.heap)
  have hgs : getStatistics isPos q s.w (err s.w.heap) (md2 s.w.heap) = .ok (statisticsOf isPos q
      ((s.w.est.inc.problems.flatMap fun b => (s.w.B b).errorTerms).map (err s.w.heap))
      ((s.w.est.inc.problems.flatMap fun b => (s.w.B b).errorTerms).map (md2 s.w.heap))) () := by
    unfold getStatistics; rw [hge]; rfl
  have hnum : s.w.getNumBatches = (s.subs.filter Sub.accepted).length := by
    rw [EWorld.getNumBatches, IncProblem.numProblems, (hreach.ei hS).probs, List.length_map]
  constructor
  · intro hall
    have h0 : s.w.getNumBatches = 0 := by
      rw [hnum, List.length_eq_zero_iff, List.filter_eq_nil_iff]
      intro x hx; rw [hall x hx]; simp
    obtain ⟨e1, e2, e3⟩ := C84_no_batch s.w diag omni np nd h0
    unfold program
    rw [h]
    simp only [Res.bind, e1, e2, hgs, e3, look]
  · intro hex
    have hlen := hst.yes hex
    have hw := w2 hex
    obtain ⟨x, hx, hxa⟩ := hex
    have h0 : s.w.getNumBatches ≠ 0 := by
      rw [hnum]
      have : x ∈ s.subs.filter Sub.accepted := List.mem_filter.2 ⟨hx, hxa⟩
      exact Nat.pos_iff_ne_zero.1 (List.length_pos_of_mem this)
    have e1 : projectionVariance s.w diag np = .ok ((diag s.w.est.stats.marginal.sigma2Theta).take np) () := by
      unfold projectionVariance; rw [if_neg h0, if_neg (by omega)]
    have e2 : distortionVariance s.w diag nd =
        .ok ((diag s.w.est.stats.marginal.sigma2Theta).drop ((diag s.w.est.stats.marginal.sigma2Theta).length - nd)) () := by
      unfold distortionVariance; rw [if_neg h0, if_neg (by omega)]
    refine ⟨_, ?_, hgs⟩
    unfold program
    rw [h]
    simp only [Res.bind, e1, e2, hgs, hw, look]

/-- frames for the examples. -/
def frame (geo : Bool) (id : Option Nat) : Frame Nat Int Nat := ⟨geo, id.map camObs, camOracle 8, true⟩

/-- what one sees of a run of the program. -/
def mainView (r : Res (Cam Nat Int Nat) (List Nat)) : Option (List Nat × List Nat × List (List Nat × Bool) × List Nat) :=
  match r with
  | .ok saved s => some (saved, s.estObs.map (·.obs.id), s.subs.map (fun y => (y.images.map (·.obs.id), y.accepted)), s.batchObs.map (·.obs.id))
  | _ => none

set_option synthInstance.maxSize 1000 in
/-- Batches of two; one frame without target, geometry from the second one: one of the two images used is written.  The last
submission (one image) is rejected. -/
example : mainView (calibrate camDbl 0 true [frame false (some 0), frame true none, frame true (some 1), frame false (some 2)]
    (camOracle 8) true (camSetup 2).start) = some ([1], [0, 1], [([0, 1], true), ([2], false)], []) := by decide

set_option synthInstance.maxSize 1000 in
/-- Nothing gained: no submission is accepted, so the program ends in undefined behaviour. -/
example : mainView (calibrate camDbl 0 true [frame true (some 0)] (fun i => { camOracle 8 i with report := some (⟨20, 10, 4⟩, ⟨1, 2, 3, 4, 5⟩) })
    true (camSetup 2).start) = some ([], [], [([0], false)], []) := by decide

end CamMain
end Verif
