import Verif.Lemmas.Camera5

/-! Properties C76 (windowing), C77 (contents of a batch), C78 (poses), C79 (after a failed submission) and C80 (submission
without images) of the camera calibrator. -/

namespace Verif
namespace Camera
variable {V F M : Type _}

open Cam

/-! ### a concrete calibrator for the examples -/

/-- integers for doubles. -/
def camDbl : Dbl Int := ⟨0, fun a b => (a - b) / 2, fun a b => decide (a > b), fun a b => decide (a ≥ b)⟩

/-- Two landmarks (0, 1), two camera variables (2, 3), groups 0 (landmarks), 1 (camera), 2 (poses); batches of `n` images. -/
def camSetup (n : Nat) : Setup Nat Int Nat where
  D := camDbl
  m0 := 0
  minusOne := -1
  margGroup := 1
  eopts := ⟨3, true, 20, true⟩
  heap := { params := fun d => 10 * d, active := fun _ => true, minDim := fun _ => 3, etDVs := fun _ => [], etDim := fun _ => 2 }
  opt := ⟨0, 1, 2, n⟩
  lms := [0, 1]
  cal := [2, 3]
  nd := 4
  ne := 0

theorem camSetup_ok (n : Nat) : (camSetup n).Ok :=
  ⟨by simp only [camSetup]; decide, by simp only [camSetup]; decide⟩

/-- an optimizer that reports the log sum `sv`. -/
def camOracle (sv : Int) : OptInput Nat → OptCall Nat Int Nat := fun i =>
  { params := i.heap.params
    layout := ⟨fun _ => 0, fun _ => 0, fun _ => 0, [], []⟩
    report := some (⟨5, 10, 4⟩, ⟨1, 2, 3, 4, 5⟩)
    marginal := some ⟨sv, 1, 1, 1, 1, 1, 0, 0, 1, 0, 2, 0, 100, 50, 3⟩ }

/-- an optimizer that throws. -/
def camOracleThrow : OptInput Nat → OptCall Nat Int Nat := fun i =>
  ⟨i.heap.params, ⟨fun _ => 0, fun _ => 0, fun _ => 0, [], []⟩, none, none⟩

/-- an image with both corners (`id` even) or only the second one (`id` odd). -/
def camObs (id : Nat) : Obs Nat := ⟨id, 100 + id, 200 + id, fun i => decide (i = 1 ∨ id % 2 = 0)⟩

/-- The call that offers it. -/
def camAdd (id : Nat) (sv : Int) : Op Nat Int Nat := .addImage (some (camObs id)) (camOracle sv) true

/-- what one sees of a run: the flags, pending images, accepted images, accepted batches, problem's batches. -/
def camView (r : Option (Cam Nat Int Nat × List Bool)) :
    Option (List Bool × List Nat × List Nat × List (List Nat × Bool) × List BatchId) :=
  r.map fun x => (x.2, x.1.batchObs.map (·.obs.id), x.1.estObs.map (·.obs.id),
    x.1.subs.map (fun y => (y.images.map (·.obs.id), y.accepted)), x.1.w.est.inc.problems)

/-! ### C76 -/

/-- **C76 (accounting).** After any history of calls, failing or not: `getBatchNumImages()` is the number of pending
observations; the images in which the target was detected are, in order, those of the submissions that returned followed by
the pending ones – none is lost, none used twice; the observations reported as used are those of the accepted submissions,
the newest submission first, in the order taken within a submission. -/
theorem C76_accounting {S : Setup V F M} (hS : S.Ok) {s : Cam V F M} {seen : List (Obs V)} (h : Reach S s seen) :
    s.num = s.batchObs.length ∧
    seen = ((s.subs.flatMap Sub.images) ++ s.batchObs).map Entry.obs ∧
    s.estObs = ((s.subs.filter Sub.accepted).reverse).flatMap Sub.images := by
  have := h.inv hS
  exact ⟨this.num, this.seen, this.est⟩

/-- **C76 (no submission).** In every reachable state with initialised geometry: a detected image that does not complete the
batch returns true, changes nothing in the estimator, submits nothing, and is appended to the pending observations with the
detector's pose as initial values of two new variables. -/
theorem C76_collect {S : Setup V F M} (hS : S.Ok) {s : Cam V F M} {seen : List (Obs V)} (h : Reach S s seen)
    (hr : s.ready = true) (o : Obs V) (oracle : OptInput V → OptCall V F M) (buildOk : Bool)
    (hn : s.num + 1 ≠ s.opt.batchNumImages) :
    ∃ en s', s.addImage S.D S.m0 oracle buildOk (some o) = .ok true s' ∧ en.obs = o ∧ s'.batchObs = s.batchObs ++ [en] ∧
      s'.num = s.num + 1 ∧ s'.w.est = s.w.est ∧ s'.subs = s.subs ∧ s'.estObs = s.estObs ∧ s'.opt = s.opt ∧
      s'.w.heap.params en.qdv = o.q ∧ s'.w.heap.params en.tdv = o.t ∧ en.qdv ≠ en.tdv ∧
      ∀ d, d < s.nd → d ≠ en.qdv ∧ d ≠ en.tdv ∧ s'.w.heap.params d = s.w.heap.params d := by
  obtain ⟨en, s1, h1, h2, h3, -, h7, h8, h9, h10, h11, h12, h13, h14, h15, -, k1, k2, k3, k4, k5⟩ := (h.inv hS).observe o
  refine ⟨en, { s1 with batchObs := s1.batchObs ++ [en] }, ?_, h2, by rw [h7], h8, h9, h15, h14, h10, k3, k4, ?_, ?_⟩
  · unfold Cam.addImage
    rw [if_neg (by rw [hr]; simp)]
    simp only [h1, Res.bind]
    rw [if_neg (by rw [h8, h10]; exact hn)]
  · rw [k2]; exact Nat.ne_of_lt (Nat.lt_succ_self _)
  · intro d hd
    refine ⟨?_, ?_, k5 d hd⟩
    · exact Nat.ne_of_lt (Nat.lt_of_lt_of_le hd k1)
    · rw [k2]; exact Nat.ne_of_lt (Nat.lt_succ_of_lt (Nat.lt_of_lt_of_le hd k1))

/-- **C76 (submission).** If the image completes the batch, the call collects it and then does exactly what `processBatch()`
does, returning true unless that throws. -/
theorem C76_submit {S : Setup V F M} (hS : S.Ok) {s : Cam V F M} {seen : List (Obs V)} (h : Reach S s seen)
    (hr : s.ready = true) (o : Obs V) (oracle : OptInput V → OptCall V F M) (buildOk : Bool)
    (hn : s.num + 1 = s.opt.batchNumImages) :
    ∃ (en : Entry V) (s1 : Cam V F M), en.obs = o ∧ s1.batchObs = s.batchObs ++ [en] ∧ s1.num = s.num + 1 ∧ s1.w.est = s.w.est ∧ s1.subs = s.subs ∧
      s1.estObs = s.estObs ∧
      s.addImage S.D S.m0 oracle buildOk (some o) = (s1.processBatch S.D S.m0 oracle buildOk).bind fun _ s' => .ok true s' := by
  obtain ⟨en, s1, h1, h2, h3, -, h7, h8, h9, h10, h11, h12, h13, h14, h15, -⟩ := (h.inv hS).observe o
  refine ⟨en, { s1 with batchObs := s1.batchObs ++ [en] }, h2, by rw [h7], h8, h9, h15, h14, ?_⟩
  unfold Cam.addImage
  rw [if_neg (by rw [hr]; simp)]
  simp only [h1, Res.bind]
  rw [if_pos (by rw [h8, h10]; exact hn)]

/-- **C76 (what a submission does).** `processBatch()` before the first image does nothing.  Otherwise it hands the pending
batch to `addBatch` once; if that throws, so does the call, and nothing but the estimator changes; if it returns, a new batch
without images is started, and the pending observations are reported as used exactly if the batch was accepted. -/
theorem C76_process {S : Setup V F M} (hS : S.Ok) {s : Cam V F M} {seen : List (Obs V)} (h : Reach S s seen)
    (oracle : OptInput V → OptCall V F M) (buildOk : Bool) :
    (s.batch = none → s.processBatch S.D S.m0 oracle buildOk = .ok () s) ∧
    ∀ b, s.batch = some b →
      (∀ e w', s.w.addBatch S.D S.m0 oracle buildOk (some b) false = .throw e w' →
        s.processBatch S.D S.m0 oracle buildOk = .throw e { s with w := w' }) ∧
      ∀ r w', s.w.addBatch S.D S.m0 oracle buildOk (some b) false = .ok r w' →
        ∃ s', s.processBatch S.D S.m0 oracle buildOk = .ok () s' ∧ s'.w.est = w'.est ∧ s'.w.heap = w'.heap ∧
          s'.num = 0 ∧ s'.batchObs = [] ∧ s'.batch = some s.nb ∧ s.nb ≠ b ∧ (s'.w.B s.nb).numErrorTerms = 0 ∧
          s'.subs = s.subs ++ [⟨b, s.batchObs, r.batchAccepted⟩] ∧
          s'.estObs = (if r.batchAccepted then s.batchObs ++ s.estObs else s.estObs) := by
  have hl := h.inv hS
  refine ⟨processBatch_none, fun b hb => ⟨fun e w' ha => processBatch_throw hb ha, fun r w' ha => ?_⟩⟩
  have hcur := hl.cur
  simp only [Cur, hb] at hcur
  obtain ⟨s', h1, h2, -, -, -, -, -, k1, -, k3, k4, k5, k6, k7, k8, k9, -⟩ := processBatch_returns hl.base hl.cur hb ha
  refine ⟨s', h1, k1, k3, k7, k6, k4, (Nat.ne_of_lt hcur.1).symm, ?_, k8, k9⟩
  have := (h2.binv s.nb).et.length_eq
  rw [k5] at this
  exact this.symm

set_option synthInstance.maxSize 1000 in
/-- Batches of two images: after five images two batches have been submitted – the first accepted, the second not (no gain) –
and one image is pending. -/
example : camView (run camDbl 0 [.initGeometry true, camAdd 0 8, camAdd 1 8, camAdd 2 8, camAdd 3 8, camAdd 4 8] (camSetup 2).start) =
    some ([true, true, true, true, true, true], [4], [0, 1], [([0, 1], true), ([2, 3], false)], [0]) := by decide

/-- **C76 (bound).** As long as nothing throws and `batchNumImages` is not changed, there are always fewer pending images
than `batchNumImages`, if there were at the start. -/
theorem C76_bound {S : Setup V F M} (hS : S.Ok) {s s' : Cam V F M} {seen : List (Obs V)} (h : Reach S s seen)
    (hn : s.num < s.opt.batchNumImages) (hl : Later S.D S.m0 (fun op ok => ok = true ∧ ∀ n, op ≠ .setNum n) s s') :
    s'.num < s.opt.batchNumImages ∧ s'.opt.batchNumImages = s.opt.batchNumImages := by
  induction hl with
  | refl => exact ⟨hn, rfl⟩
  | @step s1 s2 ok op hprev hP hs ih =>
    obtain ⟨rfl, hne⟩ := hP
    obtain ⟨seen1, h1⟩ := h.later hprev
    have hl1 := h1.inv hS
    have key : ∀ {t t' : Cam V F M} {oracle : OptInput V → OptCall V F M} {buildOk : Bool}, Base t → Cur t →
        t.opt.batchNumImages = s.opt.batchNumImages → (t.batch = none → t.num < s.opt.batchNumImages) →
        (t.processBatch S.D S.m0 oracle buildOk).outcome = some (true, t') →
        t'.num < s.opt.batchNumImages ∧ t'.opt.batchNumImages = s.opt.batchNumImages := by
      intro t t' oracle buildOk hb hc ho hnone hp
      obtain ⟨-, -, k1, -, -, -, k2⟩ := processBatch_eff hb hc hp
      rcases k2 with ⟨k3, rfl, -⟩ | ⟨b, -, ⟨_, _, -, -, k3, -⟩ | ⟨_, _, -, -, -, -, -, -, -, -, k3, -⟩⟩
      · exact ⟨hnone k3, ho⟩
      · simp at k3
      · rw [k3, k1]; exact ⟨Nat.lt_of_le_of_lt (Nat.zero_le _) hn, ho⟩
    cases op with
    | initGeometry found =>
      have hs := outcome_bind_ok (f := some) hs
      unfold Cam.initGeometry at hs
      split at hs
      · simp only [Res.outcome, Option.some.injEq, Prod.mk.injEq] at hs; rw [← hs.2]; exact ih
      · split at hs
        · simp only [Res.outcome, Option.some.injEq, Prod.mk.injEq] at hs; rw [← hs.2]; exact ih
        · simp only [Res.outcome, Option.some.injEq, Prod.mk.injEq] at hs; rw [← hs.2]; exact ih
    | setNum n => exact absurd rfl (hne n)
    | processBatch oracle buildOk =>
      exact key hl1.base hl1.cur ih.2 (fun _ => ih.1) (outcome_bind_ok (f := fun _ => none) hs)
    | addImage found oracle buildOk =>
      have hs := outcome_bind_ok (f := some) hs
      unfold Cam.addImage at hs
      split at hs
      · simp [Res.outcome] at hs
      · cases found with
        | none => simp only [Res.outcome, Option.some.injEq, Prod.mk.injEq] at hs; rw [← hs.2]; exact ih
        | some o =>
          obtain ⟨en, t, e1, -, e3, ⟨b, e4, -⟩, e7, e8, -, e10, -⟩ := hl1.observe o
          simp only [e1] at hs
          obtain ⟨a, s3, e, hs⟩ | ⟨e, e', -⟩ := outcome_bind hs
          · simp only [Res.ok.injEq] at e
            obtain ⟨rfl, rfl⟩ := e
            split at hs
            · refine key e3.base e3.cur (by simp only [e10]; exact ih.2) ?_ (outcome_bind_ok (f := fun _ => true) hs)
              intro hnone
              simp only [e4] at hnone
              exact absurd hnone (by simp)
            · rename_i hc
              simp only [Res.outcome, Option.some.injEq, Prod.mk.injEq] at hs
              rw [← hs.2]
              simp only [e8, e10, ih.2] at hc ⊢
              exact ⟨Nat.lt_of_le_of_ne ih.1 hc, trivial⟩
          · simp at e'

/-- The start satisfies the hypothesis. -/
example : (camSetup 2).start.num < (camSetup 2).start.opt.batchNumImages := by decide

/-- **C76 (never).** With `batchNumImages` zero – and, more generally, whenever as many images as `batchNumImages` are already
pending – no image ever triggers a submission: however many are added, the estimator stays as it is, and the calls return. -/
theorem C76_never {S : Setup V F M} (hS : S.Ok) {s s' : Cam V F M} {seen : List (Obs V)} (h : Reach S s seen)
    (hn : s.opt.batchNumImages ≤ s.num)
    (hl : Later S.D S.m0 (fun op _ => ∃ f o k, op = .addImage f o k) s s') :
    s'.w.est = s.w.est ∧ s'.subs = s.subs ∧ s'.estObs = s.estObs ∧ (∃ new, s'.batchObs = s.batchObs ++ new) ∧
    s'.ready = s.ready ∧ s'.opt = s.opt ∧ s.num ≤ s'.num ∧
    (s.ready = true → ∀ f oracle buildOk, ∃ t, s'.addImage S.D S.m0 oracle buildOk f = .ok f.isSome t) := by
  have hmain : s'.w.est = s.w.est ∧ s'.subs = s.subs ∧ s'.estObs = s.estObs ∧ (∃ new, s'.batchObs = s.batchObs ++ new) ∧
      s'.ready = s.ready ∧ s'.opt = s.opt ∧ s.num ≤ s'.num := by
    induction hl with
    | refl => exact ⟨rfl, rfl, rfl, ⟨[], by simp⟩, rfl, rfl, Nat.le_refl _⟩
    | @step s1 s2 ok op hprev hP hs ih =>
      obtain ⟨found, oracle, buildOk, rfl⟩ := hP
      obtain ⟨seen1, h1⟩ := h.later hprev
      obtain ⟨i1, i2, i3, ⟨new, i4⟩, i5, i6, i7⟩ := ih
      have hs := outcome_bind_ok (f := some) hs
      unfold Cam.addImage at hs
      split at hs
      · simp only [Res.outcome, Option.some.injEq, Prod.mk.injEq] at hs; rw [← hs.2]; exact ⟨i1, i2, i3, ⟨new, i4⟩, i5, i6, i7⟩
      · cases found with
        | none =>
          simp only [Res.outcome, Option.some.injEq, Prod.mk.injEq] at hs; rw [← hs.2]; exact ⟨i1, i2, i3, ⟨new, i4⟩, i5, i6, i7⟩
        | some o =>
          obtain ⟨en, t, e1, -, -, -, e7, e8, e9, e10, -, -, e13, e14, e15, -⟩ := (h1.inv hS).observe o
          simp only [e1, Res.bind] at hs
          rw [if_neg (by rw [e8, e10, i6]; exact fun hc => Nat.not_succ_le_self _ (hc ▸ Nat.le_trans hn i7))] at hs
          simp only [Res.outcome, Option.some.injEq, Prod.mk.injEq] at hs
          rw [← hs.2]
          exact ⟨e9.trans i1, e15.trans i2, e14.trans i3, ⟨new ++ [en], by simp only [e7, i4, List.append_assoc]⟩,
            e13.trans i5, e10.trans i6, by simp only [e8]; exact Nat.le_succ_of_le i7⟩
  obtain ⟨i1, i2, i3, i4, i5, i6, i7⟩ := hmain
  refine ⟨i1, i2, i3, i4, i5, i6, i7, fun hr f oracle buildOk => ?_⟩
  obtain ⟨seen1, h1⟩ := h.later hl
  cases f with
  | none =>
    refine ⟨s', ?_⟩
    unfold Cam.addImage
    rw [if_neg (by rw [i5, hr]; simp)]
    rfl
  | some o =>
    obtain ⟨en, t, h, -⟩ := C76_collect hS h1 (i5.trans hr) o oracle buildOk (by
      rw [i6]; exact fun hc => Nat.not_succ_le_self _ (hc ▸ Nat.le_trans hn i7))
    exact ⟨t, h⟩

set_option synthInstance.maxSize 1000 in
/-- Three images, `batchNumImages` zero; and two pending images when it is lowered to one. -/
example : camView (run camDbl 0 [.initGeometry true, camAdd 0 8, camAdd 1 8, camAdd 2 8] (camSetup 0).start) =
      some ([true, true, true, true], [0, 1, 2], [], [], []) ∧
    camView (run camDbl 0 [.initGeometry true, camAdd 0 8, camAdd 1 8, .setNum 1, camAdd 2 8] (camSetup 3).start) =
      some ([true, true, true, true, true], [0, 1, 2], [], [], []) := by decide

/-- **C76 (geometry).** Before the geometry is initialised every image is refused with an exception and without effect;
`initGeometry` returns true exactly if it is or becomes initialised, touches nothing else, and keeps it initialised; an image
without target returns false and changes nothing. -/
theorem C76_geometry (s : Cam V F M) (D : Dbl F) (m0 : M) (oracle : OptInput V → OptCall V F M) (buildOk found : Bool)
    (img : Option (Obs V)) :
    (s.ready = false → s.addImage D m0 oracle buildOk img = .throw .invalidOperation s) ∧
    (s.ready = true → s.addImage D m0 oracle buildOk none = .ok false s) ∧
    (s.initGeometry found = .ok (s.ready || found) { s with ready := s.ready || found }) := by
  refine ⟨fun h => by unfold Cam.addImage; rw [if_pos h], fun h => by unfold Cam.addImage; rw [if_neg (by simp [h])], ?_⟩
  unfold Cam.initGeometry
  obtain ⟨w, opt, lms, cal, ready, batch, num, bo, eo, nd, ne, nb, subs⟩ := s
  cases ready <;> cases found <;> rfl

/-! ### C77 -/

/-- **C77.** After any history of calls, the pending batch and every submitted one consist of exactly: the landmarks in the
landmark group, the camera parameters in the calibration group, rotation and translation of each of its images in the
transformation group; and one reprojection error per visible corner of each image, in the order of images and corners, which
depends on the rotation and translation of that image, that corner and the camera parameters – nothing else. -/
theorem C77_batch {S : Setup V F M} (hS : S.Ok) {s : Cam V F M} {seen : List (Obs V)} (h : Reach S s seen)
    {b : BatchId} {es : List (Entry V)}
    (hb : s.batch = some b ∧ es = s.batchObs ∨ ∃ x ∈ s.subs, x.batch = b ∧ x.images = es) :
    (∀ d g, (s.w.B b).getGroupId d = .ok g () ↔
      (d ∈ S.lms ∧ g = S.opt.lmGroup) ∨ (d ∈ S.cal ∧ g = S.opt.calGroup) ∨
      ((∃ e ∈ es, d = e.qdv ∨ d = e.tdv) ∧ g = S.opt.trGroup)) ∧
    (s.w.B b).numDesignVariables = S.lms.length + S.cal.length + 2 * es.length ∧
    (s.w.B b).numErrorTerms = (errorDeps S.lms S.cal es).length ∧
    (∀ i ds, (errorDeps S.lms S.cal es)[i]? = some ds → ∃ e, (s.w.B b).errorTerm i = .ok e () ∧ s.w.heap.etDVs e = ds) := by
  have hl := h.inv hS
  have hc : Contents s.w.heap S.opt.lmGroup S.opt.calGroup S.opt.trGroup S.lms S.cal (s.w.B b) es := by
    rw [← hl.opt.1, ← hl.opt.2.1, ← hl.opt.2.2, ← hl.lms, ← hl.cal]
    rcases hb with ⟨hb, rfl⟩ | ⟨x, hx, rfl, rfl⟩
    · have := hl.cur
      simp only [Cur, hb] at this
      exact this.2.2
    · exact (hl.base.subsOk x hx).2
  refine ⟨?_, ?_, ?_, ?_⟩
  · intro d g
    have : (s.w.B b).getGroupId d = .ok g () ↔ (d, g) ∈ (s.w.B b).lookup := by
      rw [OptProblem.getGroupId]
      constructor
      · intro h
        cases hg : AL.get d (s.w.B b).lookup with
        | none => rw [hg] at h; simp at h
        | some g' =>
          rw [hg] at h
          simp only [Res.ok.injEq, and_true] at h
          subst h
          exact AL.get_mem hg
      · intro h
        rw [AL.get_of_mem (hl.base.binv b).lk h]
    rw [this, hc.mem_lookup]
    have : d ∈ es.flatMap Entry.dvs ↔ ∃ e ∈ es, d = e.qdv ∨ d = e.tdv := by
      simp [List.mem_flatMap, Entry.dvs]
    rw [this]
  · have hlen : (es.flatMap Entry.dvs).length = 2 * es.length := by
      rw [List.length_flatMap]
      clear hb hc
      induction es with
      | nil => rfl
      | cons e es ih =>
        have : (Entry.dvs e).length = 2 := rfl
        simp only [List.map_cons, List.sum_cons, List.length_cons, ih, this]; omega
    rw [OptProblem.numDesignVariables, hc.lookup, List.length_append, List.length_append, List.length_map, List.length_map,
      List.length_map, hlen]
  · have := congrArg List.length hc.deps
    rw [List.length_map, hc.ets] at this
    exact this
  · intro i ds hi
    have hd : (s.w.B b).errorTerms.map s.w.heap.etDVs = errorDeps S.lms S.cal es := hc.deps
    rw [← hd, List.getElem?_map, Option.map_eq_some_iff] at hi
    obtain ⟨e, he, rfl⟩ := hi
    exact ⟨e, by rw [OptProblem.errorTerm, he], rfl⟩

/-- The transformation group lists the poses in the order of the images. -/
theorem C77_poses {S : Setup V F M} (hS : S.Ok) {s : Cam V F M} {seen : List (Obs V)} (h : Reach S s seen)
    (h1 : S.opt.trGroup ≠ S.opt.lmGroup) (h2 : S.opt.trGroup ≠ S.opt.calGroup) {b : BatchId} {es : List (Entry V)} (hne : es ≠ [])
    (hb : s.batch = some b ∧ es = s.batchObs ∨ ∃ x ∈ s.subs, x.batch = b ∧ x.images = es) :
    (s.w.B b).getGroup S.opt.trGroup = .ok (es.flatMap fun e => [e.qdv, e.tdv]) () := by
  have hl := h.inv hS
  have hc : Contents s.w.heap S.opt.lmGroup S.opt.calGroup S.opt.trGroup S.lms S.cal (s.w.B b) es := by
    rw [← hl.opt.1, ← hl.opt.2.1, ← hl.opt.2.2, ← hl.lms, ← hl.cal]
    rcases hb with ⟨hb, rfl⟩ | ⟨x, hx, rfl, rfl⟩
    · have := hl.cur
      simp only [Cur, hb] at this
      exact this.2.2
    · exact (hl.base.subsOk x hx).2
  have := hc.trGroup h1 h2
  rw [OptProblem.getGroup]
  cases hg : AL.get S.opt.trGroup (s.w.B b).groups with
  | none =>
    rw [hg] at this
    exfalso
    cases es with
    | nil => exact hne rfl
    | cons e es => simp [Entry.dvs] at this
  | some l => rw [hg] at this; simp only [Option.getD_some] at this; rw [this]; rfl

/-- **C77 (what is estimated).** The variables of every image are made by the calibrator, are active and have three degrees of
freedom each; landmarks and camera parameters are active exactly if they were when the calibrator was constructed – the
calibrator never switches a variable on or off; every error of every batch has dimension two. -/
theorem C77_estimated {S : Setup V F M} {s : Cam V F M} {seen : List (Obs V)} (h : Reach S s seen) :
    (∀ e, (e ∈ s.batchObs ∨ ∃ x ∈ s.subs, e ∈ x.images) → ∀ d, d = e.qdv ∨ d = e.tdv →
      S.nd ≤ d ∧ s.w.heap.active d = true ∧ s.w.heap.minDim d = 3) ∧
    (∀ d, d < S.nd → s.w.heap.active d = S.heap.active d ∧ s.w.heap.minDim d = S.heap.minDim d) ∧
    (∀ b, ∀ e ∈ (s.w.B b).errorTerms, s.w.heap.etDim e = 2) := by
  have ha := h.attr
  refine ⟨fun e he d hd => ?_, ha.old, fun b e he => (ha.et b e he).2⟩
  have hm : e.Made S.nd s.nd := by
    rcases he with he | ⟨x, hx, he⟩
    · exact ha.pend e he
    · exact ha.subs x hx e he
  rcases hd with rfl | rfl
  · exact ⟨hm.1, ha.new _ hm.1 hm.2.1⟩
  · exact ⟨hm.2.2.1, ha.new _ hm.2.2.1 hm.2.2.2⟩

/-- The first batch of the run above has images 0 and 1: eight variables, three errors. -/
example : (run camDbl 0 [.initGeometry true, camAdd 0 8, camAdd 1 8, camAdd 2 8] (camSetup 2).start).map
    (fun x => ((x.1.w.B 0).numDesignVariables, (x.1.w.B 0).errorTerms.map x.1.w.heap.etDVs)) =
    some (8, [[4, 5, 0, 2, 3], [4, 5, 1, 2, 3], [6, 7, 1, 2, 3]]) := by decide

/-! ### C78 -/

theorem dvs_get (l : List (Entry V)) (i : Nat) : (l.flatMap Entry.dvs)[i * 2]? = (l[i]?).map Entry.qdv ∧
    (l.flatMap Entry.dvs)[i * 2 + 1]? = (l[i]?).map Entry.tdv := by
  induction l generalizing i with
  | nil => simp
  | cons e l ih =>
    cases i with
    | zero => exact ⟨rfl, rfl⟩
    | succ i =>
      have h : (e :: l).flatMap Entry.dvs = e.qdv :: e.tdv :: l.flatMap Entry.dvs := rfl
      have e1 : (i + 1) * 2 = i * 2 + 1 + 1 := by omega
      rw [h, e1]
      simp only [List.getElem?_cons_succ]
      exact ih i

/-- **C78 (order).** As long as no call threw and the transformation group is used for poses only: `getTransformation(idx)`
throws exactly if `idx` is not less than the number of used observations, and else returns the current pose of the `idx`-th
used image **in the order in which the images were taken**. -/
theorem C78_order {S : Setup V F M} (hS : S.Ok) (h1 : S.opt.trGroup ≠ S.opt.lmGroup) (h2 : S.opt.trGroup ≠ S.opt.calGroup)
    {s : Cam V F M} {seen : List (Obs V)} (h : ReachOk S s seen) :
    s.acceptedImages.length = s.estObs.length ∧
    ∀ idx, (s.estObs.length ≤ idx → s.getTransformation idx = .throw .outOfBound ()) ∧
      ∀ en, s.acceptedImages[idx]? = some en →
        s.getTransformation idx = .ok (s.w.heap.params en.qdv, s.w.heap.params en.tdv) () := by
  have hl := h.reach.inv hS
  have he := h.ei hS
  have hlen : s.acceptedImages.length = s.estObs.length := by
    rw [hl.est, Cam.acceptedImages]
    exact ((List.reverse_perm _).symm.flatMap_right _).length_eq
  refine ⟨hlen, fun idx => ⟨fun hi => ?_, fun en hen => ?_⟩⟩
  · unfold Cam.getTransformation; rw [if_pos hi]
  · have hi : idx < s.estObs.length := by
      rw [← hlen]
      exact (List.getElem?_eq_some_iff.1 hen).1
    unfold Cam.getTransformation
    rw [if_neg (Nat.not_le.2 hi)]
    have htr := he.tr (by rw [hl.opt.2.2, hl.opt.1]; exact h1) (by rw [hl.opt.2.2, hl.opt.2.1]; exact h2)
    have hflat : ((s.subs.filter Sub.accepted).flatMap fun x => x.images.flatMap Entry.dvs) = s.acceptedImages.flatMap Entry.dvs := by
      rw [Cam.acceptedImages, List.flatMap_assoc]
    rw [hflat] at htr
    have hg : s.w.est.inc.getGroup s.opt.trGroup = .ok (s.acceptedImages.flatMap Entry.dvs) () := by
      rw [IncProblem.getGroup]
      cases hx : AL.get s.opt.trGroup s.w.est.inc.groups with
      | none =>
        rw [hx] at htr
        have h0 := (dvs_get s.acceptedImages idx).1
        rw [← htr, hen] at h0
        simp at h0
      | some l => rw [hx] at htr; simp only [Option.getD_some] at htr; rw [htr]
    obtain ⟨d1, d2⟩ := dvs_get s.acceptedImages idx
    rw [hg]
    simp only [Res.bind, d1, d2, hen, Option.map_some]

/-- the property one would expect: `getTransformation(idx)` belongs to `getEstimatorObservations()[idx]`. -/
def PosesMatch (s : Cam V F M) : Prop := ∀ idx en, s.estObs[idx]? = some en →
  s.getTransformation idx = .ok (s.w.heap.params en.qdv, s.w.heap.params en.tdv) ()

/-- **C78 (what holds).** The `idx`-th pose belongs to the `idx`-th used observation as long as at most one submission has
been accepted.  Missing, because false (`C78_mismatch`): after further accepted submissions. -/
theorem C78_match_partial {S : Setup V F M} (hS : S.Ok) (h1 : S.opt.trGroup ≠ S.opt.lmGroup)
    (h2 : S.opt.trGroup ≠ S.opt.calGroup) {s : Cam V F M} {seen : List (Obs V)} (h : ReachOk S s seen)
    (hone : (s.subs.filter Sub.accepted).length ≤ 1) : PosesMatch s := by
  have hl := h.reach.inv hS
  intro idx en hen
  apply ((C78_order hS h1 h2 h).2 idx).2 en
  rw [← hen, hl.est, Cam.acceptedImages]
  cases hf : s.subs.filter Sub.accepted with
  | nil => rfl
  | cons x l =>
    rw [hf] at hone
    have : l = [] := by
      cases l with
      | nil => rfl
      | cons _ _ => simp at hone
    rw [this]; rfl

/-- **C78 is false with two accepted submissions:** if the first and the latest accepted submission contain images, then
`getEstimatorObservations()[0]` is the first image of the latest one, but `getTransformation(0)` is the pose of the first image
of the first one – two different variables, so different poses as soon as the camera moved. -/
theorem C78_mismatch {S : Setup V F M} (hS : S.Ok) (h1 : S.opt.trGroup ≠ S.opt.lmGroup)
    (h2 : S.opt.trGroup ≠ S.opt.calGroup) {s : Cam V F M} {seen : List (Obs V)} (h : ReachOk S s seen)
    {x y : Sub V} {l : List (Sub V)} (hsub : s.subs.filter Sub.accepted = x :: (l ++ [y]))
    {e0 e1 : Entry V} {r0 r1 : List (Entry V)} (hx : x.images = e0 :: r0) (hy : y.images = e1 :: r1) :
    s.estObs[0]? = some e1 ∧ s.getTransformation 0 = .ok (s.w.heap.params e0.qdv, s.w.heap.params e0.tdv) () ∧
    e0.qdv ≠ e1.qdv ∧ e0.tdv ≠ e1.tdv ∧
    (s.w.heap.params e0.qdv ≠ s.w.heap.params e1.qdv → ¬ PosesMatch s) := by
  have hl := h.reach.inv hS
  have hobs : s.estObs[0]? = some e1 := by
    rw [hl.est, hsub]; simp [hy]
  have hget : s.getTransformation 0 = .ok (s.w.heap.params e0.qdv, s.w.heap.params e0.tdv) () := by
    apply ((C78_order hS h1 h2 h).2 0).2 e0
    rw [Cam.acceptedImages, hsub]; simp [hx]
  have hxs : x ∈ s.subs := List.mem_of_mem_filter (hsub ▸ List.mem_cons_self)
  have hys : y ∈ s.subs := List.mem_of_mem_filter (p := Sub.accepted) (by rw [hsub]; simp)
  have hne : x.batch ≠ y.batch := by
    have hn : ((s.subs.filter Sub.accepted).map Sub.batch).Nodup := hl.base.subsNodup.sublist (List.filter_sublist.map _)
    rw [hsub] at hn
    simp only [List.map_cons, List.map_append, List.map_nil, List.nodup_cons, List.mem_append, List.mem_singleton, not_or] at hn
    exact hn.1.2
  have cx := (hl.base.subsOk x hxs).2
  have cy := (hl.base.subsOk y hys).2
  have hnot : ∀ d, d ∈ e0.dvs → d ∉ e1.dvs := by
    intro d hd0 hd1
    have m0 : (d, s.opt.trGroup) ∈ (s.w.B x.batch).lookup := (cx.mem_lookup d _).2
      (.inr (.inr ⟨List.mem_flatMap.2 ⟨e0, by rw [hx]; exact List.mem_cons_self, hd0⟩, rfl⟩))
    have m1 : (d, s.opt.trGroup) ∈ (s.w.B y.batch).lookup := (cy.mem_lookup d _).2
      (.inr (.inr ⟨List.mem_flatMap.2 ⟨e1, by rw [hy]; exact List.mem_cons_self, hd1⟩, rfl⟩))
    have hni : d ∉ s.lms ++ s.cal := by
      intro hmm
      have g0 := AL.get_of_mem (hl.base.binv x.batch).lk m0
      rcases List.mem_append.1 hmm with hm | hm
      · have g1 := AL.get_of_mem (hl.base.binv x.batch).lk ((cx.mem_lookup d _).2 (.inl ⟨hm, rfl⟩))
        rw [g0, hl.opt.2.2, hl.opt.1] at g1; exact h1 (Option.some.inj g1)
      · have g1 := AL.get_of_mem (hl.base.binv x.batch).lk ((cx.mem_lookup d _).2 (.inr (.inl ⟨hm, rfl⟩)))
        rw [g0, hl.opt.2.2, hl.opt.2.1] at g1; exact h2 (Option.some.inj g1)
    exact hne (hl.base.trDisj x.batch y.batch d hni (List.mem_map.2 ⟨_, m0, rfl⟩) (List.mem_map.2 ⟨_, m1, rfl⟩))
  refine ⟨hobs, hget, fun hc => hnot e0.qdv (by simp [Entry.dvs]) (by simp [Entry.dvs, hc]),
    fun hc => hnot e0.tdv (by simp [Entry.dvs]) (by simp [Entry.dvs, hc]), fun hp hm => ?_⟩
  have := hm 0 e1 hobs
  rw [hget] at this
  simp only [Res.ok.injEq, Prod.mk.injEq, and_true] at this
  exact hp this.1

/-- A run in which this happens: two accepted submissions of one image each; observation 0 is image 1 (pose 101, 201), but the
pose reported for it is that of image 0. -/
example : (run camDbl 0 [.initGeometry true, camAdd 0 8, camAdd 1 20] (camSetup 1).start).map
    (fun x => (x.1.estObs.map (fun e => (e.obs.id, e.obs.q)), x.1.subs.map Sub.accepted,
      match x.1.getTransformation 0 with
      | .ok p _ => some p
      | _ => none)) =
    some ([(1, 101), (0, 100)], [true, true], some (100, 200)) := by decide

/-! ### C79 -/

theorem pending_errors {S : Setup V F M} {s : Cam V F M} {seen : List (Obs V)} (hl : LInv S s seen) {b : BatchId}
    (hb : s.batch = some b) (hv : ∃ en ∈ s.batchObs, ∃ i < S.lms.length, en.obs.visible i = true) : (s.w.B b).etLookup ≠ [] := by
  obtain ⟨en, hen, i, hi, hvis⟩ := hv
  have hc := hl.cur
  simp only [Cur, hb] at hc
  have hd := hc.2.2.deps
  intro h0
  rw [hc.2.2.ets, h0, List.map_nil] at hd
  have := List.flatMap_eq_nil_iff.1 hd.symm en hen
  rw [List.map_eq_nil_iff, visLms, List.map_eq_nil_iff, List.filter_eq_nil_iff] at this
  rw [← hl.lms] at hi
  exact this (s.lms[i], i) (by
    rw [List.mem_zipIdx_iff_getElem?]
    simp [hi]) hvis

/-- **C79 (a failed submission is never repeated by itself).** If `addBatch` throws inside `addImage`, the exception leaves the
calibrator with all images pending; since the count has passed `batchNumImages`, no later image triggers a submission
(`C76_never` applies to the state left behind). -/
theorem C79_silent {S : Setup V F M} (hS : S.Ok) {s s' : Cam V F M} {seen : List (Obs V)} (h : Reach S s seen) {o : Obs V}
    {oracle : OptInput V → OptCall V F M} {buildOk : Bool} {e : Exc} (hr : s.ready = true)
    (hf : s.addImage S.D S.m0 oracle buildOk (some o) = .throw e s') :
    s'.opt.batchNumImages ≤ s'.num ∧ (∃ en, en.obs = o ∧ s'.batchObs = s.batchObs ++ [en]) ∧
    s'.subs = s.subs ∧ s'.estObs = s.estObs := by
  by_cases hn : s.num + 1 = s.opt.batchNumImages
  · obtain ⟨en, s1, h1, h2, h3, h4, h5, h6, h7, h8, h9, h10, h11, h12, h13, h14, h15, -⟩ := (h.inv hS).observe o
    unfold Cam.addImage at hf
    rw [if_neg (by rw [hr]; simp)] at hf
    simp only [h1, Res.bind] at hf
    rw [if_pos (by rw [h6, h8]; exact hn)] at hf
    cases hp : ({ s1 with batchObs := s1.batchObs ++ [en] } : Cam V F M).processBatch S.D S.m0 oracle buildOk with
    | ok a t => rw [hp] at hf; simp at hf
    | ub => rw [hp] at hf; simp at hf
    | diverge => rw [hp] at hf; simp at hf
    | throw e' t =>
      rw [hp] at hf
      simp only [Res.throw.injEq] at hf
      obtain ⟨rfl, rfl⟩ := hf
      obtain ⟨-, -, k1, -, -, -, k2⟩ := processBatch_eff h3.base h3.cur (ok := false) (s' := t) (by rw [hp]; rfl)
      rcases k2 with ⟨-, -, k3⟩ | ⟨b, -, ⟨_, _, -, rfl, -⟩ | ⟨_, _, -, k3, -⟩⟩
      · simp at k3
      · exact ⟨by simp only [h6, h8]; exact Nat.le_of_eq hn.symm, ⟨en, h2, by simp only [h5]⟩, h13, h12⟩
      · simp at k3
  · obtain ⟨en, t, ht, -⟩ := C76_collect hS h hr o oracle buildOk hn
    rw [hf] at ht; simp at ht

/-- **C79 (a batch that stayed in the estimator blocks the calibrator for ever).** If the pending batch – with at least one
visible corner – is in the estimator's problem, as after an exception of the optimizer, then whatever is done afterwards:
every submission throws, no submission ever returns, no observation is ever used again. -/
theorem C79_stuck {S : Setup V F M} (hS : S.Ok) {s s' : Cam V F M} {seen : List (Obs V)} (h : Reach S s seen) {b : BatchId}
    (hb : s.batch = some b) (hin : b ∈ s.w.est.inc.problems)
    (hv : ∃ en ∈ s.batchObs, ∃ i < S.lms.length, en.obs.visible i = true)
    (hl : Later S.D S.m0 (fun _ _ => True) s s') :
    s'.subs = s.subs ∧ s'.estObs = s.estObs ∧
    ∀ oracle buildOk, ∃ t, s'.processBatch S.D S.m0 oracle buildOk = .throw .invalidOperation t := by
  have hi := h.inv hS
  have hj : Jam b s := ⟨hi.base, hi.cur, hb, hin, pending_errors hi hb hv⟩
  obtain ⟨k1, k2, k3⟩ := hj.later hS h hl
  refine ⟨k2, k3, fun oracle buildOk => ?_⟩
  obtain ⟨t, ht, -⟩ := k1.process (D := S.D) (m0 := S.m0) (oracle := oracle) (buildOk := buildOk)
  exact ⟨t, ht⟩

/-- **C79 (when this happens).** After calls that did not throw, a submission that throws leaves the batch in the estimator's
problem unless the exception came from rebuilding the linear system after a rejection or the vector of batches is full – then
the problem's batches are the old ones. -/
theorem C79_after_failure {S : Setup V F M} (hS : S.Ok) {s s' : Cam V F M} {seen : List (Obs V)} (h : ReachOk S s seen)
    {oracle : OptInput V → OptCall V F M} {buildOk : Bool} {e : Exc} (hf : s.processBatch S.D S.m0 oracle buildOk = .throw e s') :
    ∃ b, s.batch = some b ∧ s'.batch = some b ∧ s'.batchObs = s.batchObs ∧
      (s'.w.est.inc.problems = s.w.est.inc.problems ++ [b] ∨
        (buildOk = false ∨ IncProblem.maxBatches ≤ s.w.getNumBatches) ∧ e = .external ∧
          s'.w.est.inc.problems = s.w.est.inc.problems) := by
  have hl := h.reach.inv hS
  have he := h.ei hS
  obtain ⟨-, -, -, -, -, -, h5⟩ := processBatch_eff hl.base hl.cur (ok := false) (s' := s') (by rw [hf]; rfl)
  rcases h5 with ⟨-, -, h5⟩ | ⟨b, hb, ⟨e', w', ha, rfl, -, hp⟩ | ⟨_, _, -, h5, -⟩⟩
  · simp at h5
  · rw [hf] at hp
    simp only [Res.throw.injEq, and_true] at hp
    subst hp
    refine ⟨b, hb, hb, rfl, ?_⟩
    have hcur := hl.cur
    simp only [Cur, hb] at hcur
    obtain ⟨hadd1, hadd2, hnp, -⟩ := he.addable hl.base hcur.2.1 hcur.2.2
    by_cases hroom : s.w.est.inc.problems.length < IncProblem.maxBatches
    swap
    · obtain ⟨q', k1, k2⟩ := add_full (w := s.w.toWorld) he.einv.winv hadd1 hadd2 hroom
      simp only [EWorld.toWorld] at k1 k2
      simp only [EWorld.addBatch, k1, Res.mapState, Res.bind, Res.throw.injEq] at ha
      obtain ⟨rfl, rfl⟩ := ha
      exact .inr ⟨.inr (Nat.not_lt.1 hroom), rfl, k2⟩
    have hadd : Addable s.w.B s.w.est.inc (s.w.B b) := ⟨hadd1, hadd2, hroom⟩
    obtain ⟨q1, hq1, hr, heff⟩ := addBatch_eff S.D S.m0 oracle buildOk he.einv.winv hadd false
    rw [ha] at heff
    have hprob : q1.problems = s.w.est.inc.problems ++ [b] := hr.problems
    cases heff with
    | noMarg hm => exact .inl hprob
    | optThrows call hc hm ht => exact .inl ((optWorld_inc s.w q1 false).1.trans hprob)
    | rejected call srv sc mg gain idx h5 q2 L hc hm h1 h2 hg hk hh hidx hq2 hr2 hL r hres =>
      simp only at hres
      split at hres
      · simp at hres
      · rename_i hcond
        simp only [Res.throw.injEq] at hres
        obtain ⟨rfl, rfl⟩ := hres
        refine .inr ⟨.inl ?_, rfl, ?_⟩
        · cases buildOk <;> simp_all
        · have k1 := hr2.problems
          simp only [(optWorld_inc s.w q1 false).1] at k1
          simp only
          rw [k1, hprob]
          rw [hprob] at hidx
          have hnone : List.findIdx? (fun x => x == b) s.w.est.inc.problems = none := by
            rw [List.findIdx?_eq_none_iff]
            intro x hx
            simp only [beq_eq_false_iff_ne, ne_eq]
            rintro rfl; exact hnp hx
          rw [List.findIdx?_append, hnone] at hidx
          simp at hidx
          rw [← hidx]
          simp [List.eraseIdx_append_of_length_le]
  · simp at h5

set_option synthInstance.maxSize 1000 in
/-- A run: the optimizer throws in the submission of images 0 and 1; the next images and a submission with a working optimizer
achieve nothing, although the calls that add images return. -/
example : camView (run camDbl 0 [.initGeometry true, camAdd 0 8, .addImage (some (camObs 1)) camOracleThrow true, camAdd 2 8,
      camAdd 3 8, .processBatch (camOracle 8) true] (camSetup 2).start) =
    some ([true, true, false, true, true, false], [0, 1, 2, 3], [], [], [0]) := by decide

/-! ### C80 -/

/-- after a submission that returned there is always a pending batch. -/
theorem batch_of_subs {S : Setup V F M} (hS : S.Ok) {s : Cam V F M} {seen : List (Obs V)} (h : Reach S s seen)
    (hsub : s.subs ≠ []) : ∃ b, s.batch = some b := by
  induction h with
  | init => exact absurd rfl hsub
  | @step s s' seen ok op hprev hs ih =>
    have hl := hprev.inv hS
    have key : ∀ {t t' : Cam V F M} {oracle : OptInput V → OptCall V F M} {buildOk ok : Bool}, Base t → Cur t →
        (t.subs ≠ [] → ∃ b, t.batch = some b) → t'.subs ≠ [] →
        (t.processBatch S.D S.m0 oracle buildOk).outcome = some (ok, t') → ∃ b, t'.batch = some b := by
      intro t t' oracle buildOk ok hb hc ho hne hp
      obtain ⟨-, -, -, -, -, -, k2⟩ := processBatch_eff hb hc hp
      rcases k2 with ⟨-, rfl, -⟩ | ⟨b, kb, ⟨_, _, -, rfl, -, -⟩ | ⟨_, _, -, -, -, -, -, k3, -⟩⟩
      · exact ho hne
      · exact ⟨b, kb⟩
      · exact ⟨_, k3⟩
    cases op with
    | initGeometry found =>
      have hs := outcome_bind_ok (f := some) hs
      unfold Cam.initGeometry at hs
      split at hs
      · simp only [Res.outcome, Option.some.injEq, Prod.mk.injEq] at hs; obtain ⟨-, rfl⟩ := hs; exact ih hsub
      · split at hs
        · simp only [Res.outcome, Option.some.injEq, Prod.mk.injEq] at hs; obtain ⟨-, rfl⟩ := hs; exact ih hsub
        · simp only [Res.outcome, Option.some.injEq, Prod.mk.injEq] at hs; obtain ⟨-, rfl⟩ := hs; exact ih hsub
    | setNum n =>
      simp only [Op.step, Res.outcome, Option.some.injEq, Prod.mk.injEq] at hs; obtain ⟨-, rfl⟩ := hs; exact ih hsub
    | processBatch oracle buildOk =>
      exact key hl.base hl.cur ih hsub (outcome_bind_ok (f := fun _ => none) hs)
    | addImage found oracle buildOk =>
      have hs := outcome_bind_ok (f := some) hs
      unfold Cam.addImage at hs
      split at hs
      · simp only [Res.outcome, Option.some.injEq, Prod.mk.injEq] at hs; obtain ⟨-, rfl⟩ := hs; exact ih hsub
      · cases found with
        | none => simp only [Res.outcome, Option.some.injEq, Prod.mk.injEq] at hs; obtain ⟨-, rfl⟩ := hs; exact ih hsub
        | some o =>
          obtain ⟨en, t, e1, -, e3, ⟨b, e4, -⟩, -⟩ := hl.observe o
          simp only [e1] at hs
          obtain ⟨a, s3, e, hs⟩ | ⟨e, e', -⟩ := outcome_bind hs
          · simp only [Res.ok.injEq] at e
            obtain ⟨rfl, rfl⟩ := e
            split at hs
            · exact key e3.base e3.cur (fun _ => ⟨b, e4⟩) hsub (outcome_bind_ok (f := fun _ => true) hs)
            · simp only [Res.outcome, Option.some.injEq, Prod.mk.injEq] at hs; obtain ⟨-, rfl⟩ := hs; exact ⟨b, e4⟩
          · simp at e'

/-- **C80.** Once a submission has returned, `processBatch()` always submits: also when no image is pending, it hands the
estimator a batch without any error term, which may be accepted like any other. -/
theorem C80_empty_submission {S : Setup V F M} (hS : S.Ok) {s : Cam V F M} {seen : List (Obs V)} (h : Reach S s seen)
    (hsub : s.subs ≠ []) : ∃ b, s.batch = some b ∧
      (s.batchObs = [] → (s.w.B b).numErrorTerms = 0 ∧
        ∀ oracle buildOk r w', s.w.addBatch S.D S.m0 oracle buildOk (some b) false = .ok r w' →
          ∃ s', s.processBatch S.D S.m0 oracle buildOk = .ok () s' ∧ s'.subs = s.subs ++ [⟨b, [], r.batchAccepted⟩]) := by
  obtain ⟨b, hb⟩ := batch_of_subs hS h hsub
  refine ⟨b, hb, fun he => ⟨?_, fun oracle buildOk r w' ha => ?_⟩⟩
  · have := (C77_batch hS h (.inl ⟨hb, rfl⟩)).2.2.1
    rw [he] at this
    exact this
  · obtain ⟨s', h1, -, -, -, -, -, -, -, h2, -⟩ := ((C76_process hS h oracle buildOk).2 b hb).2 r w' ha
    rw [he] at h2
    exact ⟨s', h1, h2⟩

set_option synthInstance.maxSize 1000 in
/-- A run: an image, then two explicit submissions; the second, without images, is accepted as well. -/
example : camView (run camDbl 0 [.initGeometry true, camAdd 0 8, .processBatch (camOracle 8) true,
      .processBatch (camOracle 20) true] (camSetup 2).start) =
    some ([true, true, true, true], [], [0], [([0], true), ([], true)], [0, 1]) := by decide

end Camera
end Verif
