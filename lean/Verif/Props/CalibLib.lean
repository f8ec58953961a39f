import Verif.Lemmas.CalibLib3
import Verif.Props.Car
import Verif.Props.TimeDelay
import Verif.Props.Egomotion

/-! Property C121: the calibrators with the estimator of the library. -/

namespace Verif
namespace CalibLib
variable {X V F M : Type} {c : Env X V F M} {g : GroupId} {o : EstOptions F} {mo : F} {h : Heap V}

/-! ### The estimator -/

theorem log_grows {s s' : St X V F M} {x : X} (hs : (c.submit s x).state? = some s') : s.log.length ≤ s'.log.length := by
  unfold Env.submit at hs
  simp only at hs
  split at hs
  · split at hs <;> simp only [Res.state?, Option.some.injEq, reduceCtorEq] at hs <;> subst hs <;> simp
  · simp only [Res.state?, Option.some.injEq] at hs; subst hs; exact le_refl _
  · simp [Res.state?] at hs
  · simp [Res.state?] at hs

theorem reach_inv (hx : ∀ x, Good c x) (hc : 0 < c.ncal) (hg : g = 0 ∨ g = 1) {s : St X V F M}
    (hr : Reach c (c.start mo g o h) s) (hl : s.log.length ≤ IncProblem.maxBatches) :
    Inv c g o (Estimator.initStats c.D mo c.m0) (c.cal.map h.params) s := by
  induction hr with
  | start => exact Inv.init c mo g o h
  | @step s s' x _ hs ih =>
    have hle := log_grows hs
    have hi := ih (hle.trans hl)
    by_cases hlt : s.log.length < IncProblem.maxBatches
    · obtain ⟨s2, b, h1, h2, h3, h4⟩ := hi.step (hx x) hc hg hlt
      rcases h4 with ⟨r, -, h4⟩ | ⟨-, h4⟩ <;> rw [h4] at hs <;> simp only [Res.state?, Option.some.injEq] at hs <;> subst hs <;>
        exact h3
    · -- no room: this window cannot have been logged within the bound
      obtain ⟨sp, hbuild, -⟩ := batch_built c s.log.length s.w.heap (hx x) hc
      exfalso
      have : s'.log.length = s.log.length + 1 := by
        unfold Env.submit at hs
        simp only at hs
        rw [hbuild] at hs
        simp only at hs
        split at hs <;> simp only [Res.state?, Option.some.injEq, reduceCtorEq] at hs <;> subst hs <;> simp
      omega

/-- **C121**: the estimator of the library never refuses a window of a calibrator: for every history, `addBatch` returns, or
the optimizer or the linear solver failed. -/
theorem C121_never_refused (hx : ∀ x, Good c x) (hc : 0 < c.ncal) (hg : g = 0 ∨ g = 1) {s : St X V F M}
    (hr : Reach c (c.start mo g o h) s) (hl : s.log.length < IncProblem.maxBatches) (x : X) :
    (∃ r s', c.submit s x = .ok r s') ∨
    (∃ s', c.submit s x = .throw .external s' ∧
      ((∃ inp, (c.oracle s.log.length inp).report = none ∨ (c.oracle s.log.length inp).marginal = none) ∨
        c.buildOk s.log.length = false)) := by
  obtain ⟨s', b, h1, h2, h3, h4⟩ := (reach_inv hx hc hg hr hl.le).step (hx x) hc hg hl
  rcases h4 with ⟨r, -, h4⟩ | ⟨h5, h4⟩
  · exact .inl ⟨_, _, h4⟩
  · refine .inr ⟨_, h4, ?_⟩
    obtain ⟨inp, -, h6⟩ := (h3.dec s.log b [] h1).threw h5
    rcases h6 with ⟨h6, -⟩ | ⟨h6, -⟩
    · exact .inl ⟨inp, h6⟩
    · exact .inr h6

/-- **C121**: what every window did, for every history: the decision, what the optimizer was given, what became of the batch and of
the calibration. -/
theorem C121_windows (hx : ∀ x, Good c x) (hc : 0 < c.ncal) (hg : g = 0 ∨ g = 1) {s : St X V F M}
    (hr : Reach c (c.start mo g o h) s) (hl : s.log.length ≤ IncProblem.maxBatches) {pre post : List (Sub X V F M)}
    {b : Sub X V F M} (hs : s.log = pre ++ b :: post) :
    Decided c g o (Estimator.initStats c.D mo c.m0) (c.cal.map h.params) pre b :=
  (reach_inv hx hc hg hr hl).dec pre b post hs

/-- **C121**: the problem of the estimator, for every history: it holds the batches of the accepted windows (and of those the
optimizer failed on) in their order; its variables are the spline variables of these windows, in order, and the calibration
variables, once; its error terms are those of these windows, in order; and the statistics are those of the last accepted
window. -/
theorem C121_problem (hx : ∀ x, Good c x) (hc : 0 < c.ncal) (hg : g = 0 ∨ g = 1) {s : St X V F M}
    (hr : Reach c (c.start mo g o h) s) (hl : s.log.length ≤ IncProblem.maxBatches) :
    s.w.est.inc.problems = inside s.log ∧
    s.w.est.inc.problems.flatMap (fun k => (s.w.B k).errorTerms) = allTerms c s.log ∧
    s.w.est.stats = statsAfter (Estimator.initStats c.D mo c.m0) s.log ∧
    c.params s = calAfter (c.cal.map h.params) s.log ∧
    (∀ i, s.w.est.inc.designVariable i =
      match (if inside s.log = [] then [] else if g = 0 then c.cal ++ splineVars c s.log else splineVars c s.log ++ c.cal)[i]? with
      | some d => .ok d ()
      | none => .throw .outOfBound ()) := by
  have hi := reach_inv hx hc hg hr hl
  refine ⟨hi.probs, hi.allTerms, hi.stats, hi.cal, ?_⟩
  intro i
  have hdv := inc_designVariable_eq hi.einv.winv i
  simp only [EWorld.toWorld] at hdv
  rw [hdv]
  have : enumDV s.w.est.inc.groups s.w.est.inc.ordering =
      if inside s.log = [] then [] else if g = 0 then c.cal ++ splineVars c s.log else splineVars c s.log ++ c.cal := by
    rw [hi.order]
    by_cases hin : inside s.log = []
    · simp [hin, enumDV]
    · have h1 := hi.group1
      rw [if_neg hin] at h1
      rcases hg with rfl | rfl <;> simp [hin, enumDV, orderOf, hi.group0, h1]
  rw [this]
  cases (if inside s.log = [] then [] else if g = 0 then c.cal ++ splineVars c s.log else splineVars c s.log ++ c.cal)[i]? <;> rfl

/-- **C121**: dimensions, activity and dependencies, for every history: those of the calibration variables are what they were at the
beginning; all spline variables and error terms made so far are as they were made. -/
theorem C121_objects (hx : ∀ x, Good c x) (hc : 0 < c.ncal) (hg : g = 0 ∨ g = 1) {s : St X V F M}
    (hr : Reach c (c.start mo g o h) s) (hl : s.log.length ≤ IncProblem.maxBatches) :
    (∀ d ∈ c.cal, s.w.heap.minDim d = h.minDim d ∧ s.w.heap.active d = h.active d) ∧
    ∀ k b, s.log[k]? = some b → Made c k b.win s.w.heap := by
  refine ⟨?_, (reach_inv hx hc hg hr hl).made⟩
  clear hl
  induction hr with
  | start => intro d _; exact ⟨rfl, rfl⟩
  | @step s s' x _ hs ih =>
    intro d hd
    obtain ⟨i1, i2⟩ := ih d hd
    obtain ⟨sp, hbuild, -⟩ := batch_built c s.log.length s.w.heap (hx x) hc
    have hready : (ready c s.log.length x s.w.heap).minDim d = s.w.heap.minDim d ∧
        (ready c s.log.length x s.w.heap).active d = s.w.heap.active d := by
      obtain ⟨j, -, rfl⟩ := mem_cal.1 hd
      have hne : calVar j ∉ spl c s.log.length x := by
        intro hmem
        obtain ⟨i, -, hi⟩ := mem_spl.1 hmem
        exact cal_ne_spl _ _ _ hi.symm
      constructor
      · simp [ready, Heap.activate, Env.alloc, calVar, Nat.unpair_pair]
      · unfold ready Heap.activate
        simp only [hne]
        simp [Env.alloc, calVar, Nat.unpair_pair]
    rw [← i1, ← i2, ← hready.1, ← hready.2]
    unfold Env.submit at hs
    simp only at hs
    rw [hbuild] at hs
    simp only at hs
    split at hs <;> simp only [Res.state?, Option.some.injEq, reduceCtorEq] at hs <;> subst hs
    · rename_i r w' hw
      have := (Camera.addBatch_same (ok := true) (w' := w') (by rw [hw]; rfl)).2
      rw [this]; exact ⟨rfl, rfl⟩
    · rename_i e w' hw
      have := (Camera.addBatch_same (ok := false) (w' := w') (by rw [hw]; rfl)).2
      rw [this]; exact ⟨rfl, rfl⟩

/-- **C121** (negation): if the group in the configuration is neither that of the splines nor that of the calibration variables,
the first window ends in an exception, and its batch stays in the problem. -/
theorem C121_wrong_group (hg0 : g ≠ 0) (hg1 : g ≠ 1) {x : X} (hx : Good c x) (hc : 0 < c.ncal) :
    ∃ s', c.submit (c.start mo g o h) x = .throw .invalidOperation s' ∧ s'.w.est.inc.problems = [0] := by
  have hi := Inv.init c mo g o h
  obtain ⟨sp, hbuild, hp, hb⟩ := batch_built c 0 h hx hc
  have hroom : (c.start mo g o h : St X V F M).log.length < IncProblem.maxBatches := by
    show 0 < IncProblem.maxBatches
    unfold IncProblem.maxBatches; norm_num
  have hadd := hi.addable (x := x) (p := sp.base) hp hb hroom
  have hE := hi.handed (x := x) (p := sp.base) hb
  obtain ⟨q1, hq1, hr, heff⟩ := addBatch_eff c.D c.m0 (c.oracle 0) (c.buildOk 0) hE.winv hadd false
  have hord : q1.ordering = [0, 1] := by
    have := hr.ordering
    have hself : (handOver c (c.start mo g o h) x sp.base).B (c.start mo g o h : St X V F M).log.length = sp.base :=
      handOver_self (c := c) (s := c.start mo g o h) (x := x) (p := sp.base)
    have h2 : (handOver c (c.start mo g o h) x sp.base).toWorld.B (c.start mo g o h : St X V F M).log.length = sp.base := hself
    rw [h2, hp.ordering] at this
    rw [this]
    rfl
  have hnm : (handOver c (c.start mo g o h) x sp.base).est.margGroup ∉ q1.ordering := by
    rw [hord, show (handOver c (c.start mo g o h) x sp.base).est.margGroup = g from rfl]
    simp [hg0, hg1]
  have hres : (handOver c (c.start mo g o h) x sp.base).addBatch c.D c.m0 (c.oracle 0) (c.buildOk 0) (some 0) false =
      .throw .invalidOperation ((handOver c (c.start mo g o h) x sp.base).setInc q1) := by
    have heff' : AddEff c.D c.m0 (c.oracle 0) (c.buildOk 0) (handOver c (c.start mo g o h) x sp.base) 0 false q1
      ((handOver c (c.start mo g o h) x sp.base).addBatch c.D c.m0 (c.oracle 0) (c.buildOk 0) (some 0) false) := heff
    generalize (handOver c (c.start mo g o h) x sp.base).addBatch c.D c.m0 (c.oracle 0) (c.buildOk 0) (some 0) false = res at heff' ⊢
    cases heff' with
    | noMarg => rfl
    | optThrows call hcall hm => exact absurd hm hnm
    | kept call srv sc mg gain hcall hm => exact absurd hm hnm
    | rejected call srv sc mg gain idx h5 q2 L hcall hm => exact absurd hm hnm
  have hsub : ∃ l, c.submit (c.start mo g o h) x =
      .throw .invalidOperation ⟨(handOver c (c.start mo g o h) x sp.base).setInc q1, l⟩ := by
    have hres' : ({ (c.start mo g o h : St X V F M).w with
          B := fun b => if b = 0 then sp.base else (c.start mo g o h : St X V F M).w.B b
          heap := ready c 0 x h } : EWorld V F M).addBatch c.D c.m0 (c.oracle 0) (c.buildOk 0) (some 0) false =
        .throw .invalidOperation ((handOver c (c.start mo g o h) x sp.base).setInc q1) := hres
    unfold Env.submit
    simp only
    rw [show (c.start mo g o h : St X V F M).log.length = 0 from rfl, show (c.start mo g o h : St X V F M).w.heap = h from rfl, hbuild]
    simp only
    rw [hres']
    exact ⟨_, rfl⟩
  obtain ⟨l, hsub⟩ := hsub
  exact ⟨_, hsub, hr.problems⟩

/-! ### The histories the calibrators offer -/

theorem gainsOf_snoc (l : List (Sub X V F M)) (b : Sub X V F M) :
    gainsOf (l ++ [b]) = gainsOf l ++ (match b.ret with | some r => [r.informationGain] | none => []) := by
  unfold gainsOf
  cases h : b.ret <;> simp [List.filterMap_append, h]

theorem paramsOf_snoc (l : List (Sub X V F M)) (b : Sub X V F M) :
    paramsOf (l ++ [b]) = paramsOf l ++ (if b.ret.isSome then [b.after] else []) := by
  unfold paramsOf
  cases h : b.ret.isSome <;> simp [List.filter_append, h]

/-- the histories after one more window. -/
theorem Inv.record {st0 : Stats F M} {v0 : List V} {s : St X V F M} {x : X} (hi : Inv c g o st0 v0 s) (hx : Good c x)
    (hc : 0 < c.ncal) (hg : g = 0 ∨ g = 1) (hroom : s.log.length < IncProblem.maxBatches) {gains : List F} {params : List (List V)}
    {n : Nat} (hr : Recorded v0 s gains params n) :
    (∃ r s', c.submit s x = .ok r s' ∧ Inv c g o st0 v0 s' ∧ Recorded v0 s' (gains ++ [r]) (params ++ [c.params s']) (n + 1)) ∨
    ∃ s', c.submit s x = .throw .external s' ∧ Inv c g o st0 v0 s' ∧ Recorded v0 s' gains params (n + 1) := by
  obtain ⟨s', b, h1, h2, h3, h4⟩ := hi.step hx hc hg hroom
  have hcal : c.params s' = b.after := by rw [h3.cal, h1, calAfter_snoc]
  rcases h4 with ⟨r, h5, h4⟩ | ⟨h5, h4⟩
  · refine .inl ⟨_, _, h4, h3, ?_, ?_, ?_⟩
    · rw [h1, gainsOf_snoc, h5, hr.gains]
    · rw [h1, paramsOf_snoc, h5, hr.params, hcal]; rfl
    · rw [h1, List.length_append, hr.sent]; rfl
  · refine .inr ⟨_, h4, h3, ?_, ?_, ?_⟩
    · rw [h1, gainsOf_snoc, h5, hr.gains]; simp
    · rw [h1, paramsOf_snoc, h5, hr.params]; simp
    · rw [h1, List.length_append, hr.sent]; rfl

/-- one window more, in terms of the public histories. -/
theorem reach_record (hx : ∀ x, Good c x) (hc : 0 < c.ncal) (hg : g = 0 ∨ g = 1) {s : St X V F M} {x : X}
    (hr : Reach c (c.start mo g o h) s) {gains : List F} {params : List (List V)} {n : Nat}
    (hrec : Recorded (c.cal.map h.params) s gains params n) (hn : n < IncProblem.maxBatches) :
    (∃ r s', c.submit s x = .ok r s' ∧ Reach c (c.start mo g o h) s' ∧
      Recorded (c.cal.map h.params) s' (gains ++ [r]) (params ++ [c.params s']) (n + 1)) ∨
    ∃ s', c.submit s x = .throw .external s' ∧ Reach c (c.start mo g o h) s' ∧
      Recorded (c.cal.map h.params) s' gains params (n + 1) := by
  have hlt : s.log.length < IncProblem.maxBatches := hrec.sent ▸ hn
  rcases (reach_inv hx hc hg hr hlt.le).record (hx x) hc hg hlt hrec with ⟨r, s', h1, -, h2⟩ | ⟨s', h1, -, h2⟩
  · exact .inl ⟨r, s', h1, .step hr (by rw [h1]; rfl), h2⟩
  · exact .inr ⟨s', h1, .step hr (by rw [h1]; rfl), h2⟩

theorem recorded_start : Recorded (c.cal.map h.params) (c.start mo g o h : St X V F M) [] [c.params (c.start mo g o h)] 0 :=
  ⟨rfl, rfl, rfl⟩

/-! ### The time delay and the egomotion calibrator -/

section
variable {K N E B : Type} [DecidableEq K] {w : WinCfg K N E X F (List V)} {π : E → St X V F M}

omit [DecidableEq K] in
theorem win_flush (hx : ∀ x, Good c x) (hc : 0 < c.ncal) (hg : g = 0 ∨ g = 1)
    (hprep : ∀ e b e', (w.prepare e b).state? = some e' → π e' = π e)
    (hadd : ∀ e b, (w.addBatch e b).mapState π = c.submit (π e) b) (hpar : ∀ e, w.params e = c.params (π e))
    {s s' : Win K N E F (List V)} (hr : Reach c (c.start mo g o h) (π s.est))
    (hrec : Recorded (c.cal.map h.params) (π s.est) s.gains s.params s.sent.length)
    (hs : (s.addMeasurements w).state? = some s') (hl : s'.sent.length ≤ IncProblem.maxBatches) :
    Reach c (c.start mo g o h) (π s'.est) ∧ Recorded (c.cal.map h.params) (π s'.est) s'.gains s'.params s'.sent.length := by
  unfold Win.addMeasurements at hs
  split_ifs at hs with hrdy
  · simp only [Res.state?, Option.some.injEq] at hs; subst hs; exact ⟨hr, hrec⟩
  · cases hp : w.prepare s.est s.buf with
    | throw ex e1 =>
      rw [hp] at hs
      simp only [Res.state?, Option.some.injEq] at hs; subst hs
      have := hprep s.est s.buf e1 (by rw [hp]; rfl)
      simp only [this]; exact ⟨hr, hrec⟩
    | ub => rw [hp] at hs; simp [Res.state?] at hs
    | diverge => rw [hp] at hs; simp [Res.state?] at hs
    | ok b e1 =>
      rw [hp] at hs
      simp only at hs
      have he := hprep s.est s.buf e1 (by rw [hp]; rfl)
      have ha := hadd e1 b
      rw [he] at ha
      have hn : s.sent.length < IncProblem.maxBatches := by
        have : s'.sent.length = s.sent.length + 1 := by
          split at hs <;> simp only [Res.state?, Option.some.injEq, reduceCtorEq] at hs <;> subst hs <;> simp
        omega
      rcases reach_record (x := b) hx hc hg hr hrec hn with ⟨r, t, h1, h2, h3⟩ | ⟨t, h1, h2, h3⟩
      · rw [h1] at ha
        cases hq : w.addBatch e1 b <;> rw [hq] at ha hs <;> simp only [Res.mapState, Res.ok.injEq, reduceCtorEq] at ha
        obtain ⟨rfl, ha⟩ := ha
        simp only [Res.state?, Option.some.injEq] at hs; subst hs
        simp only [hpar, ha, List.length_append, List.length_singleton]
        exact ⟨h2, h3⟩
      · rw [h1] at ha
        cases hq : w.addBatch e1 b <;> rw [hq] at ha hs <;> simp only [Res.mapState, Res.throw.injEq, reduceCtorEq] at ha
        obtain ⟨rfl, ha⟩ := ha
        simp only [Res.state?, Option.some.injEq] at hs; subst hs
        simp only [ha, List.length_append, List.length_singleton]
        exact ⟨h2, h3⟩

theorem win_run (hx : ∀ x, Good c x) (hc : 0 < c.ncal) (hg : g = 0 ∨ g = 1)
    (hprep : ∀ e b e', (w.prepare e b).state? = some e' → π e' = π e)
    (hadd : ∀ e b, (w.addBatch e b).mapState π = c.submit (π e) b) (hpar : ∀ e, w.params e = c.params (π e))
    {e0 : E} (he : π e0 = c.start mo g o h)
    {s : Win K N E F (List V)} {acc : List N} {gone : List (K → List N)} (hs : Win.Run w e0 s acc gone)
    (hl : s.sent.length ≤ IncProblem.maxBatches) :
    Reach c (c.start mo g o h) (π s.est) ∧ Recorded (c.cal.map h.params) (π s.est) s.gains s.params s.sent.length := by
  -- one `addMeasurement`
  have hone : ∀ {s s' : Win K N E F (List V)} {t : Int}, (s.sent.length ≤ IncProblem.maxBatches →
      Reach c (c.start mo g o h) (π s.est) ∧ Recorded (c.cal.map h.params) (π s.est) s.gains s.params s.sent.length) →
      (s.addMeasurement w t).state? = some s' → s'.sent.length ≤ IncProblem.maxBatches →
      Reach c (c.start mo g o h) (π s'.est) ∧ Recorded (c.cal.map h.params) (π s'.est) s'.gains s'.params s'.sent.length := by
    intro s s' t ih hs hl
    unfold Win.addMeasurement at hs
    simp only at hs
    split_ifs at hs with h1 h2 h2
    all_goals first
      | (simp [Res.state?] at hs; done)
      | (rcases Win.addMeasurements_state hs with h3 | h3
         · have h4 := ih (h3.2.2.2.1 ▸ hl)
           exact win_flush hx hc hg hprep hadd hpar (s := { s with last := t, start := _ }) h4.1 h4.2 hs hl
         · have h4 := ih (by have := congrArg List.length h3.2.2.2.2; simp only [List.length_append] at this; omega)
           exact win_flush hx hc hg hprep hadd hpar (s := { s with last := t, start := _ }) h4.1 h4.2 hs hl)
      | (simp only [Res.state?, Option.some.injEq] at hs; subst hs; exact ih hl)
  induction hs with
  | init => simp only [Win.init, he, hpar]; exact ⟨.start, recorded_start⟩
  | @addOk s s' acc gone m _ hs ih =>
    unfold Win.add at hs
    cases hq : s.addMeasurement w (w.time m) with
    | ok u s1 =>
      rw [hq] at hs
      simp only [Res.bind, Res.ok.injEq] at hs
      obtain ⟨-, rfl⟩ := hs
      exact hone (s' := s1) ih (by rw [hq]; rfl) hl
    | throw x s1 => rw [hq] at hs; simp [Res.bind] at hs
    | ub => rw [hq] at hs; simp [Res.bind] at hs
    | diverge => rw [hq] at hs; simp [Res.bind] at hs
  | @addThrow s s' acc gone m x _ hs ih =>
    unfold Win.add at hs
    cases hq : s.addMeasurement w (w.time m) <;> rw [hq] at hs <;> simp only [Res.bind, Res.throw.injEq, reduceCtorEq] at hs
    obtain ⟨-, rfl⟩ := hs
    exact hone ih (by rw [hq]; rfl) hl
  | @flush s s' acc gone _ hs ih =>
    have hle : s.sent.length ≤ s'.sent.length := by
      rcases Win.addMeasurements_state hs with h3 | h3
      · rw [h3.2.2.2.1]
      · rw [h3.2.2.2.2]; simp
    have h4 := ih (hle.trans hl)
    exact win_flush hx hc hg hprep hadd hpar h4.1 h4.2 hs hl
  | clear _ ih => exact ih hl

end

/-! ### The car calibrator -/

section
variable {env : CarEnv (St CarBatch V F M) F (List V)} {op : CarOpt} {c : Env CarBatch V F M}

theorem car_flush (hx : ∀ x, Good c x) (hc : 0 < c.ncal) (hg : g = 0 ∨ g = 1)
    (hadd : env.addBatch = c.submit) (hpar : env.params = c.params)
    {s s' : CarCal (St CarBatch V F M) F (List V)} (hr : Reach c (c.start mo g o h) s.est)
    (hrec : Recorded (c.cal.map h.params) s.est s.gains s.params s.sent.length)
    (hs : (s.addMeasurements env op).state? = some s') (hl : s'.sent.length ≤ IncProblem.maxBatches) :
    Reach c (c.start mo g o h) s'.est ∧ Recorded (c.cal.map h.params) s'.est s'.gains s'.params s'.sent.length := by
  unfold CarCal.addMeasurements at hs
  rw [hadd, hpar] at hs
  split_ifs at hs with h2
  · simp only [Res.state?, Option.some.injEq] at hs; subst hs; exact ⟨hr, hrec⟩
  · split at hs
    · simp [Res.state?] at hs
    · split at hs
      · simp only [Res.state?, Option.some.injEq] at hs; subst hs; exact ⟨hr, hrec⟩
      · simp only at hs
        have hn : s.sent.length < IncProblem.maxBatches := by
          have : s'.sent.length = s.sent.length + 1 := by
            split at hs <;> simp only [Res.state?, Option.some.injEq, reduceCtorEq] at hs <;> subst hs <;> simp
          omega
        rename_i segs _ _ _
        rcases reach_record (x := ⟨s.buf .pose, segs, CarCal.buildTerms env op s.est s.buf⟩) hx hc hg hr hrec hn with
          ⟨r, t, h1, h2, h3⟩ | ⟨t, h1, h2, h3⟩
        · rw [h1] at hs
          simp only [Res.state?, Option.some.injEq] at hs; subst hs
          simp only [List.length_append, List.length_singleton]
          exact ⟨h2, h3⟩
        · rw [h1] at hs
          simp only [Res.state?, Option.some.injEq] at hs; subst hs
          simp only [List.length_append, List.length_singleton]
          exact ⟨h2, h3⟩

/-- **C121**, car: for every history of calls, the estimator of the calibrator got exactly the submitted windows (so the theorems
above hold of it), the information gain history is that of the calls which returned, and the parameter history starts with the
initial calibration and continues with the calibration after each such call. -/
theorem C121_car (hx : ∀ x, Good c x) (hc : 0 < c.ncal) (hg : g = 0 ∨ g = 1)
    (hadd : env.addBatch = c.submit) (hpar : env.params = c.params)
    {s : CarCal (St CarBatch V F M) F (List V)} {acc : List Meas} {gone : List Window}
    (hs : CarCal.Run env op (c.start mo g o h) s acc gone) (hl : s.sent.length ≤ IncProblem.maxBatches) :
    Reach c (c.start mo g o h) s.est ∧ Recorded (c.cal.map h.params) s.est s.gains s.params s.sent.length := by
  have hone : ∀ {s s' : CarCal (St CarBatch V F M) F (List V)} {t : Int}, (s.sent.length ≤ IncProblem.maxBatches →
      Reach c (c.start mo g o h) s.est ∧ Recorded (c.cal.map h.params) s.est s.gains s.params s.sent.length) →
      (s.addMeasurement env op t).state? = some s' → s'.sent.length ≤ IncProblem.maxBatches →
      Reach c (c.start mo g o h) s'.est ∧ Recorded (c.cal.map h.params) s'.est s'.gains s'.params s'.sent.length := by
    intro s s' t ih hs hl
    unfold CarCal.addMeasurement at hs
    simp only at hs
    split_ifs at hs with h1 h2 h2
    all_goals first
      | (simp [Res.state?] at hs; done)
      | (rcases CarCal.addMeasurements_state hs with h3 | h3
         · have h4 := ih (by rw [h3] at hl; exact hl)
           exact car_flush hx hc hg hadd hpar (s := { s with last := t, start := _ }) h4.1 h4.2 hs hl
         · have h4 := ih (by have := congrArg List.length h3.2.2.2.2; simp only [List.length_append] at this; omega)
           exact car_flush hx hc hg hadd hpar (s := { s with last := t, start := _ }) h4.1 h4.2 hs hl)
      | (simp only [Res.state?, Option.some.injEq] at hs; subst hs; exact ih hl)
  induction hs with
  | init => simp only [CarCal.init, hpar]; exact ⟨.start, recorded_start⟩
  | @addOk s s' acc gone m _ hs ih =>
    unfold CarCal.add at hs
    cases hq : s.addMeasurement env op m.t with
    | ok u s1 =>
      rw [hq] at hs
      simp only [Res.bind, Res.ok.injEq] at hs
      obtain ⟨-, rfl⟩ := hs
      exact hone (s' := s1) ih (by rw [hq]; rfl) hl
    | throw x s1 => rw [hq] at hs; simp [Res.bind] at hs
    | ub => rw [hq] at hs; simp [Res.bind] at hs
    | diverge => rw [hq] at hs; simp [Res.bind] at hs
  | @addThrow s s' acc gone m x _ hs ih =>
    unfold CarCal.add at hs
    cases hq : s.addMeasurement env op m.t <;> rw [hq] at hs <;> simp only [Res.bind, Res.throw.injEq, reduceCtorEq] at hs
    obtain ⟨-, rfl⟩ := hs
    exact hone ih (by rw [hq]; rfl) hl
  | @flush s s' acc gone _ hs ih =>
    have hle : s.sent.length ≤ s'.sent.length := by
      rcases CarCal.addMeasurements_state hs with h3 | h3
      · rw [h3]
      · rw [h3.2.2.2.2]; simp
    have h4 := ih (hle.trans hl)
    exact car_flush hx hc hg hadd hpar h4.1 h4.2 hs hl
  | clear _ ih => exact ih hl

end

/-- **C121**, time delay: the same. -/
theorem C121_time_delay {W : Type} {c : Env TD.Batch V F M} {env : TD.Env (St TD.Batch V F M) F (List V) W} {op : TD.Opt}
    (hx : ∀ x, Good c x) (hc : 0 < c.ncal) (hg : g = 0 ∨ g = 1) (hadd : env.addBatch = c.submit) (hpar : env.params = c.params)
    {s : Win TD.Sensor TD.Meas (St TD.Batch V F M) F (List V)} {acc : List TD.Meas} {gone : List (TD.Sensor → List TD.Meas)}
    (hs : Win.Run (TD.cfg env op) (c.start mo g o h) s acc gone) (hl : s.sent.length ≤ IncProblem.maxBatches) :
    Reach c (c.start mo g o h) s.est ∧ Recorded (c.cal.map h.params) s.est s.gains s.params s.sent.length := by
  refine win_run (π := fun e => e) hx hc hg ?_ ?_ ?_ rfl hs hl
  · intro e b e' hp
    simp only [TD.cfg, TD.prepare] at hp
    have hi : ∀ e', (TD.initSplines env op e (b .pose)).state? = some e' → e' = e := by
      intro e' hp
      unfold TD.initSplines at hp
      repeat' split at hp
      all_goals first
        | (simp [Res.state?] at hp; done)
        | (simp only [Res.state?, Option.some.injEq] at hp; exact hp.symm)
    cases hq : TD.initSplines env op e (b .pose) <;> rw [hq] at hp hi <;> simp only [Res.state?, Option.some.injEq, reduceCtorEq] at hp
    · subst hp; exact hi _ rfl
    · subst hp; exact hi _ rfl
  · intro e b
    simp only [TD.cfg, hadd]
    cases c.submit e b <;> rfl
  · intro e; simp only [TD.cfg, hpar]

/-- **C121**, egomotion: the same. -/
theorem C121_egomotion {T W : Type} [Group T] {c : Env (Ego.Batch T) V F M}
    {env : Ego.Env T (St (Ego.Batch T) V F M) F (List V) W} {op : Ego.Opt} {t0 : T}
    (hx : ∀ x, Good c x) (hc : 0 < c.ncal) (hg : g = 0 ∨ g = 1) (hadd : env.addBatch = c.submit) (hpar : env.params = c.params)
    {s : Win Nat (Ego.Meas T) (Ego.St T (St (Ego.Batch T) V F M)) F (List V)} {acc : List (Ego.Meas T)}
    {gone : List (Nat → List (Ego.Meas T))}
    (hs : Win.Run (Ego.cfg env op) ⟨c.start mo g o h, t0⟩ s acc gone) (hl : s.sent.length ≤ IncProblem.maxBatches) :
    Reach c (c.start mo g o h) s.est.inner ∧
    Recorded (c.cal.map h.params) s.est.inner s.gains s.params s.sent.length := by
  refine win_run (π := Ego.St.inner) hx hc hg ?_ ?_ ?_ rfl hs hl
  · intro e b e' hp
    simp only [Ego.cfg, Ego.prepare] at hp
    have hi : ∀ e', (Ego.initSplines env op e b).state? = some e' → e'.inner = e.inner := by
      intro e' hp
      unfold Ego.initSplines at hp
      simp only at hp
      repeat' split at hp
      all_goals first
        | (simp [Res.state?] at hp; done)
        | (simp only [Res.state?, Option.some.injEq] at hp; subst hp; rfl)
    cases hq : Ego.initSplines env op e b <;> rw [hq] at hp hi <;> simp only at hp
    · split at hp <;> simp only [Res.state?, Option.some.injEq] at hp <;> subst hp <;> exact hi _ rfl
    · exact hi _ hp
    · simp [Res.state?] at hp
    · simp [Res.state?] at hp
  · intro e b
    simp only [Ego.cfg, Ego.addBatch, hadd]
    cases c.submit e.inner b <;> rfl
  · intro e; simp only [Ego.cfg, hpar]

/-- **C121**: as long as no call threw, entry `k` of the information gain history and the entries `k` and `k + 1` of the
parameter history belong to window `k`: before it, after it.  In particular a window that is not accepted repeats the entry. -/
theorem C121_entries (hx : ∀ x, Good c x) (hc : 0 < c.ncal) (hg : g = 0 ∨ g = 1) {s : St X V F M}
    (hr : Reach c (c.start mo g o h) s) {gains : List F} {params : List (List V)} {n : Nat}
    (hrec : Recorded (c.cal.map h.params) s gains params n) (hn : n ≤ IncProblem.maxBatches) (hall : gains.length = n)
    {k : Nat} {b : Sub X V F M} (hb : s.log[k]? = some b) :
    ∃ r, b.ret = some r ∧ gains[k]? = some r.informationGain ∧ params[k]? = some b.before ∧ params[k + 1]? = some b.after ∧
      (r.batchAccepted = false → params[k + 1]? = params[k]?) := by
  have hret : ∀ x ∈ s.log, x.ret.isSome = true := by
    have hlen : (s.log.filterMap Sub.ret).length = s.log.length := by
      rw [hrec.sent, ← hall, hrec.gains]; simp [gainsOf]
    have hfm : (s.log.filterMap Sub.ret).length = s.log.countP (fun x => (Sub.ret x).isSome) := List.length_filterMap_eq_countP
    rw [hfm] at hlen
    exact List.countP_eq_length.1 hlen
  have hmem : b ∈ s.log := List.mem_of_getElem? hb
  obtain ⟨r, hbr⟩ := Option.isSome_iff_exists.1 (hret b hmem)
  have hg1 : gains = s.log.map (fun x => ((Sub.ret x).map RetVal.informationGain).getD r.informationGain) := by
    have key : ∀ l : List (Sub X V F M), (∀ x ∈ l, x.ret.isSome = true) → gainsOf l =
        l.map (fun x => ((Sub.ret x).map RetVal.informationGain).getD r.informationGain) := by
      intro l hl
      unfold gainsOf
      induction l with
      | nil => rfl
      | cons x xs ih =>
        obtain ⟨rx, hrx⟩ := Option.isSome_iff_exists.1 (hl x (by simp))
        simp only [List.filterMap_cons, hrx, List.map_cons, Option.map_some, Option.getD_some]
        rw [ih fun y hy => hl y (by simp [hy])]
    rw [hrec.gains, key _ hret]
  have hp1 : params = c.cal.map h.params :: s.log.map Sub.after := by
    rw [hrec.params]
    unfold paramsOf
    rw [List.filter_eq_self.2 hret]
  obtain ⟨pre, post, hsplit, hpre⟩ : ∃ pre post, s.log = pre ++ b :: post ∧ pre.length = k := by
    have hk : k < s.log.length := by
      by_contra hcon
      rw [List.getElem?_eq_none (by omega)] at hb; simp at hb
    refine ⟨s.log.take k, s.log.drop (k + 1), ?_, by simp; omega⟩
    have : s.log[k] = b := by rw [List.getElem?_eq_getElem hk] at hb; simpa using hb
    rw [← this, List.getElem_cons_drop, List.take_append_drop]
  have hdec := C121_windows hx hc hg hr (hrec.sent ▸ hn) hsplit
  have hbef : params[k]? = some b.before := by
    rw [hdec.before, hp1, hsplit, ← hpre]
    unfold calAfter
    rcases List.eq_nil_or_concat pre with rfl | ⟨l, y, rfl⟩
    · simp
    · simp
  have haft : params[k + 1]? = some b.after := by
    rw [hp1, List.getElem?_cons_succ, List.getElem?_map, hb]; rfl
  refine ⟨r, hbr, ?_, hbef, haft, ?_⟩
  · rw [hg1, List.getElem?_map, hb]; simp [hbr]
  · intro hrej
    obtain ⟨inp, sc, -, -, -, -, -, -, -, hafter⟩ := hdec.returned r hbr
    rw [haft, hbef, hafter, hrej]; rfl

/-! ### The theorems apply -/

/-- two calibration variables, splines with one variable each, one error term per window; the optimizer sets all values to
`100 + n` in window `n`; the first window has rank 2 and information 10, the later ones the same. -/
def exEnv (X : Type) : Env X Nat Int Nat where
  D := ⟨0, fun a b => (a - b) / 2, fun a b => decide (a > b), fun a b => decide (a ≥ b)⟩
  m0 := 0
  late := false
  ncal := 2
  ntr := fun _ => 1
  nro := fun _ => 1
  value := fun _ _ => 0
  dim := fun _ => 3
  terms := fun _ => [([.cal 0, .spl 1], 3)]
  oracle := fun n _ => ⟨fun _ => 100 + n, ⟨fun _ => 0, fun _ => 0, fun _ => 0, [], []⟩, some (⟨5, 10, 4⟩, ⟨0, 0, 0, 0, 0⟩),
    some ⟨10, 0, 0, 0, 0, 0, 0, 0, 2, 0, 0, 0, 0, 0, 0⟩⟩
  buildOk := fun _ => true

/-- validity checking on, at most 20 iterations, threshold 3. -/
def exOpts : EstOptions Int := ⟨3, true, 20, true⟩

/-- the calibration variables, both 7. -/
def exHeap : Heap Nat where
  active := fun _ => true
  minDim := fun _ => 3
  params := fun _ => 7
  etDVs := fun _ => []
  etDim := fun _ => 3

theorem ex_good (X : Type) (x : X) : Good (exEnv X) x := by
  refine ⟨by simp [exEnv], ?_⟩
  simp [exEnv]

def exCar : CarEnv (St CarBatch Nat Int Nat) Int (List Nat) where
  sec := fun t => t
  delay := fun _ _ => 0
  speed := fun _ _ _ => 1
  axleSpeed := fun _ _ _ => 1
  fit := fun _ _ _ => none
  addBatch := (exEnv CarBatch).submit
  params := (exEnv CarBatch).params

/-- a program without exception handler is a history. -/
theorem car_history {E G P : Type} {env : CarEnv E G P} {op : CarOpt} {e : E} (ops : List CarCal.Op) :
    ∀ {s s' : CarCal E G P} {acc : List Meas} {gone : List Window}, CarCal.Run env op e s acc gone →
      CarCal.runOps env op s ops = .ok () s' → ∃ acc' gone', CarCal.Run env op e s' acc' gone' := by
  induction ops with
  | nil => intro s s' acc gone hr h; simp only [CarCal.runOps, Res.ok.injEq, true_and] at h; exact ⟨_, _, h ▸ hr⟩
  | cons a as ih =>
    intro s s' acc gone hr h
    simp only [CarCal.runOps] at h
    cases hq : a.run env op s with
    | ok u s1 =>
      rw [hq] at h
      simp only [Res.bind] at h
      cases a with
      | add m => exact ih (.addOk hr hq) h
      | flush => exact ih (.flush hr (show (s.addMeasurements env op).state? = some s1 by
          simp only [CarCal.Op.run] at hq; rw [hq]; rfl)) h
      | clear =>
        simp only [CarCal.Op.run, Res.ok.injEq, true_and] at hq
        subst hq
        exact ih (CarCal.Run.clear hr) h
    | throw x s1 => rw [hq] at h; simp [Res.bind] at h
    | ub => rw [hq] at h; simp [Res.bind] at h
    | diverge => rw [hq] at h; simp [Res.bind] at h

/-- a program without exception handler is a history. -/
theorem win_history {K N E B G P : Type} [DecidableEq K] {w : WinCfg K N E B G P} {e : E} (ops : List (Win.Op N)) :
    ∀ {s s' : Win K N E G P} {acc : List N} {gone : List (K → List N)}, Win.Run w e s acc gone →
      Win.runOps w s ops = .ok () s' → ∃ acc' gone', Win.Run w e s' acc' gone' := by
  induction ops with
  | nil => intro s s' acc gone hr h; simp only [Win.runOps, Res.ok.injEq, true_and] at h; exact ⟨_, _, h ▸ hr⟩
  | cons a as ih =>
    intro s s' acc gone hr h
    simp only [Win.runOps] at h
    cases hq : a.run w s with
    | ok u s1 =>
      rw [hq] at h
      simp only [Res.bind] at h
      cases a with
      | add m => exact ih (.addOk hr hq) h
      | flush => exact ih (.flush hr (show (s.addMeasurements w).state? = some s1 by
          simp only [Win.Op.run] at hq; rw [hq]; rfl)) h
      | clear =>
        simp only [Win.Op.run, Res.ok.injEq, true_and] at hq
        subst hq
        exact ih (Win.Run.clear hr) h
    | throw x s1 => rw [hq] at h; simp [Res.bind] at h
    | ub => rw [hq] at h; simp [Res.bind] at h
    | diverge => rw [hq] at h; simp [Res.bind] at h

/-- two windows of the car calibrator with the estimator of the library: the first is accepted, the second is not; the parameter
history repeats the entry of the first. -/
theorem ex_car : ∃ s, CarCal.runOps exCar CarCal.demoOpt (CarCal.init exCar ((exEnv CarBatch).start (-1) 1 exOpts exHeap))
      [.add (CarCal.demoPose 0), .add (CarCal.demoPose 9), .add (CarCal.demoPose 11), .add (CarCal.demoPose 19),
        .add (CarCal.demoPose 21)] = .ok () s ∧
    s.gains = [5, 0] ∧ s.params = [[7, 7], [100, 100], [100, 100]] ∧ s.est.w.est.inc.problems = [0] ∧ s.sent.length = 2 := by
  obtain ⟨s, h1, h2⟩ := CarCal.okTest_spec (r := CarCal.runOps exCar CarCal.demoOpt
      (CarCal.init exCar ((exEnv CarBatch).start (-1) 1 exOpts exHeap))
      [.add (CarCal.demoPose 0), .add (CarCal.demoPose 9), .add (CarCal.demoPose 11), .add (CarCal.demoPose 19),
        .add (CarCal.demoPose 21)])
    (p := fun s => decide (s.gains = [5, 0] ∧ s.params = [[7, 7], [100, 100], [100, 100]] ∧ s.est.w.est.inc.problems = [0] ∧
      s.sent.length = 2))
    (by decide +kernel)
  exact ⟨s, h1, of_decide_eq_true h2⟩

/-- the theorems about the car calibrator, its estimator and its histories apply to this program. -/
example : ∃ s : CarCal (St CarBatch Nat Int Nat) Int (List Nat), s.est.log.length = 2 ∧
    Reach (exEnv CarBatch) ((exEnv CarBatch).start (-1) 1 exOpts exHeap) s.est ∧
    s.gains = gainsOf s.est.log ∧ inside s.est.log = [0] ∧
    ∃ pre b r, s.est.log = pre ++ [b] ∧ b.ret = some r ∧ r.informationGain = 0 ∧
      Decided (exEnv CarBatch) 1 exOpts (Estimator.initStats (exEnv CarBatch).D (-1) 0) [7, 7] pre b := by
  obtain ⟨s, h1, h2, h3, h4, h5⟩ := ex_car
  obtain ⟨acc, gone, hrun⟩ := car_history _ .init h1
  have hl : s.sent.length ≤ IncProblem.maxBatches := by rw [h5]; unfold IncProblem.maxBatches; norm_num
  obtain ⟨hr, hrec⟩ := C121_car (ex_good CarBatch) (by simp [exEnv]) (.inr rfl) rfl rfl hrun hl
  have hprob := (C121_problem (ex_good CarBatch) (by simp [exEnv]) (.inr rfl) hr (hrec.sent ▸ hl)).1
  have hlen : s.est.log.length = 2 := hrec.sent.trans h5
  obtain ⟨a, b, hab⟩ := List.length_eq_two.1 hlen
  obtain ⟨r, h6, h7, -⟩ := C121_entries (k := 1) (b := b) (ex_good CarBatch) (by simp [exEnv]) (.inr rfl) hr hrec hl
    (by rw [h2, h5]; rfl) (by rw [hab]; rfl)
  rw [h2] at h7
  refine ⟨s, hlen, hr, hrec.gains, hprob ▸ h4, [a], b, r, hab, h6, by simpa using h7.symm, ?_⟩
  exact C121_windows (ex_good CarBatch) (by simp [exEnv]) (.inr rfl) hr (hrec.sent ▸ hl) (post := []) hab

def exTd : TD.Env (St TD.Batch Nat Int Nat) Int (List Nat) Nat where
  sec := fun n => (n : ℚ) / 1000000000
  delay := fun _ _ => 0
  fit := fun _ _ _ => none
  addBatch := (exEnv TD.Batch).submit
  params := (exEnv TD.Batch).params
  eval := fun _ _ _ => (0, [], 0)

/-- two windows of the time delay calibrator. -/
theorem ex_td : ∃ s, Win.runOps (TD.cfg exTd TD.demoOpt)
      (Win.init (TD.cfg exTd TD.demoOpt) ((exEnv TD.Batch).start (-1) 0 exOpts exHeap))
      [.add (TD.demoPose 0), .add (TD.demoLeft 5), .add (TD.demoPose 9), .add (TD.demoPose 11), .add (TD.demoPose 19), .flush] =
        .ok () s ∧
    s.gains = [5, 0] ∧ s.params = [[7, 7], [100, 100], [100, 100]] ∧ s.est.w.est.inc.ordering = [1, 0] ∧ s.sent.length = 2 := by
  obtain ⟨s, h1, h2⟩ := Win.okTest_spec (r := Win.runOps (TD.cfg exTd TD.demoOpt)
      (Win.init (TD.cfg exTd TD.demoOpt) ((exEnv TD.Batch).start (-1) 0 exOpts exHeap))
      [.add (TD.demoPose 0), .add (TD.demoLeft 5), .add (TD.demoPose 9), .add (TD.demoPose 11), .add (TD.demoPose 19), .flush])
    (p := fun s => decide (s.gains = [5, 0] ∧ s.params = [[7, 7], [100, 100], [100, 100]] ∧
      s.est.w.est.inc.ordering = [1, 0] ∧ s.sent.length = 2))
    (by decide +kernel)
  exact ⟨s, h1, of_decide_eq_true h2⟩

/-- the theorems apply to it. -/
example : ∃ s : Win TD.Sensor TD.Meas (St TD.Batch Nat Int Nat) Int (List Nat), s.est.log.length = 2 ∧
    Reach (exEnv TD.Batch) ((exEnv TD.Batch).start (-1) 0 exOpts exHeap) s.est ∧ s.gains = gainsOf s.est.log ∧
    s.params = [7, 7] :: paramsOf s.est.log := by
  obtain ⟨s, h1, h2, h3, h4, h5⟩ := ex_td
  obtain ⟨acc, gone, hrun⟩ := win_history _ .init h1
  have hl : s.sent.length ≤ IncProblem.maxBatches := by rw [h5]; unfold IncProblem.maxBatches; norm_num
  obtain ⟨hr, hrec⟩ := C121_time_delay (ex_good TD.Batch) (by simp [exEnv]) (.inl rfl) rfl rfl hrun hl
  exact ⟨s, hrec.sent.trans h5, hr, hrec.gains, hrec.params⟩

def exEgo : Ego.Env Ego.Z (St (Ego.Batch Ego.Z) Nat Int Nat) Int (List Nat) Nat where
  sec := fun n => (n : ℚ) / 1000000000
  order := fun w => [0, 1, 2].filter fun k => !(w k).isEmpty
  known := fun k => decide (k < 2)
  delay := fun _ _ => 100000000
  lroundInf := -9223372036854775808
  fit := fun _ _ _ => none
  addBatch := ({ exEnv (Ego.Batch Ego.Z) with late := true } : Env _ _ _ _).submit
  params := ({ exEnv (Ego.Batch Ego.Z) with late := true } : Env _ _ _ _).params
  eval := fun _ _ _ => (0, [], 0)

/-- a window of the egomotion calibrator. -/
theorem ex_ego : ∃ s, Win.runOps (Ego.cfg exEgo Ego.demoOpt) (Win.init (Ego.cfg exEgo Ego.demoOpt)
        ⟨({ exEnv (Ego.Batch Ego.Z) with late := true } : Env _ _ _ _).start (-1) 1 exOpts exHeap, 1⟩)
      [.add (Ego.dm 1 0), .add (Ego.dm 0 1), .add (Ego.dm 0 2), .add (Ego.dm 1 2), .add (Ego.dm 0 3), .add (Ego.dm 1 3),
        .add (Ego.dm 0 4), .add (Ego.dm 1 4), .add (Ego.dm 0 10)] = .ok () s ∧
    s.gains = [5] ∧ s.params = [[7, 7], [100, 100]] ∧ s.sent.length = 1 := by
  obtain ⟨s, h1, h2⟩ := Win.okTest_spec (r := Win.runOps (Ego.cfg exEgo Ego.demoOpt) (Win.init (Ego.cfg exEgo Ego.demoOpt)
        ⟨({ exEnv (Ego.Batch Ego.Z) with late := true } : Env _ _ _ _).start (-1) 1 exOpts exHeap, 1⟩)
      [.add (Ego.dm 1 0), .add (Ego.dm 0 1), .add (Ego.dm 0 2), .add (Ego.dm 1 2), .add (Ego.dm 0 3), .add (Ego.dm 1 3),
        .add (Ego.dm 0 4), .add (Ego.dm 1 4), .add (Ego.dm 0 10)])
    (p := fun s => decide (s.gains = [5] ∧ s.params = [[7, 7], [100, 100]] ∧ s.sent.length = 1))
    (by decide +kernel)
  exact ⟨s, h1, of_decide_eq_true h2⟩

/-- the theorems apply to it. -/
example : ∃ s : Win Nat (Ego.Meas Ego.Z) (Ego.St Ego.Z (St (Ego.Batch Ego.Z) Nat Int Nat)) Int (List Nat),
    s.est.inner.log.length = 1 ∧ s.gains = gainsOf s.est.inner.log ∧ s.params = [7, 7] :: paramsOf s.est.inner.log := by
  obtain ⟨s, h1, h2, h3, h5⟩ := ex_ego
  obtain ⟨acc, gone, hrun⟩ := win_history _ .init h1
  have hl : s.sent.length ≤ IncProblem.maxBatches := by rw [h5]; unfold IncProblem.maxBatches; norm_num
  obtain ⟨hr, hrec⟩ := C121_egomotion (c := { exEnv (Ego.Batch Ego.Z) with late := true }) (fun x => ex_good (Ego.Batch Ego.Z) x)
    (by simp [exEnv]) (.inr rfl) rfl rfl hrun hl
  exact ⟨s, hrec.sent.trans h5, hrec.gains, hrec.params⟩

/-- the configuration of the wrong group: concretely. -/
example : ∃ s', (exEnv Unit).submit ((exEnv Unit).start (-1) 2 exOpts exHeap) () = .throw .invalidOperation s' ∧
    s'.w.est.inc.problems = [0] :=
  C121_wrong_group (by decide) (by decide) (ex_good Unit ()) (by simp [exEnv])

/-- and a window that is never refused. -/
example : (∃ r s', (exEnv Unit).submit ((exEnv Unit).start (-1) 1 exOpts exHeap) () = .ok r s') := by
  rcases C121_never_refused (ex_good Unit) (by simp [exEnv]) (.inr rfl) .start
    (by show 0 < IncProblem.maxBatches; unfold IncProblem.maxBatches; norm_num) () with h | ⟨s', -, h | h⟩
  · exact h
  · obtain ⟨inp, h⟩ := h; simp [exEnv] at h
  · simp [exEnv] at h

end CalibLib
end Verif
