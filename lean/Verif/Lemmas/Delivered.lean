import Verif.Props.CalibLib

/-! The batch of each window is made of the data collected for it. -/

namespace Verif
namespace CalibLib
variable {X V F M : Type} {c : Env X V F M} {g : GroupId} {o : EstOptions F} {mo : F} {h : Heap V}

theorem submit_log {s s' : St X V F M} {x : X} (hs : (c.submit s x).state? = some s') (hl : s'.log.length = s.log.length + 1) :
    ∃ b, s'.log = s.log ++ [b] ∧ b.win = x := by
  unfold Env.submit at hs
  simp only at hs
  split at hs
  · split at hs <;> simp only [Res.state?, Option.some.injEq, reduceCtorEq] at hs <;> subst hs <;> exact ⟨_, rfl, rfl⟩
  · simp only [Res.state?, Option.some.injEq] at hs; subst hs; simp at hl
  · simp [Res.state?] at hs
  · simp [Res.state?] at hs

section
variable {K N E : Type} [DecidableEq K] {w : WinCfg K N E X F (List V)} {π : E → St X V F M}

/-- every logged window is what `prepare` made of the corresponding content of the buffers, in a state in which exactly the earlier
windows had been handed over. -/
def Link (c : Env X V F M) (s0 : St X V F M) (w : WinCfg K N E X F (List V)) (π : E → St X V F M) (s : Win K N E F (List V)) : Prop :=
  ∀ k win b, s.sent[k]? = some win → (π s.est).log[k]? = some b →
    ∃ e e1, w.ready win = true ∧ w.prepare e win = .ok b.win e1 ∧ Reach c s0 (π e) ∧ (π e).log = (π s.est).log.take k

omit [DecidableEq K] in
theorem link_flush (hx : ∀ x, Good c x) (hc : 0 < c.ncal) (hg : g = 0 ∨ g = 1)
    (hprep : ∀ e b e', (w.prepare e b).state? = some e' → π e' = π e)
    (hadd : ∀ e b, (w.addBatch e b).mapState π = c.submit (π e) b) (hpar : ∀ e, w.params e = c.params (π e))
    {s s' : Win K N E F (List V)} (hr : Reach c (c.start mo g o h) (π s.est))
    (hrec : Recorded (c.cal.map h.params) (π s.est) s.gains s.params s.sent.length)
    (hs : (s.addMeasurements w).state? = some s') (hl : s'.sent.length ≤ IncProblem.maxBatches)
    (hk : Link c (c.start mo g o h) w π s) : Link c (c.start mo g o h) w π s' := by
  obtain ⟨-, hrec'⟩ := win_flush hx hc hg hprep hadd hpar hr hrec hs hl
  unfold Win.addMeasurements at hs
  split_ifs at hs with hrdy
  · simp only [Res.state?, Option.some.injEq] at hs; subst hs; exact hk
  · cases hp : w.prepare s.est s.buf with
    | throw ex e1 =>
      rw [hp] at hs
      simp only [Res.state?, Option.some.injEq] at hs; subst hs
      have := hprep s.est s.buf e1 (by rw [hp]; rfl)
      unfold Link at *
      simp only [this]; exact hk
    | ub => rw [hp] at hs; simp [Res.state?] at hs
    | diverge => rw [hp] at hs; simp [Res.state?] at hs
    | ok b e1 =>
      rw [hp] at hs
      simp only at hs
      have he := hprep s.est s.buf e1 (by rw [hp]; rfl)
      have ha := hadd e1 b
      rw [he] at ha
      have key : ∀ e2, (w.addBatch e1 b).state? = some e2 → s'.est = e2 → s'.sent = s.sent ++ [s.buf] →
          Link c (c.start mo g o h) w π s' := by
        intro e2 h2 h3 h4
        have hst : (c.submit (π s.est) b).state? = some (π e2) := by
          rw [← ha]
          cases hq : w.addBatch e1 b <;> rw [hq] at h2 <;> simp only [Res.state?, Option.some.injEq, reduceCtorEq] at h2 <;>
            subst h2 <;> rfl
        obtain ⟨y, hy, hyx⟩ := submit_log hst (by rw [← h3, hrec'.sent, h4, hrec.sent]; simp)
        intro k win z h5 h6
        rw [h4] at h5
        rw [h3, hy] at h6
        rcases Nat.lt_trichotomy k s.sent.length with hlt | heq | hgt
        · rw [List.getElem?_append_left hlt] at h5
          rw [List.getElem?_append_left (by rw [hrec.sent]; exact hlt)] at h6
          obtain ⟨e, e', q0, q1, q2, q3⟩ := hk k win z h5 h6
          refine ⟨e, e', q0, q1, q2, ?_⟩
          rw [q3, h3, hy, List.take_append_of_le_length (by rw [hrec.sent]; omega)]
        · subst heq
          have h6' := h6
          rw [← hrec.sent] at h6'
          simp only [List.getElem?_concat_length, Option.some.injEq] at h5 h6'
          subst h5 h6'
          refine ⟨s.est, e1, by simpa using hrdy, by rw [hp, hyx], hr, ?_⟩
          rw [h3, hy, ← hrec.sent]
          simp
        · rw [List.getElem?_eq_none (by simp; omega)] at h5
          cases h5
      cases hq : w.addBatch e1 b <;> rw [hq] at hs key <;> simp only [Res.state?, Option.some.injEq, reduceCtorEq] at hs
      · subst hs; exact key _ rfl rfl rfl
      · subst hs; exact key _ rfl rfl rfl

omit [DecidableEq K] in
theorem win_sent_le {s s' : Win K N E F (List V)} (hs : (s.addMeasurements w).state? = some s') :
    s.sent.length ≤ s'.sent.length := by
  rcases Win.addMeasurements_state hs with h3 | h3
  · rw [h3.2.2.2.1]
  · rw [h3.2.2.2.2]; simp

theorem win_delivered (hx : ∀ x, Good c x) (hc : 0 < c.ncal) (hg : g = 0 ∨ g = 1)
    (hprep : ∀ e b e', (w.prepare e b).state? = some e' → π e' = π e)
    (hadd : ∀ e b, (w.addBatch e b).mapState π = c.submit (π e) b) (hpar : ∀ e, w.params e = c.params (π e))
    {e0 : E} (he : π e0 = c.start mo g o h)
    {s : Win K N E F (List V)} {acc : List N} {gone : List (K → List N)} (hs : Win.Run w e0 s acc gone)
    (hl : s.sent.length ≤ IncProblem.maxBatches) : Link c (c.start mo g o h) w π s := by
  have hone : ∀ {s s' : Win K N E F (List V)} {t : Int} {acc : List N} {gone : List (K → List N)}, Win.Run w e0 s acc gone →
      (s.sent.length ≤ IncProblem.maxBatches → Link c (c.start mo g o h) w π s) →
      (s.addMeasurement w t).state? = some s' → s'.sent.length ≤ IncProblem.maxBatches → Link c (c.start mo g o h) w π s' := by
    intro s s' t acc gone hrun ih hs hl
    have hle : s.sent.length ≤ s'.sent.length := by
      unfold Win.addMeasurement at hs
      simp only at hs
      split_ifs at hs with h1 h2 h2
      all_goals first
        | (simp [Res.state?] at hs; done)
        | exact win_sent_le (s := { s with last := t, start := _ }) hs
        | (simp only [Res.state?, Option.some.injEq] at hs; subst hs; exact le_refl _)
    have h4 := win_run hx hc hg hprep hadd hpar he hrun (hle.trans hl)
    unfold Win.addMeasurement at hs
    simp only at hs
    split_ifs at hs with h1 h2 h2
    all_goals first
      | (simp [Res.state?] at hs; done)
      | exact link_flush hx hc hg hprep hadd hpar (s := { s with last := t, start := _ }) h4.1 h4.2 hs hl (ih (hle.trans hl))
      | (simp only [Res.state?, Option.some.injEq] at hs; subst hs; exact ih hl)
  induction hs with
  | init => intro k win b h1; simp [Win.init] at h1
  | @addOk s s' acc gone m hrun hs ih =>
    unfold Win.add at hs
    cases hq : s.addMeasurement w (w.time m) with
    | ok u s1 =>
      rw [hq] at hs
      simp only [Res.bind, Res.ok.injEq] at hs
      obtain ⟨-, rfl⟩ := hs
      exact hone (s' := s1) hrun ih (by rw [hq]; rfl) hl
    | throw x s1 => rw [hq] at hs; simp [Res.bind] at hs
    | ub => rw [hq] at hs; simp [Res.bind] at hs
    | diverge => rw [hq] at hs; simp [Res.bind] at hs
  | @addThrow s s' acc gone m x hrun hs ih =>
    unfold Win.add at hs
    cases hq : s.addMeasurement w (w.time m) <;> rw [hq] at hs <;> simp only [Res.bind, Res.throw.injEq, reduceCtorEq] at hs
    obtain ⟨-, rfl⟩ := hs
    exact hone hrun ih (by rw [hq]; rfl) hl
  | @flush s s' acc gone hrun hs ih =>
    have hle := win_sent_le hs
    have h4 := win_run hx hc hg hprep hadd hpar he hrun (hle.trans hl)
    exact link_flush hx hc hg hprep hadd hpar h4.1 h4.2 hs hl (ih (hle.trans hl))
  | clear _ ih => exact ih hl

end

/-! ### The car calibrator -/

section
variable {env : CarEnv (St CarBatch V F M) F (List V)} {op : CarOpt} {c : Env CarBatch V F M}

/-- the same for the car calibrator. -/
def CarLink (c : Env CarBatch V F M) (s0 : St CarBatch V F M) (env : CarEnv (St CarBatch V F M) F (List V)) (op : CarOpt)
    (s : CarCal (St CarBatch V F M) F (List V)) : Prop :=
  ∀ k win b, s.sent[k]? = some win → s.est.log[k]? = some b →
    ∃ e, 2 ≤ (win .pose).length ∧ b.win.poses = win .pose ∧ CarCal.numSegments op.knots (win .pose) = some b.win.segments ∧
      b.win.terms = CarCal.buildTerms env op e win ∧ Reach c s0 e ∧ e.log = s.est.log.take k

theorem carlink_flush (hx : ∀ x, Good c x) (hc : 0 < c.ncal) (hg : g = 0 ∨ g = 1)
    (hadd : env.addBatch = c.submit) (hpar : env.params = c.params)
    {s s' : CarCal (St CarBatch V F M) F (List V)} (hr : Reach c (c.start mo g o h) s.est)
    (hrec : Recorded (c.cal.map h.params) s.est s.gains s.params s.sent.length)
    (hs : (s.addMeasurements env op).state? = some s') (hl : s'.sent.length ≤ IncProblem.maxBatches)
    (hk : CarLink c (c.start mo g o h) env op s) : CarLink c (c.start mo g o h) env op s' := by
  obtain ⟨-, hrec'⟩ := car_flush hx hc hg hadd hpar hr hrec hs hl
  unfold CarCal.addMeasurements at hs
  split_ifs at hs with h2
  · simp only [Res.state?, Option.some.injEq] at hs; subst hs; exact hk
  · split at hs
    · simp [Res.state?] at hs
    · rename_i segs hsegs
      split at hs
      · simp only [Res.state?, Option.some.injEq] at hs; subst hs; exact hk
      · simp only at hs
        have key : ∀ e2, (env.addBatch s.est ⟨s.buf .pose, segs, CarCal.buildTerms env op s.est s.buf⟩).state? = some e2 →
            s'.est = e2 → s'.sent = s.sent ++ [s.buf] → CarLink c (c.start mo g o h) env op s' := by
          intro e2 h2' h3 h4
          rw [hadd] at h2'
          obtain ⟨y, hy, hyx⟩ := submit_log h2' (by rw [← h3, hrec'.sent, h4, hrec.sent]; simp)
          intro k win z h5 h6
          rw [h4] at h5
          rw [h3, hy] at h6
          rcases Nat.lt_trichotomy k s.sent.length with hlt | heq | hgt
          · rw [List.getElem?_append_left hlt] at h5
            rw [List.getElem?_append_left (by rw [hrec.sent]; exact hlt)] at h6
            obtain ⟨e, q0, q1, q2, q3, q4, q5⟩ := hk k win z h5 h6
            refine ⟨e, q0, q1, q2, q3, q4, ?_⟩
            rw [q5, h3, hy, List.take_append_of_le_length (by rw [hrec.sent]; omega)]
          · subst heq
            have h6' := h6
            rw [← hrec.sent] at h6'
            simp only [List.getElem?_concat_length, Option.some.injEq] at h5 h6'
            subst h5 h6'
            refine ⟨s.est, by omega, by rw [hyx], by rw [hyx]; exact hsegs, by rw [hyx], hr, ?_⟩
            rw [h3, hy, ← hrec.sent]
            simp
          · rw [List.getElem?_eq_none (by simp; omega)] at h5
            cases h5
        split at hs <;> rename_i hq <;> rw [hq] at key <;>
          simp only [Res.state?, Option.some.injEq, reduceCtorEq] at hs
        · subst hs; exact key _ rfl rfl rfl
        · subst hs; exact key _ rfl rfl rfl

theorem car_sent_le {s s' : CarCal (St CarBatch V F M) F (List V)} (hs : (s.addMeasurements env op).state? = some s') :
    s.sent.length ≤ s'.sent.length := by
  rcases CarCal.addMeasurements_state hs with h3 | h3
  · rw [h3]
  · rw [h3.2.2.2.2]; simp

theorem car_delivered (hx : ∀ x, Good c x) (hc : 0 < c.ncal) (hg : g = 0 ∨ g = 1)
    (hadd : env.addBatch = c.submit) (hpar : env.params = c.params)
    {s : CarCal (St CarBatch V F M) F (List V)} {acc : List Meas} {gone : List Window}
    (hs : CarCal.Run env op (c.start mo g o h) s acc gone) (hl : s.sent.length ≤ IncProblem.maxBatches) :
    CarLink c (c.start mo g o h) env op s := by
  have hone : ∀ {s s' : CarCal (St CarBatch V F M) F (List V)} {t : Int} {acc : List Meas} {gone : List Window},
      CarCal.Run env op (c.start mo g o h) s acc gone →
      (s.sent.length ≤ IncProblem.maxBatches → CarLink c (c.start mo g o h) env op s) →
      (s.addMeasurement env op t).state? = some s' → s'.sent.length ≤ IncProblem.maxBatches →
      CarLink c (c.start mo g o h) env op s' := by
    intro s s' t acc gone hrun ih hs hl
    have hle : s.sent.length ≤ s'.sent.length := by
      unfold CarCal.addMeasurement at hs
      simp only at hs
      split_ifs at hs with h1 h2 h2
      all_goals first
        | (simp [Res.state?] at hs; done)
        | exact car_sent_le (s := { s with last := t, start := _ }) hs
        | (simp only [Res.state?, Option.some.injEq] at hs; subst hs; exact le_refl _)
    have h4 := C121_car hx hc hg hadd hpar hrun (hle.trans hl)
    unfold CarCal.addMeasurement at hs
    simp only at hs
    split_ifs at hs with h1 h2 h2
    all_goals first
      | (simp [Res.state?] at hs; done)
      | exact carlink_flush hx hc hg hadd hpar (s := { s with last := t, start := _ }) h4.1 h4.2 hs hl (ih (hle.trans hl))
      | (simp only [Res.state?, Option.some.injEq] at hs; subst hs; exact ih hl)
  induction hs with
  | init => intro k win b h1; simp [CarCal.init] at h1
  | @addOk s s' acc gone m hrun hs ih =>
    unfold CarCal.add at hs
    cases hq : s.addMeasurement env op m.t with
    | ok u s1 =>
      rw [hq] at hs
      simp only [Res.bind, Res.ok.injEq] at hs
      obtain ⟨-, rfl⟩ := hs
      exact hone (s' := s1) hrun ih (by rw [hq]; rfl) hl
    | throw x s1 => rw [hq] at hs; simp [Res.bind] at hs
    | ub => rw [hq] at hs; simp [Res.bind] at hs
    | diverge => rw [hq] at hs; simp [Res.bind] at hs
  | @addThrow s s' acc gone m x hrun hs ih =>
    unfold CarCal.add at hs
    cases hq : s.addMeasurement env op m.t <;> rw [hq] at hs <;> simp only [Res.bind, Res.throw.injEq, reduceCtorEq] at hs
    obtain ⟨-, rfl⟩ := hs
    exact hone hrun ih (by rw [hq]; rfl) hl
  | @flush s s' acc gone hrun hs ih =>
    have hle := car_sent_le hs
    have h4 := C121_car hx hc hg hadd hpar hrun (hle.trans hl)
    exact carlink_flush hx hc hg hadd hpar h4.1 h4.2 hs hl (ih (hle.trans hl))
  | clear _ ih => exact ih hl

end

end CalibLib
end Verif
