import Verif.Model.Car
import Mathlib.Tactic.Linarith
import Mathlib.Tactic.FieldSimp
import Mathlib.Tactic.NormNum
import Mathlib.Tactic.Ring

/-! Properties C36 and C37: windowing of the car calibrator. -/

namespace Verif
namespace CarCal
variable {E G P : Type}

/-! ### Vocabulary -/

/-- the public calls that change the calibrator. -/
inductive Op where
  | add (m : Meas)
  | flush
  | clear
  deriving DecidableEq

/-- effect of a call. -/
def Op.run (env : CarEnv E G P) (o : CarOpt) (s : CarCal E G P) : Op → Res (CarCal E G P) Unit
  | .add m => s.add env o m
  | .flush => s.addMeasurements env o
  | .clear => .ok () s.clear

/-- a program without exception handler: stops at the first exception. -/
def runOps (env : CarEnv E G P) (o : CarOpt) (s : CarCal E G P) : List Op → Res (CarCal E G P) Unit
  | [] => .ok () s
  | op :: ops => (op.run env o s).bind fun _ s' => runOps env o s' ops

/-- the measurements a program adds. -/
def added (ops : List Op) : List Meas := ops.filterMap fun op => match op with | .add m => some m | _ => none

/-- all histories of calls on one calibrator, exceptions being caught by the caller.  `acc` are the measurements whose call
returned normally, `gone` the windows that left the buffers, by submission or by an explicit `clearMeasurements`, in order. -/
inductive Run (env : CarEnv E G P) (o : CarOpt) (e : E) : CarCal E G P → List Meas → List Window → Prop
  | init : Run env o e (init env e) [] []
  | addOk {s s' : CarCal E G P} {acc : List Meas} {gone : List Window} {m : Meas} : Run env o e s acc gone →
      s.add env o m = .ok () s' → Run env o e s' (acc ++ [m]) (gone ++ s'.sent.drop s.sent.length)
  | addThrow {s s' : CarCal E G P} {acc : List Meas} {gone : List Window} {m : Meas} {x : Exc} : Run env o e s acc gone →
      s.add env o m = .throw x s' → Run env o e s' acc (gone ++ s'.sent.drop s.sent.length)
  | flush {s s' : CarCal E G P} {acc : List Meas} {gone : List Window} : Run env o e s acc gone →
      (s.addMeasurements env o).state? = some s' → Run env o e s' acc (gone ++ s'.sent.drop s.sent.length)
  | clear {s : CarCal E G P} {acc : List Meas} {gone : List Window} : Run env o e s acc gone →
      Run env o e s.clear acc (gone ++ [s.buf])

/-- measurements of one sensor, in order. -/
def ofSensor (k : Sensor) (ms : List Meas) : List Meas := ms.filter fun m => m.kind = k

/-! ### One call -/

/-- what `addMeasurements` can do: nothing (fewer than two poses, or a failing fit), or submit the whole buffer. -/
theorem addMeasurements_state {env : CarEnv E G P} {o : CarOpt} {s s' : CarCal E G P}
    (h : (s.addMeasurements env o).state? = some s') :
    s' = s ∨
    (2 ≤ (s.buf .pose).length ∧ s'.buf = (fun _ => []) ∧ s'.start = s.last ∧ s'.last = s.last ∧ s'.sent = s.sent ++ [s.buf]) := by
  unfold addMeasurements at h
  split_ifs at h with hc
  · left; simpa [Res.state?] using h.symm
  · split at h
    · simp [Res.state?] at h
    · split at h
      · left; simpa [Res.state?] using h.symm
      · simp only at h
        split at h <;> simp only [Res.state?, Option.some.injEq, reduceCtorEq] at h <;> subst h <;>
          exact Or.inr ⟨not_lt.1 hc, rfl, rfl, rfl, rfl⟩

/-- a normal return with at least two poses means the buffer was submitted and both histories grew by one. -/
theorem addMeasurements_ok {env : CarEnv E G P} {o : CarOpt} {s s' : CarCal E G P}
    (h : s.addMeasurements env o = .ok () s') :
    (s' = s ∧ (s.buf .pose).length < 2) ∨
    (2 ≤ (s.buf .pose).length ∧ s'.buf = (fun _ => []) ∧ s'.start = s.last ∧ s'.last = s.last ∧ s'.sent = s.sent ++ [s.buf] ∧
      ∃ g, s'.gains = s.gains ++ [g] ∧ s'.params = s.params ++ [env.params s'.est]) := by
  unfold addMeasurements at h
  split_ifs at h with hc
  · left; simp only [Res.ok.injEq, true_and] at h; exact ⟨h.symm, hc⟩
  · split at h
    · simp at h
    · split at h
      · simp at h
      · simp only at h
        split at h <;> simp only [Res.ok.injEq, true_and, reduceCtorEq] at h
        subst h
        exact Or.inr ⟨not_lt.1 hc, rfl, rfl, rfl, rfl, _, rfl, rfl⟩

/-- the state in which `addMeasurement` decides. -/
def stamped (s : CarCal E G P) (t : Int) : CarCal E G P :=
  { s with last := t, start := if s.start = -1 then t else s.start }

theorem addMeasurement_state {env : CarEnv E G P} {o : CarOpt} {s s' : CarCal E G P} {t : Int}
    (h : (s.addMeasurement env o t).state? = some s') :
    (env.sec (t - (s.stamped t).start) < o.window ∧ s' = s.stamped t) ∨
    (o.window ≤ env.sec (t - (s.stamped t).start) ∧ ((s.stamped t).addMeasurements env o).state? = some s') := by
  have e : s.addMeasurement env o t =
      if t - (s.stamped t).start < -9223372036854775808 ∨ 9223372036854775807 < t - (s.stamped t).start then .ub
      else if env.sec (t - (s.stamped t).start) ≥ o.window then addMeasurements env o (s.stamped t)
      else .ok () (s.stamped t) := rfl
  rw [e] at h
  split_ifs at h with h1 h2
  · simp [Res.state?] at h
  · exact Or.inr ⟨h2, h⟩
  · left; simp only [Res.state?, Option.some.injEq] at h; exact ⟨not_le.1 h2, h.symm⟩

theorem addMeasurement_ok {env : CarEnv E G P} {o : CarOpt} {s s' : CarCal E G P} {t : Int}
    (h : s.addMeasurement env o t = .ok () s') :
    (env.sec (t - (s.stamped t).start) < o.window ∧ s' = s.stamped t) ∨
    (o.window ≤ env.sec (t - (s.stamped t).start) ∧ (s.stamped t).addMeasurements env o = .ok () s') := by
  have e : s.addMeasurement env o t =
      if t - (s.stamped t).start < -9223372036854775808 ∨ 9223372036854775807 < t - (s.stamped t).start then .ub
      else if env.sec (t - (s.stamped t).start) ≥ o.window then addMeasurements env o (s.stamped t)
      else .ok () (s.stamped t) := rfl
  rw [e] at h
  split_ifs at h with h1 h2
  · exact Or.inr ⟨h2, h⟩
  · left; simp only [Res.ok.injEq, true_and] at h; exact ⟨not_le.1 h2, h.symm⟩

theorem add_ok {env : CarEnv E G P} {o : CarOpt} {s s' : CarCal E G P} {m : Meas} (h : s.add env o m = .ok () s') :
    ∃ s1, s.addMeasurement env o m.t = .ok () s1 ∧ s' = { s1 with buf := push s1.buf m } := by
  unfold add at h
  cases hr : s.addMeasurement env o m.t with
  | ok a s1 => rw [hr] at h; simp only [Res.bind, Res.ok.injEq, true_and] at h; exact ⟨s1, rfl, h.symm⟩
  | throw x s1 => rw [hr] at h; simp [Res.bind] at h
  | ub => rw [hr] at h; simp [Res.bind] at h
  | diverge => rw [hr] at h; simp [Res.bind] at h

theorem add_throw {env : CarEnv E G P} {o : CarOpt} {s s' : CarCal E G P} {m : Meas} {x : Exc}
    (h : s.add env o m = .throw x s') : s.addMeasurement env o m.t = .throw x s' := by
  unfold add at h
  cases hr : s.addMeasurement env o m.t with
  | ok a s1 => rw [hr] at h; simp [Res.bind] at h
  | throw x s1 => rw [hr] at h; simpa [Res.bind] using h
  | ub => rw [hr] at h; simp [Res.bind] at h
  | diverge => rw [hr] at h; simp [Res.bind] at h

/-- **C36**: a measurement either joins the current window, or first the window without it is submitted and it opens the
next one; it is never part of the window whose submission it triggers, and appears in its own sensor's buffer only. -/
theorem C36_trigger_not_in_own_window {env : CarEnv E G P} {o : CarOpt} {s s' : CarCal E G P} {m : Meas}
    (h : s.add env o m = .ok () s') :
    (s'.sent = s.sent ∧ s'.buf m.kind = s.buf m.kind ++ [m] ∧ ∀ k, k ≠ m.kind → s'.buf k = s.buf k) ∨
    (s'.sent = s.sent ++ [s.buf] ∧ 2 ≤ (s.buf .pose).length ∧ s'.buf m.kind = [m] ∧ ∀ k, k ≠ m.kind → s'.buf k = []) := by
  obtain ⟨s1, h1, rfl⟩ := add_ok h
  rcases addMeasurement_ok h1 with ⟨_, rfl⟩ | ⟨_, h2⟩
  · left
    exact ⟨rfl, by simp [push, stamped], fun k hk => by simp [push, hk, stamped]⟩
  · rcases addMeasurements_ok h2 with ⟨rfl, _⟩ | ⟨hl, hb, _, _, hs, _⟩
    · left
      exact ⟨rfl, by simp [push, stamped], fun k hk => by simp [push, hk, stamped]⟩
    · right
      refine ⟨hs, hl, by simp [push, hb], fun k hk => by simp [push, hk, hb]⟩

theorem ofSensor_push (k : Sensor) (acc : List Meas) (m : Meas) :
    ofSensor k (acc ++ [m]) = ofSensor k acc ++ (if k = m.kind then [m] else []) := by
  unfold ofSensor
  rw [List.filter_append]
  congr 1
  by_cases hk : m.kind = k
  · simp [hk]
  · simp [hk, Ne.symm hk]

/-- **C36** (partial): in every history, also with exceptions caught by the caller and buffers cleared by hand, the windows
that left the buffers followed by the buffers are, sensor by sensor and in order of arrival, exactly the measurements whose
call returned normally: none is lost, duplicated or reordered.  Missing: a measurement whose call threw is nowhere
(`C36_measurement_lost_on_exception`). -/
theorem C36_every_measurement_in_one_place_partial {env : CarEnv E G P} {o : CarOpt} {e : E} {s : CarCal E G P}
    {acc : List Meas} {gone : List Window} (h : Run env o e s acc gone) (k : Sensor) :
    (gone.map fun w => w k).flatten ++ s.buf k = ofSensor k acc := by
  induction h with
  | init => simp [CarCal.init, ofSensor]
  | @addOk s s' acc gone m _ ha ih =>
    rw [ofSensor_push, ← ih]
    rcases C36_trigger_not_in_own_window ha with ⟨h1, h2, h3⟩ | ⟨h1, _, h2, h3⟩
    · rw [h1, List.drop_length, List.append_nil]
      by_cases hk : k = m.kind
      · subst hk; rw [h2]; simp
      · rw [h3 k hk]; simp [hk]
    · rw [h1, List.drop_left]
      by_cases hk : k = m.kind
      · subst hk; rw [h2]; simp
      · rw [h3 k hk]; simp [hk]
  | @addThrow s s' acc gone m x _ ha ih =>
    rw [← ih]
    have ht : (s.addMeasurement env o m.t).state? = some s' := by rw [add_throw ha]; rfl
    rcases addMeasurement_state ht with ⟨_, rfl⟩ | ⟨_, h2⟩
    · simp [stamped]
    · rcases addMeasurements_state h2 with rfl | ⟨_, hb, _, _, hs⟩
      · simp [stamped]
      · rw [hs, hb]
        have : (s.stamped m.t).sent = s.sent := rfl
        rw [this, List.drop_left]
        simp [stamped]
  | @flush s s' acc gone _ hf ih =>
    rw [← ih]
    rcases addMeasurements_state hf with rfl | ⟨_, hb, _, _, hs⟩
    · simp
    · rw [hs, hb, List.drop_left]; simp
  | @clear s acc gone _ ih =>
    rw [← ih]; simp [CarCal.clear]

/-- **C36**: for a program that only adds measurements (and flushes) and sees no exception, submitted windows followed by
the buffers are the stream itself. -/
theorem C36_stream {env : CarEnv E G P} {o : CarOpt} {e : E} {s : CarCal E G P} {ops : List Op}
    (hops : Op.clear ∉ ops) (h : runOps env o (init env e) ops = .ok () s) (k : Sensor) :
    (s.sent.map fun w => w k).flatten ++ s.buf k = ofSensor k (added ops) := by
  suffices H : ∀ (ops : List Op) (s0 s : CarCal E G P) (acc : List Meas), Op.clear ∉ ops →
      (s0.sent.map fun w => w k).flatten ++ s0.buf k = ofSensor k acc →
      runOps env o s0 ops = .ok () s →
      (s.sent.map fun w => w k).flatten ++ s.buf k = ofSensor k (acc ++ added ops) by
    have := H ops (init env e) s [] hops (by simp [CarCal.init, ofSensor]) h
    simpa using this
  intro ops
  induction ops with
  | nil => intro s0 s acc _ h0 h; simp only [runOps, Res.ok.injEq, true_and] at h; subst h; simpa [added] using h0
  | cons op ops ih =>
    intro s0 s acc hc h0 h
    have hc' : Op.clear ∉ ops := fun hm => hc (List.mem_cons_of_mem _ hm)
    unfold runOps at h
    cases hr : op.run env o s0 with
    | ub => rw [hr] at h; simp [Res.bind] at h
    | diverge => rw [hr] at h; simp [Res.bind] at h
    | throw x s1 => rw [hr] at h; simp [Res.bind] at h
    | ok a s1 =>
      rw [hr] at h
      simp only [Res.bind] at h
      cases op with
      | clear => exact absurd (List.mem_cons_self) hc
      | flush =>
        have e1 : added (Op.flush :: ops) = added ops := rfl
        rw [e1]
        refine ih s1 s acc hc' ?_ h
        have hf : (s0.addMeasurements env o).state? = some s1 := by
          have : s0.addMeasurements env o = .ok a s1 := hr
          rw [this]; rfl
        rcases addMeasurements_state hf with rfl | ⟨_, hb, _, _, hs⟩
        · exact h0
        · rw [hs, hb, ← h0]; simp
      | add m =>
        have e1 : acc ++ added (Op.add m :: ops) = (acc ++ [m]) ++ added ops := by simp [added]
        rw [e1]
        refine ih s1 s (acc ++ [m]) hc' ?_ h
        rw [ofSensor_push, ← h0]
        have ha : s0.add env o m = .ok () s1 := hr
        rcases C36_trigger_not_in_own_window ha with ⟨h1, h2, h3⟩ | ⟨h1, _, h2, h3⟩
        · rw [h1]
          by_cases hk : k = m.kind
          · subst hk; rw [h2]; simp
          · rw [h3 k hk]; simp [hk]
        · rw [h1]
          by_cases hk : k = m.kind
          · subst hk; rw [h2]; simp
          · rw [h3 k hk]; simp [hk]

/-- **C36**: `unprocessedMeasurements` tells exactly whether some accepted measurement has not left the buffers. -/
theorem C36_unprocessed (s : CarCal E G P) : s.unprocessed = true ↔ ∃ k, s.buf k ≠ [] := by
  unfold unprocessed
  constructor
  · intro h
    simp only [Bool.or_eq_true, Bool.not_eq_true', List.isEmpty_eq_false_iff] at h
    rcases h with ((((h | h) | h) | h) | h) | h
    · exact ⟨_, h⟩
    · exact ⟨_, h⟩
    · exact ⟨_, h⟩
    · exact ⟨_, h⟩
    · exact ⟨_, h⟩
    · exact ⟨_, h⟩
  · rintro ⟨k, hk⟩
    cases k <;> simp [hk]

/-! ### Window duration -/

/-- histories with non-negative, non-decreasing time stamps (`last` is the time stamp of the last call). -/
inductive Timed (env : CarEnv E G P) (o : CarOpt) (e : E) : CarCal E G P → Prop
  | init : Timed env o e (init env e)
  | add {s s' : CarCal E G P} {m : Meas} : Timed env o e s → 0 ≤ m.t → s.last ≤ m.t →
      (s.add env o m).state? = some s' → Timed env o e s'
  | flush {s s' : CarCal E G P} : Timed env o e s → (s.addMeasurements env o).state? = some s' → Timed env o e s'
  | clear {s : CarCal E G P} : Timed env o e s → Timed env o e s.clear

/-- the window is shorter than the window duration: so is the time between any two of its measurements. -/
def Short (env : CarEnv E G P) (o : CarOpt) (w : Window) : Prop :=
  ∀ k m k' m', m ∈ w k → m' ∈ w k' → env.sec (m.t - m'.t) < o.window

/-- the window holds exactly two poses and nothing in it is later than the second one. -/
def EndsWithSecondPose (w : Window) : Prop :=
  ∃ p q, w .pose = [p, q] ∧ ∀ k m, m ∈ w k → m.t ≤ q.t

/-- the invariant behind the window theorem. -/
structure Inv (env : CarEnv E G P) (o : CarOpt) (s : CarCal E G P) : Prop where
  start : s.start = -1 ∨ 0 ≤ s.start
  le : s.start ≤ s.last
  empty : s.start = -1 → ∀ k, s.buf k = []
  range : ∀ k m, m ∈ s.buf k → s.start ≤ m.t ∧ m.t ≤ s.last
  open_ : (∀ k m, m ∈ s.buf k → env.sec (m.t - s.start) < o.window) ∨ (s.buf .pose).length < 2 ∨ EndsWithSecondPose s.buf
  sent : ∀ w ∈ s.sent, 2 ≤ (w .pose).length ∧ (Short env o w ∨ EndsWithSecondPose w)

theorem Inv.window {env : CarEnv E G P} {o : CarOpt} (hm : Monotone env.sec) {s : CarCal E G P} (h : Inv env o s)
    (h2 : 2 ≤ (s.buf .pose).length) : Short env o s.buf ∨ EndsWithSecondPose s.buf := by
  rcases h.open_ with h1 | h1 | h1
  · left
    intro k m k' m' hm1 hm2
    exact lt_of_le_of_lt (hm (by have := (h.range k' m' hm2).1; linarith)) (h1 k m hm1)
  · omega
  · exact Or.inr h1

theorem Inv.flushed {env : CarEnv E G P} {o : CarOpt} (hm : Monotone env.sec) {s s' : CarCal E G P} (h : Inv env o s)
    (hf : (s.addMeasurements env o).state? = some s') : Inv env o s' := by
  rcases addMeasurements_state hf with rfl | ⟨hl, hb, hst, hla, hs⟩
  · exact h
  · have hne : ∃ m, m ∈ s.buf .pose := List.exists_mem_of_length_pos (by omega)
    obtain ⟨m, hm0⟩ := hne
    have hstart : 0 ≤ s.start := by
      rcases h.start with h0 | h0
      · rw [h.empty h0 .pose] at hm0; cases hm0
      · exact h0
    have hlast : 0 ≤ s.last := le_trans hstart (le_trans (h.range _ _ hm0).1 (h.range _ _ hm0).2)
    refine ⟨by rw [hst]; exact Or.inr hlast, by rw [hst, hla], fun _ k => by rw [hb], ?_, ?_, ?_⟩
    · intro k m hm1; rw [hb] at hm1; cases hm1
    · left; intro k m hm1; rw [hb] at hm1; cases hm1
    · intro w hw
      rw [hs] at hw
      rcases List.mem_append.1 hw with hw | hw
      · exact h.sent w hw
      · rw [List.mem_singleton] at hw; subst hw
        exact ⟨hl, h.window hm hl⟩

theorem mem_push {w : Window} {m x : Meas} {k : Sensor} (h : x ∈ push w m k) : x ∈ w k ∨ x = m := by
  unfold push at h
  split_ifs at h
  · rcases List.mem_append.1 h with h | h
    · exact Or.inl h
    · exact Or.inr (List.mem_singleton.1 h)
  · exact Or.inl h

theorem Inv.stamp {env : CarEnv E G P} {o : CarOpt} {s : CarCal E G P} {t : Int} (h : Inv env o s) (h0 : 0 ≤ t)
    (hl : s.last ≤ t) : Inv env o (s.stamped t) ∧ 0 ≤ (s.stamped t).start := by
  have e3 : (s.stamped t).last = t := rfl
  by_cases hs : s.start = -1
  · have e : (s.stamped t).start = t := by simp [stamped, hs]
    have hb : ∀ k, (s.stamped t).buf k = [] := h.empty hs
    refine ⟨⟨by rw [e]; exact Or.inr h0, by rw [e, e3], fun _ => hb, ?_, ?_, h.sent⟩, by rw [e]; exact h0⟩
    · intro k m hm; rw [hb k] at hm; cases hm
    · left; intro k m hm; rw [hb k] at hm; cases hm
  · have e : (s.stamped t).start = s.start := by simp [stamped, hs]
    have h1 : 0 ≤ s.start := h.start.resolve_left hs
    refine ⟨⟨by rw [e]; exact h.start, by rw [e, e3]; exact le_trans h.le hl, ?_, ?_, ?_, h.sent⟩, by rw [e]; exact h1⟩
    · intro hx; rw [e] at hx; exact absurd hx hs
    · intro k m hm
      have := h.range k m hm
      rw [e, e3]; exact ⟨this.1, le_trans this.2 hl⟩
    · rw [e]; exact h.open_

theorem Inv.pushed {env : CarEnv E G P} {o : CarOpt} (hm : Monotone env.sec) {s : CarCal E G P} {m : Meas}
    (h : Inv env o s) (h0 : 0 ≤ s.start) (hl : s.last = m.t)
    (hd : env.sec (m.t - s.start) < o.window ∨ (s.buf .pose).length < 2) :
    Inv env o { s with buf := push s.buf m } := by
  refine ⟨h.start, h.le, ?_, ?_, ?_, h.sent⟩
  · intro hs; exfalso; have : s.start = -1 := hs; omega
  · intro k x hx
    rcases mem_push hx with hx | rfl
    · exact h.range k x hx
    · exact ⟨hl ▸ h.le, hl ▸ le_refl _⟩
  · rcases hd with hd | hd
    · left
      intro k x hx
      rcases mem_push hx with hx | rfl
      · have := (h.range k x hx).2
        exact lt_of_le_of_lt (hm (by show x.t - s.start ≤ m.t - s.start; linarith)) hd
      · exact hd
    · right
      by_cases hk : Sensor.pose = m.kind
      · by_cases h2 : (s.buf .pose).length < 1
        · left
          simp only [push, if_pos hk, List.length_append, List.length_singleton]; omega
        · right
          have h1 : (s.buf .pose).length = 1 := by omega
          obtain ⟨p, hp⟩ := List.length_eq_one_iff.1 h1
          refine ⟨p, m, by simp only [push, if_pos hk, hp]; rfl, ?_⟩
          intro k x hx
          rcases mem_push hx with hx | rfl
          · have := (h.range k x hx).2; rw [hl] at this; exact this
          · exact le_refl _
      · left
        simp only [push, if_neg hk]; exact hd

theorem timed_inv {env : CarEnv E G P} {o : CarOpt} {e : E} (hm : Monotone env.sec) {s : CarCal E G P}
    (h : Timed env o e s) : Inv env o s := by
  induction h with
  | init =>
    exact ⟨Or.inl rfl, le_refl _, fun _ _ => rfl, fun k m hx => by simp [CarCal.init] at hx,
      Or.inl fun k m hx => by simp [CarCal.init] at hx, fun w hw => by simp [CarCal.init] at hw⟩
  | @add s s' m _ h0 hl ha ih =>
    obtain ⟨hi, hs0⟩ := ih.stamp h0 hl
    cases hr : s.add env o m with
    | ub => rw [hr] at ha; simp [Res.state?] at ha
    | diverge => rw [hr] at ha; simp [Res.state?] at ha
    | throw x s1 =>
      rw [hr] at ha
      simp only [Res.state?, Option.some.injEq] at ha; subst ha
      have ht : (s.addMeasurement env o m.t).state? = some s1 := by rw [add_throw hr]; rfl
      rcases addMeasurement_state ht with ⟨_, rfl⟩ | ⟨_, h2⟩
      · exact hi
      · exact hi.flushed hm h2
    | ok a s1 =>
      rw [hr] at ha
      simp only [Res.state?, Option.some.injEq] at ha; subst ha
      obtain ⟨s2, h1, rfl⟩ := add_ok hr
      rcases addMeasurement_ok h1 with ⟨hd, rfl⟩ | ⟨_, h2⟩
      · exact hi.pushed hm hs0 rfl (Or.inl hd)
      · have hf : ((s.stamped m.t).addMeasurements env o).state? = some s2 := by rw [h2]; rfl
        have hi2 := hi.flushed hm hf
        rcases addMeasurements_ok h2 with ⟨rfl, hp⟩ | ⟨_, hb, hst, hla, _⟩
        · exact hi.pushed hm hs0 rfl (Or.inr hp)
        · exact hi2.pushed hm (by rw [hst]; exact h0) (by rw [hla]; rfl) (Or.inr (by simp [hb]))
  | @flush s s' _ hf ih => exact ih.flushed hm hf
  | @clear s _ ih =>
    exact ⟨ih.start, ih.le, fun _ _ => rfl, fun k m hx => by simp [CarCal.clear] at hx,
      Or.inl fun k m hx => by simp [CarCal.clear] at hx, ih.sent⟩

/-- **C37** (partial): with non-decreasing time stamps every submitted window has at least two poses, and is shorter than the
window duration or consists of exactly two poses (and other measurements), the second of which ends the window.  Missing:
in the second case the window may be arbitrarily long, see `C37_long_window`. -/
theorem C37_window_duration_partial {env : CarEnv E G P} {o : CarOpt} {e : E} (hm : Monotone env.sec) {s : CarCal E G P}
    (h : Timed env o e s) (w : Window) (hw : w ∈ s.sent) :
    2 ≤ (w .pose).length ∧ (Short env o w ∨ EndsWithSecondPose w) := (timed_inv hm h).sent w hw

/-- **C37**: the parameter history always has exactly one entry more than the information gain history, and no window adds
more than one entry; also with exceptions. -/
theorem C37_histories {env : CarEnv E G P} {o : CarOpt} {e : E} {s : CarCal E G P} {acc : List Meas} {gone : List Window}
    (h : Run env o e s acc gone) : s.params.length = s.gains.length + 1 ∧ s.gains.length ≤ s.sent.length := by
  have key : ∀ {s s' : CarCal E G P}, (s.params.length = s.gains.length + 1 ∧ s.gains.length ≤ s.sent.length) →
      (s.addMeasurements env o).state? = some s' →
      (s'.params.length = s'.gains.length + 1 ∧ s'.gains.length ≤ s'.sent.length) := by
    intro s s' hi hf
    unfold addMeasurements at hf
    split_ifs at hf with hc
    · simp only [Res.state?, Option.some.injEq] at hf; subst hf; exact hi
    · split at hf
      · simp [Res.state?] at hf
      · split at hf
        · simp only [Res.state?, Option.some.injEq] at hf; subst hf; exact hi
        · simp only at hf
          split at hf <;> simp only [Res.state?, Option.some.injEq, reduceCtorEq] at hf <;> subst hf <;>
            simp [CarCal.clear] <;> omega
  have key2 : ∀ {s s' : CarCal E G P} {t : Int}, (s.params.length = s.gains.length + 1 ∧ s.gains.length ≤ s.sent.length) →
      (s.addMeasurement env o t).state? = some s' →
      (s'.params.length = s'.gains.length + 1 ∧ s'.gains.length ≤ s'.sent.length) := by
    intro s s' t hi hf
    rcases addMeasurement_state hf with ⟨_, rfl⟩ | ⟨_, h2⟩
    · exact hi
    · exact key (s := s.stamped t) hi h2
  induction h with
  | init => simp [CarCal.init]
  | @addOk s s' acc gone m _ ha ih =>
    obtain ⟨s2, h1, rfl⟩ := add_ok ha
    exact key2 (s' := s2) ih (by rw [h1]; rfl)
  | @addThrow s s' acc gone m x _ ha ih => exact key2 ih (by rw [add_throw ha]; rfl)
  | @flush s s' acc gone _ hf ih => exact key ih hf
  | @clear s acc gone _ ih => exact ih

/-- **C37**: without exceptions there is exactly one information gain per submitted window, and the last entry of the
parameter history is the current parameter vector. -/
theorem C37_histories_aligned {env : CarEnv E G P} {o : CarOpt} {e : E} {s : CarCal E G P} {ops : List Op}
    (h : runOps env o (init env e) ops = .ok () s) :
    s.gains.length = s.sent.length ∧ s.params.length = s.sent.length + 1 ∧ s.params.getLast? = some (env.params s.est) := by
  suffices H : ∀ (ops : List Op) (s0 s : CarCal E G P),
      (s0.gains.length = s0.sent.length ∧ s0.params.length = s0.sent.length + 1 ∧
        s0.params.getLast? = some (env.params s0.est)) →
      runOps env o s0 ops = .ok () s →
      (s.gains.length = s.sent.length ∧ s.params.length = s.sent.length + 1 ∧
        s.params.getLast? = some (env.params s.est)) from
    H ops _ s (by simp [CarCal.init]) h
  intro ops
  have key : ∀ {s0 s1 : CarCal E G P}, (s0.gains.length = s0.sent.length ∧ s0.params.length = s0.sent.length + 1 ∧
        s0.params.getLast? = some (env.params s0.est)) → s0.addMeasurements env o = .ok () s1 →
      (s1.gains.length = s1.sent.length ∧ s1.params.length = s1.sent.length + 1 ∧
        s1.params.getLast? = some (env.params s1.est)) := by
    intro s0 s1 h0 hf
    rcases addMeasurements_ok hf with ⟨rfl, _⟩ | ⟨_, _, _, _, hs, g, hg, hp⟩
    · exact h0
    · rw [hs, hg, hp]; simp [h0.1, h0.2.1]
  induction ops with
  | nil => intro s0 s h0 h; simp only [runOps, Res.ok.injEq, true_and] at h; subst h; exact h0
  | cons op ops ih =>
    intro s0 s h0 h
    unfold runOps at h
    cases hr : op.run env o s0 with
    | ub => rw [hr] at h; simp [Res.bind] at h
    | diverge => rw [hr] at h; simp [Res.bind] at h
    | throw x s1 => rw [hr] at h; simp [Res.bind] at h
    | ok a s1 =>
      rw [hr] at h
      simp only [Res.bind] at h
      refine ih s1 s ?_ h
      cases op with
      | clear => 
        have : Res.ok () s0.clear = Res.ok a s1 := hr
        simp only [Res.ok.injEq] at this; rw [← this.2]; exact h0
      | flush => exact key h0 hr
      | add m =>
        obtain ⟨s2, h1, rfl⟩ := add_ok (show s0.add env o m = .ok () s1 from hr)
        rcases addMeasurement_ok h1 with ⟨_, rfl⟩ | ⟨_, h2⟩
        · exact h0
        · have := key (s0 := s0.stamped m.t) (s1 := s2) h0 h2
          exact this

/-! ### Witnesses -/

/-- a collaborator that accepts everything: the information gain is the number of error terms, the parameters are the number
of batches. -/
def demoEnv : CarEnv Nat Nat Nat where
  sec := fun n => (n : ℚ) / 1000000000
  delay := fun _ _ => 0
  speed := fun _ _ _ => 1
  axleSpeed := fun _ _ _ => 1
  fit := fun _ _ _ => none
  addBatch := fun e b => .ok b.terms.length (e + 1)
  params := fun e => e

/-- the same, but the estimator throws. -/
def throwEnv : CarEnv Nat Nat Nat := { demoEnv with addBatch := fun e _ => .throw .invalidOperation e }

/-- the options of the default constructor, `CarCalibratorOptions.cpp` 19-46, with different rear wheel variances. -/
def demoOpt : CarOpt where
  window := 10
  knots := 5
  linTol := 1
  dmiVar := 1
  flwVar := 1 / 1000000
  frwVar := 1 / 1000000
  rlwVar := 1 / 100
  rrwVar := 1 / 100
  steerVar := 1 / 1000000
  cutoff := 350
  usePose := true
  useVel := false
  delayBound := 50000000

/-- a pose at a time in seconds. -/
def demoPose (t : Int) : Meas := ⟨.pose, t * 1000000000, 0, 0, 0⟩
/-- a rear wheel measurement. -/
def demoRear (t : Int) : Meas := ⟨.rear, t * 1000000000, 400, 400, 0⟩

/-- evaluation helper: a normal return whose state passes a test. -/
def okTest {σ : Type} (r : Res σ Unit) (p : σ → Bool) : Bool := match r with | .ok _ s => p s | _ => false
/-- evaluation helper: an exception that leaves a state that passes a test. -/
def throwTest {σ : Type} (r : Res σ Unit) (x : Exc) (p : σ → Bool) : Bool :=
  match r with | .throw y s => decide (y = x) && p s | _ => false

theorem okTest_spec {σ : Type} {r : Res σ Unit} {p : σ → Bool} (h : okTest r p = true) :
    ∃ s, r = .ok () s ∧ p s = true := by
  cases r with
  | ok a s => exact ⟨s, rfl, h⟩
  | throw x s => simp [okTest] at h
  | ub => simp [okTest] at h
  | diverge => simp [okTest] at h

theorem throwTest_spec {σ : Type} {r : Res σ Unit} {x : Exc} {p : σ → Bool} (h : throwTest r x p = true) :
    ∃ s, r = .throw x s ∧ p s = true := by
  cases r with
  | ok a s => simp [throwTest] at h
  | throw y s =>
    simp only [throwTest, Bool.and_eq_true, decide_eq_true_eq] at h
    exact ⟨s, by rw [h.1], h.2⟩
  | ub => simp [throwTest] at h
  | diverge => simp [throwTest] at h

/-- all sensors. -/
def sensors : List Sensor := [.pose, .vel, .dmi, .front, .rear, .steer]
theorem mem_sensors (k : Sensor) : k ∈ sensors := by cases k <;> simp [sensors]

/-- **C37** (negation): a window of 100 s is submitted although the window duration is 10 s. -/
theorem C37_long_window : ∃ s, runOps demoEnv demoOpt (init demoEnv 0)
      [.add (demoPose 0), .add (demoRear 5), .add (demoPose 100), .add (demoRear 101)] = .ok () s ∧
    s.sent.map (fun w => (w .pose).map Meas.t) = [[0, 100000000000]] := by
  obtain ⟨s, h1, h2⟩ := okTest_spec (r := runOps demoEnv demoOpt (init demoEnv 0)
      [.add (demoPose 0), .add (demoRear 5), .add (demoPose 100), .add (demoRear 101)])
    (p := fun s => decide (s.sent.map (fun w => (w .pose).map Meas.t) = [[0, 100000000000]])) (by decide +kernel)
  exact ⟨s, h1, of_decide_eq_true h2⟩

/-- **C36** (negation): if the estimator throws, the measurement that triggered the submission is in no window and no
buffer. -/
theorem C36_measurement_lost_on_exception : ∃ s s', runOps throwEnv demoOpt (init throwEnv 0)
      [.add (demoPose 0), .add (demoPose 5)] = .ok () s ∧
    s.add throwEnv demoOpt (demoPose 10) = .throw .invalidOperation s' ∧
    s'.sent.length = 1 ∧ (∀ w ∈ s'.sent, ∀ k, demoPose 10 ∉ w k) ∧ ∀ k, s'.buf k = [] := by
  obtain ⟨s, h1, h2⟩ := okTest_spec (r := runOps throwEnv demoOpt (init throwEnv 0)
      [.add (demoPose 0), .add (demoPose 5)])
    (p := fun s => throwTest (s.add throwEnv demoOpt (demoPose 10)) .invalidOperation fun s' =>
      decide (s'.sent.length = 1 ∧ (∀ w ∈ s'.sent, ∀ k ∈ sensors, demoPose 10 ∉ w k) ∧ ∀ k ∈ sensors, s'.buf k = []))
    (by decide +kernel)
  obtain ⟨s', h3, h4⟩ := throwTest_spec h2
  have h5 := of_decide_eq_true h4
  exact ⟨s, s', h1, h3, h5.1, fun w hw k => h5.2.1 w hw k (mem_sensors k), fun k => h5.2.2 k (mem_sensors k)⟩

/-- concrete instance: three windows of measurements, two of them submitted. -/
example : ∃ s, runOps demoEnv demoOpt (init demoEnv 0)
      [.add (demoPose 0), .add (demoRear 5), .add (demoPose 9), .add (demoRear 10), .add (demoPose 11), .add (demoPose 19),
        .add (demoRear 21)] = .ok () s ∧
    s.sent.map (fun w => (w .pose).length) = [2, 2] ∧ s.gains = [4, 2] ∧ s.params = [0, 1, 2] := by
  obtain ⟨s, h1, h2⟩ := okTest_spec (r := runOps demoEnv demoOpt (init demoEnv 0)
      [.add (demoPose 0), .add (demoRear 5), .add (demoPose 9), .add (demoRear 10), .add (demoPose 11), .add (demoPose 19),
        .add (demoRear 21)])
    (p := fun s => decide (s.sent.map (fun w => (w .pose).length) = [2, 2] ∧ s.gains = [4, 2] ∧ s.params = [0, 1, 2]))
    (by decide +kernel)
  exact ⟨s, h1, of_decide_eq_true h2⟩

end CarCal
end Verif
