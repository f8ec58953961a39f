import Verif.Model.Window
import Mathlib.Tactic.Linarith

/-! Facts about the windowing shared by the time delay and the egomotion calibrator (`Model/Window.lean`). -/

namespace Verif
namespace Win
variable {K M E B G P : Type} [DecidableEq K]

/-! ### Vocabulary -/

/-- the public calls that change the calibrator. -/
inductive Op (M : Type) where
  | add (m : M)
  | flush
  | clear

/-- effect of a call. -/
def Op.run (c : WinCfg K M E B G P) (s : Win K M E G P) : Op M → Res (Win K M E G P) Unit
  | .add m => s.add c m
  | .flush => s.addMeasurements c
  | .clear => .ok () s.clear

/-- a program without exception handler: stops at the first exception. -/
def runOps (c : WinCfg K M E B G P) (s : Win K M E G P) : List (Op M) → Res (Win K M E G P) Unit
  | [] => .ok () s
  | op :: ops => (op.run c s).bind fun _ s' => runOps c s' ops

/-- the measurements a program adds. -/
def added (ops : List (Op M)) : List M := ops.filterMap fun op => match op with | .add m => some m | _ => none

/-- no explicit `clearMeasurements`. -/
def NoClear (ops : List (Op M)) : Prop := ∀ op ∈ ops, match op with | .clear => False | _ => True

/-- all histories of calls on one calibrator, exceptions being caught by the caller.  `acc` are the measurements whose call
returned normally, `gone` the windows that left the buffers, by submission or by an explicit `clearMeasurements`, in order. -/
inductive Run (c : WinCfg K M E B G P) (e : E) : Win K M E G P → List M → List (K → List M) → Prop
  | init : Run c e (init c e) [] []
  | addOk {s s' : Win K M E G P} {acc : List M} {gone : List (K → List M)} {m : M} : Run c e s acc gone →
      s.add c m = .ok () s' → Run c e s' (acc ++ [m]) (gone ++ s'.sent.drop s.sent.length)
  | addThrow {s s' : Win K M E G P} {acc : List M} {gone : List (K → List M)} {m : M} {x : Exc} : Run c e s acc gone →
      s.add c m = .throw x s' → Run c e s' acc (gone ++ s'.sent.drop s.sent.length)
  | flush {s s' : Win K M E G P} {acc : List M} {gone : List (K → List M)} : Run c e s acc gone →
      (s.addMeasurements c).state? = some s' → Run c e s' acc (gone ++ s'.sent.drop s.sent.length)
  | clear {s : Win K M E G P} {acc : List M} {gone : List (K → List M)} : Run c e s acc gone →
      Run c e s.clear acc (gone ++ [s.buf])

/-- measurements of one sensor, in order. -/
def ofSensor (c : WinCfg K M E B G P) (k : K) (ms : List M) : List M := ms.filter fun m => decide (c.kind m = k)

/-! ### One call -/

omit [DecidableEq K] in
/-- what `addMeasurements` can do to the buffers: nothing, or submit them as a whole. -/
theorem addMeasurements_state {c : WinCfg K M E B G P} {s s' : Win K M E G P}
    (h : (s.addMeasurements c).state? = some s') :
    (s'.buf = s.buf ∧ s'.start = s.start ∧ s'.last = s.last ∧ s'.sent = s.sent ∧ s'.gains = s.gains ∧
      s'.params = s.params) ∨
    (c.ready s.buf = true ∧ s'.buf = (fun _ => []) ∧ s'.start = s.last ∧ s'.last = s.last ∧ s'.sent = s.sent ++ [s.buf]) := by
  unfold addMeasurements at h
  split_ifs at h with hc
  · left; simp only [Res.state?, Option.some.injEq] at h; subst h; simp
  · have hr : c.ready s.buf = true := by simpa using hc
    split at h
    · left; simp only [Res.state?, Option.some.injEq] at h; subst h; simp
    · simp [Res.state?] at h
    · simp [Res.state?] at h
    · simp only at h
      split at h <;> simp only [Res.state?, Option.some.injEq, reduceCtorEq] at h <;> subst h <;>
        exact Or.inr ⟨hr, rfl, rfl, rfl, rfl⟩

omit [DecidableEq K] in
/-- a normal return: not ready and nothing changed, or the buffers were submitted and both histories grew by one. -/
theorem addMeasurements_ok {c : WinCfg K M E B G P} {s s' : Win K M E G P}
    (h : s.addMeasurements c = .ok () s') :
    (s' = s ∧ c.ready s.buf = false) ∨
    (c.ready s.buf = true ∧ s'.buf = (fun _ => []) ∧ s'.start = s.last ∧ s'.last = s.last ∧ s'.sent = s.sent ++ [s.buf] ∧
      ∃ g, s'.gains = s.gains ++ [g] ∧ s'.params = s.params ++ [c.params s'.est]) := by
  unfold addMeasurements at h
  split_ifs at h with hc
  · left; simp only [Res.ok.injEq, true_and] at h; exact ⟨h.symm, hc⟩
  · have hr : c.ready s.buf = true := by simpa using hc
    split at h
    · simp at h
    · simp at h
    · simp at h
    · simp only at h
      split at h <;> simp only [Res.ok.injEq, true_and, reduceCtorEq] at h
      subst h
      exact Or.inr ⟨hr, rfl, rfl, rfl, rfl, _, rfl, rfl⟩

/-- the state in which `addMeasurement` decides. -/
def stamped (s : Win K M E G P) (t : Int) : Win K M E G P :=
  { s with last := t, start := if s.start = -1 then t else s.start }

omit [DecidableEq K] in
theorem addMeasurement_eq (c : WinCfg K M E B G P) (s : Win K M E G P) (t : Int) : s.addMeasurement c t =
      if t - (s.stamped t).start < -9223372036854775808 ∨ 9223372036854775807 < t - (s.stamped t).start then .ub
      else if c.sec (t - (s.stamped t).start) ≥ c.window then addMeasurements c (s.stamped t)
      else .ok () (s.stamped t) := rfl

omit [DecidableEq K] in
theorem addMeasurement_state {c : WinCfg K M E B G P} {s s' : Win K M E G P} {t : Int}
    (h : (s.addMeasurement c t).state? = some s') :
    (c.sec (t - (s.stamped t).start) < c.window ∧ s' = s.stamped t) ∨
    (c.window ≤ c.sec (t - (s.stamped t).start) ∧ ((s.stamped t).addMeasurements c).state? = some s') := by
  rw [addMeasurement_eq] at h
  split_ifs at h with h1 h2
  · simp [Res.state?] at h
  · exact Or.inr ⟨h2, h⟩
  · left; simp only [Res.state?, Option.some.injEq] at h; exact ⟨not_le.1 h2, h.symm⟩

omit [DecidableEq K] in
theorem addMeasurement_ok {c : WinCfg K M E B G P} {s s' : Win K M E G P} {t : Int}
    (h : s.addMeasurement c t = .ok () s') :
    (c.sec (t - (s.stamped t).start) < c.window ∧ s' = s.stamped t) ∨
    (c.window ≤ c.sec (t - (s.stamped t).start) ∧ (s.stamped t).addMeasurements c = .ok () s') := by
  rw [addMeasurement_eq] at h
  split_ifs at h with h1 h2
  · exact Or.inr ⟨h2, h⟩
  · left; simp only [Res.ok.injEq, true_and] at h; exact ⟨not_le.1 h2, h.symm⟩

theorem add_ok {c : WinCfg K M E B G P} {s s' : Win K M E G P} {m : M} (h : s.add c m = .ok () s') :
    ∃ s1, s.addMeasurement c (c.time m) = .ok () s1 ∧ s' = { s1 with buf := push c s1.buf m } := by
  unfold add at h
  cases hr : s.addMeasurement c (c.time m) with
  | ok a s1 => rw [hr] at h; simp only [Res.bind, Res.ok.injEq, true_and] at h; exact ⟨s1, rfl, h.symm⟩
  | throw x s1 => rw [hr] at h; simp [Res.bind] at h
  | ub => rw [hr] at h; simp [Res.bind] at h
  | diverge => rw [hr] at h; simp [Res.bind] at h

theorem add_throw {c : WinCfg K M E B G P} {s s' : Win K M E G P} {m : M} {x : Exc}
    (h : s.add c m = .throw x s') : s.addMeasurement c (c.time m) = .throw x s' := by
  unfold add at h
  cases hr : s.addMeasurement c (c.time m) with
  | ok a s1 => rw [hr] at h; simp [Res.bind] at h
  | throw x s1 => rw [hr] at h; simpa [Res.bind] using h
  | ub => rw [hr] at h; simp [Res.bind] at h
  | diverge => rw [hr] at h; simp [Res.bind] at h

/-- an addition that did not submit anything. -/
def Joins (c : WinCfg K M E B G P) (s s' : Win K M E G P) (m : M) : Prop :=
  s'.sent = s.sent ∧ s'.buf (c.kind m) = s.buf (c.kind m) ++ [m] ∧ ∀ k, k ≠ c.kind m → s'.buf k = s.buf k

/-- an addition that first submitted the window without the new measurement. -/
def Opens (c : WinCfg K M E B G P) (s s' : Win K M E G P) (m : M) : Prop :=
  s'.sent = s.sent ++ [s.buf] ∧ c.ready s.buf = true ∧ s'.buf (c.kind m) = [m] ∧ ∀ k, k ≠ c.kind m → s'.buf k = []

theorem trigger {c : WinCfg K M E B G P} {s s' : Win K M E G P} {m : M} (h : s.add c m = .ok () s') :
    Joins c s s' m ∨ Opens c s s' m := by
  obtain ⟨s1, h1, rfl⟩ := add_ok h
  rcases addMeasurement_ok h1 with ⟨_, rfl⟩ | ⟨_, h2⟩
  · left
    exact ⟨rfl, by simp [push, stamped], fun k hk => by simp [push, hk, stamped]⟩
  · rcases addMeasurements_ok h2 with ⟨rfl, _⟩ | ⟨hl, hb, _, _, hs, _⟩
    · left
      exact ⟨rfl, by simp [push, stamped], fun k hk => by simp [push, hk, stamped]⟩
    · right
      refine ⟨hs, hl, by simp [push, hb], fun k hk => by simp [push, hk, hb]⟩

theorem ofSensor_push (c : WinCfg K M E B G P) (k : K) (acc : List M) (m : M) :
    ofSensor c k (acc ++ [m]) = ofSensor c k acc ++ (if k = c.kind m then [m] else []) := by
  unfold ofSensor
  rw [List.filter_append]
  congr 1
  by_cases hk : c.kind m = k
  · simp [hk]
  · simp [hk, Ne.symm hk]

theorem one_place {c : WinCfg K M E B G P} {e : E} {s : Win K M E G P}
    {acc : List M} {gone : List (K → List M)} (h : Run c e s acc gone) (k : K) :
    (gone.map fun w => w k).flatten ++ s.buf k = ofSensor c k acc := by
  induction h with
  | init => simp [Win.init, ofSensor]
  | @addOk s s' acc gone m _ ha ih =>
    rw [ofSensor_push, ← ih]
    rcases trigger ha with ⟨h1, h2, h3⟩ | ⟨h1, _, h2, h3⟩
    · rw [h1, List.drop_length, List.append_nil]
      by_cases hk : k = c.kind m
      · subst hk; rw [h2]; simp
      · rw [h3 k hk]; simp [hk]
    · rw [h1, List.drop_left]
      by_cases hk : k = c.kind m
      · subst hk; rw [h2]; simp
      · rw [h3 k hk]; simp [hk]
  | @addThrow s s' acc gone m x _ ha ih =>
    rw [← ih]
    have ht : (s.addMeasurement c (c.time m)).state? = some s' := by rw [add_throw ha]; rfl
    rcases addMeasurement_state ht with ⟨_, rfl⟩ | ⟨_, h2⟩
    · simp [stamped]
    · rcases addMeasurements_state h2 with ⟨hb, _, _, hs, _⟩ | ⟨_, hb, _, _, hs⟩
      · rw [hs, hb]; simp [stamped]
      · rw [hs, hb]
        have : (s.stamped (c.time m)).sent = s.sent := rfl
        rw [this, List.drop_left]
        simp [stamped]
  | @flush s s' acc gone _ hf ih =>
    rw [← ih]
    rcases addMeasurements_state hf with ⟨hb, _, _, hs, _⟩ | ⟨_, hb, _, _, hs⟩
    · rw [hs, hb]; simp
    · rw [hs, hb, List.drop_left]; simp
  | @clear s acc gone _ ih =>
    rw [← ih]; simp [Win.clear]

theorem stream {c : WinCfg K M E B G P} {e : E} {s : Win K M E G P} {ops : List (Op M)}
    (hops : NoClear ops) (h : runOps c (init c e) ops = .ok () s) (k : K) :
    (s.sent.map fun w => w k).flatten ++ s.buf k = ofSensor c k (added ops) := by
  suffices H : ∀ (ops : List (Op M)) (s0 s : Win K M E G P) (acc : List M), NoClear ops →
      (s0.sent.map fun w => w k).flatten ++ s0.buf k = ofSensor c k acc →
      runOps c s0 ops = .ok () s →
      (s.sent.map fun w => w k).flatten ++ s.buf k = ofSensor c k (acc ++ added ops) by
    have := H ops (init c e) s [] hops (by simp [Win.init, ofSensor]) h
    simpa using this
  intro ops
  induction ops with
  | nil => intro s0 s acc _ h0 h; simp only [runOps, Res.ok.injEq, true_and] at h; subst h; simpa [added] using h0
  | cons op ops ih =>
    intro s0 s acc hc h0 h
    have hc' : NoClear ops := fun o hm => hc o (List.mem_cons_of_mem _ hm)
    unfold runOps at h
    cases hr : op.run c s0 with
    | ub => rw [hr] at h; simp [Res.bind] at h
    | diverge => rw [hr] at h; simp [Res.bind] at h
    | throw x s1 => rw [hr] at h; simp [Res.bind] at h
    | ok a s1 =>
      rw [hr] at h
      simp only [Res.bind] at h
      cases op with
      | clear => exact absurd (hc _ List.mem_cons_self) (by simp)
      | flush =>
        have e1 : added (Op.flush :: ops) = added ops := rfl
        rw [e1]
        refine ih s1 s acc hc' ?_ h
        have hf : (s0.addMeasurements c).state? = some s1 := by
          have : s0.addMeasurements c = .ok a s1 := hr
          rw [this]; rfl
        rcases addMeasurements_state hf with ⟨hb, _, _, hs, _⟩ | ⟨_, hb, _, _, hs⟩
        · rw [hb, hs]; exact h0
        · rw [hs, hb, ← h0]; simp
      | add m =>
        have e1 : acc ++ added (Op.add m :: ops) = (acc ++ [m]) ++ added ops := by simp [added]
        rw [e1]
        refine ih s1 s (acc ++ [m]) hc' ?_ h
        rw [ofSensor_push, ← h0]
        have ha : s0.add c m = .ok () s1 := hr
        rcases trigger ha with ⟨h1, h2, h3⟩ | ⟨h1, _, h2, h3⟩
        · rw [h1]
          by_cases hk : k = c.kind m
          · subst hk; rw [h2]; simp
          · rw [h3 k hk]; simp [hk]
        · rw [h1]
          by_cases hk : k = c.kind m
          · subst hk; rw [h2]; simp
          · rw [h3 k hk]; simp [hk]

/-- the buffers hold measurements of their own sensor only. -/
def Separate (c : WinCfg K M E B G P) (w : K → List M) : Prop := ∀ k m, m ∈ w k → c.kind m = k

theorem separate {c : WinCfg K M E B G P} {e : E} {s : Win K M E G P} {acc : List M}
    {gone : List (K → List M)} (h : Run c e s acc gone) : Separate c s.buf ∧ ∀ w ∈ gone, Separate c w := by
  have key := one_place h
  have mem : ∀ k m, m ∈ (gone.map fun w => w k).flatten ++ s.buf k → c.kind m = k := by
    intro k m hm
    rw [key k] at hm
    simpa using (List.mem_filter.1 hm).2
  refine ⟨fun k m hm => mem k m (List.mem_append_right _ hm), fun w hw k m hm => mem k m (List.mem_append_left _ ?_)⟩
  exact List.mem_flatten.2 ⟨w k, List.mem_map.2 ⟨w, hw, rfl⟩, hm⟩

/-! ### Window duration -/

/-- histories with non-negative, non-decreasing time stamps (`last` is the time stamp of the last call). -/
inductive Timed (c : WinCfg K M E B G P) (e : E) : Win K M E G P → Prop
  | init : Timed c e (init c e)
  | add {s s' : Win K M E G P} {m : M} : Timed c e s → 0 ≤ c.time m → s.last ≤ c.time m →
      (s.add c m).state? = some s' → Timed c e s'
  | flush {s s' : Win K M E G P} : Timed c e s → (s.addMeasurements c).state? = some s' → Timed c e s'
  | clear {s : Win K M E G P} : Timed c e s → Timed c e s.clear

/-- the window is shorter than the window duration: so is the time between any two of its measurements. -/
def Short (c : WinCfg K M E B G P) (w : K → List M) : Prop :=
  ∀ k m k' m', m ∈ w k → m' ∈ w k' → c.sec (c.time m - c.time m') < c.window

/-- without its latest measurement the window would not have been submitted. -/
def JustReady (c : WinCfg K M E B G P) (w : K → List M) : Prop :=
  ∃ w0 m, w = push c w0 m ∧ c.ready w0 = false ∧ ∀ k x, x ∈ w k → c.time x ≤ c.time m

/-- the invariant behind the window theorem. -/
structure Inv (c : WinCfg K M E B G P) (s : Win K M E G P) : Prop where
  start : s.start = -1 ∨ 0 ≤ s.start
  le : s.start ≤ s.last
  empty : s.start = -1 → ∀ k, s.buf k = []
  range : ∀ k m, m ∈ s.buf k → s.start ≤ c.time m ∧ c.time m ≤ s.last
  open_ : (∀ k m, m ∈ s.buf k → c.sec (c.time m - s.start) < c.window) ∨ c.ready s.buf = false ∨ JustReady c s.buf
  sent : ∀ w ∈ s.sent, c.ready w = true ∧ (Short c w ∨ JustReady c w)

theorem Inv.window {c : WinCfg K M E B G P} (hm : Monotone c.sec) {s : Win K M E G P} (h : Inv c s)
    (h2 : c.ready s.buf = true) : Short c s.buf ∨ JustReady c s.buf := by
  rcases h.open_ with h1 | h1 | h1
  · left
    intro k m k' m' hm1 hm2
    exact lt_of_le_of_lt (hm (by have := (h.range k' m' hm2).1; linarith)) (h1 k m hm1)
  · rw [h1] at h2; cases h2
  · exact Or.inr h1

theorem Inv.flushed {c : WinCfg K M E B G P} (hm : Monotone c.sec) {s s' : Win K M E G P} (h : Inv c s) (h0 : 0 ≤ s.start)
    (hf : (s.addMeasurements c).state? = some s') : Inv c s' := by
  rcases addMeasurements_state hf with ⟨hb, hst, hla, hs, _⟩ | ⟨hl, hb, hst, hla, hs⟩
  · exact ⟨hst ▸ h.start, by rw [hst, hla]; exact h.le, by rw [hst, hb]; exact h.empty, by rw [hst, hb, hla]; exact h.range,
      by rw [hst, hb]; exact h.open_, by rw [hs]; exact h.sent⟩
  · have hlast : 0 ≤ s.last := le_trans h0 h.le
    refine ⟨by rw [hst]; exact Or.inr hlast, by rw [hst, hla], fun _ k => by rw [hb], ?_, ?_, ?_⟩
    · intro k m hm1; rw [hb] at hm1; cases hm1
    · left; intro k m hm1; rw [hb] at hm1; cases hm1
    · intro w hw
      rw [hs] at hw
      rcases List.mem_append.1 hw with hw | hw
      · exact h.sent w hw
      · rw [List.mem_singleton] at hw; subst hw
        exact ⟨hl, h.window hm hl⟩

theorem mem_push {c : WinCfg K M E B G P} {w : K → List M} {m x : M} {k : K} (h : x ∈ push c w m k) : x ∈ w k ∨ x = m := by
  unfold push at h
  split_ifs at h
  · rcases List.mem_append.1 h with h | h
    · exact Or.inl h
    · exact Or.inr (List.mem_singleton.1 h)
  · exact Or.inl h

theorem Inv.stamp {c : WinCfg K M E B G P} {s : Win K M E G P} {t : Int} (h : Inv c s) (h0 : 0 ≤ t)
    (hl : s.last ≤ t) : Inv c (s.stamped t) ∧ 0 ≤ (s.stamped t).start := by
  have e3 : (s.stamped t).last = t := rfl
  by_cases hs : s.start = -1
  · have e : (s.stamped t).start = t := by simp [stamped, hs]
    have hb : ∀ k, (s.stamped t).buf k = [] := h.empty hs
    refine ⟨⟨by rw [e]; exact Or.inr h0, by rw [e, e3], fun _ => hb, ?_, ?_, h.sent⟩, by rw [e]; exact h0⟩
    · intro k m hm; rw [hb k] at hm; cases hm
    · left; intro k m hm; rw [hb k] at hm; cases hm
  · have e : (s.stamped t).start = s.start := by simp [stamped, hs]
    have h1 : 0 ≤ s.start := h.start.resolve_left hs
    refine ⟨⟨by rw [e]; exact h.start, by rw [e, e3]; exact le_trans h.le hl, ?_, ?_, ?_, h.sent⟩, by rw [e]; exact h1⟩
    · intro hx; rw [e] at hx; exact absurd hx hs
    · intro k m hm
      have := h.range k m hm
      rw [e, e3]; exact ⟨this.1, le_trans this.2 hl⟩
    · rw [e]; exact h.open_

theorem Inv.pushed {c : WinCfg K M E B G P} (hm : Monotone c.sec) {s : Win K M E G P} {m : M}
    (h : Inv c s) (h0 : 0 ≤ s.start) (hl : s.last = c.time m)
    (hd : (c.sec (c.time m - s.start) < c.window) ∨ c.ready s.buf = false) :
    Inv c { s with buf := push c s.buf m } := by
  refine ⟨h.start, h.le, ?_, ?_, ?_, h.sent⟩
  · intro hs; exfalso; have : s.start = -1 := hs; omega
  · intro k x hx
    rcases mem_push hx with hx | rfl
    · exact h.range k x hx
    · exact ⟨hl ▸ h.le, hl ▸ le_refl _⟩
  · rcases hd with hd | hd
    · left
      intro k x hx
      rcases mem_push hx with hx | rfl
      · have := (h.range k x hx).2
        exact lt_of_le_of_lt (hm (by show c.time x - s.start ≤ c.time m - s.start; linarith)) hd
      · exact hd
    · right; right
      refine ⟨s.buf, m, rfl, hd, ?_⟩
      intro k x hx
      rcases mem_push hx with hx | rfl
      · have := (h.range k x hx).2; rw [hl] at this; exact this
      · exact le_refl _

/-- right after a submission the window is empty and starts at the new measurement. -/
theorem Inv.pushed_fresh {c : WinCfg K M E B G P} (hw : c.sec 0 < c.window ∨ c.ready (fun _ => []) = false)
    {s : Win K M E G P} {m : M} (hm : Monotone c.sec)
    (h : Inv c s) (h0 : 0 ≤ s.start) (hl : s.last = c.time m) (hs : s.start = c.time m) (hb : s.buf = fun _ => []) :
    Inv c { s with buf := push c s.buf m } := by
  refine h.pushed hm h0 hl ?_
  rcases hw with hw | hw
  · left; rw [hs, Int.sub_self]; exact hw
  · right; rw [hb]; exact hw

/-- a calibrator that has never been given a measurement is not ready, or the call throws or does nothing to the buffers;
what is needed of `addMeasurements` called by hand before the first measurement. -/
theorem Inv.flushed_any {c : WinCfg K M E B G P} (hm : Monotone c.sec) {s s' : Win K M E G P} (h : Inv c s)
    (hidle : ∀ e b e1, c.ready (fun _ => []) = true → c.prepare e (fun _ => []) ≠ .ok b e1)
    (hf : (s.addMeasurements c).state? = some s') : Inv c s' := by
  rcases h.start with h0 | h0
  · have hb : s.buf = fun _ => [] := funext (h.empty h0)
    have : s'.buf = s.buf ∧ s'.start = s.start ∧ s'.last = s.last ∧ s'.sent = s.sent := by
      unfold addMeasurements at hf
      split_ifs at hf with hc
      · simp only [Res.state?, Option.some.injEq] at hf; subst hf; simp
      · split at hf
        · simp only [Res.state?, Option.some.injEq] at hf; subst hf; simp
        · simp [Res.state?] at hf
        · simp [Res.state?] at hf
        · next b e1 hp =>
          rw [hb] at hp hc
          exact absurd hp (hidle _ _ _ (by simpa using hc))
    obtain ⟨hb', hst, hla, hs⟩ := this
    exact ⟨hst ▸ h.start, by rw [hst, hla]; exact h.le, by rw [hst, hb']; exact h.empty, by rw [hst, hb', hla]; exact h.range,
      by rw [hst, hb']; exact h.open_, by rw [hs]; exact h.sent⟩
  · exact h.flushed hm h0 hf

theorem timed_inv {c : WinCfg K M E B G P} {e : E} (hm : Monotone c.sec)
    (hw : c.sec 0 < c.window ∨ c.ready (fun _ => []) = false)
    (hidle : ∀ e b e1, c.ready (fun _ => []) = true → c.prepare e (fun _ => []) ≠ .ok b e1) {s : Win K M E G P}
    (h : Timed c e s) : Inv c s := by
  induction h with
  | init =>
    exact ⟨Or.inl rfl, le_refl _, fun _ _ => rfl, fun k m hx => by simp [Win.init] at hx,
      Or.inl fun k m hx => by simp [Win.init] at hx, fun w hw => by simp [Win.init] at hw⟩
  | @add s s' m _ h0 hl ha ih =>
    obtain ⟨hi, hs0⟩ := ih.stamp h0 hl
    cases hr : s.add c m with
    | ub => rw [hr] at ha; simp [Res.state?] at ha
    | diverge => rw [hr] at ha; simp [Res.state?] at ha
    | throw x s1 =>
      rw [hr] at ha
      simp only [Res.state?, Option.some.injEq] at ha; subst ha
      have ht : (s.addMeasurement c (c.time m)).state? = some s1 := by rw [add_throw hr]; rfl
      rcases addMeasurement_state ht with ⟨_, rfl⟩ | ⟨_, h2⟩
      · exact hi
      · exact hi.flushed hm hs0 h2
    | ok a s1 =>
      rw [hr] at ha
      simp only [Res.state?, Option.some.injEq] at ha; subst ha
      obtain ⟨s2, h1, rfl⟩ := add_ok hr
      rcases addMeasurement_ok h1 with ⟨hd, rfl⟩ | ⟨_, h2⟩
      · exact hi.pushed hm hs0 rfl (Or.inl hd)
      · have hf : ((s.stamped (c.time m)).addMeasurements c).state? = some s2 := by rw [h2]; rfl
        have hi2 := hi.flushed hm hs0 hf
        rcases addMeasurements_ok h2 with ⟨rfl, hp⟩ | ⟨_, hb, hst, hla, _⟩
        · exact hi.pushed hm hs0 rfl (Or.inr hp)
        · exact hi2.pushed_fresh hw hm (by rw [hst]; exact h0) (by rw [hla]; rfl) (by rw [hst]; rfl) hb
  | @flush s s' _ hf ih => exact ih.flushed_any hm hidle hf
  | @clear s _ ih =>
    exact ⟨ih.start, ih.le, fun _ _ => rfl, fun k m hx => by simp [Win.clear] at hx,
      Or.inl fun k m hx => by simp [Win.clear] at hx, ih.sent⟩

/-! ### Histories -/

theorem histories {c : WinCfg K M E B G P} {e : E} {s : Win K M E G P} {acc : List M} {gone : List (K → List M)}
    (h : Run c e s acc gone) : s.params.length = s.gains.length + 1 ∧ s.gains.length ≤ s.sent.length := by
  have key : ∀ {s s' : Win K M E G P}, (s.params.length = s.gains.length + 1 ∧ s.gains.length ≤ s.sent.length) →
      (s.addMeasurements c).state? = some s' →
      (s'.params.length = s'.gains.length + 1 ∧ s'.gains.length ≤ s'.sent.length) := by
    intro s s' hi hf
    unfold addMeasurements at hf
    split_ifs at hf with hc
    · simp only [Res.state?, Option.some.injEq] at hf; subst hf; exact hi
    · split at hf
      · simp only [Res.state?, Option.some.injEq] at hf; subst hf; exact hi
      · simp [Res.state?] at hf
      · simp [Res.state?] at hf
      · simp only at hf
        split at hf <;> simp only [Res.state?, Option.some.injEq, reduceCtorEq] at hf <;> subst hf <;>
          simp [Win.clear] <;> omega
  have key2 : ∀ {s s' : Win K M E G P} {t : Int}, (s.params.length = s.gains.length + 1 ∧ s.gains.length ≤ s.sent.length) →
      (s.addMeasurement c t).state? = some s' →
      (s'.params.length = s'.gains.length + 1 ∧ s'.gains.length ≤ s'.sent.length) := by
    intro s s' t hi hf
    rcases addMeasurement_state hf with ⟨_, rfl⟩ | ⟨_, h2⟩
    · exact hi
    · exact key (s := s.stamped t) hi h2
  induction h with
  | init => simp [Win.init]
  | @addOk s s' acc gone m _ ha ih =>
    obtain ⟨s2, h1, rfl⟩ := add_ok ha
    exact key2 (s' := s2) ih (by rw [h1]; rfl)
  | @addThrow s s' acc gone m x _ ha ih => exact key2 ih (by rw [add_throw ha]; rfl)
  | @flush s s' acc gone _ hf ih => exact key ih hf
  | @clear s acc gone _ ih => exact ih

theorem histories_aligned {c : WinCfg K M E B G P} {e : E} {s : Win K M E G P} {ops : List (Op M)}
    (h : runOps c (init c e) ops = .ok () s) :
    s.gains.length = s.sent.length ∧ s.params.length = s.sent.length + 1 ∧ s.params.getLast? = some (c.params s.est) := by
  suffices H : ∀ (ops : List (Op M)) (s0 s : Win K M E G P),
      (s0.gains.length = s0.sent.length ∧ s0.params.length = s0.sent.length + 1 ∧
        s0.params.getLast? = some (c.params s0.est)) →
      runOps c s0 ops = .ok () s →
      (s.gains.length = s.sent.length ∧ s.params.length = s.sent.length + 1 ∧
        s.params.getLast? = some (c.params s.est)) from
    H ops _ s (by simp [Win.init]) h
  intro ops
  have key : ∀ {s0 s1 : Win K M E G P}, (s0.gains.length = s0.sent.length ∧ s0.params.length = s0.sent.length + 1 ∧
        s0.params.getLast? = some (c.params s0.est)) → s0.addMeasurements c = .ok () s1 →
      (s1.gains.length = s1.sent.length ∧ s1.params.length = s1.sent.length + 1 ∧
        s1.params.getLast? = some (c.params s1.est)) := by
    intro s0 s1 h0 hf
    rcases addMeasurements_ok hf with ⟨rfl, _⟩ | ⟨_, _, _, _, hs, g, hg, hp⟩
    · exact h0
    · rw [hs, hg, hp]; simp [h0.1, h0.2.1]
  induction ops with
  | nil => intro s0 s h0 h; simp only [runOps, Res.ok.injEq, true_and] at h; subst h; exact h0
  | cons op ops ih =>
    intro s0 s h0 h
    unfold runOps at h
    cases hr : op.run c s0 with
    | ub => rw [hr] at h; simp [Res.bind] at h
    | diverge => rw [hr] at h; simp [Res.bind] at h
    | throw x s1 => rw [hr] at h; simp [Res.bind] at h
    | ok a s1 =>
      rw [hr] at h
      simp only [Res.bind] at h
      refine ih s1 s ?_ h
      cases op with
      | clear => 
        have : Res.ok () s0.clear = Res.ok a s1 := hr
        simp only [Res.ok.injEq] at this; rw [← this.2]; exact h0
      | flush => exact key h0 hr
      | add m =>
        obtain ⟨s2, h1, rfl⟩ := add_ok (show s0.add c m = .ok () s1 from hr)
        rcases addMeasurement_ok h1 with ⟨_, rfl⟩ | ⟨_, h2⟩
        · exact h0
        · have := key (s0 := s0.stamped (c.time m)) (s1 := s2) h0 h2
          exact this

/-! ### Evaluation helpers for witnesses -/

/-- a normal return whose state passes a test. -/
def okTest {σ : Type} (r : Res σ Unit) (p : σ → Bool) : Bool := match r with | .ok _ s => p s | _ => false
/-- an exception that leaves a state that passes a test. -/
def throwTest {σ : Type} (r : Res σ Unit) (x : Exc) (p : σ → Bool) : Bool :=
  match r with | .throw y s => decide (y = x) && p s | _ => false

theorem okTest_spec {σ : Type} {r : Res σ Unit} {p : σ → Bool} (h : okTest r p = true) :
    ∃ s, r = .ok () s ∧ p s = true := by
  cases r with
  | ok a s => exact ⟨s, rfl, h⟩
  | throw x s => simp [okTest] at h
  | ub => simp [okTest] at h
  | diverge => simp [okTest] at h

theorem throwTest_spec {σ : Type} {r : Res σ Unit} {x : Exc} {p : σ → Bool} (h : throwTest r x p = true) :
    ∃ s, r = .throw x s ∧ p s = true := by
  cases r with
  | ok a s => simp [throwTest] at h
  | throw y s =>
    simp only [throwTest, Bool.and_eq_true, decide_eq_true_eq] at h
    exact ⟨s, by rw [h.1], h.2⟩
  | ub => simp [throwTest] at h
  | diverge => simp [throwTest] at h

end Win
end Verif
