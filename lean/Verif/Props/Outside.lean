import Verif.Props.Car
import Verif.Props.TimeDelay
import Verif.Props.Egomotion

/-! Property C123: changing options, estimator and design variables between the calls.

The calibrators hand out their options, their estimator and their design variables by reference (car
`algo/CarCalibrator.h` 125-133, time delay `algo/Calibrator.h` 111-119, egomotion `algo/Calibrator.h` 114-151), so a
program can change them between any two calls. -/

namespace Verif

/-! ### Vocabulary -/

/-- all histories of calls on a car calibrator, the options of every call being those the program has set by then, and the estimator
and the design variables being changed by the program between the calls in any way. -/
inductive CarCal.RunX {E G P : Type} (env : CarEnv E G P) (e : E) : CarCal E G P → List Meas → List Window → Prop
  | init : RunX env e (CarCal.init env e) [] []
  | addOk {s s' : CarCal E G P} {acc : List Meas} {gone : List Window} {m : Meas} (o : CarOpt) : RunX env e s acc gone →
      s.add env o m = .ok () s' → RunX env e s' (acc ++ [m]) (gone ++ s'.sent.drop s.sent.length)
  | addThrow {s s' : CarCal E G P} {acc : List Meas} {gone : List Window} {m : Meas} {x : Exc} (o : CarOpt) :
      RunX env e s acc gone → s.add env o m = .throw x s' → RunX env e s' acc (gone ++ s'.sent.drop s.sent.length)
  | flush {s s' : CarCal E G P} {acc : List Meas} {gone : List Window} (o : CarOpt) : RunX env e s acc gone →
      (s.addMeasurements env o).state? = some s' → RunX env e s' acc (gone ++ s'.sent.drop s.sent.length)
  | clear {s : CarCal E G P} {acc : List Meas} {gone : List Window} : RunX env e s acc gone →
      RunX env e s.clear acc (gone ++ [s.buf])
  | outside {s : CarCal E G P} {acc : List Meas} {gone : List Window} (e' : E) : RunX env e s acc gone →
      RunX env e { s with est := e' } acc gone

/-- the same for the other two calibrators; `c o` is the calibrator with the options `o`. -/
inductive Win.RunX {K M E B G P O : Type} [DecidableEq K] (c : O → WinCfg K M E B G P) (o0 : O) (e : E) :
    Win K M E G P → List M → List (K → List M) → Prop
  | init : RunX c o0 e (Win.init (c o0) e) [] []
  | addOk {s s' : Win K M E G P} {acc : List M} {gone : List (K → List M)} {m : M} (o : O) : RunX c o0 e s acc gone →
      s.add (c o) m = .ok () s' → RunX c o0 e s' (acc ++ [m]) (gone ++ s'.sent.drop s.sent.length)
  | addThrow {s s' : Win K M E G P} {acc : List M} {gone : List (K → List M)} {m : M} {x : Exc} (o : O) : RunX c o0 e s acc gone →
      s.add (c o) m = .throw x s' → RunX c o0 e s' acc (gone ++ s'.sent.drop s.sent.length)
  | flush {s s' : Win K M E G P} {acc : List M} {gone : List (K → List M)} (o : O) : RunX c o0 e s acc gone →
      (s.addMeasurements (c o)).state? = some s' → RunX c o0 e s' acc (gone ++ s'.sent.drop s.sent.length)
  | clear {s : Win K M E G P} {acc : List M} {gone : List (K → List M)} : RunX c o0 e s acc gone →
      RunX c o0 e s.clear acc (gone ++ [s.buf])
  | outside {s : Win K M E G P} {acc : List M} {gone : List (K → List M)} (e' : E) : RunX c o0 e s acc gone →
      RunX c o0 e { s with est := e' } acc gone

/-! ### The car calibrator -/

namespace CarCal
variable {E G P : Type}

/-- **C123**, car: whatever the program does with options, estimator and design variables between the calls, the windows that left
the buffers followed by the buffers are, sensor by sensor and in order of arrival, exactly the measurements whose call returned
normally. -/
theorem C123_car {env : CarEnv E G P} {e : E} {s : CarCal E G P} {acc : List Meas} {gone : List Window}
    (h : RunX env e s acc gone) (k : Sensor) : (gone.map fun w => w k).flatten ++ s.buf k = acc.filter fun m => m.kind = k := by
  change _ = ofSensor k acc
  induction h with
  | init => simp [CarCal.init, ofSensor]
  | @addOk s s' acc gone m o _ ha ih =>
    rw [ofSensor_push, ← ih]
    rcases C36_trigger_not_in_own_window ha with ⟨h1, h2, h3⟩ | ⟨h1, _, h2, h3⟩
    · rw [h1, List.drop_length, List.append_nil]
      by_cases hk : k = m.kind
      · subst hk; rw [h2]; simp
      · rw [h3 k hk]; simp [hk]
    · rw [h1, List.drop_left]
      by_cases hk : k = m.kind
      · subst hk; rw [h2]; simp
      · rw [h3 k hk]; simp [hk]
  | @addThrow s s' acc gone m x o _ ha ih =>
    rw [← ih]
    have ht : (s.addMeasurement env o m.t).state? = some s' := by rw [add_throw ha]; rfl
    rcases addMeasurement_state ht with ⟨_, rfl⟩ | ⟨_, h2⟩
    · simp [stamped]
    · rcases addMeasurements_state h2 with rfl | ⟨_, hb, _, _, hs⟩
      · simp [stamped]
      · rw [hs, hb]
        have : (s.stamped m.t).sent = s.sent := rfl
        rw [this, List.drop_left]
        simp [stamped]
  | @flush s s' acc gone o _ hf ih =>
    rw [← ih]
    rcases addMeasurements_state hf with rfl | ⟨_, hb, _, _, hs⟩
    · simp
    · rw [hs, hb, List.drop_left]; simp
  | @clear s acc gone _ ih => rw [← ih]; simp [CarCal.clear]
  | outside e' _ ih => exact ih

/-- what every submitted window satisfies. -/
theorem sent_two_poses {env : CarEnv E G P} {e : E} {s : CarCal E G P} {acc : List Meas} {gone : List Window}
    (h : RunX env e s acc gone) : (∀ w ∈ s.sent, 2 ≤ (w .pose).length) ∧ s.params.length = s.gains.length + 1 ∧
      s.gains.length ≤ s.sent.length := by
  have key : ∀ {s s' : CarCal E G P} {o : CarOpt}, ((∀ w ∈ s.sent, 2 ≤ (w .pose).length) ∧
      s.params.length = s.gains.length + 1 ∧ s.gains.length ≤ s.sent.length) → (s.addMeasurements env o).state? = some s' →
      ((∀ w ∈ s'.sent, 2 ≤ (w .pose).length) ∧ s'.params.length = s'.gains.length + 1 ∧ s'.gains.length ≤ s'.sent.length) := by
    intro s s' o hi hf
    unfold addMeasurements at hf
    split_ifs at hf with hc
    · simp only [Res.state?, Option.some.injEq] at hf; subst hf; exact hi
    · split at hf
      · simp [Res.state?] at hf
      · split at hf
        · simp only [Res.state?, Option.some.injEq] at hf; subst hf; exact hi
        · simp only at hf
          split at hf <;> simp only [Res.state?, Option.some.injEq, reduceCtorEq] at hf <;> subst hf
          all_goals
            refine ⟨?_, ?_, ?_⟩
            · intro w hw
              rcases List.mem_append.1 hw with hw | hw
              · exact hi.1 w hw
              · rw [List.mem_singleton.1 hw]; omega
            · simp [CarCal.clear]; omega
            · simp [CarCal.clear]; omega
  have key2 : ∀ {s s' : CarCal E G P} {o : CarOpt} {t : Int}, ((∀ w ∈ s.sent, 2 ≤ (w .pose).length) ∧
      s.params.length = s.gains.length + 1 ∧ s.gains.length ≤ s.sent.length) → (s.addMeasurement env o t).state? = some s' →
      ((∀ w ∈ s'.sent, 2 ≤ (w .pose).length) ∧ s'.params.length = s'.gains.length + 1 ∧ s'.gains.length ≤ s'.sent.length) := by
    intro s s' o t hi hf
    rcases addMeasurement_state hf with ⟨_, rfl⟩ | ⟨_, h2⟩
    · exact hi
    · exact key (s := s.stamped t) hi h2
  induction h with
  | init => simp [CarCal.init]
  | addOk o _ ha ih =>
    obtain ⟨s1, h1, rfl⟩ := add_ok ha
    exact key2 (s' := s1) ih (by rw [h1]; rfl)
  | addThrow o _ ha ih => exact key2 ih (by rw [add_throw ha]; rfl)
  | flush o _ hf ih => exact key ih hf
  | clear _ ih => exact ih
  | outside e' _ ih => exact ih

/-- **C123**, car: every submitted window has at least two poses, and there is one parameter vector more than information gains. -/
theorem C123_car_histories {env : CarEnv E G P} {e : E} {s : CarCal E G P} {acc : List Meas} {gone : List Window}
    (h : RunX env e s acc gone) : (∀ w ∈ s.sent, 2 ≤ (w .pose).length) ∧ s.params.length = s.gains.length + 1 ∧
      s.gains.length ≤ s.sent.length := sent_two_poses h

end CarCal

/-! ### The other calibrators -/

namespace Win
variable {K M E B G P O : Type} [DecidableEq K]

theorem one_place_outside {c : O → WinCfg K M E B G P} {o0 : O} {e : E} (kind : M → K) (hkind : ∀ o, (c o).kind = kind)
    {s : Win K M E G P} {acc : List M} {gone : List (K → List M)} (h : RunX c o0 e s acc gone) (k : K) :
    (gone.map fun w => w k).flatten ++ s.buf k = acc.filter fun m => decide (kind m = k) := by
  have hof : ∀ o acc, (acc.filter fun m => decide (kind m = k)) = ofSensor (c o) k acc := by
    intro o acc; unfold ofSensor; rw [hkind]
  induction h with
  | init => simp [Win.init]
  | @addOk s s' acc gone m o _ ha ih =>
    rw [hof o] at ih ⊢
    rw [ofSensor_push, ← ih]
    rcases trigger ha with ⟨h1, h2, h3⟩ | ⟨h1, _, h2, h3⟩
    · rw [h1, List.drop_length, List.append_nil]
      by_cases hk : k = (c o).kind m
      · subst hk; rw [h2]; simp
      · rw [h3 k hk]; simp [hk]
    · rw [h1, List.drop_left]
      by_cases hk : k = (c o).kind m
      · subst hk; rw [h2]; simp
      · rw [h3 k hk]; simp [hk]
  | @addThrow s s' acc gone m x o _ ha ih =>
    rw [← ih]
    have ht : (s.addMeasurement (c o) ((c o).time m)).state? = some s' := by rw [add_throw ha]; rfl
    rcases addMeasurement_state ht with ⟨_, rfl⟩ | ⟨_, h2⟩
    · simp [stamped]
    · rcases addMeasurements_state h2 with ⟨hb, _, _, hs, _⟩ | ⟨_, hb, _, _, hs⟩
      · rw [hs, hb]; simp [stamped]
      · rw [hs, hb]
        have : (s.stamped ((c o).time m)).sent = s.sent := rfl
        rw [this, List.drop_left]
        simp [stamped]
  | @flush s s' acc gone o _ hf ih =>
    rw [← ih]
    rcases addMeasurements_state hf with ⟨hb, _, _, hs, _⟩ | ⟨_, hb, _, _, hs⟩
    · rw [hs, hb]; simp
    · rw [hs, hb, List.drop_left]; simp
  | @clear s acc gone _ ih => rw [← ih]; simp [Win.clear]
  | outside e' _ ih => exact ih

theorem histories_outside {c : O → WinCfg K M E B G P} {o0 : O} {e : E} {s : Win K M E G P} {acc : List M}
    {gone : List (K → List M)} (h : RunX c o0 e s acc gone) :
    (∀ w ∈ s.sent, ∃ o, (c o).ready w = true) ∧ s.params.length = s.gains.length + 1 ∧ s.gains.length ≤ s.sent.length := by
  have key : ∀ {s s' : Win K M E G P} {o : O}, ((∀ w ∈ s.sent, ∃ o, (c o).ready w = true) ∧
      s.params.length = s.gains.length + 1 ∧ s.gains.length ≤ s.sent.length) → (s.addMeasurements (c o)).state? = some s' →
      ((∀ w ∈ s'.sent, ∃ o, (c o).ready w = true) ∧ s'.params.length = s'.gains.length + 1 ∧
        s'.gains.length ≤ s'.sent.length) := by
    intro s s' o hi hf
    unfold addMeasurements at hf
    split_ifs at hf with hc
    · simp only [Res.state?, Option.some.injEq] at hf; subst hf; exact hi
    · split at hf
      · simp only [Res.state?, Option.some.injEq] at hf; subst hf; exact hi
      · simp [Res.state?] at hf
      · simp [Res.state?] at hf
      · simp only at hf
        split at hf <;> simp only [Res.state?, Option.some.injEq, reduceCtorEq] at hf <;> subst hf
        all_goals
          refine ⟨?_, ?_, ?_⟩
          · intro w hw
            rcases List.mem_append.1 hw with hw | hw
            · exact hi.1 w hw
            · rw [List.mem_singleton.1 hw]; exact ⟨o, by simpa using hc⟩
          · simp [Win.clear]; omega
          · simp [Win.clear]; omega
  have key2 : ∀ {s s' : Win K M E G P} {o : O} {t : Int}, ((∀ w ∈ s.sent, ∃ o, (c o).ready w = true) ∧
      s.params.length = s.gains.length + 1 ∧ s.gains.length ≤ s.sent.length) → (s.addMeasurement (c o) t).state? = some s' →
      ((∀ w ∈ s'.sent, ∃ o, (c o).ready w = true) ∧ s'.params.length = s'.gains.length + 1 ∧
        s'.gains.length ≤ s'.sent.length) := by
    intro s s' o t hi hf
    rcases addMeasurement_state hf with ⟨_, rfl⟩ | ⟨_, h2⟩
    · exact hi
    · exact key (s := s.stamped t) hi h2
  induction h with
  | init => simp [Win.init]
  | addOk o _ ha ih =>
    obtain ⟨s1, h1, rfl⟩ := add_ok ha
    exact key2 (s' := s1) ih (by rw [h1]; rfl)
  | addThrow o _ ha ih => exact key2 ih (by rw [add_throw ha]; rfl)
  | flush o _ hf ih => exact key ih hf
  | clear _ ih => exact ih
  | outside e' _ ih => exact ih

end Win

/-- **C123**, time delay: no measurement is lost, duplicated or reordered, whatever is changed between the calls. -/
theorem TD.C123_time_delay {E G P V : Type} {env : TD.Env E G P V} {o0 : TD.Opt} {e : E} {s : Win TD.Sensor TD.Meas E G P}
    {acc : List TD.Meas} {gone : List (TD.Sensor → List TD.Meas)} (h : Win.RunX (TD.cfg env) o0 e s acc gone) :
    (∀ k, (gone.map fun w => w k).flatten ++ s.buf k = acc.filter fun m => decide (m.kind = k)) ∧
    (∀ w ∈ s.sent, 2 ≤ (w .pose).length) ∧ s.params.length = s.gains.length + 1 ∧ s.gains.length ≤ s.sent.length := by
  obtain ⟨h1, h2⟩ := Win.histories_outside h
  refine ⟨Win.one_place_outside TD.Meas.kind (fun _ => rfl) h, ?_, h2⟩
  intro w hw
  obtain ⟨o, h3⟩ := h1 w hw
  simp only [TD.cfg, TD.ready, Bool.not_eq_true', decide_eq_false_iff_not] at h3
  omega

/-- **C123**, egomotion: the same. -/
theorem Ego.C123_egomotion {T E G P V : Type} [Group T] {env : Ego.Env T E G P V} {o0 : Ego.Opt} {e : Ego.St T E}
    {s : Win Nat (Ego.Meas T) (Ego.St T E) G P} {acc : List (Ego.Meas T)} {gone : List (Nat → List (Ego.Meas T))}
    (h : Win.RunX (Ego.cfg env) o0 e s acc gone) :
    (∀ k, (gone.map fun w => w k).flatten ++ s.buf k = acc.filter fun m => decide (m.sensor = k)) ∧
    s.params.length = s.gains.length + 1 ∧ s.gains.length ≤ s.sent.length :=
  ⟨Win.one_place_outside Ego.Meas.sensor (fun _ => rfl) h, (Win.histories_outside h).2⟩

/-! ### The theorems apply -/

/-- the options change between the second and the third measurement, and the estimator in between. -/
theorem C123_history : ∃ s gone, CarCal.RunX CarCal.demoEnv 0 s [CarCal.demoPose 0, CarCal.demoPose 3, CarCal.demoPose 4] gone ∧
    s.sent.map (fun w => (w .pose).map Meas.t) = [[0, 3000000000]] ∧ s.params = [0, 8] ∧
    s.buf .pose = [CarCal.demoPose 4] := by
  obtain ⟨s1, h1, h2⟩ := CarCal.okTest_spec (r := (CarCal.init CarCal.demoEnv 0).add CarCal.demoEnv CarCal.demoOpt (CarCal.demoPose 0))
    (p := fun s1 => CarCal.okTest (s1.add CarCal.demoEnv CarCal.demoOpt (CarCal.demoPose 3)) fun s2 =>
      CarCal.okTest (({ s2 with est := 7 } : CarCal Nat Nat Nat).add CarCal.demoEnv { CarCal.demoOpt with window := 2 }
        (CarCal.demoPose 4)) fun s3 =>
      decide (s3.sent.map (fun w => (w .pose).map Meas.t) = [[0, 3000000000]] ∧ s3.params = [0, 8] ∧
        s3.buf .pose = [CarCal.demoPose 4])) (by decide +kernel)
  obtain ⟨s2, h3, h4⟩ := CarCal.okTest_spec h2
  obtain ⟨s3, h5, h6⟩ := CarCal.okTest_spec h4
  have r1 := CarCal.RunX.addOk CarCal.demoOpt (CarCal.RunX.init (env := CarCal.demoEnv) (e := 0)) h1
  have r2 := CarCal.RunX.addOk CarCal.demoOpt r1 h3
  have r3 := CarCal.RunX.addOk { CarCal.demoOpt with window := 2 } (CarCal.RunX.outside 7 r2) h5
  exact ⟨s3, _, r3, of_decide_eq_true h6⟩

example : ∃ (s : CarCal Nat Nat Nat) (gone : List Window), s.buf .pose ≠ [] ∧
    (gone.map fun w => w .pose).flatten ++ s.buf .pose = [CarCal.demoPose 0, CarCal.demoPose 3, CarCal.demoPose 4] := by
  obtain ⟨s, gone, h, -, -, h2⟩ := C123_history
  exact ⟨s, gone, by rw [h2]; simp, CarCal.C123_car h .pose⟩

/-- the time delay calibrator: the window duration is changed after the first measurement. -/
example : ∃ (s : Win TD.Sensor TD.Meas Nat Nat Nat) (gone : List (TD.Sensor → List TD.Meas)),
    (gone.map fun w => w .pose).flatten ++ s.buf .pose = [TD.demoPose 0, TD.demoPose 9] := by
  obtain ⟨s1, h1, h2⟩ := Win.okTest_spec
    (r := (Win.init (TD.cfg TD.demoEnv TD.demoOpt) 0).add (TD.cfg TD.demoEnv TD.demoOpt) (TD.demoPose 0))
    (p := fun s1 => Win.okTest (s1.add (TD.cfg TD.demoEnv { TD.demoOpt with window := 1 }) (TD.demoPose 9)) fun _ => true)
    (by decide +kernel)
  obtain ⟨s2, h3, -⟩ := Win.okTest_spec h2
  have r1 := Win.RunX.addOk (c := TD.cfg TD.demoEnv) TD.demoOpt (Win.RunX.init (o0 := TD.demoOpt)) h1
  have r2 := Win.RunX.addOk (c := TD.cfg TD.demoEnv) { TD.demoOpt with window := 1 } r1 h3
  exact ⟨s2, _, (TD.C123_time_delay r2).1 .pose⟩

end Verif
