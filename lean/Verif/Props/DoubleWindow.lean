import Verif.Model.DoubleWindow
import Verif.Lemmas.DoubleSegments
import Verif.Lemmas.DoubleTimestamp
import Verif.Lemmas.Grid
import Verif.Props.TimeDelay
import Verif.Props.Egomotion
import Verif.Props.Car

/-!
# C155: window boundaries in double arithmetic
-/

namespace Verif

/-- one of the two conversions. -/
def IsSec (sec : Int → ℚ) : Prop := sec = secDiv ∨ sec = secMul

theorem IsSec.mono {sec : Int → ℚ} (h : IsSec sec) : Monotone sec := by
  have hc : (0:ℚ) ≤ fl53 (1 / 10 ^ 9) := Dbl.fl53_nonneg (by norm_num)
  rcases h with rfl | rfl <;> intro a b hab <;> have hf : fl53 (a : ℚ) ≤ fl53 (b : ℚ) := Verif.fl53_mono (by exact_mod_cast hab)
  · exact Verif.fl53_mono (by gcongr)
  · exact Verif.fl53_mono (by gcongr)

theorem nano_bounds : (1:ℚ) / 10 ^ 9 ≤ fl53 (1 / 10 ^ 9) ∧ fl53 (1 / 10 ^ 9) ≤ 1 / 10 ^ 9 * (1 + 1 / 2 ^ 53) := by
  constructor
  · decide +kernel
  · decide +kernel

/-- **C155** (decision): for every window duration of `n` nanoseconds, up to `2^50`, and every time difference the comparison in double arithmetic decides as the exact one. -/
theorem C155_decision_partial {sec : Int → ℚ} (hs : IsSec sec) {n : Int} (h1 : 1 ≤ n) (hn : n ≤ 2 ^ 50) (d : Int) :
    windowOf n ≤ sec d ↔ n ≤ d := by
  have e1 : fl53 (n : ℚ) = n := Dbl.fl53_int (by rw [abs_of_pos (by omega)]; omega)
  have e2 : fl53 ((n - 1 : ℤ) : ℚ) = (n - 1 : ℤ) := Dbl.fl53_int (by rw [abs_of_nonneg (by omega)]; omega)
  have hnq : (1:ℚ) ≤ n := by exact_mod_cast h1
  have hnq2 : (n:ℚ) ≤ 2 ^ 50 := by exact_mod_cast hn
  obtain ⟨c1, c2⟩ := nano_bounds
  constructor
  · intro h
    by_contra hlt
    have hd : sec d ≤ sec (n - 1) := hs.mono (by omega)
    have hw : (n:ℚ) / 10 ^ 9 * (1 - 1 / 2 ^ 53) ≤ windowOf n := by
      have := abs_le.1 (fl53_rel ((n:ℚ) / 10 ^ 9))
      rw [abs_of_nonneg (by positivity)] at this
      unfold windowOf
      linarith [this.1]
    have hx : sec (n - 1) ≤ (n - 1) / 10 ^ 9 * (1 + 1 / 2 ^ 53) * (1 + 1 / 2 ^ 53) := by
      have h0 : (0:ℚ) ≤ n - 1 := by linarith
      rcases hs with rfl | rfl
      · have := abs_le.1 (fl53_rel (((n - 1 : ℤ) : ℚ) / 10 ^ 9))
        unfold secDiv
        rw [e2]
        push_cast at this ⊢
        have h0' : (0:ℚ) ≤ (n - 1) / 10 ^ 9 := by positivity
        rw [abs_of_nonneg h0'] at this
        have h2 : (0:ℚ) ≤ (n - 1) / 10 ^ 9 * (1 + 1 / 2 ^ 53) / 2 ^ 53 := by positivity
        linarith [this.2]
      · have := abs_le.1 (fl53_rel (((n - 1 : ℤ) : ℚ) * fl53 (1 / 10 ^ 9)))
        unfold secMul
        rw [e2]
        push_cast at this ⊢
        have hp : (0:ℚ) ≤ fl53 (1 / 10 ^ 9) := le_trans (by norm_num) c1
        have h0' : (0:ℚ) ≤ (n - 1) * fl53 (1 / 10 ^ 9) := by positivity
        rw [abs_of_nonneg h0'] at this
        have h2 : ((n:ℚ) - 1) * fl53 (1 / 10 ^ 9) ≤ (n - 1) / 10 ^ 9 * (1 + 1 / 2 ^ 53) := by
          calc ((n:ℚ) - 1) * fl53 (1 / 10 ^ 9) ≤ (n - 1) * (1 / 10 ^ 9 * (1 + 1 / 2 ^ 53)) := by gcongr
            _ = _ := by ring
        have h3 : ((n:ℚ) - 1) * fl53 (1 / 10 ^ 9) / 2 ^ 53 ≤ (n - 1) / 10 ^ 9 * (1 + 1 / 2 ^ 53) / 2 ^ 53 := by gcongr
        linarith [this.2]
    have : (n:ℚ) / 10 ^ 9 * (1 - 1 / 2 ^ 53) ≤ (n - 1) / 10 ^ 9 * (1 + 1 / 2 ^ 53) * (1 + 1 / 2 ^ 53) := by linarith
    norm_num at this hnq2
    linarith
  · intro h
    refine le_trans ?_ (hs.mono h)
    rcases hs with rfl | rfl
    · unfold windowOf secDiv; rw [e1]
    · unfold windowOf secMul
      rw [e1]
      refine Verif.fl53_mono ?_
      rw [div_eq_mul_one_div]
      gcongr

example : windowOf 10000000000 = 10 ∧ windowOf 10000000000 ≤ secMul 10000000000 ∧ ¬ windowOf 10000000000 ≤ secMul 9999999999 :=
  ⟨by decide +kernel, (C155_decision_partial (.inr rfl) (by norm_num) (by norm_num) _).2 (by norm_num),
    fun h => absurd ((C155_decision_partial (.inr rfl) (by norm_num) (by norm_num) _).1 h) (by norm_num)⟩

/-- The full C155 – the same for every window duration – is **false**: a window of 97 days and two nanoseconds is closed a nanosecond early. -/
theorem C155_long_window : windowOf 8388608000000002 ≤ secDiv 8388608000000001 ∧ windowOf 8388608000000002 ≤ secMul 8388608000000001 := by
  constructor <;> decide +kernel

/-- **C155** for the egomotion calibrator: in every window submitted, any two measurements are less than the window duration apart, to the nanosecond. -/
theorem C155_egomotion_partial {T E G P V : Type} [Group T] {env : Ego.Env T E G P V} {o : Ego.Opt} {e : Ego.St T E} {n : Int} (hs : IsSec env.sec)
    (hw : o.window = windowOf n) (h1 : 1 ≤ n) (hn : n ≤ 2 ^ 50) {s : Ego.Cal T E G P} (h : Win.Timed (Ego.cfg env o) e s)
    (w : Nat → List (Ego.Meas T)) (hw' : w ∈ s.sent) (m m' : Ego.Meas T) (k k' : Nat) (hk : m ∈ w k) (hk' : m' ∈ w k') : m.t - m'.t < n := by
  have hd := C155_decision_partial hs h1 hn
  have h0 : env.sec 0 < o.window := by
    rw [hw]; by_contra hc
    have := (hd 0).1 (not_lt.1 hc); omega
  have := Ego.C72_window_duration hs.mono h0 h w hw' m m' k k' hk hk'
  rw [hw] at this
  by_contra hc
  exact absurd ((hd _).2 (not_lt.1 hc)) (not_le.2 this)

/-- **C155** for the time delay calibrator: in every window submitted any two measurements are less than the window duration apart, to the nanosecond, or the window holds exactly two poses,
the second of which ends it. -/
theorem C155_time_delay_partial {E G P V : Type} {env : TD.Env E G P V} {o : TD.Opt} {e : E} {n : Int} (hs : IsSec env.sec)
    (hw : o.window = windowOf n) (h1 : 1 ≤ n) (hn : n ≤ 2 ^ 50) {s : TD.Cal E G P} (h : Win.Timed (TD.cfg env o) e s)
    (w : TD.Sensor → List TD.Meas) (hw' : w ∈ s.sent) :
    (∀ k m k' m', m ∈ w k → m' ∈ w k' → m.t - m'.t < n) ∨ ∃ p q, w .pose = [p, q] ∧ ∀ k m, m ∈ w k → m.t ≤ q.t := by
  have hd := C155_decision_partial hs h1 hn
  refine (TD.C69_window_duration_partial hs.mono h w hw').2.imp (fun hsh k m k' m' hk hk' => ?_) id
  have := hsh k m k' m' hk hk'
  rw [hw] at this
  by_contra hc
  exact absurd ((hd _).2 (not_lt.1 hc)) (not_le.2 this)

/-- **C155** for the car calibrator: likewise. -/
theorem C155_car_partial {E G P : Type} {env : CarEnv E G P} {o : CarOpt} {e : E} {n : Int} (hs : IsSec env.sec)
    (hw : o.window = windowOf n) (h1 : 1 ≤ n) (hn : n ≤ 2 ^ 50) {s : CarCal E G P} (h : CarCal.Timed env o e s)
    (w : Window) (hw' : w ∈ s.sent) :
    (∀ k m k' m', m ∈ w k → m' ∈ w k' → m.t - m'.t < n) ∨ ∃ p q, w .pose = [p, q] ∧ ∀ k m, m ∈ w k → m.t ≤ q.t := by
  have hd := C155_decision_partial hs h1 hn
  refine (CarCal.C37_window_duration_partial hs.mono h w hw').2.imp (fun hsh k m k' m' hk hk' => ?_) id
  have := hsh k m k' m' hk hk'
  rw [hw] at this
  by_contra hc
  exact absurd ((hd _).2 (not_lt.1 hc)) (not_le.2 this)

/-- **C155** (which call ends a window), time delay and egomotion calibrator: a measurement less than the window duration after the start of the window is just stored; the first
one that is not submits what is stored before it is stored itself. -/
theorem C155_closes_partial {K M E B G P : Type} [DecidableEq K] {c : WinCfg K M E B G P} {n : Int} (hs : IsSec c.sec)
    (hw : c.window = windowOf n) (h1 : 1 ≤ n) (hn : n ≤ 2 ^ 50) (s : Win K M E G P) (m : M) (t0 : Int)
    (h0 : t0 = if s.start = -1 then c.time m else s.start) (h64 : FitsInt64 (c.time m - t0)) :
    (c.time m - t0 < n → s.add c m = .ok () { s with last := c.time m, start := t0, buf := Win.push c s.buf m }) ∧
    (n ≤ c.time m - t0 → s.add c m = (Win.addMeasurements c { s with last := c.time m, start := t0 }).bind fun _ s' =>
      .ok () { s' with buf := Win.push c s'.buf m }) := by
  have hd := C155_decision_partial hs h1 hn
  subst h0
  unfold FitsInt64 at h64
  constructor
  · intro h
    unfold Win.add Win.addMeasurement
    simp only
    rw [if_neg (by omega), if_neg (fun hc => by rw [ge_iff_le, hw, hd] at hc; omega)]
    rfl
  · intro h
    unfold Win.add Win.addMeasurement
    simp only
    rw [if_neg (by omega), if_pos (by rw [ge_iff_le, hw, hd]; exact h)]

/-- **C155** (which call ends a window), car calibrator. -/
theorem C155_car_closes_partial {E G P : Type} {env : CarEnv E G P} {o : CarOpt} {n : Int} (hs : IsSec env.sec)
    (hw : o.window = windowOf n) (h1 : 1 ≤ n) (hn : n ≤ 2 ^ 50) (s : CarCal E G P) (m : Meas) (t0 : Int)
    (h0 : t0 = if s.start = -1 then m.t else s.start) (h64 : FitsInt64 (m.t - t0)) :
    (m.t - t0 < n → s.add env o m = .ok () { s with last := m.t, start := t0, buf := CarCal.push s.buf m }) ∧
    (n ≤ m.t - t0 → s.add env o m = (CarCal.addMeasurements env o { s with last := m.t, start := t0 }).bind fun _ s' =>
      .ok () { s' with buf := CarCal.push s'.buf m }) := by
  have hd := C155_decision_partial hs h1 hn
  subst h0
  unfold FitsInt64 at h64
  constructor
  · intro h
    unfold CarCal.add CarCal.addMeasurement
    simp only
    rw [if_neg (by omega), if_neg (fun hc => by rw [ge_iff_le, hw, hd] at hc; omega)]
    rfl
  · intro h
    unfold CarCal.add CarCal.addMeasurement
    simp only
    rw [if_neg (by omega), if_pos (by rw [ge_iff_le, hw, hd]; exact h)]

/-! ### Concrete histories -/

/-- a history of measurements, if their times are in order. -/
def timedAdds {K M E B G P : Type} [DecidableEq K] (c : WinCfg K M E B G P) (s : Win K M E G P) : List M → Option (Win K M E G P)
  | [] => some s
  | m :: ms => if 0 ≤ c.time m ∧ s.last ≤ c.time m then (s.add c m).state?.bind fun s' => timedAdds c s' ms else none

theorem timedAdds_timed {K M E B G P : Type} [DecidableEq K] {c : WinCfg K M E B G P} {e : E} :
    ∀ (ms : List M) {s s' : Win K M E G P}, Win.Timed c e s → timedAdds c s ms = some s' → Win.Timed c e s' := by
  intro ms
  induction ms with
  | nil => intro s s' h h'; cases h'; exact h
  | cons m ms ih =>
    intro s s' h h'
    rw [timedAdds] at h'
    split_ifs at h' with hc
    obtain ⟨s1, h2, h3⟩ := Option.bind_eq_some_iff.1 h'
    exact ih (.add h hc.1 hc.2 h2) h3

/-- a history of the car calibrator. -/
def carAdds {E G P : Type} (env : CarEnv E G P) (o : CarOpt) (s : CarCal E G P) : List Meas → Option (CarCal E G P)
  | [] => some s
  | m :: ms => if 0 ≤ m.t ∧ s.last ≤ m.t then (s.add env o m).state?.bind fun s' => carAdds env o s' ms else none

theorem carAdds_timed {E G P : Type} {env : CarEnv E G P} {o : CarOpt} {e : E} :
    ∀ (ms : List Meas) {s s' : CarCal E G P}, CarCal.Timed env o e s → carAdds env o s ms = some s' → CarCal.Timed env o e s' := by
  intro ms
  induction ms with
  | nil => intro s s' h h'; cases h'; exact h
  | cons m ms ih =>
    intro s s' h h'
    rw [carAdds] at h'
    split_ifs at h' with hc
    obtain ⟨s1, h2, h3⟩ := Option.bind_eq_some_iff.1 h'
    exact ih (.add h hc.1 hc.2 h2) h3

theorem opt_test {σ : Type} {r : Option σ} {p : σ → Bool} (h : r.any p = true) : ∃ s, r = some s ∧ p s = true := by
  cases r with
  | none => simp at h
  | some s => exact ⟨s, rfl, h⟩

example : ∃ s, Win.Timed (TD.cfg { TD.demoEnv with sec := secMul } TD.demoOpt) 0 s ∧ TD.demoOpt.window = windowOf 10000000000 ∧ s.sent.length = 1 := by
  obtain ⟨s, h1, h2⟩ := opt_test (r := timedAdds (TD.cfg { TD.demoEnv with sec := secMul } TD.demoOpt)
      (Win.init (TD.cfg { TD.demoEnv with sec := secMul } TD.demoOpt) 0)
      [TD.demoPose 0, TD.demoPose 5, ⟨.pose, 9999999999, 0, 7⟩, TD.demoPose 10]) (p := fun s => decide (s.sent.length = 1)) (by decide +kernel)
  exact ⟨s, timedAdds_timed _ .init h1, by decide +kernel, of_decide_eq_true h2⟩

example : ∃ s, Win.Timed (Ego.cfg { Ego.demoEnv with sec := secMul } Ego.demoOpt) ⟨0, 1⟩ s ∧ Ego.demoOpt.window = windowOf 10000000000 ∧ s.sent.length = 1 := by
  obtain ⟨s, h1, h2⟩ := opt_test (r := timedAdds (Ego.cfg { Ego.demoEnv with sec := secMul } Ego.demoOpt)
      (Win.init (Ego.cfg { Ego.demoEnv with sec := secMul } Ego.demoOpt) ⟨0, 1⟩)
      [Ego.dm 1 0, Ego.dm 0 1, Ego.dm 0 2, Ego.dm 1 2, Ego.dm 0 3, Ego.dm 1 3, Ego.dm 0 4, Ego.dm 1 4, Ego.dm 0 10])
    (p := fun s => decide (s.sent.length = 1)) (by decide +kernel)
  exact ⟨s, timedAdds_timed _ .init h1, by decide +kernel, of_decide_eq_true h2⟩

example : ∃ s, CarCal.Timed { CarCal.demoEnv with sec := secDiv } CarCal.demoOpt 0 s ∧ CarCal.demoOpt.window = windowOf 10000000000 ∧ s.sent.length = 1 := by
  obtain ⟨s, h1, h2⟩ := opt_test (r := carAdds { CarCal.demoEnv with sec := secDiv } CarCal.demoOpt
      (CarCal.init { CarCal.demoEnv with sec := secDiv } 0)
      [⟨.pose, 0, 0, 0, 0⟩, ⟨.pose, 5000000000, 0, 0, 0⟩, ⟨.pose, 9999999999, 0, 0, 0⟩, ⟨.pose, 10000000000, 0, 0, 0⟩]) (p := fun s => decide (s.sent.length = 1)) (by decide +kernel)
  exact ⟨s, carAdds_timed _ .init h1, by decide +kernel, of_decide_eq_true h2⟩

end Verif
