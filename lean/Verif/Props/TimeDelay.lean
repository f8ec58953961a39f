import Verif.Model.TimeDelay
import Verif.Lemmas.Window
import Verif.Lemmas.Rounding
import Mathlib.Tactic.Linarith
import Mathlib.Tactic.NormNum
import Mathlib.Tactic.FieldSimp

/-! Properties C69 (windowing), C70 (contents of a batch) and C71 (predictions) of the time delay calibrator. -/

namespace Verif
namespace TD
open Win
variable {E G P V : Type}

/-- the calibrator's state. -/
abbrev Cal (E G P : Type) := Win Sensor Meas E G P

/-! ### C69 -/

/-- **C69**: a measurement either joins the current window, or first the window without it (which has at least two poses) is
submitted and it opens the next one; it only enters the buffer of its own sensor. -/
theorem C69_trigger_not_in_own_window {env : Env E G P V} {o : Opt} {s s' : Cal E G P} {m : Meas}
    (h : s.add (cfg env o) m = .ok () s') :
    (s'.sent = s.sent ∧ s'.buf m.kind = s.buf m.kind ++ [m] ∧ ∀ k, k ≠ m.kind → s'.buf k = s.buf k) ∨
    (s'.sent = s.sent ++ [s.buf] ∧ 2 ≤ (s.buf .pose).length ∧ s'.buf m.kind = [m] ∧ ∀ k, k ≠ m.kind → s'.buf k = []) := by
  rcases trigger h with h1 | ⟨h1, h2, h3, h4⟩
  · exact Or.inl h1
  · refine Or.inr ⟨h1, ?_, h3, h4⟩
    have : ready s.buf = true := h2
    simp only [ready, Bool.not_eq_true', decide_eq_false_iff_not] at this
    omega

/-- **C69** (partial): in every history, also with exceptions caught by the caller and buffers cleared by hand, the windows
that left the buffers followed by the buffers are, sensor by sensor and in order of arrival, exactly the measurements whose
call returned normally.  Missing: a measurement whose call threw is nowhere (`C69_measurement_lost_on_exception`). -/
theorem C69_every_measurement_in_one_place_partial {env : Env E G P V} {o : Opt} {e : E} {s : Cal E G P}
    {acc : List Meas} {gone : List (Sensor → List Meas)} (h : Run (cfg env o) e s acc gone) (k : Sensor) :
    (gone.map fun w => w k).flatten ++ s.buf k = acc.filter fun m => decide (m.kind = k) := one_place h k

/-- **C69**: for a program that only adds measurements (and flushes) and sees no exception, submitted windows followed by
the buffers are the stream itself. -/
theorem C69_stream {env : Env E G P V} {o : Opt} {e : E} {s : Cal E G P} {ops : List (Op Meas)}
    (hops : NoClear ops) (h : runOps (cfg env o) (init (cfg env o) e) ops = .ok () s) (k : Sensor) :
    (s.sent.map fun w => w k).flatten ++ s.buf k = (added ops).filter fun m => decide (m.kind = k) := stream hops h k

/-- **C69**: `unprocessedMeasurements` tells exactly whether some buffer is not empty. -/
theorem C69_unprocessed (s : Cal E G P) : unprocessed s = true ↔ ∃ k, s.buf k ≠ [] := by
  unfold unprocessed
  constructor
  · intro h
    simp only [Bool.or_eq_true, Bool.not_eq_true', List.isEmpty_eq_false_iff] at h
    rcases h with (h | h) | h
    · exact ⟨_, h⟩
    · exact ⟨_, h⟩
    · exact ⟨_, h⟩
  · rintro ⟨k, hk⟩
    cases k <;> simp [hk]

/-- the window holds exactly two poses and nothing in it is later than the second one. -/
def EndsWithSecondPose (w : Sensor → List Meas) : Prop :=
  ∃ p q, w .pose = [p, q] ∧ ∀ k m, m ∈ w k → m.t ≤ q.t

/-- the time between any two measurements of the window is shorter than the window duration. -/
def ShortWindow (env : Env E G P V) (o : Opt) (w : Sensor → List Meas) : Prop :=
  ∀ k m k' m', m ∈ w k → m' ∈ w k' → env.sec (m.t - m'.t) < o.window

/-- **C69** (partial): with non-decreasing time stamps every submitted window has at least two poses, and is shorter than the
window duration or holds exactly two poses, the second of which ends it.  Missing: in the second case the window may be
arbitrarily long, see `C69_long_window`. -/
theorem C69_window_duration_partial {env : Env E G P V} {o : Opt} {e : E} (hm : Monotone env.sec) {s : Cal E G P}
    (h : Timed (cfg env o) e s) (w : Sensor → List Meas) (hw : w ∈ s.sent) :
    2 ≤ (w .pose).length ∧ (ShortWindow env o w ∨ EndsWithSecondPose w) := by
  have hi := timed_inv (c := cfg env o) hm (Or.inr rfl)
    (by intro e b e1 hr; exact absurd (show ready (fun _ => []) = true from hr) (by simp [ready])) h
  obtain ⟨hr, h1⟩ := hi.sent w hw
  have h2 : 2 ≤ (w .pose).length := by
    have : ready w = true := hr
    simp only [ready, Bool.not_eq_true', decide_eq_false_iff_not] at this
    omega
  refine ⟨h2, ?_⟩
  rcases h1 with h1 | ⟨w0, m, rfl, h3, h4⟩
  · exact Or.inl h1
  · right
    have h3' : (w0 .pose).length < 2 := by
      have : ready w0 = false := h3
      simpa only [ready, Bool.not_eq_false', decide_eq_true_eq] using this
    have hk : Sensor.pose = m.kind := by
      by_contra hk
      have : push (cfg env o) w0 m .pose = w0 .pose := by
        exact if_neg hk
      rw [this] at h2; omega
    have hp : push (cfg env o) w0 m .pose = w0 .pose ++ [m] := if_pos hk
    rw [hp, List.length_append, List.length_singleton] at h2
    obtain ⟨p, hp1⟩ := List.length_eq_one_iff.1 (show (w0 .pose).length = 1 by omega)
    exact ⟨p, m, by rw [hp, hp1]; rfl, h4⟩

/-- **C69**: the parameter history always has exactly one entry more than the information gain history, also with
exceptions. -/
theorem C69_histories {env : Env E G P V} {o : Opt} {e : E} {s : Cal E G P} {acc : List Meas}
    {gone : List (Sensor → List Meas)} (h : Run (cfg env o) e s acc gone) :
    s.params.length = s.gains.length + 1 ∧ s.gains.length ≤ s.sent.length := histories h

/-- **C69**: without exceptions there is exactly one information gain per submitted window, and the last entry of the
parameter history is the current parameter vector. -/
theorem C69_histories_aligned {env : Env E G P V} {o : Opt} {e : E} {s : Cal E G P} {ops : List (Op Meas)}
    (h : runOps (cfg env o) (init (cfg env o) e) ops = .ok () s) :
    s.gains.length = s.sent.length ∧ s.params.length = s.sent.length + 1 ∧ s.params.getLast? = some (env.params s.est) :=
  histories_aligned h

/-! ### C70 -/

/-- with its delay the measurement can be moved by the delay bound either way without leaving the time between first and last
pose (specification). -/
def Fits (o : Opt) (w : Sensor → List Meas) (d : Int) (m : Meas) : Prop :=
  tMin (w .pose) ≤ m.t + d - o.delayBound ∧ m.t + d + o.delayBound ≤ tMax (w .pose)

instance (o : Opt) (w : Sensor → List Meas) (d : Int) (m : Meas) : Decidable (Fits o w d m) := by
  unfold Fits; infer_instance

/-- the wheel measurements of a window that are used. -/
def usedWheel (o : Opt) (w : Sensor → List Meas) (d : Int) (k : Sensor) : List Meas :=
  (w k).filter fun m => decide (Fits o w d m)

theorem flatMap_ite {α β : Type} (l : List α) (p : α → Prop) [DecidablePred p] (q : α → Prop) [DecidablePred q] (f : α → β)
    (h : ∀ a, q a ↔ ¬ p a) : (l.flatMap fun a => if p a then [] else [f a]) = (l.filter fun a => decide (q a)).map f := by
  induction l with
  | nil => rfl
  | cons a l ih =>
    rw [List.flatMap_cons, ih, List.filter_cons]
    by_cases hp : p a
    · simp [hp, h]
    · simp [hp, h]

theorem left_eq (env : Env E G P V) (o : Opt) (e : E) (w : Sensor → List Meas) :
    leftTerms env o e (tMin (w .pose)) (tMax (w .pose)) (w .left) = (usedWheel o w (env.delay e false) .left).map fun m =>
      .wheel m false (m.t + env.delay e false) m.value (o.lwVar, o.vyVar, o.vzVar) := by
  unfold leftTerms usedWheel
  simp only [Int.add_comm (env.delay e false)]
  apply flatMap_ite
  intro m; unfold Fits; omega

theorem right_eq (env : Env E G P V) (o : Opt) (e : E) (w : Sensor → List Meas) :
    rightTerms env o e (tMin (w .pose)) (tMax (w .pose)) (w .right) = (usedWheel o w (env.delay e true) .right).map fun m =>
      .wheel m true (m.t + env.delay e true) m.value (o.rwVar, o.vyVar, o.vzVar) := by
  unfold rightTerms usedWheel
  simp only [Int.add_comm (env.delay e true)]
  apply flatMap_ite
  intro m; unfold Fits; omega

theorem prepare_ok {env : Env E G P V} {o : Opt} {e e' : E} {w : Sensor → List Meas} {b : Batch}
    (h : prepare env o e w = .ok b e') :
    e' = e ∧ b.poses = w .pose ∧ numSegments o.knots (w .pose) = some b.segments ∧
    b.terms = (w .pose).map .pose ++
      ((usedWheel o w (env.delay e false) .left).map fun m =>
        .wheel m false (m.t + env.delay e false) m.value (o.lwVar, o.vyVar, o.vzVar)) ++
      ((usedWheel o w (env.delay e true) .right).map fun m =>
        .wheel m true (m.t + env.delay e true) m.value (o.rwVar, o.vyVar, o.vzVar)) := by
  unfold prepare initSplines at h
  split at h
  · cases h
  · cases h
  · cases h
  · next n e1 hn =>
    split at hn
    · cases hn
    · next n' hs =>
      split at hn
      · cases hn
      · simp only [Res.ok.injEq] at hn h
        obtain ⟨rfl, rfl⟩ := hn
        obtain ⟨rfl, rfl⟩ := h
        refine ⟨rfl, rfl, hs, ?_⟩
        rw [← left_eq, ← right_eq]; rfl

/-- **C70**: a submission hands the estimator one batch built on all buffered poses: one pose term per pose, and for each
wheel exactly one term per buffered measurement of that wheel that fits the time span of the poses, in order of arrival,
evaluated at the time stamp plus that wheel's own delay, with that wheel's value and variances, and none for any other
measurement. -/
theorem C70_batch_contents {env : Env E G P V} {o : Opt} {s s' : Cal E G P}
    (h : s.addMeasurements (cfg env o) = .ok () s') (h2 : 2 ≤ (s.buf .pose).length) :
    ∃ b g, env.addBatch s.est b = .ok g s'.est ∧ b.poses = s.buf .pose ∧
      b.terms = (s.buf .pose).map .pose ++
        ((usedWheel o s.buf (env.delay s.est false) .left).map fun m =>
          .wheel m false (m.t + env.delay s.est false) m.value (o.lwVar, o.vyVar, o.vzVar)) ++
        ((usedWheel o s.buf (env.delay s.est true) .right).map fun m =>
          .wheel m true (m.t + env.delay s.est true) m.value (o.rwVar, o.vyVar, o.vzVar)) := by
  have hr : ready s.buf = true := by simp [ready]; omega
  unfold addMeasurements at h
  have hr' : (cfg env o).ready s.buf = true := hr
  rw [if_neg (by rw [hr']; simp)] at h
  cases hp : (cfg env o).prepare s.est s.buf with
  | throw ex e1 => rw [hp] at h; simp at h
  | ub => rw [hp] at h; simp at h
  | diverge => rw [hp] at h; simp at h
  | ok b e1 =>
    rw [hp] at h
    obtain ⟨rfl, h3, _, h5⟩ := prepare_ok (show prepare env o s.est s.buf = .ok b e1 from hp)
    simp only at h
    split at h <;> simp only [Res.ok.injEq, true_and, reduceCtorEq] at h
    rename_i g e2 hb
    subst h
    exact ⟨b, g, hb, h3, h5⟩

/-- **C70** (partial): the number of spline segments is at least one and at most the number of poses, if the last pose is
later than the first one and the number of knots per second is positive.  Missing: `C70_equal_times_undefined`. -/
theorem C70_segments_partial {knots : Int} {poses : List Meas} {n : Int} (hk : 1 ≤ knots) (ht : tMin poses < tMax poses)
    (h : numSegments knots poses = some n) : 1 ≤ n ∧ n ≤ poses.length := by
  unfold numSegments at h
  split_ifs at h with h1 h2
  have hlen : 1 ≤ poses.length := List.length_pos_of_ne_nil h1
  have hel : 0 < elapsed poses := by
    unfold elapsed
    apply div_pos _ (by norm_num)
    exact_mod_cast Int.sub_pos.2 ht
  split at h
  · cases h
  · next rate hrate =>
    have hr : rate = roundQ ((poses.length : ℚ) / elapsed poses) := by
      unfold toInt32 at hrate; split_ifs at hrate; exact (Option.some.inj hrate).symm
    split_ifs at h with h3
    · unfold toInt32 at h
      split_ifs at h
      have hn := (Option.some.inj h).symm
      have hpos : 0 < (knots : ℚ) * elapsed poses := mul_pos (by exact_mod_cast hk) hel
      constructor
      · rw [hn]; exact Int.one_le_ceil_iff.2 hpos
      · rw [hn, Int.ceil_le]
        -- rate > knots, so n / elapsed + 1/2 ≥ rate ≥ knots + 1
        have hq : (0 : ℚ) ≤ (poses.length : ℚ) / elapsed poses := div_nonneg (by positivity) hel.le
        have h4 : ((rate : Int) : ℚ) ≤ (poses.length : ℚ) / elapsed poses + 1 / 2 := by
          rw [hr, roundQ, if_pos hq]; exact Int.floor_le _
        have h5 : (knots : ℚ) + 1 ≤ rate := by exact_mod_cast h3
        have h6 : (knots : ℚ) ≤ (poses.length : ℚ) / elapsed poses := by linarith
        have := (le_div_iff₀ hel).1 h6
        push_cast; exact this
    · have hn := (Option.some.inj h).symm
      rw [hn]; exact ⟨by exact_mod_cast hlen, le_refl _⟩

/-- **C70**: the number of spline segments, exactly.  With `n` poses over `T ≠ 0` seconds and `rate` the integer nearest to
`n / T`: if `rate` is at most the configured number of knots per second, there are `n` segments, otherwise `⌈knots * T⌉`;
building the splines is undefined exactly if a number does not fit an `int`. -/
theorem C70_segments_exact {knots : Int} {first last : Meas} {poses : List Meas} (hf : poses.head? = some first)
    (hl : poses.getLast? = some last) (hne : first.t ≠ last.t) {T : ℚ} (hT : T = ((last.t - first.t : Int) : ℚ) / 10 ^ 9)
    {rate : Int} (hr : NearestAway ((poses.length : ℚ) / T) rate) :
    (¬ FitsInt32 rate → numSegments knots poses = none) ∧
    (FitsInt32 rate → rate ≤ knots → numSegments knots poses = some (poses.length : Int)) ∧
    (FitsInt32 rate → knots < rate → FitsInt32 ⌈(knots : ℚ) * T⌉ → numSegments knots poses = some ⌈(knots : ℚ) * T⌉) ∧
    (FitsInt32 rate → knots < rate → ¬ FitsInt32 ⌈(knots : ℚ) * T⌉ → numSegments knots poses = none) := by
  have hel : elapsed poses = T := by
    rw [hT, elapsed, tMin, tMax, hf, hl]; norm_num
  have hT0 : T ≠ 0 := by
    rw [hT]
    refine div_ne_zero ?_ (by norm_num)
    exact_mod_cast fun h => hne (by omega)
  have hp : poses ≠ [] := by rintro rfl; cases hf
  have hround : roundQ ((poses.length : ℚ) / T) = rate := (nearestAway_round _).unique hr
  have hi : ∀ x : Int, (FitsInt32 x → toInt32 x = some x) ∧ (¬ FitsInt32 x → toInt32 x = none) := fun x =>
    ⟨fun h => by unfold toInt32; exact if_pos h, fun h => by unfold toInt32; exact if_neg h⟩
  unfold numSegments
  rw [if_neg hp, hel, if_neg hT0, hround]
  refine ⟨fun h => by rw [(hi _).2 h], fun h h1 => ?_, fun h h1 h2 => ?_, fun h h1 h2 => ?_⟩
  · rw [(hi _).1 h]; exact if_neg (by omega)
  · rw [(hi _).1 h]; simp only; rw [if_pos h1, (hi _).1 h2]
  · rw [(hi _).1 h]; simp only; rw [if_pos h1, (hi _).2 h2]

/-- Three poses in two seconds: rate 2 (halves away from zero); with one knot per second there are two segments, with two
there are three.  With time stamps in reverse order the rate is -2. -/
example : NearestAway ((3 : ℚ) / 2) 2 ∧ NearestAway ((3 : ℚ) / (-2)) (-2) ∧
    numSegments 1 [⟨.pose, 0, 0, 0⟩, ⟨.pose, 1000000000, 0, 0⟩, ⟨.pose, 2000000000, 0, 0⟩] = some 2 ∧
    numSegments 2 [⟨.pose, 0, 0, 0⟩, ⟨.pose, 1000000000, 0, 0⟩, ⟨.pose, 2000000000, 0, 0⟩] = some 3 := by
  refine ⟨by norm_num [NearestAway, abs_of_pos, abs_of_neg], by norm_num [NearestAway, abs_of_pos, abs_of_neg], ?_, ?_⟩ <;>
    decide +kernel

/-- **C70**: the splines are built with that number of segments; a failing fitter makes the submission fail with the fitter's
exception, with estimator and variables as before. -/
theorem C70_splines {env : Env E G P V} {o : Opt} {e : E} {w : Sensor → List Meas} {n : Int}
    (h : numSegments o.knots (w .pose) = some n) :
    (∀ x, env.fit e (w .pose) n = some x → prepare env o e w = .throw x e) ∧
    (env.fit e (w .pose) n = none → ∃ b, prepare env o e w = .ok b e ∧ b.segments = n) := by
  unfold prepare initSplines
  rw [h]
  simp only
  exact ⟨fun x hx => by simp only [hx], fun hx => ⟨_, by simp only [hx]; rfl, rfl⟩⟩

/-- **C70** (negation): if the first and the last pose of a window carry the same time stamp, or there is no pose, building
the batch is undefined behaviour. -/
theorem C70_equal_times_undefined (env : Env E G P V) (o : Opt) (e : E) (w : Sensor → List Meas)
    (h : tMin (w .pose) = tMax (w .pose)) : prepare env o e w = .ub := by
  have : numSegments o.knots (w .pose) = none := by
    unfold numSegments
    split_ifs with h1 h2
    · rfl
    · rfl
    · exact absurd (by unfold elapsed; rw [h]; simp) h2
  unfold prepare initSplines
  rw [this]

/-! ### C71: predictions -/

/-- what one sensor's lists are extended by. -/
def extend (l : PredLists V) (env : Env E G P V) (e : E) (poses : List Meas) (ts : List (Int × Term)) : PredLists V :=
  ⟨l.vals ++ ts.map fun t => (t.1, (env.eval e poses t.2).1), l.errs ++ ts.map fun t => (env.eval e poses t.2).2.1,
    l.errs2 ++ ts.map fun t => (env.eval e poses t.2).2.2⟩

theorem predictPoses_eq (env : Env E G P V) (e : E) (poses ms : List Meas) (l : PredLists V) :
    predictPoses env e poses ms l = extend l env e poses (ms.map fun m => (m.t, .pose m)) := by
  induction ms generalizing l with
  | nil => simp [predictPoses, extend]
  | cons m ms ih => rw [predictPoses, ih]; simp [extend, PredLists.push]

theorem predictLeft_eq (env : Env E G P V) (o : Opt) (e : E) (w : Sensor → List Meas) (ms : List Meas) (l : PredLists V) :
    predictLeft env o e (w .pose) ms l = extend l env e (w .pose)
      ((ms.filter fun m => decide (Fits o w (env.delay e false) m)).map fun m =>
        (m.t, .wheel m false (m.t + env.delay e false) m.value (o.lwVar, o.vyVar, o.vzVar))) := by
  induction ms generalizing l with
  | nil => simp [predictLeft, extend]
  | cons m ms ih =>
    rw [predictLeft]
    by_cases hf : Fits o w (env.delay e false) m
    · have hf' := hf
      unfold Fits at hf'
      rw [if_neg (by omega), ih, List.filter_cons_of_pos (by simpa using hf)]
      simp [extend, PredLists.push, Int.add_comm]
    · have hf' := hf
      unfold Fits at hf'
      rw [if_pos (by omega), ih, List.filter_cons_of_neg (by simpa using hf)]

theorem predictRight_eq (env : Env E G P V) (o : Opt) (e : E) (w : Sensor → List Meas) (ms : List Meas) (l : PredLists V) :
    predictRight env o e (w .pose) ms l = extend l env e (w .pose)
      ((ms.filter fun m => decide (Fits o w (env.delay e true) m)).map fun m =>
        (m.t, .wheel m true (m.t + env.delay e true) m.value (o.rwVar, o.vyVar, o.vzVar))) := by
  induction ms generalizing l with
  | nil => simp [predictRight, extend]
  | cons m ms ih =>
    rw [predictRight]
    by_cases hf : Fits o w (env.delay e true) m
    · have hf' := hf
      unfold Fits at hf'
      rw [if_neg (by omega), ih, List.filter_cons_of_pos (by simpa using hf)]
      simp [extend, PredLists.push, Int.add_comm]
    · have hf' := hf
      unfold Fits at hf'
      rw [if_pos (by omega), ih, List.filter_cons_of_neg (by simpa using hf)]

/-- **C71**: the predictions made after `clearPredictions` cover exactly the error terms a batch built from the same buffers
would have: for each sensor the errors and squared errors are those of the terms, in the same order, and each predicted
measurement carries the time stamp of its measurement. -/
theorem C71_predictions_are_the_terms {env : Env E G P V} {o : Opt} {s : Cal E G P} {p : Preds V} {b : Batch} {e' : E}
    (h : predict env o s Preds.empty = .ok () p) (hb : prepare env o s.est s.buf = .ok b e') :
    p.pose.errs ++ p.left.errs ++ p.right.errs = (b.terms.map fun t => (env.eval s.est b.poses t).2.1) ∧
    p.pose.errs2 ++ p.left.errs2 ++ p.right.errs2 = (b.terms.map fun t => (env.eval s.est b.poses t).2.2) ∧
    p.pose.vals ++ p.left.vals ++ p.right.vals = (b.terms.map fun t =>
      ((match t with | .pose m => m.t | .wheel m _ _ _ _ => m.t), (env.eval s.est b.poses t).1)) ∧
    p.pose.vals.length = p.pose.errs.length ∧ p.pose.vals.length = (s.buf .pose).length ∧
    p.left.vals.length = p.left.errs.length ∧ p.right.vals.length = p.right.errs.length := by
  obtain ⟨_, hp, _, ht⟩ := prepare_ok hb
  unfold predict at h
  split at h
  · cases h
  · cases h
  · cases h
  · simp only [Res.ok.injEq, true_and] at h
    subst h
    rw [predictPoses_eq, predictLeft_eq, predictRight_eq, ht, hp]
    simp [extend, Preds.empty, usedWheel, List.map_append, Function.comp_def]

/-- **C71** (partial): predicting appends to what was predicted before.  Missing: calling `predict` a second time without
`clearPredictions` does not replace but repeats every prediction, and so the lists need not belong to the stored
measurements. -/
theorem C71_predict_appends_partial {env : Env E G P V} {o : Opt} {s : Cal E G P} {p p1 : Preds V}
    (h : predict env o s Preds.empty = .ok () p1) :
    ∃ p2, predict env o s p = .ok () p2 ∧ p2.pose.vals = p.pose.vals ++ p1.pose.vals ∧
      p2.left.vals = p.left.vals ++ p1.left.vals ∧ p2.right.vals = p.right.vals ++ p1.right.vals ∧
      p2.pose.errs = p.pose.errs ++ p1.pose.errs ∧ p2.left.errs = p.left.errs ++ p1.left.errs ∧
      p2.right.errs = p.right.errs ++ p1.right.errs ∧ p2.pose.errs2 = p.pose.errs2 ++ p1.pose.errs2 ∧
      p2.left.errs2 = p.left.errs2 ++ p1.left.errs2 ∧ p2.right.errs2 = p.right.errs2 ++ p1.right.errs2 := by
  cases hi : initSplines env o s.est (s.buf .pose) with
  | throw x e1 => unfold predict at h; rw [hi] at h; cases h
  | ub => unfold predict at h; rw [hi] at h; cases h
  | diverge => unfold predict at h; rw [hi] at h; cases h
  | ok n e1 =>
    unfold predict at h ⊢
    rw [hi] at h ⊢
    simp only [Res.ok.injEq, true_and] at h ⊢
    subst h
    refine ⟨_, rfl, ?_⟩
    simp only [predictPoses_eq, predictLeft_eq, predictRight_eq]
    simp [extend, Preds.empty]

/-- **C71** (negation): `predict` is undefined behaviour unless there are poses with different first and last time stamps, in
particular on a calibrator without measurements and with a single pose. -/
theorem C71_predict_undefined (env : Env E G P V) (o : Opt) (s : Cal E G P) (p : Preds V)
    (h : (s.buf .pose).length < 2) : predict env o s p = .ub := by
  have : numSegments o.knots (s.buf .pose) = none := by
    unfold numSegments
    split_ifs with h1 h2
    · rfl
    · rfl
    · exfalso; apply h2
      have hl : 1 ≤ (s.buf .pose).length := List.length_pos_of_ne_nil h1
      obtain ⟨m, hm⟩ := List.length_eq_one_iff.1 (show (s.buf .pose).length = 1 by omega)
      rw [hm]; simp [elapsed, tMin, tMax]
  unfold predict initSplines
  rw [this]

/-! ### Witnesses -/

/-- a collaborator that accepts everything: the information gain is the number of error terms, the parameters are the number
of batches. -/
def demoEnv : Env Nat Nat Nat Nat where
  sec := fun n => (n : ℚ) / 1000000000
  delay := fun _ right => if right then 200000000 else -100000000
  fit := fun _ _ _ => none
  addBatch := fun e b => .ok b.terms.length (e + 1)
  params := fun e => e
  eval := fun _ _ t => match t with | .pose m => (m.tag, [], 0) | .wheel m _ _ v _ => (m.tag, [v], v * v)

/-- the same, but the estimator throws. -/
def throwEnv : Env Nat Nat Nat Nat := { demoEnv with addBatch := fun e _ => .throw .invalidOperation e }

/-- the options of the default constructor, `CalibratorOptions.cpp` 19-32, with different wheel variances. -/
def demoOpt : Opt where
  window := 10
  knots := 5
  lwVar := 1 / 1000
  rwVar := 1 / 500
  vyVar := 1 / 10
  vzVar := 1 / 20
  delayBound := 50000000

/-- a pose at a time in seconds. -/
def demoPose (t : Int) : Meas := ⟨.pose, t * 1000000000, 0, 7⟩
/-- a left wheel measurement. -/
def demoLeft (t : Int) : Meas := ⟨.left, t * 1000000000, 400, 8⟩
/-- a right wheel measurement. -/
def demoRight (t : Int) : Meas := ⟨.right, t * 1000000000, 300, 9⟩

/-- all sensors. -/
def sensors : List Sensor := [.pose, .left, .right]
theorem mem_sensors (k : Sensor) : k ∈ sensors := by cases k <;> simp [sensors]

/-- the state of a fresh calibrator after a program. -/
abbrev after (env : Env Nat Nat Nat Nat) (ops : List (Op Meas)) : Res (Cal Nat Nat Nat) Unit :=
  runOps (cfg env demoOpt) (init (cfg env demoOpt) 0) ops

/-- **C69** (negation): a window of 100 s is submitted although the window duration is 10 s. -/
theorem C69_long_window : ∃ s, after demoEnv [.add (demoPose 0), .add (demoLeft 5), .add (demoPose 100), .add (demoLeft 101)] =
      .ok () s ∧
    s.sent.map (fun w => (w .pose).map Meas.t) = [[0, 100000000000]] := by
  obtain ⟨s, h1, h2⟩ := okTest_spec
    (r := after demoEnv [.add (demoPose 0), .add (demoLeft 5), .add (demoPose 100), .add (demoLeft 101)])
    (p := fun s => decide (s.sent.map (fun w => (w .pose).map Meas.t) = [[0, 100000000000]])) (by decide +kernel)
  exact ⟨s, h1, of_decide_eq_true h2⟩

/-- **C69** (negation): if the estimator throws, the measurement that triggered the submission is in no window and no
buffer. -/
theorem C69_measurement_lost_on_exception : ∃ s s', after throwEnv [.add (demoPose 0), .add (demoPose 5)] = .ok () s ∧
    s.add (cfg throwEnv demoOpt) (demoPose 10) = .throw .invalidOperation s' ∧
    s'.sent.length = 1 ∧ (∀ w ∈ s'.sent, ∀ k, demoPose 10 ∉ w k) ∧ ∀ k, s'.buf k = [] := by
  obtain ⟨s, h1, h2⟩ := okTest_spec (r := after throwEnv [.add (demoPose 0), .add (demoPose 5)])
    (p := fun s => throwTest (s.add (cfg throwEnv demoOpt) (demoPose 10)) .invalidOperation fun s' =>
      decide (s'.sent.length = 1 ∧ (∀ w ∈ s'.sent, ∀ k ∈ sensors, demoPose 10 ∉ w k) ∧ ∀ k ∈ sensors, s'.buf k = []))
    (by decide +kernel)
  obtain ⟨s', h3, h4⟩ := throwTest_spec h2
  have h5 := of_decide_eq_true h4
  exact ⟨s, s', h1, h3, h5.1, fun w hw k => h5.2.1 w hw k (mem_sensors k), fun k => h5.2.2 k (mem_sensors k)⟩

/-- concrete instance: two windows submitted, the second batch uses only the pose terms and one wheel term. -/
example : ∃ s, after demoEnv [.add (demoPose 0), .add (demoRight 5), .add (demoLeft 6), .add (demoPose 9),
        .add (demoRight 10), .add (demoLeft 12), .add (demoPose 11), .add (demoPose 19), .add (demoRight 21)] = .ok () s ∧
    s.sent.map (fun w => (w .pose).length) = [2, 2] ∧ s.gains = [4, 3] ∧ s.params = [0, 1, 2] := by
  obtain ⟨s, h1, h2⟩ := okTest_spec (r := after demoEnv [.add (demoPose 0), .add (demoRight 5), .add (demoLeft 6), .add (demoPose 9),
        .add (demoRight 10), .add (demoLeft 12), .add (demoPose 11), .add (demoPose 19), .add (demoRight 21)])
    (p := fun s => decide (s.sent.map (fun w => (w .pose).length) = [2, 2] ∧ s.gains = [4, 3] ∧ s.params = [0, 1, 2]))
    (by decide +kernel)
  exact ⟨s, h1, of_decide_eq_true h2⟩

/-- **C71** (negation): the predictions of a wheel are not index by index those of its stored measurements: with two stored
left wheel measurements there is one prediction, and it belongs to the second one. -/
theorem C71_predictions_not_aligned : ∃ s p, after demoEnv [.add (demoPose 0), .add (demoLeft 0), .add (demoLeft 5),
      .add (demoPose 9)] = .ok () s ∧ predict demoEnv demoOpt s Preds.empty = .ok () p ∧
    (s.buf .left).map Meas.t = [0, 5000000000] ∧ p.left.vals = [(5000000000, 8)] := by
  obtain ⟨s, h1, h2⟩ := okTest_spec (r := after demoEnv [.add (demoPose 0), .add (demoLeft 0), .add (demoLeft 5),
      .add (demoPose 9)])
    (p := fun s => okTest (predict demoEnv demoOpt s Preds.empty) fun p => decide (
      (s.buf .left).map Meas.t = [0, 5000000000] ∧ p.left.vals = [(5000000000, 8)])) (by decide +kernel)
  obtain ⟨p, h3, h4⟩ := okTest_spec h2
  exact ⟨s, p, h1, h3, of_decide_eq_true h4⟩

end TD
end Verif
