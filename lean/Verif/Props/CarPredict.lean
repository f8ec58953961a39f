import Verif.Model.CarPredict
import Verif.Props.CarBatch

/-! Property C103: the predictions of the car calibrator. -/

namespace Verif
namespace CarCal
variable {E G P V : Type}

/-! ### Specification -/

/-- the sensor a term belongs to (specification). -/
def termSensor : CarTerm → Sensor
  | .pose m | .vel m | .wheel m _ _ _ _ | .steer m _ _ => m.kind

/-- the error terms a single admissible measurement stands for (specification): one, or left and right. -/
def termsFor (o : CarOpt) (m : Meas) : List CarTerm :=
  match m.kind with
  | .pose => [.pose m]
  | .vel => [.vel m]
  | .dmi => [.wheel m false m.l o.dmiVar false]
  | .front => [.wheel m false m.l o.flwVar true, .wheel m true m.r o.frwVar true]
  | .rear => [.wheel m false m.l o.flwVar false, .wheel m true m.r o.frwVar false]
  | .steer => [.steer m m.l o.steerVar]

/-- the time stamp of a prediction (specification): that of the measurement for poses and velocities, for all other sensors
moved by the current estimate of the sensor's delay. -/
def predStamp (env : CarEnv E G P) (e : E) (m : Meas) : Int :=
  match m.kind with
  | .pose | .vel => m.t
  | k => m.t + env.delay e k

/-- options with poses and velocities switched on. -/
def allOn (o : CarOpt) : CarOpt := { o with usePose := true, useVel := true }

/-- appending one entry per measurement to the three lists (specification). -/
def extendBy (l : PredLists V) (ms : List Meas) (t : Meas → Int) (v : Meas → List V) (e : Meas → List ℚ) (q : Meas → ℚ) :
    PredLists V := ⟨l.vals ++ ms.map (fun m => (t m, v m)), l.errs ++ ms.map e, l.errs2 ++ ms.map q⟩

/-- the buffered measurements of sensor `k` that have a prediction (specification): those a batch built now from all sensors
would use. -/
def predicted (env : CarEnv E G P) (o : CarOpt) (e : E) (w : Window) (k : Sensor) : List Meas :=
  (w k).filter fun m => decide (Used env (allOn o) e w m)

/-! ### The loops -/

theorem extendBy_nil (l : PredLists V) (t : Meas → Int) (v : Meas → List V) (e : Meas → List ℚ) (q : Meas → ℚ) :
    extendBy l [] t v e q = l := by simp [extendBy]

theorem extendBy_cons (l : PredLists V) (m : Meas) (ms : List Meas) (t : Meas → Int) (v : Meas → List V)
    (e : Meas → List ℚ) (q : Meas → ℚ) :
    extendBy l (m :: ms) t v e q = extendBy (l.push (t m) (v m) (e m) (q m)) ms t v e q := by
  simp [extendBy, PredLists.push]

/-- the entry made of evaluated terms. -/
def entry (env : CarEnv E G P) (o : CarOpt) (e : E) (ev : CarTerm → V × List ℚ × ℚ) (l : PredLists V) (ms : List Meas) :
    PredLists V :=
  extendBy l ms (predStamp env e) (fun m => (termsFor o m).map fun t => (ev t).1)
    (fun m => (termsFor o m).flatMap fun t => (ev t).2.1) (fun m => ((termsFor o m).map fun t => (ev t).2.2).sum)

section
variable (env : CarEnv E G P) (o : CarOpt) (e : E) (w : Window) (ev : CarTerm → V × List ℚ × ℚ)

theorem predictPoses_eq (ms : List Meas) (hk : ∀ m ∈ ms, m.kind = .pose) (l : PredLists V) :
    predictPoses ev ms l = entry env o e ev l (ms.filter fun m => decide (Used env (allOn o) e w m)) := by
  induction ms generalizing l with
  | nil => simp [predictPoses, entry, extendBy_nil]
  | cons m ms ih =>
    have h0 := hk m List.mem_cons_self
    have hu : Used env (allOn o) e w m := by simp [Used, h0, allOn]
    rw [predictPoses, ih fun x hx => hk x (List.mem_cons_of_mem _ hx), List.filter_cons, if_pos (by simpa using hu)]
    unfold entry
    rw [extendBy_cons]
    simp [termsFor, h0, predStamp]

theorem predictVelocities_eq (ms : List Meas) (hk : ∀ m ∈ ms, m.kind = .vel) (l : PredLists V) :
    predictVelocities ev (tMin (w .pose)) (tMax (w .pose)) ms l =
      entry env o e ev l (ms.filter fun m => decide (Used env (allOn o) e w m)) := by
  induction ms generalizing l with
  | nil => simp [predictVelocities, entry, extendBy_nil]
  | cons m ms ih =>
    have h0 := hk m List.mem_cons_self
    have ih' := fun l => ih (fun x hx => hk x (List.mem_cons_of_mem _ hx)) l
    have hu : Used env (allOn o) e w m ↔ tMin (w .pose) ≤ m.t ∧ m.t ≤ tMax (w .pose) := by simp [Used, h0, allOn]
    rw [predictVelocities, List.filter_cons]
    by_cases hc : tMin (w .pose) > m.t ∨ tMax (w .pose) < m.t
    · rw [if_pos hc, ih', if_neg (by rw [decide_eq_true_eq, hu]; omega)]
    · rw [if_neg hc, ih', if_pos (by rw [decide_eq_true_eq, hu]; omega)]
      unfold entry
      rw [extendBy_cons]
      simp [termsFor, h0, predStamp]

theorem predictDMI_eq (ms : List Meas) (hk : ∀ m ∈ ms, m.kind = .dmi) (l : PredLists V) :
    predictDMI ev o (tMin (w .pose)) (tMax (w .pose)) (env.delay e .dmi) ms l =
      entry env o e ev l (ms.filter fun m => decide (Used env (allOn o) e w m)) := by
  induction ms generalizing l with
  | nil => simp [predictDMI, entry, extendBy_nil]
  | cons m ms ih =>
    have h0 := hk m List.mem_cons_self
    have ih' := fun l => ih (fun x hx => hk x (List.mem_cons_of_mem _ hx)) l
    have hu : Used env (allOn o) e w m ↔ DelayFits o w (env.delay e .dmi) m := by
      simp only [Used, h0]; rfl
    rw [predictDMI, List.filter_cons]
    by_cases hc : DelayFits o w (env.delay e .dmi) m
    · rw [if_neg (by rw [inSpan_iff.2 hc]; simp), if_pos (by rw [decide_eq_true_eq, hu]; exact hc)]
      simp only [ih']
      unfold entry
      rw [extendBy_cons]
      simp [termsFor, h0, predStamp, add_comm]
    · have h2' : inSpan (tMin (w .pose)) (tMax (w .pose)) (env.delay e .dmi) o.delayBound m = false := by
        rw [Bool.eq_false_iff]; exact fun h => hc (inSpan_iff.1 h)
      rw [if_pos (by rw [h2']; rfl), if_neg (by rw [decide_eq_true_eq, hu]; exact hc), ih']

theorem predictFront_eq (ms : List Meas) (hk : ∀ m ∈ ms, m.kind = .front) (l : PredLists V) :
    predictFront ev o (tMin (w .pose)) (tMax (w .pose)) (env.delay e .front) (env.speed e (w .pose)) ms l =
      entry env o e ev l (ms.filter fun m => decide (Used env (allOn o) e w m)) := by
  induction ms generalizing l with
  | nil => simp [predictFront, entry, extendBy_nil]
  | cons m ms ih =>
    have h0 := hk m List.mem_cons_self
    have ih' := fun l => ih (fun x hx => hk x (List.mem_cons_of_mem _ hx)) l
    have hu : Used env (allOn o) e w m ↔ (o.cutoff ≤ m.l ∧ o.cutoff ≤ m.r) ∧ DelayFits o w (env.delay e .front) m ∧
        0 ≤ env.speed e (w .pose) (env.delay e .front + m.t) := by simp only [Used, h0]; rfl
    rw [predictFront, List.filter_cons]
    by_cases h1 : m.l < o.cutoff ∨ m.r < o.cutoff
    · rw [if_pos h1, if_neg (by rw [decide_eq_true_eq, hu]; rintro ⟨⟨a, b⟩, _⟩; rcases h1 with h1 | h1 <;> linarith), ih']
    · rw [if_neg h1]
      by_cases h2 : DelayFits o w (env.delay e .front) m
      · rw [if_neg (by rw [inSpan_iff.2 h2]; simp)]
        by_cases h3 : env.speed e (w .pose) (env.delay e .front + m.t) < 0
        · rw [if_pos h3, if_neg (by rw [decide_eq_true_eq, hu]; rintro ⟨_, _, h⟩; linarith), ih']
        · rw [if_neg h3, if_pos (by rw [decide_eq_true_eq, hu]; exact ⟨by push Not at h1; exact h1, h2, not_lt.1 h3⟩)]
          simp only [ih']
          unfold entry
          rw [extendBy_cons]
          simp [termsFor, h0, predStamp, add_comm]
      · have h2' : inSpan (tMin (w .pose)) (tMax (w .pose)) (env.delay e .front) o.delayBound m = false := by
          rw [Bool.eq_false_iff]; exact fun h => h2 (inSpan_iff.1 h)
        rw [if_pos (by rw [h2']; rfl), if_neg (by rw [decide_eq_true_eq, hu]; rintro ⟨_, h, _⟩; exact h2 h), ih']

theorem predictRear_eq (ms : List Meas) (hk : ∀ m ∈ ms, m.kind = .rear) (l : PredLists V) :
    predictRear ev o (tMin (w .pose)) (tMax (w .pose)) (env.delay e .rear) (env.speed e (w .pose)) ms l =
      entry env o e ev l (ms.filter fun m => decide (Used env (allOn o) e w m)) := by
  induction ms generalizing l with
  | nil => simp [predictRear, entry, extendBy_nil]
  | cons m ms ih =>
    have h0 := hk m List.mem_cons_self
    have ih' := fun l => ih (fun x hx => hk x (List.mem_cons_of_mem _ hx)) l
    have hu : Used env (allOn o) e w m ↔ (o.cutoff ≤ m.l ∧ o.cutoff ≤ m.r) ∧ DelayFits o w (env.delay e .rear) m ∧
        0 ≤ env.speed e (w .pose) (env.delay e .rear + m.t) := by simp only [Used, h0]; rfl
    rw [predictRear, List.filter_cons]
    by_cases h1 : m.l < o.cutoff ∨ m.r < o.cutoff
    · rw [if_pos h1, if_neg (by rw [decide_eq_true_eq, hu]; rintro ⟨⟨a, b⟩, _⟩; rcases h1 with h1 | h1 <;> linarith), ih']
    · rw [if_neg h1]
      by_cases h2 : DelayFits o w (env.delay e .rear) m
      · rw [if_neg (by rw [inSpan_iff.2 h2]; simp)]
        by_cases h3 : env.speed e (w .pose) (env.delay e .rear + m.t) < 0
        · rw [if_pos h3, if_neg (by rw [decide_eq_true_eq, hu]; rintro ⟨_, _, h⟩; linarith), ih']
        · rw [if_neg h3, if_pos (by rw [decide_eq_true_eq, hu]; exact ⟨by push Not at h1; exact h1, h2, not_lt.1 h3⟩)]
          simp only [ih']
          unfold entry
          rw [extendBy_cons]
          simp [termsFor, h0, predStamp, add_comm]
      · have h2' : inSpan (tMin (w .pose)) (tMax (w .pose)) (env.delay e .rear) o.delayBound m = false := by
          rw [Bool.eq_false_iff]; exact fun h => h2 (inSpan_iff.1 h)
        rw [if_pos (by rw [h2']; rfl), if_neg (by rw [decide_eq_true_eq, hu]; rintro ⟨_, h, _⟩; exact h2 h), ih']

theorem predictSteering_eq (ms : List Meas) (hk : ∀ m ∈ ms, m.kind = .steer) (l : PredLists V) :
    predictSteering ev o (tMin (w .pose)) (tMax (w .pose)) (env.delay e .steer) (env.axleSpeed e (w .pose)) ms l =
      entry env o e ev l (ms.filter fun m => decide (Used env (allOn o) e w m)) := by
  induction ms generalizing l with
  | nil => simp [predictSteering, entry, extendBy_nil]
  | cons m ms ih =>
    have h0 := hk m List.mem_cons_self
    have ih' := fun l => ih (fun x hx => hk x (List.mem_cons_of_mem _ hx)) l
    have hu : Used env (allOn o) e w m ↔ DelayFits o w (env.delay e .steer) m ∧
        o.linTol ≤ |env.axleSpeed e (w .pose) (env.delay e .steer + m.t)| := by simp only [Used, h0]; rfl
    rw [predictSteering, List.filter_cons]
    by_cases h2 : DelayFits o w (env.delay e .steer) m
    · rw [if_neg (by rw [inSpan_iff.2 h2]; simp)]
      by_cases h3 : |env.axleSpeed e (w .pose) (env.delay e .steer + m.t)| < o.linTol
      · rw [if_pos h3, if_neg (by rw [decide_eq_true_eq, hu]; rintro ⟨_, h⟩; linarith), ih']
      · rw [if_neg h3, if_pos (by rw [decide_eq_true_eq, hu]; exact ⟨h2, not_lt.1 h3⟩)]
        simp only [ih']
        unfold entry
        rw [extendBy_cons]
        simp [termsFor, h0, predStamp, add_comm]
    · have h2' : inSpan (tMin (w .pose)) (tMax (w .pose)) (env.delay e .steer) o.delayBound m = false := by
        rw [Bool.eq_false_iff]; exact fun h => h2 (inSpan_iff.1 h)
      rw [if_pos (by rw [h2']; rfl), if_neg (by rw [decide_eq_true_eq, hu]; rintro ⟨h, _⟩; exact h2 h), ih']

end

/-! ### C103 -/

/-- **C103** (partial): a successful `predict` in any history appends, for every sensor, exactly one entry to each of the three
lists per buffered measurement a batch built now from all sensors would use, in order of arrival: the predicted values, error
vector and squared error are those of the error terms of that measurement evaluated at the current estimate (for wheel pairs
left before right, errors one above the other, squared errors added), stamped with `predStamp`.  Missing: a pairing of predictions with
measurements by time stamp (`C103_stamps_differ`) and definedness without two distinct pose times (`C103_undefined`). -/
theorem C103_predictions_partial {env : CarEnv E G P} {eval : Eval E V} {o : CarOpt} {e : E} {s : CarCal E G P}
    {acc : List Meas} {gone : List Window} (hr : Run env o e s acc gone) {p p' : Preds V}
    (h : predict env eval o s p = .ok () p') (k : Sensor) :
    p' k = extendBy (p k) (predicted env o s.est s.buf k) (predStamp env s.est)
      (fun m => (termsFor o m).map fun t => (eval s.est (s.buf .pose) t).1)
      (fun m => (termsFor o m).flatMap fun t => (eval s.est (s.buf .pose) t).2.1)
      (fun m => ((termsFor o m).map fun t => (eval s.est (s.buf .pose) t).2.2).sum) := by
  have hw := (C58_buffers_by_sensor hr).1
  unfold predict at h
  split at h
  · cases h
  · split at h
    · cases h
    · simp only [Res.ok.injEq, true_and] at h
      subst h
      cases k
      · exact predictPoses_eq env o s.est s.buf _ _ (hw _) _
      · exact predictVelocities_eq env o s.est s.buf _ _ (hw _) _
      · exact predictDMI_eq env o s.est s.buf _ _ (hw _) _
      · exact predictFront_eq env o s.est s.buf _ _ (hw _) _
      · exact predictRear_eq env o s.est s.buf _ _ (hw _) _
      · exact predictSteering_eq env o s.est s.buf _ _ (hw _) _

theorem flatMap_filter_one {α : Type} (ms : List Meas) (f : Meas → List α) (p : Meas → Bool) (g : Meas → List α)
    (h : ∀ m ∈ ms, f m = if p m then g m else []) : ms.flatMap f = (ms.filter p).flatMap g := by
  induction ms with
  | nil => rfl
  | cons m ms ih =>
    rw [List.flatMap_cons, h m List.mem_cons_self, ih fun x hx => h x (List.mem_cons_of_mem _ hx), List.filter_cons]
    by_cases hp : p m = true <;> simp [hp]

theorem filter_flatMap_kind (ms : List Meas) (f : Meas → List CarTerm) (k0 k : Sensor)
    (h : ∀ m ∈ ms, ∀ t ∈ f m, termSensor t = k0) :
    (ms.flatMap f).filter (fun t => decide (termSensor t = k)) = if k = k0 then ms.flatMap f else [] := by
  split_ifs with hk
  · apply List.filter_eq_self.2
    intro t ht
    obtain ⟨m, hm, htm⟩ := List.mem_flatMap.1 ht
    simp [h m hm t htm, hk]
  · apply List.filter_eq_nil_iff.2
    intro t ht
    obtain ⟨m, hm, htm⟩ := List.mem_flatMap.1 ht
    simp [h m hm t htm, Ne.symm hk]

/-- **C103**: the evaluated error terms are those of the batch: the terms of sensor `k` in the batch built from the same buffers
(with poses and velocities switched on) are the terms of the predicted measurements one after the other. -/
theorem C103_terms_of_the_batch {env : CarEnv E G P} {o : CarOpt} {e : E} {s : CarCal E G P}
    {acc : List Meas} {gone : List Window} (hr : Run env o e s acc gone) (k : Sensor) :
    (buildTerms env (allOn o) s.est s.buf).filter (fun t => decide (termSensor t = k)) =
      (predicted env o s.est s.buf k).flatMap (termsFor o) := by
  have hw := (C58_buffers_by_sensor hr).1
  unfold buildTerms
  simp only [List.filter_append]
  rw [if_pos (show (allOn o).useVel = true from rfl), if_pos (show (allOn o).usePose = true from rfl)]
  unfold velTerms poseTerms dmiTerms frontTerms rearTerms steerTerms
  rw [List.map_eq_flatMap]
  rw [filter_flatMap_kind _ _ .vel k (by
        intro m hm t ht; split_ifs at ht <;> simp at ht; subst ht; exact hw _ _ hm),
    filter_flatMap_kind _ _ .pose k (by intro m hm t ht; simp at ht; subst ht; exact hw _ _ hm),
    filter_flatMap_kind _ _ .dmi k (by
        intro m hm t ht; split_ifs at ht <;> simp at ht; subst ht; exact hw _ _ hm),
    filter_flatMap_kind _ _ .front k (by
        intro m hm t ht; split_ifs at ht <;> simp at ht; rcases ht with rfl | rfl <;> exact hw _ _ hm),
    filter_flatMap_kind _ _ .rear k (by
        intro m hm t ht; split_ifs at ht <;> simp at ht; rcases ht with rfl | rfl <;> exact hw _ _ hm),
    filter_flatMap_kind _ _ .steer k (by
        intro m hm t ht; split_ifs at ht <;> simp at ht; subst ht; exact hw _ _ hm)]
  unfold predicted
  cases k <;> simp only [reduceCtorEq, if_true, if_false, List.append_nil, List.nil_append]
  · apply flatMap_filter_one
    intro m hm
    simp [Used, hw _ _ hm, allOn, termsFor]
  · apply flatMap_filter_one
    intro m hm
    simp only [Used, hw _ _ hm, allOn, termsFor, true_and, decide_eq_true_eq]
    split_ifs <;> first | rfl | omega
  · apply flatMap_filter_one
    intro m hm
    simp only [Used, hw _ _ hm, termsFor, decide_eq_true_eq, inSpan_iff]
    rfl
  · apply flatMap_filter_one
    intro m hm
    simp only [Used, hw _ _ hm, termsFor, decide_eq_true_eq]
    by_cases h2 : inSpan (tMin (s.buf .pose)) (tMax (s.buf .pose)) (env.delay s.est .front) (allOn o).delayBound m = true
    · have h2' := inSpan_iff.1 h2
      simp only [h2, h2', true_and, Bool.not_true, Bool.false_eq_true, if_false]
      by_cases h1 : m.l < (allOn o).cutoff ∨ m.r < (allOn o).cutoff
      · rw [if_pos h1, if_neg (by rintro ⟨⟨a, b⟩, _⟩; rcases h1 with h1 | h1 <;> linarith)]
      · by_cases h3 : env.speed s.est (s.buf .pose) (env.delay s.est .front + m.t) < 0
        · rw [if_neg h1, if_pos h3, if_neg (by rintro ⟨_, h⟩; linarith)]
        · rw [if_neg h1, if_neg h3, if_pos ⟨by push Not at h1; exact h1, not_lt.1 h3⟩]; rfl
    · have h2' : ¬ DelayFits (allOn o) s.buf (env.delay s.est .front) m := fun h => h2 (inSpan_iff.2 h)
      simp [h2, h2']
  · apply flatMap_filter_one
    intro m hm
    simp only [Used, hw _ _ hm, termsFor, decide_eq_true_eq]
    by_cases h2 : inSpan (tMin (s.buf .pose)) (tMax (s.buf .pose)) (env.delay s.est .rear) (allOn o).delayBound m = true
    · have h2' := inSpan_iff.1 h2
      simp only [h2, h2', true_and, Bool.not_true, Bool.false_eq_true, if_false]
      by_cases h1 : m.l < (allOn o).cutoff ∨ m.r < (allOn o).cutoff
      · rw [if_pos h1, if_neg (by rintro ⟨⟨a, b⟩, _⟩; rcases h1 with h1 | h1 <;> linarith)]
      · by_cases h3 : env.speed s.est (s.buf .pose) (env.delay s.est .rear + m.t) < 0
        · rw [if_neg h1, if_pos h3, if_neg (by rintro ⟨_, h⟩; linarith)]
        · rw [if_neg h1, if_neg h3, if_pos ⟨by push Not at h1; exact h1, not_lt.1 h3⟩]; rfl
    · have h2' : ¬ DelayFits (allOn o) s.buf (env.delay s.est .rear) m := fun h => h2 (inSpan_iff.2 h)
      simp [h2, h2']
  · apply flatMap_filter_one
    intro m hm
    simp only [Used, hw _ _ hm, termsFor, decide_eq_true_eq]
    by_cases h2 : inSpan (tMin (s.buf .pose)) (tMax (s.buf .pose)) (env.delay s.est .steer) (allOn o).delayBound m = true
    · have h2' := inSpan_iff.1 h2
      simp only [h2, h2', true_and, Bool.not_true, Bool.false_eq_true, if_false]
      by_cases h3 : |env.axleSpeed s.est (s.buf .pose) (env.delay s.est .steer + m.t)| < (allOn o).linTol
      · rw [if_pos h3, if_neg (by linarith)]
      · rw [if_neg h3, if_pos (not_lt.1 h3)]; rfl
    · have h2' : ¬ DelayFits (allOn o) s.buf (env.delay s.est .steer) m := fun h => h2 (inSpan_iff.2 h)
      simp [h2, h2']

/-- **C103** (negation, pairing by time): with a nonzero delay estimate the prediction of a wheel, odometer or steering
measurement does not carry that measurement's time stamp. -/
theorem C103_stamps_differ (env : CarEnv E G P) (e : E) (m : Meas) (hk : m.kind ≠ .pose) (hv : m.kind ≠ .vel)
    (hd : env.delay e m.kind ≠ 0) : predStamp env e m ≠ m.t := by
  unfold predStamp
  cases hm : m.kind <;> simp only <;> first | exact absurd hm hk | exact absurd hm hv | (rw [hm] at hd; omega)

/-- **C103** (negation, definedness): predicting without a pose, or when first and last pose have the same time stamp, is
undefined behaviour, whatever other measurements are buffered. -/
theorem C103_undefined (env : CarEnv E G P) (eval : Eval E V) (o : CarOpt) (s : CarCal E G P) (p : Preds V)
    (h : s.buf .pose = [] ∨ tMin (s.buf .pose) = tMax (s.buf .pose)) : predict env eval o s p = .ub := by
  have : numSegments o.knots (s.buf .pose) = none := by
    unfold numSegments
    by_cases h' : s.buf .pose = []
    · rw [if_pos h']
    · rw [if_neg h', if_pos (by rcases h with h | h
                                · exact absurd h h'
                                · simp [elapsed, h])]
  unfold predict
  rw [this]

/-- the same from the public interface: one wheel measurement is buffered, so there are unprocessed measurements, and
predicting is undefined; also with a single pose. -/
theorem C103_unprocessed_but_undefined (ms : List Meas) (hms : ms = [demoRear 5] ∨ ms = [demoPose 3, demoRear 5]) :
    ∃ s, runOps demoEnv demoOpt (init demoEnv 0) (ms.map .add) = .ok () s ∧ s.unprocessed = true ∧
      ∀ (eval : Eval Nat ℚ) (p : Preds ℚ), predict demoEnv eval demoOpt s p = .ub := by
  rcases hms with rfl | rfl
  · obtain ⟨s, h1, h2⟩ := okTest_spec (r := runOps demoEnv demoOpt (init demoEnv 0) ([demoRear 5].map .add))
      (p := fun s => s.unprocessed && decide (s.buf .pose = [])) (by decide +kernel)
    simp only [Bool.and_eq_true, decide_eq_true_eq] at h2
    exact ⟨s, h1, h2.1, fun eval p => C103_undefined _ _ _ _ _ (Or.inl h2.2)⟩
  · obtain ⟨s, h1, h2⟩ := okTest_spec (r := runOps demoEnv demoOpt (init demoEnv 0) ([demoPose 3, demoRear 5].map .add))
      (p := fun s => s.unprocessed && decide (tMin (s.buf .pose) = tMax (s.buf .pose))) (by decide +kernel)
    simp only [Bool.and_eq_true, decide_eq_true_eq] at h2
    exact ⟨s, h1, h2.1, fun eval p => C103_undefined _ _ _ _ _ (Or.inr h2.2)⟩

/-- **C103**: predicting twice without clearing holds every prediction twice. -/
theorem C103_twice {env : CarEnv E G P} {eval : Eval E V} {o : CarOpt} {e : E} {s : CarCal E G P}
    {acc : List Meas} {gone : List Window} (hr : Run env o e s acc gone) {p1 p2 : Preds V}
    (h1 : predict env eval o s Preds.empty = .ok () p1) (h2 : predict env eval o s p1 = .ok () p2) (k : Sensor) :
    (p2 k).vals = (p1 k).vals ++ (p1 k).vals ∧ (p2 k).errs = (p1 k).errs ++ (p1 k).errs ∧
      (p2 k).errs2 = (p1 k).errs2 ++ (p1 k).errs2 ∧
      (p1 k).vals.length = (predicted env o s.est s.buf k).length := by
  rw [C103_predictions_partial hr h2 k, C103_predictions_partial hr h1 k]
  simp [extendBy, Preds.empty]

/-- **C103**: a `predict` that throws has predicted nothing: the predictions are those of before. -/
theorem C103_exception_keeps {env : CarEnv E G P} {eval : Eval E V} {o : CarOpt} {s : CarCal E G P} {p p' : Preds V} {ex : Exc}
    (h : predict env eval o s p = .throw ex p') : p' = p := by
  unfold predict at h
  cases hn : numSegments o.knots (s.buf .pose) with
  | none => simp [hn] at h
  | some segs =>
    simp only [hn] at h
    cases hf : env.fit s.est (s.buf .pose) segs with
    | none => simp [hf] at h
    | some ex' =>
      simp only [hf, Res.throw.injEq] at h
      exact h.2.symm

/-- an evaluation for the demonstration. -/
def demoEval : Eval Nat ℚ := fun _ _ t =>
  match t with
  | .wheel _ r v var _ => (v, [v, if r then 1 else 0], var)
  | _ => (0, [], 0)

/-- concrete instance: the rear wheel pair between two poses is predicted, one value per side. -/
example : ∃ s p, runOps demoEnv demoOpt (init demoEnv 0) [.add (demoPose 0), .add (demoRear 5), .add (demoPose 9)] = .ok () s ∧
    predict demoEnv demoEval demoOpt s Preds.empty = .ok () p ∧
    (p .rear).vals = [(demoEnv.delay 0 .rear + 5000000000, [400, 400])] ∧ (p .rear).errs = [[400, 0, 400, 1]] ∧
    (p .rear).errs2 = [2 / 1000000] ∧ (p .pose).vals.length = 2 := by
  obtain ⟨s, h1, h2⟩ := okTest_spec (r := runOps demoEnv demoOpt (init demoEnv 0)
      [.add (demoPose 0), .add (demoRear 5), .add (demoPose 9)])
    (p := fun s => okTest (predict demoEnv demoEval demoOpt s Preds.empty) fun p =>
      decide ((p .rear).vals = [(demoEnv.delay 0 .rear + 5000000000, [400, 400])] ∧ (p .rear).errs = [[400, 0, 400, 1]] ∧
        (p .rear).errs2 = [2 / 1000000] ∧ (p .pose).vals.length = 2)) (by decide +kernel)
  obtain ⟨p, h3, h4⟩ := okTest_spec h2
  simp only [decide_eq_true_eq] at h4
  exact ⟨s, p, h1, h3, h4⟩

/-- non-vacuity of `C103_exception_keeps`: a fitter that throws. -/
example : ∃ (s : CarCal Nat Nat Nat) (p' : Preds ℚ), (predict { demoEnv with fit := fun _ _ _ => some .external } demoEval demoOpt s
    Preds.empty = .throw .external p') := by
  obtain ⟨s, h1, h2⟩ := okTest_spec (r := runOps demoEnv demoOpt (init demoEnv 0) [.add (demoPose 0), .add (demoPose 9)])
    (p := fun s => decide ((numSegments demoOpt.knots (s.buf .pose)).isSome)) (by decide +kernel)
  simp only [decide_eq_true_eq] at h2
  obtain ⟨n, hn⟩ := Option.isSome_iff_exists.1 h2
  exact ⟨s, Preds.empty, by simp [predict, hn]⟩

end CarCal
end Verif
