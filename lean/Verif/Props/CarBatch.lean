import Verif.Props.Car
import Verif.Lemmas.Rounding

/-! Properties C58 (which measurements make it into a batch), C59 (weighting of the wheel measurements) and C60 (number of
spline segments) of the car calibrator. -/

namespace Verif
namespace CarCal
variable {E G P : Type}

/-! ### Specification: when a measurement is used -/

/-- a delayed measurement can be moved by the delay bound either way without leaving the time between first and last pose. -/
def DelayFits (o : CarOpt) (w : Window) (d : Int) (m : Meas) : Prop :=
  tMin (w .pose) ≤ m.t + d - o.delayBound ∧ m.t + d + o.delayBound ≤ tMax (w .pose)

instance (o : CarOpt) (w : Window) (d : Int) (m : Meas) : Decidable (DelayFits o w d m) := by
  unfold DelayFits; infer_instance

/-- when a measurement is used for the calibration (specification). -/
def Used (env : CarEnv E G P) (o : CarOpt) (e : E) (w : Window) (m : Meas) : Prop :=
  match m.kind with
  | .pose => o.usePose = true
  | .vel => o.useVel = true ∧ tMin (w .pose) ≤ m.t ∧ m.t ≤ tMax (w .pose)
  | .dmi => DelayFits o w (env.delay e .dmi) m
  | .front => (o.cutoff ≤ m.l ∧ o.cutoff ≤ m.r) ∧ DelayFits o w (env.delay e .front) m ∧
      0 ≤ env.speed e (w .pose) (env.delay e .front + m.t)
  | .rear => (o.cutoff ≤ m.l ∧ o.cutoff ≤ m.r) ∧ DelayFits o w (env.delay e .rear) m ∧
      0 ≤ env.speed e (w .pose) (env.delay e .rear + m.t)
  | .steer => DelayFits o w (env.delay e .steer) m ∧ o.linTol ≤ |env.axleSpeed e (w .pose) (env.delay e .steer + m.t)|

instance (env : CarEnv E G P) (o : CarOpt) (e : E) (w : Window) (m : Meas) : Decidable (Used env o e w m) := by
  unfold Used; cases m.kind <;> simp only <;> infer_instance

/-- the measurement an error term comes from; for wheel pairs only the left one is counted. -/
def source : CarTerm → Option Meas
  | .pose m => some m
  | .vel m => some m
  | .wheel m false _ _ _ => some m
  | .wheel _ true _ _ _ => none
  | .steer m _ _ => some m

/-- the measurement a right wheel term comes from. -/
def rightSource : CarTerm → Option Meas
  | .wheel m true _ _ _ => some m
  | _ => none

/-- the buffers hold measurements of their own sensor only. -/
def Sorted (w : Window) : Prop := ∀ k m, m ∈ w k → m.kind = k

/-- **C58**: the buffers never mix sensors, in any history. -/
theorem C58_buffers_by_sensor {env : CarEnv E G P} {o : CarOpt} {e : E} {s : CarCal E G P} {acc : List Meas}
    {gone : List Window} (h : Run env o e s acc gone) : Sorted s.buf ∧ ∀ w ∈ gone, Sorted w := by
  have key := C36_every_measurement_in_one_place_partial h
  have mem : ∀ k m, m ∈ (gone.map fun w => w k).flatten ++ s.buf k → m.kind = k := by
    intro k m hm
    rw [key k] at hm
    simpa using (List.mem_filter.1 hm).2
  refine ⟨fun k m hm => mem k m (List.mem_append_right _ hm), fun w hw k m hm => mem k m (List.mem_append_left _ ?_)⟩
  exact List.mem_flatten.2 ⟨w k, List.mem_map.2 ⟨w, hw, rfl⟩, hm⟩

theorem inSpan_iff {o : CarOpt} {w : Window} {d : Int} {m : Meas} :
    inSpan (tMin (w .pose)) (tMax (w .pose)) d o.delayBound m = true ↔ DelayFits o w d m := by
  unfold inSpan DelayFits
  simp only [Bool.not_eq_true', Bool.or_eq_false_iff, decide_eq_false_iff_not]
  omega

/-! ### The terms, sensor by sensor -/

theorem filterMap_flatMap_one {α : Type} (ms : List Meas) (f : Meas → List CarTerm) (g : CarTerm → Option α)
    (p : Meas → Bool) (v : Meas → α)
    (h : ∀ m ∈ ms, (f m).filterMap g = if p m then [v m] else []) :
    (ms.flatMap f).filterMap g = (ms.filter p).map v := by
  induction ms with
  | nil => rfl
  | cons m ms ih =>
    rw [List.flatMap_cons, List.filterMap_append, h m List.mem_cons_self,
      ih fun x hx => h x (List.mem_cons_of_mem _ hx), List.filter_cons]
    by_cases hp : p m = true
    · simp [hp]
    · simp [hp]

theorem filterMap_flatMap_none {α : Type} (ms : List Meas) (f : Meas → List CarTerm) (g : CarTerm → Option α)
    (h : ∀ m ∈ ms, (f m).filterMap g = []) : (ms.flatMap f).filterMap g = [] := by
  induction ms with
  | nil => rfl
  | cons m ms ih =>
    rw [List.flatMap_cons, List.filterMap_append, h m List.mem_cons_self,
      ih fun x hx => h x (List.mem_cons_of_mem _ hx)]; rfl

/-- `source`, restricted to one sensor. -/
def sourceOf (k : Sensor) (t : CarTerm) : Option Meas := (source t).bind fun m => if m.kind = k then some m else none
/-- `rightSource`, restricted to one sensor. -/
def rightSourceOf (k : Sensor) (t : CarTerm) : Option Meas :=
  (rightSource t).bind fun m => if m.kind = k then some m else none

section
variable (env : CarEnv E G P) (o : CarOpt) (e : E) (w : Window)

theorem vel_source (hw : Sorted w) (hv : o.useVel = true) (k : Sensor) :
    (velTerms (tMin (w .pose)) (tMax (w .pose)) (w .vel)).filterMap (sourceOf k) =
      if k = .vel then (w .vel).filter fun m => decide (Used env o e w m) else [] := by
  unfold velTerms
  split_ifs with hk
  · subst hk
    rw [filterMap_flatMap_one (p := fun m => decide (Used env o e w m)) (v := id), List.map_id]
    intro m hm
    have hkind := hw _ _ hm
    simp only [Used, hkind, hv, true_and, decide_eq_true_eq]
    by_cases hc : tMin (w .pose) > m.t ∨ tMax (w .pose) < m.t
    · rw [if_pos hc, if_neg (by omega)]; rfl
    · rw [if_neg hc, if_pos (by omega)]; simp [sourceOf, source, hkind]
  · apply filterMap_flatMap_none
    intro m hm
    have hkind := hw _ _ hm
    split_ifs
    · rfl
    · simp [sourceOf, source, hkind, Ne.symm hk]

theorem pose_source (hw : Sorted w) (hv : o.usePose = true) (k : Sensor) :
    (poseTerms (w .pose)).filterMap (sourceOf k) =
      if k = .pose then (w .pose).filter fun m => decide (Used env o e w m) else [] := by
  have : poseTerms (w .pose) = (w .pose).flatMap fun m => [CarTerm.pose m] := by
    unfold poseTerms; rw [List.map_eq_flatMap]
  rw [this]
  split_ifs with hk
  · subst hk
    rw [filterMap_flatMap_one (p := fun m => decide (Used env o e w m)) (v := id), List.map_id]
    intro m hm
    have hkind := hw _ _ hm
    simp [Used, hkind, hv, sourceOf, source]
  · apply filterMap_flatMap_none
    intro m hm
    simp [sourceOf, source, hw _ _ hm, Ne.symm hk]

theorem dmi_source (hw : Sorted w) (k : Sensor) :
    (dmiTerms o (tMin (w .pose)) (tMax (w .pose)) (env.delay e .dmi) (w .dmi)).filterMap (sourceOf k) =
      if k = .dmi then (w .dmi).filter fun m => decide (Used env o e w m) else [] := by
  unfold dmiTerms
  split_ifs with hk
  · subst hk
    rw [filterMap_flatMap_one (p := fun m => decide (Used env o e w m)) (v := id), List.map_id]
    intro m hm
    have hkind := hw _ _ hm
    simp only [Used, hkind, decide_eq_true_eq, inSpan_iff]
    by_cases hc : DelayFits o w (env.delay e .dmi) m
    · rw [if_pos hc, if_pos hc]; simp [sourceOf, source, hkind]
    · rw [if_neg hc, if_neg hc]; rfl
  · apply filterMap_flatMap_none
    intro m hm
    have hkind := hw _ _ hm
    split_ifs
    · simp [sourceOf, source, hkind, Ne.symm hk]
    · rfl

theorem pair_source (k0 : Sensor) (hk0 : k0 = .front ∨ k0 = .rear) (flag : Bool) (v1 v2 : ℚ) (right : Bool)
    (hw : Sorted w) (k : Sensor) :
    ((w k0).flatMap fun m =>
      if m.l < o.cutoff ∨ m.r < o.cutoff then []
      else if !inSpan (tMin (w .pose)) (tMax (w .pose)) (env.delay e k0) o.delayBound m then []
      else if env.speed e (w .pose) (env.delay e k0 + m.t) < 0 then []
      else [CarTerm.wheel m false m.l v1 flag, CarTerm.wheel m true m.r v2 flag]).filterMap
        (if right then rightSourceOf k else sourceOf k) =
      if k = k0 then (w k0).filter fun m => decide (Used env o e w m) else [] := by
  have hg : ∀ m : Meas, [CarTerm.wheel m false m.l v1 flag, CarTerm.wheel m true m.r v2 flag].filterMap
      (if right then rightSourceOf k else sourceOf k) = if m.kind = k then [m] else [] := by
    intro m
    cases right <;> by_cases hmk : m.kind = k <;>
      simp [List.filterMap_cons, sourceOf, source, rightSourceOf, rightSource, hmk]
  generalize (if right then rightSourceOf k else sourceOf k) = g at hg ⊢
  by_cases hk : k = k0
  · subst hk
    rw [if_pos rfl, filterMap_flatMap_one (p := fun m => decide (Used env o e w m)) (v := id), List.map_id]
    intro m hm
    have hkind := hw _ _ hm
    have hu : Used env o e w m ↔ (o.cutoff ≤ m.l ∧ o.cutoff ≤ m.r) ∧ DelayFits o w (env.delay e k) m ∧
        0 ≤ env.speed e (w .pose) (env.delay e k + m.t) := by
      rcases hk0 with rfl | rfl <;> simp only [Used, hkind]
    simp only [decide_eq_true_eq, hu]
    by_cases h1 : m.l < o.cutoff ∨ m.r < o.cutoff
    · rw [if_pos h1, if_neg (by rintro ⟨⟨a, b⟩, _⟩; rcases h1 with h1 | h1 <;> linarith)]; rfl
    · rw [if_neg h1]
      by_cases h2 : DelayFits o w (env.delay e k) m
      · rw [if_neg (by rw [inSpan_iff.2 h2]; simp)]
        by_cases h3 : env.speed e (w .pose) (env.delay e k + m.t) < 0
        · rw [if_pos h3, if_neg (by rintro ⟨_, _, h⟩; linarith)]; rfl
        · rw [if_neg h3, if_pos ⟨by push Not at h1; exact h1, h2, not_lt.1 h3⟩]
          rw [hg m, if_pos hkind]; rfl
      · have h2' : inSpan (tMin (w .pose)) (tMax (w .pose)) (env.delay e k) o.delayBound m = false := by
          rw [Bool.eq_false_iff]; exact fun h => h2 (inSpan_iff.1 h)
        rw [if_pos (by rw [h2']; rfl), if_neg (by rintro ⟨_, h, _⟩; exact h2 h)]; rfl
  · rw [if_neg hk]
    apply filterMap_flatMap_none
    intro m hm
    have hkind := hw _ _ hm
    split_ifs
    · rfl
    · rfl
    · rfl
    · rw [hg m, if_neg (by rw [hkind]; exact Ne.symm hk)]

theorem steer_source (hw : Sorted w) (k : Sensor) :
    (steerTerms o (tMin (w .pose)) (tMax (w .pose)) (env.delay e .steer) (env.axleSpeed e (w .pose))
      (w .steer)).filterMap (sourceOf k) =
      if k = .steer then (w .steer).filter fun m => decide (Used env o e w m) else [] := by
  unfold steerTerms
  split_ifs with hk
  · subst hk
    rw [filterMap_flatMap_one (p := fun m => decide (Used env o e w m)) (v := id), List.map_id]
    intro m hm
    have hkind := hw _ _ hm
    simp only [Used, hkind, decide_eq_true_eq]
    by_cases h2 : DelayFits o w (env.delay e .steer) m
    · rw [if_neg (by rw [inSpan_iff.2 h2]; simp)]
      by_cases h3 : |env.axleSpeed e (w .pose) (env.delay e .steer + m.t)| < o.linTol
      · rw [if_pos h3, if_neg (by rintro ⟨_, h⟩; linarith)]; rfl
      · rw [if_neg h3, if_pos ⟨h2, not_lt.1 h3⟩]; simp [sourceOf, source, hkind]
    · have h2' : inSpan (tMin (w .pose)) (tMax (w .pose)) (env.delay e .steer) o.delayBound m = false := by
        rw [Bool.eq_false_iff]; exact fun h => h2 (inSpan_iff.1 h)
      rw [if_pos (by rw [h2']; rfl), if_neg (by rintro ⟨h, _⟩; exact h2 h)]; rfl
  · apply filterMap_flatMap_none
    intro m hm
    have hkind := hw _ _ hm
    split_ifs
    · rfl
    · rfl
    · simp [sourceOf, source, hkind, Ne.symm hk]

theorem not_used_vel (hw : Sorted w) (hv : o.useVel ≠ true) :
    ((w .vel).filter fun m => decide (Used env o e w m)) = [] := by
  apply List.filter_eq_nil_iff.2
  intro m hm
  simp [Used, hw _ _ hm, hv]

theorem not_used_pose (hw : Sorted w) (hv : o.usePose ≠ true) :
    ((w .pose).filter fun m => decide (Used env o e w m)) = [] := by
  apply List.filter_eq_nil_iff.2
  intro m hm
  simp [Used, hw _ _ hm, hv]

theorem build_source (hw : Sorted w) (k : Sensor) :
    (buildTerms env o e w).filterMap (sourceOf k) = (w k).filter fun m => decide (Used env o e w m) := by
  unfold buildTerms
  simp only [List.filterMap_append]
  have hf := pair_source env o e w .front (Or.inl rfl) true o.flwVar o.frwVar false hw k
  have hr := pair_source env o e w .rear (Or.inr rfl) false o.flwVar o.frwVar false hw k
  simp only [Bool.false_eq_true, if_false] at hf hr
  unfold frontTerms rearTerms
  rw [dmi_source env o e w hw k, steer_source env o e w hw k, hf, hr]
  have h1 : (if o.useVel = true then velTerms (tMin (w .pose)) (tMax (w .pose)) (w .vel) else []).filterMap (sourceOf k) =
      if k = .vel then (w .vel).filter fun m => decide (Used env o e w m) else [] := by
    by_cases hv : o.useVel = true
    · rw [if_pos hv, vel_source env o e w hw hv k]
    · rw [if_neg hv, not_used_vel env o e w hw hv]; simp
  have h2 : (if o.usePose = true then poseTerms (w .pose) else []).filterMap (sourceOf k) =
      if k = .pose then (w .pose).filter fun m => decide (Used env o e w m) else [] := by
    by_cases hv : o.usePose = true
    · rw [if_pos hv, pose_source env o e w hw hv k]
    · rw [if_neg hv, not_used_pose env o e w hw hv]; simp
  rw [h1, h2]
  cases k <;> simp

theorem build_right (hw : Sorted w) (k : Sensor) (hk : k = .front ∨ k = .rear) :
    (buildTerms env o e w).filterMap (rightSourceOf k) = (w k).filter fun m => decide (Used env o e w m) := by
  unfold buildTerms
  simp only [List.filterMap_append]
  have hf := pair_source env o e w .front (Or.inl rfl) true o.flwVar o.frwVar true hw k
  have hr := pair_source env o e w .rear (Or.inr rfl) false o.flwVar o.frwVar true hw k
  simp only [if_true] at hf hr
  have hz : ∀ (ms : List Meas) (f : Meas → List CarTerm), (∀ m, ∀ t ∈ f m, rightSource t = none) →
      (ms.flatMap f).filterMap (rightSourceOf k) = [] := by
    intro ms f h
    apply filterMap_flatMap_none
    intro m _
    apply List.filterMap_eq_nil_iff.2
    intro t ht
    simp [rightSourceOf, h m t ht]
  have h1 : (if o.useVel = true then velTerms (tMin (w .pose)) (tMax (w .pose)) (w .vel) else []).filterMap
      (rightSourceOf k) = [] := by
    split_ifs
    · exact hz _ _ (by intro m t ht; split_ifs at ht <;> simp_all [rightSource])
    · rfl
  have h2 : (if o.usePose = true then poseTerms (w .pose) else []).filterMap (rightSourceOf k) = [] := by
    split_ifs
    · apply List.filterMap_eq_nil_iff.2
      intro t ht
      obtain ⟨m, _, rfl⟩ := List.mem_map.1 ht
      rfl
    · rfl
  have h3 : (dmiTerms o (tMin (w .pose)) (tMax (w .pose)) (env.delay e .dmi) (w .dmi)).filterMap (rightSourceOf k) = [] :=
    hz _ _ (by intro m t ht; split_ifs at ht <;> simp_all [rightSource])
  have h4 : (steerTerms o (tMin (w .pose)) (tMax (w .pose)) (env.delay e .steer) (env.axleSpeed e (w .pose))
      (w .steer)).filterMap (rightSourceOf k) = [] :=
    hz _ _ (by intro m t ht; split_ifs at ht <;> simp_all [rightSource])
  unfold frontTerms rearTerms
  rw [h1, h2, h3, h4, hf, hr]
  rcases hk with rfl | rfl <;> simp

end

/-- what a successful submission hands to the estimator. -/
theorem addMeasurements_batch {env : CarEnv E G P} {o : CarOpt} {s s' : CarCal E G P}
    (h : s.addMeasurements env o = .ok () s') (h2 : 2 ≤ (s.buf .pose).length) :
    ∃ b g, env.addBatch s.est b = .ok g s'.est ∧ b.poses = s.buf .pose ∧
      numSegments o.knots (s.buf .pose) = some b.segments ∧ b.terms = buildTerms env o s.est s.buf := by
  unfold addMeasurements at h
  rw [if_neg (by omega)] at h
  cases hs : numSegments o.knots (s.buf .pose) with
  | none => rw [hs] at h; simp at h
  | some segs =>
    rw [hs] at h
    simp only at h
    split at h
    · simp at h
    · split at h <;> simp only [Res.ok.injEq, true_and, reduceCtorEq] at h
      rename_i g e' hb
      subst h
      exact ⟨_, g, hb, rfl, rfl, rfl⟩

/-- **C58**: the batch handed to the estimator is built on all buffered poses; for every sensor it has exactly one error term
(for wheel pairs one left and one right term) per buffered measurement that fits the time span of the poses (with the delay
bound) and passes the sensor's gate, in order of arrival, and none for any other measurement. -/
theorem C58_batch_uses_exactly_the_admissible {env : CarEnv E G P} {o : CarOpt} {e : E} {s s' : CarCal E G P}
    {acc : List Meas} {gone : List Window} (hr : Run env o e s acc gone)
    (h : s.addMeasurements env o = .ok () s') (h2 : 2 ≤ (s.buf .pose).length) :
    ∃ b g, env.addBatch s.est b = .ok g s'.est ∧ b.poses = s.buf .pose ∧
      (∀ k, b.terms.filterMap (sourceOf k) = (s.buf k).filter fun m => decide (Used env o s.est s.buf m)) ∧
      (∀ k, k = .front ∨ k = .rear →
        b.terms.filterMap (rightSourceOf k) = (s.buf k).filter fun m => decide (Used env o s.est s.buf m)) := by
  obtain ⟨b, g, hb, hp, _, ht⟩ := addMeasurements_batch h h2
  have hw := (C58_buffers_by_sensor hr).1
  refine ⟨b, g, hb, hp, fun k => ?_, fun k hk => ?_⟩
  · rw [ht]; exact build_source env o s.est s.buf hw k
  · rw [ht]; exact build_right env o s.est s.buf hw k hk

/-! ### C59: values and weights -/

/-- **C59** (partial): every wheel term carries the speed of its own side and the variance configured for DMI respectively
for that front wheel; rear wheel terms carry the variance of the *front* wheel of the same side (the full property, the rear
wheel variances, is false: `C59_rear_variance_ignored`). -/
theorem C59_wheel_weights_partial (env : CarEnv E G P) (o : CarOpt) (e : E) (w : Window) (hw : Sorted w) (m : Meas)
    (right : Bool) (value var : ℚ) (flag : Bool) (h : CarTerm.wheel m right value var flag ∈ buildTerms env o e w) :
    value = (if right then m.r else m.l) ∧ (flag = true ↔ m.kind = .front) ∧
    ((m.kind = .dmi ∧ right = false ∧ var = o.dmiVar) ∨
     ((m.kind = .front ∨ m.kind = .rear) ∧ var = if right then o.frwVar else o.flwVar)) := by
  unfold buildTerms at h
  simp only [List.mem_append] at h
  rcases h with ((((h | h) | h) | h) | h) | h
  · split_ifs at h
    · obtain ⟨x, hx, ht⟩ := List.mem_flatMap.1 h
      split_ifs at ht <;> simp at ht
    · cases h
  · split_ifs at h
    · obtain ⟨x, hx, ht⟩ := List.mem_map.1 h
      cases ht
    · cases h
  · obtain ⟨x, hx, ht⟩ := List.mem_flatMap.1 h
    have hk := hw _ _ hx
    split_ifs at ht
    · simp only [List.mem_singleton, CarTerm.wheel.injEq] at ht
      obtain ⟨rfl, rfl, rfl, rfl, rfl⟩ := ht
      simp [hk]
    · cases ht
  · obtain ⟨x, hx, ht⟩ := List.mem_flatMap.1 h
    have hk := hw _ _ hx
    split_ifs at ht <;> simp only [List.mem_cons, List.not_mem_nil, or_false, CarTerm.wheel.injEq] at ht
    rcases ht with ⟨rfl, rfl, rfl, rfl, rfl⟩ | ⟨rfl, rfl, rfl, rfl, rfl⟩ <;> simp [hk]
  · obtain ⟨x, hx, ht⟩ := List.mem_flatMap.1 h
    have hk := hw _ _ hx
    split_ifs at ht <;> simp only [List.mem_cons, List.not_mem_nil, or_false, CarTerm.wheel.injEq] at ht
    rcases ht with ⟨rfl, rfl, rfl, rfl, rfl⟩ | ⟨rfl, rfl, rfl, rfl, rfl⟩ <;> simp [hk]
  · obtain ⟨x, hx, ht⟩ := List.mem_flatMap.1 h
    split_ifs at ht <;> simp at ht

/-- **C59** (negation): the rear wheel variances of the configuration have no influence on any batch. -/
theorem C59_rear_variance_ignored (env : CarEnv E G P) (o : CarOpt) (e : E) (w : Window) (a b : ℚ) :
    buildTerms env { o with rlwVar := a, rrwVar := b } e w = buildTerms env o e w := rfl

/-- the demonstration window: two poses and a rear wheel measurement between them. -/
def demoWindow : Window := push (push (push (fun _ => []) (demoPose 0)) (demoRear 5)) (demoPose 9)

/-- concrete instance: the rear wheel measurement is used with the front variance although the rear variance is different. -/
example : CarTerm.wheel (demoRear 5) false 400 (1 / 1000000) false ∈ buildTerms demoEnv demoOpt 0 demoWindow ∧
    demoOpt.rlwVar = 1 / 100 ∧ Used demoEnv demoOpt 0 demoWindow (demoRear 5) := by decide +kernel

/-! ### C60: spline segments -/

theorem roundQ_le {x : ℚ} (hx : 0 ≤ x) : ((roundQ x : Int) : ℚ) ≤ x + 1 / 2 := by
  rw [roundQ, if_pos hx]; exact Int.floor_le _

/-- **C60** (partial): if the last pose is later than the first one and the number of knots per second is positive, then a
submission uses at least one and at most as many spline segments as there are poses.  Missing: with coinciding time stamps
the call is undefined behaviour (`C60_equal_times_undefined`). -/
theorem C60_segments_partial {knots : Int} {poses : List Meas} {n : Int} (hk : 1 ≤ knots) (ht : tMin poses < tMax poses)
    (h : numSegments knots poses = some n) : 1 ≤ n ∧ n ≤ poses.length := by
  unfold numSegments at h
  split_ifs at h with h1 h2
  have hlen : 1 ≤ poses.length := List.length_pos_of_ne_nil h1
  have hel : 0 < elapsed poses := by
    unfold elapsed
    apply div_pos _ (by norm_num)
    have : (0 : Int) < tMax poses - tMin poses := by omega
    exact_mod_cast this
  split at h
  · cases h
  · rename_i rate hr
    have hrate : rate = roundQ ((poses.length : ℚ) / elapsed poses) := by
      unfold toInt32 at hr; split_ifs at hr; exact (Option.some.inj hr).symm
    split_ifs at h with h3
    · unfold toInt32 at h
      split_ifs at h
      obtain rfl := Option.some.inj h
      have hkq : (1 : ℚ) ≤ knots := by exact_mod_cast hk
      constructor
      · rw [Int.one_le_ceil_iff]; positivity
      · rw [Int.ceil_le]
        have hx := roundQ_le (x := (poses.length : ℚ) / elapsed poses) (by positivity)
        rw [← hrate] at hx
        have h4 : (knots : ℚ) + 1 ≤ rate := by exact_mod_cast h3
        have h5 : (knots : ℚ) ≤ (poses.length : ℚ) / elapsed poses := by linarith
        rw [le_div_iff₀ hel] at h5
        exact_mod_cast h5
    · obtain rfl := Option.some.inj h
      exact ⟨by exact_mod_cast hlen, le_refl _⟩

/-- **C60**: the number of spline segments, exactly.  With `n` poses over `T ≠ 0` seconds and `rate` the integer nearest to
`n / T`: if `rate` is at most the configured number of knots per second, there are `n` segments, otherwise `⌈knots * T⌉`;
building the splines is undefined exactly if a number does not fit an `int`. -/
theorem C60_segments_exact {knots : Int} {first last : Meas} {poses : List Meas} (hf : poses.head? = some first)
    (hl : poses.getLast? = some last) (hne : first.t ≠ last.t) {T : ℚ} (hT : T = ((last.t - first.t : Int) : ℚ) / 10 ^ 9)
    {rate : Int} (hr : NearestAway ((poses.length : ℚ) / T) rate) :
    (¬ FitsInt32 rate → numSegments knots poses = none) ∧
    (FitsInt32 rate → rate ≤ knots → numSegments knots poses = some (poses.length : Int)) ∧
    (FitsInt32 rate → knots < rate → FitsInt32 ⌈(knots : ℚ) * T⌉ → numSegments knots poses = some ⌈(knots : ℚ) * T⌉) ∧
    (FitsInt32 rate → knots < rate → ¬ FitsInt32 ⌈(knots : ℚ) * T⌉ → numSegments knots poses = none) := by
  have hel : elapsed poses = T := by
    rw [hT, elapsed, tMin, tMax, hf, hl]; norm_num
  have hT0 : T ≠ 0 := by
    rw [hT]
    refine div_ne_zero ?_ (by norm_num)
    exact_mod_cast fun h => hne (by omega)
  have hp : poses ≠ [] := by rintro rfl; cases hf
  have hround : roundQ ((poses.length : ℚ) / T) = rate := (nearestAway_round _).unique hr
  have hi : ∀ x : Int, (FitsInt32 x → toInt32 x = some x) ∧ (¬ FitsInt32 x → toInt32 x = none) := fun x =>
    ⟨fun h => by unfold toInt32; exact if_pos h, fun h => by unfold toInt32; exact if_neg h⟩
  unfold numSegments
  rw [if_neg hp, hel, if_neg hT0, hround]
  refine ⟨fun h => by rw [(hi _).2 h], fun h h1 => ?_, fun h h1 h2 => ?_, fun h h1 h2 => ?_⟩
  · rw [(hi _).1 h]; exact if_neg (by omega)
  · rw [(hi _).1 h]; simp only; rw [if_pos h1, (hi _).1 h2]
  · rw [(hi _).1 h]; simp only; rw [if_pos h1, (hi _).2 h2]

/-- non-vacuity: two poses ten nanoseconds apart are 200 million poses per second; one nanosecond apart they are 2 * 10^9, which
fits, and three are 3 * 10^9, which does not. -/
example : NearestAway ((2 : ℚ) / (1 / 10 ^ 9)) 2000000000 ∧ FitsInt32 2000000000 ∧ ¬ FitsInt32 3000000000 ∧
    numSegments 1 [⟨.pose, 0, 0, 0, 0⟩, ⟨.pose, 1, 0, 0, 0⟩] = some 1 ∧
    numSegments 1 [⟨.pose, 0, 0, 0, 0⟩, ⟨.pose, 0, 0, 0, 0⟩, ⟨.pose, 1, 0, 0, 0⟩] = none := by
  refine ⟨by norm_num [NearestAway], by norm_num [FitsInt32], by norm_num [FitsInt32], ?_, ?_⟩ <;> decide +kernel

/-- **C60** (negation): submitting a window whose first and last pose have the same time stamp is undefined behaviour (the
pose rate is infinite and is converted to an integer). -/
theorem C60_equal_times_undefined (env : CarEnv E G P) (o : CarOpt) (s : CarCal E G P) (h2 : 2 ≤ (s.buf .pose).length)
    (ht : tMin (s.buf .pose) = tMax (s.buf .pose)) : s.addMeasurements env o = .ub := by
  unfold addMeasurements
  rw [if_neg (by omega)]
  have : numSegments o.knots (s.buf .pose) = none := by
    unfold numSegments
    by_cases h : s.buf .pose = []
    · rw [if_pos h]
    · rw [if_neg h, if_pos (by simp [elapsed, ht])]
  rw [this]

/-- the same from the public interface: two poses with one time stamp and a later measurement. -/
example : runOps demoEnv demoOpt (init demoEnv 0) [.add (demoPose 3), .add (demoPose 3), .add (demoRear 13)] = .ub := by
  have : ∀ r : Res (CarCal Nat Nat Nat) Unit, (match r with | .ub => true | _ => false) = true → r = .ub := by
    intro r h; cases r <;> simp_all
  exact this _ (by decide +kernel)

/-- concrete instance for the number of segments: 9 s at 5 knots per second with many poses, and with few. -/
example : numSegments 5 ((List.range 91).map fun i => ⟨.pose, (i : Int) * 100000000, 0, 0, 0⟩) = some 45 ∧
    numSegments 5 [demoPose 0, demoPose 9] = some 2 := by decide +kernel

end CarCal
end Verif
