import Verif.Model.TDMain
import Verif.Props.SimTD
import Verif.Props.TimeDelay

/-! Property C115: the simulation program of the time delay example. -/

namespace Verif
namespace SimTD
open Win
variable {E G P V : Type}

/-! ### Specification -/

/-- the measurements of a sensor that the simulation has produced, as the calibrator gets them. -/
def simulated (val : ℝ → ℚ) (d : Data) : TD.Sensor → List TD.Meas
  | .right => d.rwData_n.map fun x => ⟨.right, x.1, val x.2, 0⟩
  | .left => d.lwData_n.map fun x => ⟨.left, x.1, val x.2, 0⟩
  | .pose => d.poseData_n.zipIdx.map fun x => ⟨.pose, x.1.1, 0, x.2⟩

/-! ### Lemmas -/

/-- the order of submission. -/
def order (f : ℕ → TD.Sensor → TD.Meas) (l : List ℕ) : List TD.Meas := l.flatMap fun i => [f i .right, f i .left, f i .pose]

theorem feed_eq (cenv : TD.Env E G P V) (o : TD.Opt) (val : ℝ → ℚ) (d : Data) (f : ℕ → TD.Sensor → TD.Meas) (l : List ℕ)
    (hr : ∀ i ∈ l, (d.rwData_n[i]?).map (rightMeas val) = some (f i .right))
    (hl : ∀ i ∈ l, (d.lwData_n[i]?).map (leftMeas val) = some (f i .left))
    (hp : ∀ i ∈ l, (d.poseData_n[i]?).map (poseMeas i) = some (f i .pose)) :
    ∀ s, feed cenv o val d l s = runOps (TD.cfg cenv o) s ((order f l).map Op.add) := by
  induction l with
  | nil => intro s; rfl
  | cons i l ih =>
    intro s
    obtain ⟨rw, h1, h1'⟩ := Option.map_eq_some_iff.1 (hr i List.mem_cons_self)
    obtain ⟨lw, h2, h2'⟩ := Option.map_eq_some_iff.1 (hl i List.mem_cons_self)
    obtain ⟨ps, h3, h3'⟩ := Option.map_eq_some_iff.1 (hp i List.mem_cons_self)
    have ih' := ih (fun j hj => hr j (List.mem_cons_of_mem _ hj)) (fun j hj => hl j (List.mem_cons_of_mem _ hj))
      (fun j hj => hp j (List.mem_cons_of_mem _ hj))
    simp only [feed, h1, h2, h3, h1', h2', h3', order, List.flatMap_cons, List.cons_append, List.nil_append, List.map_cons, runOps,
      Op.run]
    congr 1; funext _ s1
    congr 1; funext _ s2
    congr 1; funext _ s3
    exact ih' s3

/-- after any number of additions the buffers hold the end of the stream. -/
theorem tail_of_stream {c : WinCfg TD.Sensor TD.Meas E TD.Batch G P} (l : List TD.Meas) :
    ∀ (acc : List TD.Meas) (s s' : Win TD.Sensor TD.Meas E G P), (∃ j, ∀ k, s.buf k = ofSensor c k (acc.drop j)) →
      runOps c s (l.map Op.add) = .ok () s' → ∃ j, ∀ k, s'.buf k = ofSensor c k ((acc ++ l).drop j) := by
  induction l with
  | nil =>
    intro acc s s' h hr
    simp only [List.map_nil, runOps, Res.ok.injEq, true_and] at hr
    subst hr
    simpa using h
  | cons m l ih =>
    rintro acc s s' ⟨j, hj⟩ hr
    simp only [List.map_cons, runOps, Op.run] at hr
    cases ha : s.add c m with
    | throw x s1 => rw [ha] at hr; simp [Res.bind] at hr
    | ub => rw [ha] at hr; simp [Res.bind] at hr
    | diverge => rw [ha] at hr; simp [Res.bind] at hr
    | ok a s1 =>
      rw [ha] at hr
      have := ih (acc ++ [m]) s1 s' ?_ hr
      · simpa using this
      · rcases trigger ha with ⟨-, h1, h2⟩ | ⟨-, -, h1, h2⟩
        · refine ⟨min j acc.length, fun k => ?_⟩
          have hd : acc.drop (min j acc.length) = acc.drop j := by
            rcases le_total j acc.length with h | h
            · rw [min_eq_left h]
            · rw [min_eq_right h, List.drop_of_length_le h, List.drop_of_length_le le_rfl]
          rw [List.drop_append_of_le_length (min_le_right _ _), hd]
          by_cases hk : k = c.kind m
          · subst hk
            rw [h1, hj]; simp [ofSensor]
          · rw [h2 k hk, hj]
            simp [ofSensor, Ne.symm hk]
        · refine ⟨acc.length, fun k => ?_⟩
          rw [List.drop_left]
          by_cases hk : k = c.kind m
          · subst hk; rw [h1]; simp [ofSensor]
          · rw [h2 k hk]; simp [ofSensor, Ne.symm hk]

/-- in the order of submission every measurement is followed by the pose of its step. -/
theorem order_tail {f : ℕ → TD.Sensor → TD.Meas} (hf : ∀ i k, (f i k).kind = k) (l : List ℕ) (k : TD.Sensor) :
    ∀ j, (((order f l).drop j).filter fun m => decide (m.kind = k)).length ≤
      (((order f l).drop j).filter fun m => decide (m.kind = .pose)).length := by
  induction l with
  | nil => intro j; simp [order]
  | cons i l ih =>
    intro j
    have h0 := ih 0
    rw [List.drop_zero] at h0
    have e : order f (i :: l) = f i .right :: f i .left :: f i .pose :: order f l := rfl
    rw [e]
    match j with
    | 0 => cases k <;> simp [List.filter_cons, hf] <;> omega
    | 1 => cases k <;> simp [List.filter_cons, hf] <;> omega
    | 2 => cases k <;> simp [List.filter_cons, hf] <;> omega
    | j + 3 => simpa using ih j

theorem order_sensor {f : ℕ → TD.Sensor → TD.Meas} (hf : ∀ i k, (f i k).kind = k) (l : List ℕ) (k : TD.Sensor) :
    (order f l).filter (fun m => decide (m.kind = k)) = l.map fun i => f i k := by
  induction l with
  | nil => rfl
  | cons i l ih =>
    have e : order f (i :: l) = f i .right :: f i .left :: f i .pose :: order f l := rfl
    rw [e]
    cases k <;> simp [List.filter_cons, hf, ih]

/-- the measurement of a sensor in a step. -/
noncomputable def measAt (val : ℝ → ℚ) (d : Data) (i : ℕ) : TD.Sensor → TD.Meas
  | .right => match d.rwData_n[i]? with | some x => rightMeas val x | none => ⟨.right, 0, 0, 0⟩
  | .left => match d.lwData_n[i]? with | some x => leftMeas val x | none => ⟨.left, 0, 0, 0⟩
  | .pose => match d.poseData_n[i]? with | some x => poseMeas i x | none => ⟨.pose, 0, 0, 0⟩

theorem measAt_kind (val : ℝ → ℚ) (d : Data) (i : ℕ) (k : TD.Sensor) : (measAt val d i k).kind = k := by
  cases k <;> simp only [measAt] <;> split <;> rfl

theorem simulated_eq (val : ℝ → ℚ) (d : Data) (n : ℕ) (hr : d.rwData_n.length = n) (hl : d.lwData_n.length = n)
    (hp : d.poseData_n.length = n) (k : TD.Sensor) : simulated val d k = (List.range n).map fun i => measAt val d i k := by
  apply List.ext_getElem?
  intro i
  cases k
  · by_cases hi : i < n
    · simp [simulated, measAt, List.getElem?_range, hi, hp, List.getElem?_zipIdx, poseMeas]
    · simp [simulated, List.getElem?_range, hi, hp, List.getElem?_zipIdx]
  · by_cases hi : i < n
    · simp [simulated, measAt, List.getElem?_range, hi, hl, leftMeas]
    · simp [simulated, List.getElem?_range, hi, hl]
  · by_cases hi : i < n
    · simp [simulated, measAt, List.getElem?_range, hi, hr, rightMeas]
    · simp [simulated, List.getElem?_range, hi, hr]

/-- the data of a simulation. -/
theorem simulate_new (env : Env) (p : Params) (hv : p.Valid) (hd : 0 < p.dt) : ∃ (n : ℕ) (d : Data), p.Steps n ∧
    simulate env p .empty = .ok () d ∧ d.rwData_n.length = n ∧ d.lwData_n.length = n ∧ d.poseData_n.length = n ∧
    (∀ i < n, (d.rwData_n[i]?).map Prod.fst = some ((i : ℤ) * env.ns p.dt + env.ns p.t_r)) ∧
    (∀ i < n, (d.lwData_n[i]?).map Prod.fst = some ((i : ℤ) * env.ns p.dt + env.ns p.t_l)) ∧
    (∀ i < n, (d.poseData_n[i]?).map Prod.fst = some ((i : ℤ) * env.ns p.dt + env.ns (p.dt * 0.5))) := by
  obtain ⟨n, Q, hn, -, e⟩ := C86_simulated_data env p hv hd .empty
  refine ⟨n, _, hn, e, ?_, ?_, ?_, ?_, ?_, ?_⟩
  · simp [Data.empty]
  · simp [Data.empty]
  · simp [Data.empty]
  all_goals
    intro i hi
    simp [Data.empty, List.getElem?_range, hi]

/-- the program, once the simulation has returned. -/
theorem main_eq {env : Env} {p : Params} (cenv : TD.Env E G P V) (o : TD.Opt) (val : ℝ → ℚ) (e : E) {d : Data} {n : ℕ}
    (hsim : simulate env p .empty = .ok () d) (hr : d.rwData_n.length = n) (hl : d.lwData_n.length = n)
    (hp : d.poseData_n.length = n) :
    main env p cenv o val e =
      (runOps (TD.cfg cenv o) (Win.init (TD.cfg cenv o) e) ((order (measAt val d) (List.range n)).map Op.add)).bind fun _ s =>
        if TD.unprocessed s then s.addMeasurements (TD.cfg cenv o) else .ok () s := by
  unfold main
  rw [hsim]
  simp only
  rw [feed_eq cenv o val d (measAt val d), hr]
  all_goals
    intro i hi
    rw [hr, List.mem_range] at hi
    simp [measAt, hr, hl, hp, hi]

/-! ### The program -/

/-- **C115**, partial: if the program returns, every simulated noisy measurement was submitted to the estimator, sensor by sensor in
the order of simulation, in windows with at least two poses, except at most the measurements of the very last step, which are
silently dropped; there is one information gain per window.  Missing: the last step, see `C115_single_step`. -/
theorem C115_end_to_end_partial {env : Env} {p : Params} {cenv : TD.Env E G P V} {o : TD.Opt} {val : ℝ → ℚ} {e : E}
    {s : TD.Cal E G P} (hv : p.Valid) (hd : 0 < p.dt) (h : main env p cenv o val e = .ok () s) :
    ∃ (n : ℕ) (d : Data), p.Steps n ∧ simulate env p .empty = .ok () d ∧
      (∀ k, (simulated val d k).length = n) ∧
      (∀ k, (s.sent.map fun w => w k).flatten ++ s.buf k = simulated val d k) ∧
      (∀ k, (s.buf k).length ≤ 1) ∧ (∀ w ∈ s.sent, 2 ≤ (w .pose).length) ∧ s.gains.length = s.sent.length := by
  obtain ⟨n, d, hn, hsim, hr, hl, hp, -⟩ := simulate_new env p hv hd
  refine ⟨n, d, hn, hsim, fun k => by simp [simulated_eq val d n hr hl hp], ?_⟩
  rw [main_eq cenv o val e hsim hr hl hp] at h
  cases hrun : runOps (TD.cfg cenv o) (Win.init (TD.cfg cenv o) e) ((order (measAt val d) (List.range n)).map Op.add) with
  | throw x s1 => rw [hrun] at h; simp [Res.bind] at h
  | ub => rw [hrun] at h; simp [Res.bind] at h
  | diverge => rw [hrun] at h; simp [Res.bind] at h
  | ok a s1 =>
    rw [hrun] at h
    simp only [Res.bind] at h
    have hnc : NoClear ((order (measAt val d) (List.range n)).map Op.add) := by
      intro op hop
      obtain ⟨m, _, rfl⟩ := List.mem_map.mp hop
      trivial
    have hadd : added ((order (measAt val d) (List.range n)).map Op.add) = order (measAt val d) (List.range n) := by
      unfold added
      rw [List.filterMap_map]
      simp
    have hstr : ∀ k, (s1.sent.map fun w => w k).flatten ++ s1.buf k = simulated val d k := by
      intro k
      rw [TD.C69_stream hnc hrun k, hadd, order_sensor (measAt_kind val d), simulated_eq val d n hr hl hp]
    obtain ⟨j, hj⟩ := tail_of_stream (order (measAt val d) (List.range n)) [] _ s1 ⟨0, fun k => rfl⟩ hrun
    rw [List.nil_append] at hj
    have htail : ∀ k, (s1.buf k).length ≤ (s1.buf .pose).length := by
      intro k
      rw [hj k, hj .pose]
      exact order_tail (measAt_kind val d) (List.range n) k j
    have hsent : ∀ (l : List TD.Meas) (a b : TD.Cal E G P), runOps (TD.cfg cenv o) a (l.map Op.add) = .ok () b →
        (∀ w ∈ a.sent, 2 ≤ (w .pose).length) → ∀ w ∈ b.sent, 2 ≤ (w .pose).length := by
      intro l
      induction l with
      | nil => intro a b hab ha; simp only [List.map_nil, runOps, Res.ok.injEq, true_and] at hab; subst hab; exact ha
      | cons m l ih =>
        intro a b hab ha
        simp only [List.map_cons, runOps, Op.run] at hab
        cases hm : a.add (TD.cfg cenv o) m with
        | throw x s1 => rw [hm] at hab; simp [Res.bind] at hab
        | ub => rw [hm] at hab; simp [Res.bind] at hab
        | diverge => rw [hm] at hab; simp [Res.bind] at hab
        | ok u a1 =>
          rw [hm] at hab
          refine ih a1 b hab ?_
          rcases trigger hm with ⟨h1, -⟩ | ⟨h1, h2, -⟩
          · rw [h1]; exact ha
          · rw [h1]
            intro w hw
            rcases List.mem_append.1 hw with hw | hw
            · exact ha w hw
            · rw [List.mem_singleton] at hw
              subst hw
              have : TD.ready a.buf = true := h2
              simp only [TD.ready, Bool.not_eq_true', decide_eq_false_iff_not] at this
              omega
    have hs1 := hsent _ _ _ hrun (by simp [Win.init])
    have hg1 := (TD.C69_histories_aligned hrun).1
    split at h
    · rcases addMeasurements_ok h with ⟨rfl, h1⟩ | ⟨h1, h2, -, -, h3, g, h4, -⟩
      · have : (s.buf .pose).length < 2 := by
          have : TD.ready s.buf = false := h1
          simpa only [TD.ready, Bool.not_eq_false', decide_eq_true_eq] using this
        exact ⟨hstr, fun k => (htail k).trans (by omega), hs1, hg1⟩
      · refine ⟨fun k => ?_, fun k => by rw [h2]; simp, ?_, by rw [h4, h3]; simp [hg1]⟩
        · rw [h3, h2, ← hstr k]; simp
        · rw [h3]
          intro w hw
          rcases List.mem_append.1 hw with hw | hw
          · exact hs1 w hw
          · rw [List.mem_singleton] at hw
            subst hw
            have : TD.ready s1.buf = true := h1
            simp only [TD.ready, Bool.not_eq_true', decide_eq_false_iff_not] at this
            omega
    · rename_i hu
      simp only [Res.ok.injEq, true_and] at h
      subst h
      have hb : ∀ k, s1.buf k = [] := by
        intro k
        by_contra hc
        exact hu ((TD.C69_unprocessed s1).2 ⟨k, hc⟩)
      exact ⟨hstr, fun k => by rw [hb k]; simp, hs1, hg1⟩

/-! ### Runs that submit at most once -/

/-- measurements that fit one window, or among which there are less than two poses, are only collected. -/
theorem collect {cenv : TD.Env E G P V} {o : TD.Opt} (l0 : List TD.Meas)
    (hw : ∀ a ∈ l0, ∀ b ∈ l0, FitsInt64 (a.t - b.t) ∧
      (cenv.sec (a.t - b.t) < o.window ∨ (l0.filter fun m => decide (m.kind = .pose)).length < 2)) (l : List TD.Meas) :
    ∀ s : TD.Cal E G P, (∀ m ∈ l, m ∈ l0) → (s.start = -1 ∨ ∃ b ∈ l0, s.start = b.t) →
      (s.buf .pose).length + (l.filter fun m => decide (m.kind = .pose)).length ≤
        (l0.filter fun m => decide (m.kind = .pose)).length →
      ∃ s', runOps (TD.cfg cenv o) s (l.map Op.add) = .ok () s' ∧ s'.sent = s.sent ∧ s'.est = s.est ∧ s'.gains = s.gains := by
  induction l with
  | nil => intro s _ _ _; exact ⟨s, rfl, rfl, rfl, rfl⟩
  | cons m l ih =>
    intro s hl hs hc
    have hm : m ∈ l0 := hl m List.mem_cons_self
    have hst : ∃ b ∈ l0, (s.stamped m.t).start = b.t := by
      unfold Win.stamped
      simp only
      split_ifs with h
      · exact ⟨m, hm, rfl⟩
      · exact hs.resolve_left h
    obtain ⟨b, hb, hbt⟩ := hst
    obtain ⟨h1, h2⟩ := hw m hm b hb
    have hcount : (s.buf .pose).length + ((m :: l).filter fun m => decide (m.kind = .pose)).length =
        (push (TD.cfg cenv o) s.buf m .pose).length + (l.filter fun m => decide (m.kind = .pose)).length := by
      by_cases hk : m.kind = .pose
      · simp [push, TD.cfg, hk]; omega
      · simp [push, TD.cfg, hk, Ne.symm hk]
    have hadd : s.add (TD.cfg cenv o) m = .ok () { s.stamped m.t with buf := push (TD.cfg cenv o) s.buf m } := by
      unfold Win.add
      have e1 : (TD.cfg cenv o).time m = m.t := rfl
      rw [e1, addMeasurement_eq, hbt, if_neg (by unfold FitsInt64 at h1; omega)]
      by_cases hsec : cenv.sec (m.t - b.t) < o.window
      · rw [if_neg (show ¬ (TD.cfg cenv o).sec (m.t - b.t) ≥ (TD.cfg cenv o).window from not_le.mpr hsec)]
        rfl
      · have h3 := h2.resolve_left hsec
        have hnr : TD.ready s.buf = false := by
          simp only [TD.ready, Bool.not_eq_false', decide_eq_true_eq]
          have := Nat.le_add_right (s.buf .pose).length ((m :: l).filter fun m => decide (m.kind = .pose)).length
          omega
        rw [if_pos (show (TD.cfg cenv o).sec (m.t - b.t) ≥ (TD.cfg cenv o).window from not_lt.mp hsec)]
        unfold addMeasurements
        rw [if_pos (show (TD.cfg cenv o).ready (s.stamped m.t).buf = false from hnr)]
        rfl
    obtain ⟨s', r1, r2, r3, r4⟩ := ih { s.stamped m.t with buf := push (TD.cfg cenv o) s.buf m }
      (fun x hx => hl x (List.mem_cons_of_mem _ hx)) (Or.inr ⟨b, hb, hbt⟩) (by
        show (push (TD.cfg cenv o) s.buf m .pose).length + _ ≤ _
        rw [← hcount]; exact hc)
    refine ⟨s', ?_, r2, r3, r4⟩
    simp only [List.map_cons, runOps, Op.run]
    rw [hadd]
    exact r1

theorem measAt_time {env : Env} {p : Params} {val : ℝ → ℚ} {d : Data} {n : ℕ}
    (h1 : ∀ i < n, (d.rwData_n[i]?).map Prod.fst = some ((i : ℤ) * env.ns p.dt + env.ns p.t_r))
    (h2 : ∀ i < n, (d.lwData_n[i]?).map Prod.fst = some ((i : ℤ) * env.ns p.dt + env.ns p.t_l))
    (h3 : ∀ i < n, (d.poseData_n[i]?).map Prod.fst = some ((i : ℤ) * env.ns p.dt + env.ns (p.dt * 0.5)))
    {m : TD.Meas} (hm : m ∈ order (measAt val d) (List.range n)) :
    ∃ i < n, ∃ c ∈ [p.t_r, p.t_l, p.dt * 0.5], m.t = (i : ℤ) * env.ns p.dt + env.ns c := by
  obtain ⟨i, hi, hm⟩ := List.mem_flatMap.mp hm
  rw [List.mem_range] at hi
  refine ⟨i, hi, ?_⟩
  simp only [List.mem_cons, List.not_mem_nil, or_false] at hm
  rcases hm with rfl | rfl | rfl
  · obtain ⟨x, hx, hx'⟩ := Option.map_eq_some_iff.1 (h1 i hi)
    exact ⟨p.t_r, by simp, by simp [measAt, hx, rightMeas, hx']⟩
  · obtain ⟨x, hx, hx'⟩ := Option.map_eq_some_iff.1 (h2 i hi)
    exact ⟨p.t_l, by simp, by simp [measAt, hx, leftMeas, hx']⟩
  · obtain ⟨x, hx, hx'⟩ := Option.map_eq_some_iff.1 (h3 i hi)
    exact ⟨p.dt * 0.5, by simp, by simp [measAt, hx, poseMeas, hx']⟩

theorem stream_of {cenv : TD.Env E G P V} {o : TD.Opt} {e : E} {val : ℝ → ℚ} {d : Data} {n : ℕ} {s : TD.Cal E G P}
    (hrun : runOps (TD.cfg cenv o) (Win.init (TD.cfg cenv o) e) ((order (measAt val d) (List.range n)).map Op.add) = .ok () s)
    (k : TD.Sensor) : (s.sent.map fun w => w k).flatten ++ s.buf k = (List.range n).map fun i => measAt val d i k := by
  have hnc : NoClear ((order (measAt val d) (List.range n)).map Op.add) := by
    intro op hop
    obtain ⟨m, _, rfl⟩ := List.mem_map.mp hop
    trivial
  have hadd : added ((order (measAt val d) (List.range n)).map Op.add) = order (measAt val d) (List.range n) := by
    unfold added
    rw [List.filterMap_map]
    simp
  rw [TD.C69_stream hnc hrun k, hadd, order_sensor (measAt_kind val d)]

/-- **C115** (negation): a simulation of a single step returns without having submitted anything: its measurements stay in the
buffers, and nothing tells the user. -/
theorem C115_single_step {env : Env} {p : Params} (cenv : TD.Env E G P V) (o : TD.Opt) (val : ℝ → ℚ) (e : E)
    (hv : p.Valid) (hd : 0 < p.dt) (h1 : p.dt < p.T) (h2 : p.T ≤ 2 * p.dt)
    (hfit : ∀ a ∈ [p.t_r, p.t_l, p.dt * 0.5], ∀ b ∈ [p.t_r, p.t_l, p.dt * 0.5], FitsInt64 (env.ns a - env.ns b)) :
    ∃ s, main env p cenv o val e = .ok () s ∧ s.sent = [] ∧ s.gains = [] ∧ s.est = e ∧ ∀ k, (s.buf k).length = 1 := by
  obtain ⟨n, d, hn, hsim, hr, hl, hp, g1, g2, g3⟩ := simulate_new env p hv hd
  have hn1 : n = 1 := by
    have a := (hn 1 le_rfl).1 (by simpa using h1)
    have b : ¬ 2 ≤ n := fun hc => absurd ((hn 2 (by norm_num)).2 hc) (by push_cast; linarith)
    omega
  subst hn1
  have hcnt : ((order (measAt val d) (List.range 1)).filter fun m => decide (m.kind = .pose)).length = 1 := by
    rw [order_sensor (measAt_kind val d)]; simp
  obtain ⟨s, hrun, hs, he, hg⟩ := collect (cenv := cenv) (o := o) (order (measAt val d) (List.range 1)) (by
      intro a ha b hb
      obtain ⟨i, hi, c, hc, ea⟩ := measAt_time g1 g2 g3 ha
      obtain ⟨j, hj, c', hc', eb⟩ := measAt_time g1 g2 g3 hb
      refine ⟨?_, Or.inr (by rw [hcnt]; norm_num)⟩
      have hi0 : i = 0 := by omega
      have hj0 : j = 0 := by omega
      subst hi0; subst hj0
      rw [ea, eb]
      simpa using hfit c hc c' hc') (order (measAt val d) (List.range 1)) (Win.init (TD.cfg cenv o) e) (fun _ h => h) (Or.inl rfl)
      (by simp [Win.init])
  have hs' : s.sent = [] := hs
  have hbuf : ∀ k, (s.buf k).length = 1 := by
    intro k
    have := stream_of hrun k
    rw [hs'] at this
    simp only [List.map_nil, List.flatten_nil, List.nil_append] at this
    rw [this]; simp
  refine ⟨s, ?_, hs', hg, he, hbuf⟩
  rw [main_eq cenv o val e hsim hr hl hp, hrun]
  simp only [Res.bind]
  split
  · unfold addMeasurements
    rw [if_pos]
    show TD.ready s.buf = false
    simp [TD.ready, hbuf]
  · rfl

/-- **C115**: a simulation without a step submits nothing, and there is nothing to submit. -/
theorem C115_no_step {env : Env} {p : Params} (cenv : TD.Env E G P V) (o : TD.Opt) (val : ℝ → ℚ) (e : E)
    (hv : p.Valid) (hd : 0 < p.dt) (h1 : p.T ≤ p.dt) :
    main env p cenv o val e = .ok () (Win.init (TD.cfg cenv o) e) := by
  obtain ⟨n, d, hn, hsim, hr, hl, hp, -⟩ := simulate_new env p hv hd
  have hn0 : n = 0 := by
    have b : ¬ 1 ≤ n := fun hc => absurd ((hn 1 le_rfl).2 hc) (by push_cast; linarith)
    omega
  subst hn0
  rw [main_eq cenv o val e hsim hr hl hp]
  rfl

/-- **C115**: if the parameters cannot be simulated because a variance of the left wheel is not positive, the program ends with the
exception of the random generator, before anything is submitted. -/
theorem C115_rejected {env : Env} {p : Params} (cenv : TD.Env E G P V) (o : TD.Opt) (val : ℝ → ℚ) (e : E) (hT : p.dt < p.T)
    (hs : p.sigma2_l ≤ 0) : main env p cenv o val e = .throw .badArgument (Win.init (TD.cfg cenv o) e) := by
  obtain ⟨d', h, -⟩ := C86_zero_variance env p hT hs .empty
  unfold main
  rw [h]

/-- **C115**: if all simulated measurements fit one window, the splines can be fitted and the estimator accepts the batch, then a
simulation of at least two steps returns with exactly one batch submitted: the whole simulation, all poses included. -/
theorem C115_one_window {env : Env} {p : Params} {cenv : TD.Env E G P V} {o : TD.Opt} (val : ℝ → ℚ) (e : E)
    (hv : p.Valid) (hd : 0 < p.dt) (h2 : 2 * p.dt < p.T)
    (hwin : ∀ n, p.Steps n → ∀ a ∈ [p.t_r, p.t_l, p.dt * 0.5], ∀ b ∈ [p.t_r, p.t_l, p.dt * 0.5], ∀ i < n, ∀ j < n,
      ∀ x : ℤ, x = ((i : ℤ) - j) * env.ns p.dt + (env.ns a - env.ns b) → FitsInt64 x ∧ cenv.sec x < o.window)
    (hseg : ∀ n, p.Steps n → ∀ poses : List TD.Meas,
      poses.map TD.Meas.t = (List.range n).map (fun (i : ℕ) => (i : ℤ) * env.ns p.dt + env.ns (p.dt * 0.5)) →
      ∃ q, TD.numSegments o.knots poses = some q)
    (hfit : ∀ e l n, cenv.fit e l n = none) (hadd : ∀ b, ∃ g e', cenv.addBatch e b = .ok g e') :
    ∃ s w g d b, main env p cenv o val e = .ok () s ∧ simulate env p .empty = .ok () d ∧ s.sent = [w] ∧ s.gains = [g] ∧
      (∀ k, w k = simulated val d k) ∧ (∀ k, s.buf k = []) ∧ cenv.addBatch e b = .ok g s.est ∧ b.poses = simulated val d .pose ∧
      ∀ m ∈ simulated val d .pose, .pose m ∈ b.terms := by
  obtain ⟨n, d, hn, hsim, hr, hl, hp, g1, g2, g3⟩ := simulate_new env p hv hd
  have hn2 : 2 ≤ n := (hn 2 (by norm_num)).1 (by push_cast; exact h2)
  obtain ⟨s, hrun, hs, he, hg⟩ := collect (cenv := cenv) (o := o) (order (measAt val d) (List.range n)) (by
      intro a ha b hb
      obtain ⟨i, hi, c, hc, ea⟩ := measAt_time g1 g2 g3 ha
      obtain ⟨j, hj, c', hc', eb⟩ := measAt_time g1 g2 g3 hb
      have := hwin n hn c hc c' hc' i hi j hj (a.t - b.t) (by rw [ea, eb]; ring)
      exact ⟨this.1, Or.inl this.2⟩) (order (measAt val d) (List.range n)) (Win.init (TD.cfg cenv o) e) (fun _ h => h) (Or.inl rfl)
      (by simp [Win.init])
  have hs' : s.sent = [] := hs
  have hg' : s.gains = [] := hg
  have he' : s.est = e := he
  have hbuf : ∀ k, s.buf k = simulated val d k := by
    intro k
    have := stream_of hrun k
    rw [hs'] at this
    simp only [List.map_nil, List.flatten_nil, List.nil_append] at this
    rw [this, simulated_eq val d n hr hl hp]
  have hlen : (s.buf .pose).length = n := by rw [hbuf, simulated_eq val d n hr hl hp]; simp
  have hun : TD.unprocessed s = true := (TD.C69_unprocessed s).2 ⟨.pose, fun hc => by rw [hc] at hlen; simp at hlen; omega⟩
  obtain ⟨q, hq⟩ := hseg n hn (s.buf .pose) (by
    rw [hbuf, simulated_eq val d n hr hl hp, List.map_map]
    refine List.map_congr_left fun i hi => ?_
    rw [List.mem_range] at hi
    obtain ⟨x, hx, hx'⟩ := Option.map_eq_some_iff.1 (g3 i hi)
    simp [measAt, hx, poseMeas, hx'])
  have hprep : ∃ b, TD.prepare cenv o e s.buf = .ok b e ∧ b.poses = s.buf .pose ∧ ∀ m ∈ s.buf .pose, TD.Term.pose m ∈ b.terms := by
    unfold TD.prepare TD.initSplines
    rw [hq]
    simp only [hfit]
    refine ⟨_, rfl, rfl, fun m hm => ?_⟩
    simp only [TD.poseTerms, List.mem_append, List.mem_map]
    exact .inl (.inl ⟨m, hm, rfl⟩)
  obtain ⟨b, hb, hb1, hb2⟩ := hprep
  obtain ⟨g, e', hge⟩ := hadd b
  have hfin : s.addMeasurements (TD.cfg cenv o) =
      .ok () { s.clear with start := s.last, sent := s.sent ++ [s.buf], est := e', gains := s.gains ++ [g],
                            params := s.params ++ [cenv.params e'] } := by
    unfold addMeasurements
    rw [if_neg]
    · have h1 : (TD.cfg cenv o).prepare s.est s.buf = .ok b e := by rw [he']; exact hb
      have h2 : (TD.cfg cenv o).addBatch e b = .ok g e' := hge
      rw [h1]
      simp only [h2]
      rfl
    · show ¬ TD.ready s.buf = false
      simp only [TD.ready, Bool.not_eq_false', decide_eq_true_eq]
      omega
  refine ⟨{ s.clear with start := s.last, sent := s.sent ++ [s.buf], est := e', gains := s.gains ++ [g],
                         params := s.params ++ [cenv.params e'] }, s.buf, g, d, b, ?_, hsim, by simp [hs'], by simp [hg'], hbuf, fun _ => rfl, hge, by rw [hb1, hbuf], ?_⟩
  · rw [main_eq cenv o val e hsim hr hl hp, hrun]
    simp only [Res.bind, hun, if_true]
    exact hfin
  · rw [← hbuf]; exact hb2

/-! ### The hypotheses are met -/

/-- a clock in nanoseconds, no noise. -/
noncomputable def nsEnv : Env where
  ns := fun x => ⌊x * 1000000000⌋
  euler := fun _ _ => ⟨0, 0, 0⟩
  noiseL := fun _ => 0
  noiseR := fun _ => 0
  noisePos := fun _ => ⟨0, 0, 0⟩
  noiseRot := fun _ => ⟨0, 0, 0⟩

theorem ns_dt : nsEnv.ns (demo 1).dt = 250000000 := by
  simp only [nsEnv, demo, Int.floor_eq_iff]; norm_num

theorem ns_half : nsEnv.ns ((demo 1).dt * 0.5) = 125000000 := by
  simp only [nsEnv, demo, Int.floor_eq_iff]; norm_num

theorem ns_r : nsEnv.ns (demo 1).t_r = 1000000000 := by
  simp only [nsEnv, demo, Int.floor_eq_iff]; norm_num

theorem ns_l : nsEnv.ns (demo 1).t_l = 1000000000 := by
  simp only [nsEnv, demo, Int.floor_eq_iff]; norm_num

theorem demo_window : ∀ n, (demo 1).Steps n → ∀ a ∈ [(demo 1).t_r, (demo 1).t_l, (demo 1).dt * 0.5],
    ∀ b ∈ [(demo 1).t_r, (demo 1).t_l, (demo 1).dt * 0.5], ∀ i < n, ∀ j < n,
    ∀ x : ℤ, x = ((i : ℤ) - j) * nsEnv.ns (demo 1).dt + (nsEnv.ns a - nsEnv.ns b) →
      FitsInt64 x ∧ (x : ℚ) / 1000000000 < TD.demoOpt.window := by
  intro n hn a ha b hb i hi j hj x hx
  obtain rfl := demo_steps 1 n hn
  have key : ∀ a ∈ [(demo 1).t_r, (demo 1).t_l, (demo 1).dt * 0.5], 0 ≤ nsEnv.ns a ∧ nsEnv.ns a ≤ 1000000000 := by
    intro a ha
    simp only [List.mem_cons, List.not_mem_nil, or_false] at ha
    rcases ha with rfl | rfl | rfl
    · rw [ns_r]; omega
    · rw [ns_l]; omega
    · rw [ns_half]; omega
  have h1 := key a ha
  have h2 := key b hb
  rw [ns_dt] at hx
  have hx' : -2000000000 ≤ x ∧ x ≤ 2000000000 := by omega
  refine ⟨by unfold FitsInt64; omega, ?_⟩
  show (x : ℚ) / 1000000000 < TD.demoOpt.window
  have : (x : ℚ) ≤ 2000000000 := by exact_mod_cast hx'.2
  simp only [TD.demoOpt]
  linarith

theorem demo_segments : ∀ n, (demo 1).Steps n → ∀ poses : List TD.Meas,
    poses.map TD.Meas.t = (List.range n).map (fun (i : ℕ) => (i : ℤ) * nsEnv.ns (demo 1).dt + nsEnv.ns ((demo 1).dt * 0.5)) →
    ∃ q, TD.numSegments TD.demoOpt.knots poses = some q := by
  intro n hn poses h
  obtain rfl := demo_steps 1 n hn
  rw [ns_dt, ns_half] at h
  have h3 : poses.length = 3 := by have := congrArg List.length h; simpa using this
  obtain ⟨a, b, c, rfl⟩ := List.length_eq_three.1 h3
  simp [List.range_succ] at h
  refine ⟨3, ?_⟩
  have he : TD.elapsed [a, b, c] = 1 / 2 := by
    simp [TD.elapsed, TD.tMin, TD.tMax, h]
    norm_num
  simp only [TD.numSegments, he, TD.demoOpt, TD.roundQ, TD.toInt32]
  norm_num
  simp

/-- the program on the three steps of `demo`: one window, one batch. -/
example : ∃ s w g d b, main nsEnv (demo 1) TD.demoEnv TD.demoOpt (fun _ => 1) 0 = .ok () s ∧
    simulate nsEnv (demo 1) .empty = .ok () d ∧ s.sent = [w] ∧ s.gains = [g] ∧
    (∀ k, w k = simulated (fun _ => 1) d k) ∧ (∀ k, s.buf k = []) ∧ TD.demoEnv.addBatch 0 b = .ok g s.est ∧
    b.poses = simulated (fun _ => 1) d .pose ∧ ∀ m ∈ simulated (fun _ => 1) d .pose, .pose m ∈ b.terms := by
  refine C115_one_window (fun _ => 1) 0 (demo_valid 1) (demo_dt 1) (by norm_num [demo]) demo_window demo_segments (fun _ _ _ => rfl)
    (fun b => ⟨_, _, rfl⟩)

/-- a run of a single step, to which `C115_end_to_end_partial` applies too. -/
example : ∃ s, (demo 1).Valid ∧ 0 < (demo 1).dt ∧
    main nsEnv { demo 1 with T := 1 / 2 } TD.demoEnv TD.demoOpt (fun _ => 1) 0 = .ok () s := by
  obtain ⟨s, h, -⟩ := C115_single_step (env := nsEnv) (p := { demo 1 with T := 1 / 2 }) TD.demoEnv TD.demoOpt (fun _ => 1) 0
    (demo_valid 1) (demo_dt 1) (by norm_num [demo]) (by norm_num [demo]) (by
      intro a ha b hb
      have key : ∀ a ∈ [(demo 1).t_r, (demo 1).t_l, (demo 1).dt * 0.5], 0 ≤ nsEnv.ns a ∧ nsEnv.ns a ≤ 1000000000 := by
        intro a ha
        simp only [List.mem_cons, List.not_mem_nil, or_false] at ha
        rcases ha with rfl | rfl | rfl
        · rw [ns_r]; omega
        · rw [ns_l]; omega
        · rw [ns_half]; omega
      have h1 := key a ha
      have h2 := key b hb
      unfold FitsInt64
      omega)
  exact ⟨s, demo_valid 1, demo_dt 1, h⟩

end SimTD
end Verif
