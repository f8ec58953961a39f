import Verif.Lemmas.SimEgo2

/-!
# Properties of the egomotion simulator (C90–C92) and of `bestQuat` (C93)
-/

namespace Verif
namespace SimEgo
open SimTD (Vec3 Quat Pose Path)
variable {T : Type} [Group T]

/-! ## C90: the simulated motions -/

omit [Group T] in
theorem segments_some {env : Env T} {p : Params T} (h : p.SegmentsFit env) {n : ℕ} (hn : p.Steps n) {g : Gen}
    (hg : GInv env p n g) : ∃ k, Ego.numSegments env.lroundInf p.knots g.poses.length g.poses = some k := by
  have he : Ego.elapsed g.poses = (((n : ℤ) * env.ns p.dt : ℤ) : ℚ) / 1000000000 := by
    unfold Ego.elapsed; rw [hg.times.1, hg.times.2, sub_zero]
  unfold Ego.numSegments
  rw [he]
  simp only
  split_ifs
  · exact ⟨_, by unfold Ego.toInt32; exact if_pos (h n hn)⟩
  · exact ⟨_, rfl⟩
  · exact ⟨_, by unfold Ego.toInt32; exact if_pos (h n hn)⟩
  · exact ⟨_, rfl⟩

/-- **C90.**  With a step of at least a nanosecond and a complete configuration `simulate` returns, for every kind of trajectory.
The trajectory `S` is fitted to `n + 1` poses, the first being the configured one, one per step, `n` being the number of steps
`k dt < T`; every configured sensor gets exactly one noise-free and one noisy motion per step, each measured over that step: the
motion of the reference seen from where the sensor is mounted, stamped with the end of the step plus the sensor's delay, the noise
being applied on the right; nothing else changes. -/
theorem C90_simulated_motions (env : Env T) (p : Params T) (hgood : Good env p) (d : Data T) :
    ∃ (n : ℕ) (poses : List (ℤ × Pose)) (seg : ℤ) (S : ℤ → T) (d' : Data T), p.Steps n ∧
      poses.map Prod.fst = (List.range (n + 1)).map (fun (i : ℕ) => (i : ℤ) * env.ns p.dt) ∧
      poses.head? = some (0, p.w_T_v_0) ∧ env.fit poses seg = some S ∧ simulate env p d = .ok () d' ∧
      (∀ k ∈ p.sensors, d'.clean k = d.clean k ++ (List.range n).map (reading env p S k) ∧
        d'.noisy k = d.noisy k ++ (List.range n).map (noisyReading env p S k)) ∧
      (∀ k, k ∉ p.sensors → d'.clean k = d.clean k ∧ d'.noisy k = d.noisy k) := by
  obtain ⟨hd, hns, he, hT, hnd, hcal, hcov, hseg, hfit⟩ := hgood
  obtain ⟨n, g, hn, hg, hi⟩ := generate_ok env p hd he hT
  obtain ⟨seg, hs⟩ := segments_some hseg hn hi
  obtain ⟨S, hS⟩ := Option.isSome_iff_exists.mp (hfit g.poses seg)
  refine ⟨n, g.poses, seg, S, after env p S d n, hn, hi.stamps, hi.start, hS, ?_, ?_, ?_⟩
  · unfold simulate
    rw [hg]
    simp only [hs, hS]
    have hall : ¬ (p.sensors.all p.covOk = false) := by
      rw [Bool.not_eq_false, List.all_eq_true]; exact hcov
    rw [if_neg hall, hi.times.1, hi.times.2, data_loop env p S hnd hcal hns d n]
    rfl
  · intro k hk
    simp [after, hk]
  · intro k hk
    simp [after, hk]

/-- **C90.**  The noise-free motions of the reference sensor telescope: their product is the motion from the start to the end of
the trajectory. -/
theorem C90_telescope (env : Env T) (p : Params T) (S : ℤ → T) (n : ℕ) :
    ((List.range n).map fun j => (reading env p S p.ref j).motion).prod = (S 0)⁻¹ * S ((n : ℤ) * env.ns p.dt) := by
  induction n with
  | zero => simp
  | succ n ih =>
    rw [List.range_succ, List.map_append, List.prod_append, ih]
    simp only [List.map_cons, List.map_nil, List.prod_singleton, reading, Params.mount, if_true, mul_one]
    push_cast
    group

/-- **C90.**  A sensor with noise parameters but without calibration makes `simulate` throw at the first step. -/
theorem C90_uncalibrated (env : Env T) (p : Params T) (hd : 0 < p.dt) (hns : 0 < env.ns p.dt) (he : Exact env p)
    (hstep : p.dt < p.dur) (hcov : ∀ k ∈ p.sensors, p.covOk k = true)
    (hseg : p.SegmentsFit env) (hfit : ∀ l n, (env.fit l n).isSome = true) (d : Data T)
    (k : ℕ) (hk : k ∈ p.sensors) (hr : k ≠ p.ref) (hc : p.calib k = none) :
    ∃ d', simulate env p d = .throw .stdOutOfRange d' := by
  obtain ⟨n, g, hn, hg, hi⟩ := generate_ok env p hd he (by linarith)
  obtain ⟨seg, hs⟩ := segments_some hseg hn hi
  obtain ⟨S, hS⟩ := Option.isSome_iff_exists.mp (hfit g.poses seg)
  have hn1 : 1 ≤ n := (hn 1 le_rfl).mp (by simpa using hstep)
  have hst : ∀ (l : List ℕ), k ∈ l → ∀ (d : Data T) (i : ℕ) (t : ℤ) (a b : T),
      ∃ d', sensorStep env p i t a b l d = .throw .stdOutOfRange d' := by
    intro l
    induction l with
    | nil => intro h; simp at h
    | cons s ss ih =>
      intro hmem d i t a b
      rw [sensorStep]
      by_cases hsr : s = p.ref
      · rw [if_pos hsr]
        refine ih ?_ _ _ _ _ _
        rcases List.mem_cons.mp hmem with h | h
        · exact absurd (h.trans hsr) hr
        · exact h
      · rw [if_neg hsr]
        cases hcs : p.calib s with
        | none => exact ⟨d, rfl⟩
        | some c =>
          simp only
          refine ih ?_ _ _ _ _ _
          rcases List.mem_cons.mp hmem with h | h
          · rw [h, hcs] at hc; cases hc
          · exact h
  obtain ⟨d', hd'⟩ := hst p.sensors hk d 1 (env.ns p.dt) (S 0) (S (env.ns p.dt))
  let f : ℕ → DSt T := fun i => if i = 0 then ⟨d, 0, none, 0⟩ else ⟨d, env.ns p.dt, some (S 0), 1⟩
  have hb : dataBody env p S (f 1) = .throw .stdOutOfRange { f 1 with data := d' } := by
    simp only [f, one_ne_zero, if_false, dataBody]
    rw [hd']
  have hrun := Loop.run_throw (fun s : DSt T => s.t ≤ (n : ℤ) * env.ns p.dt) (dataBody env p S) f 1 (by
      intro i hi0
      have : i = 0 := by omega
      subst this
      refine ⟨?_, ?_⟩
      · show (0 : ℤ) ≤ n * env.ns p.dt
        positivity
      · simp [f, dataBody]) (by
      show env.ns p.dt ≤ n * env.ns p.dt
      have : (1 : ℤ) ≤ n := by exact_mod_cast hn1
      nlinarith) hb
  refine ⟨d', ?_⟩
  unfold simulate
  rw [hg]
  simp only [hs, hS]
  have hall : ¬ (p.sensors.all p.covOk = false) := by
    rw [Bool.not_eq_false, List.all_eq_true]; exact hcov
  rw [if_neg hall, hi.times.1, hi.times.2]
  have h0 : (⟨d, 0, none, 0⟩ : DSt T) = f 0 := rfl
  rw [h0, hrun]
  rfl

/-- **C90.**  A step below a nanosecond makes `simulate` loop for ever (and fill the memory). -/
theorem C90_no_termination (env : Env T) (p : Params T) (hd : 0 < p.dt) (hns : env.ns p.dt = 0)
    (hnd : p.sensors.Nodup) (hcal : p.Calibrated) (hcov : ∀ k ∈ p.sensors, p.covOk k = true)
    (hfit : ∀ l n, (env.fit l n).isSome = true) (d : Data T) :
    simulate env p d = .diverge := by
  obtain ⟨n, g, hg, hi⟩ := generate_returns env p hd
  obtain ⟨seg, hs⟩ : ∃ k, Ego.numSegments env.lroundInf p.knots g.poses.length g.poses = some k := by
    have he : Ego.elapsed g.poses = 0 := by
      unfold Ego.elapsed; rw [hi.times.1, hi.times.2, hns]; simp
    unfold Ego.numSegments
    rw [he]
    simp only [if_true, mul_zero, Int.ceil_zero]
    split_ifs
    · exact ⟨0, rfl⟩
    · exact ⟨_, rfl⟩
  obtain ⟨S, hS⟩ := Option.isSome_iff_exists.mp (hfit g.poses seg)
  unfold simulate
  rw [hg]
  simp only [hs, hS]
  have hall : ¬ (p.sensors.all p.covOk = false) := by
    rw [Bool.not_eq_false, List.all_eq_true]; exact hcov
  rw [if_neg hall, hi.times.1, hi.times.2]
  have h0 : (⟨d, 0, none, 0⟩ : DSt T) = dataSeq env p S d 0 := by simp [dataSeq, after]
  rw [h0, Loop.run_diverge _ _ (dataSeq env p S d)]
  · rfl
  · intro k
    refine ⟨?_, dataBody_ok env p S hnd hcal d k⟩
    show (k : ℤ) * env.ns p.dt ≤ n * env.ns p.dt
    rw [hns]; simp

/-- An example: seconds as steps, four seconds, a reference and a delayed sensor; rigid motions are shifts of a line. -/
noncomputable def demoEnv : Env (Multiplicative ℤ) where
  ns x := ⌊x * 1000000000⌋
  sec n := (n : ℝ) / 1000000000
  trajV _ := Vec3.zero
  trajOm _ := Vec3.zero
  lroundInf := 0
  fit _ _ := some fun t => Multiplicative.ofAdd (3 * t)
  noise _ _ := 1

noncomputable def demo (kind : Kind) : Params (Multiplicative ℤ) where
  kind := kind
  w_T_v_0 := ⟨⟨0, 0, 0, 1⟩, ⟨0, 0, 0⟩⟩
  A := 0
  f := 1
  dt := 1
  dur := 9
  knots := 1
  ref := 0
  sensors := [0, 1]
  cov := id
  covOk _ := true
  calib k := if k = 1 then some (5, Multiplicative.ofAdd 2) else none

theorem demo_ns (kind : Kind) : demoEnv.ns (demo kind).dt = 1000000000 := by
  show ⌊(1 : ℝ) * 1000000000⌋ = 1000000000
  rw [one_mul]
  exact_mod_cast Int.floor_natCast (R := ℝ) 1000000000

theorem demo_exact (kind : Kind) : Exact demoEnv (demo kind) := by
  intro k
  rw [demo_ns]
  show (((k : ℤ) * 1000000000 : ℤ) : ℝ) / 1000000000 = k * 1
  push_cast; field_simp

theorem demo_steps (kind : Kind) (n : ℕ) (h : (demo kind).Steps n) : n = 8 := by
  have h3 := (h 8 (by omega)).mp (by norm_num [demo])
  have h4 : ¬ (9 ≤ n) := by
    intro hc
    have := (h 9 (by omega)).mpr hc
    norm_num [demo] at this
  omega

theorem demo_segments (kind : Kind) : (demo kind).SegmentsFit demoEnv := by
  intro n hn
  rw [demo_steps kind n hn, demo_ns]
  norm_num [demo, FitsInt32]

theorem demo_cal (kind : Kind) : (demo kind).Calibrated := by
  intro k hk
  simp only [demo, List.mem_cons, List.not_mem_nil, or_false] at hk
  rcases hk with rfl | rfl
  · exact Or.inl rfl
  · exact Or.inr rfl

/-- The hypotheses of C90 are met by a configuration with two sensors and eight steps. -/
theorem demo_good (kind : Kind) : Good demoEnv (demo kind) :=
  ⟨by norm_num [demo], by rw [demo_ns]; norm_num, demo_exact kind, by norm_num [demo], by simp [demo], demo_cal kind,
    fun _ _ => rfl, demo_segments kind, fun _ _ => rfl⟩

/-- The hypotheses of `C90_uncalibrated` are met by a configuration with a sensor more. -/
example : (2 : ℕ) ∈ [0, 1, 2] ∧ (2 : ℕ) ≠ (demo .straight).ref ∧ (demo .straight).calib 2 = none ∧
    (demo .straight).dt < (demo .straight).dur := by
  refine ⟨by simp, by simp [demo], by simp [demo], by norm_num [demo]⟩

/-- The hypotheses of `C90_no_termination` are met by a step of a tenth of a nanosecond. -/
example : demoEnv.ns ({ demo .other with dt := 1 / 10000000000 } : Params (Multiplicative ℤ)).dt = 0 := by
  show ⌊(1 / 10000000000 : ℝ) * 1000000000⌋ = 0
  rw [Int.floor_eq_zero_iff]
  constructor <;> norm_num

/-! ## C91: the simulated data is consistent with the calibrator -/

variable {E G P V : Type}

omit [Group T] in
theorem run_of_adds {c : WinCfg ℕ (Ego.Meas T) E (Ego.Batch T) G P} {e : E} (l : List (Ego.Meas T)) :
    ∀ {s s' : Win ℕ (Ego.Meas T) E G P} {acc : List (Ego.Meas T)} {gone : List (ℕ → List (Ego.Meas T))},
      Win.Run c e s acc gone → Win.runOps c s (l.map Win.Op.add) = .ok () s' → ∃ acc' gone', Win.Run c e s' acc' gone' := by
  induction l with
  | nil =>
    intro s s' acc gone hr h
    simp only [List.map_nil, Win.runOps, Res.ok.injEq, true_and] at h
    subst h
    exact ⟨_, _, hr⟩
  | cons m l ih =>
    intro s s' acc gone hr h
    simp only [List.map_cons, Win.runOps, Win.Op.run] at h
    cases ha : s.add c m with
    | ok a s1 =>
      rw [ha] at h
      exact ih (hr.addOk ha) h
    | throw x s1 => rw [ha] at h; simp [Res.bind] at h
    | ub => rw [ha] at h; simp [Res.bind] at h
    | diverge => rw [ha] at h; simp [Res.bind] at h

/-- The order in which the program submits the simulated measurements: step by step, and in each step key by key. -/
def stream (keys : List ℕ) (n : ℕ) (r : ℕ → ℕ → Ego.Meas T) : List (Ego.Meas T) :=
  (List.range n).flatMap fun i => keys.map fun k => r k i

omit [Group T] in
theorem stream_sensor {keys : List ℕ} (hkd : keys.Nodup) (n : ℕ) {r : ℕ → ℕ → Ego.Meas T} (hs : ∀ k j, (r k j).sensor = k) (k : ℕ) :
    (stream keys n r).filter (fun m => decide (m.sensor = k)) = if k ∈ keys then (List.range n).map (r k) else [] := by
  unfold stream
  rw [List.filter_flatMap]
  have : ∀ i, List.filter (fun m => decide (m.sensor = k)) (keys.map fun k => r k i) = if k ∈ keys then [r k i] else [] :=
    fun i => filter_keys keys hkd (fun k => r k i) (fun k => hs k i) k
  simp only [this]
  split_ifs
  · rw [← List.map_eq_flatMap]
  · simp

theorem stream_buf {cenv : Ego.Env T E G P V} {o : Ego.Opt} {e : Ego.St T E} {s : Ego.Cal T E G P} {l : List (Ego.Meas T)}
    (h : Win.runOps (Ego.cfg cenv o) (Win.init (Ego.cfg cenv o) e) (l.map Win.Op.add) = .ok () s) (k : ℕ) :
    (s.sent.map fun w => w k).flatten ++ s.buf k = l.filter (fun m => decide (m.sensor = k)) := by
  have hnc : Win.NoClear (l.map Win.Op.add) := by
    intro op hop
    obtain ⟨m, _, rfl⟩ := List.mem_map.mp hop
    trivial
  rw [Ego.C72_stream hnc h k]
  have hadd : Win.added (l.map Win.Op.add) = l := by
    unfold Win.added
    rw [List.filterMap_map]
    simp
  rw [hadd]

/-- The program, once the simulation has returned. -/
theorem main_eq {env : Env T} {p : Params T} {cenv : Ego.Env T E G P V} {o : Ego.Opt} {keys : List ℕ} {noisy : Bool}
    {e : Ego.St T E} (hk : ∀ k, k ∈ keys ↔ k ∈ p.sensors) (href : o.ref = p.ref) {d : Data T}
    (hsim : simulate env p .empty = .ok () d) (n : ℕ) (r : ℕ → ℕ → Ego.Meas T)
    (hd : ∀ k, (if noisy then d.noisy else d.clean) k = if k ∈ p.sensors then (List.range n).map (r k) else []) :
    main env p cenv o keys noisy e =
      if p.ref ∈ p.sensors ∧ 0 < n then
        (Win.runOps (Ego.cfg cenv o) (Win.init (Ego.cfg cenv o) e) ((stream keys n r).map Win.Op.add)).bind fun _ s =>
          if Ego.unprocessed cenv s then s.addMeasurements (Ego.cfg cenv o) else .ok () s
      else .throw .stdOutOfRange (Win.init (Ego.cfg cenv o) e) := by
  unfold main
  rw [hsim]
  simp only
  generalize (if noisy then d.noisy else d.clean) = data at hd
  rw [href]
  by_cases hmem : p.ref ∈ p.sensors
  · rcases Nat.eq_zero_or_pos n with h0 | h0
    · subst h0
      simp [hd, hmem]
    · rw [if_pos (⟨hmem, h0⟩ : p.ref ∈ p.sensors ∧ 0 < n)]
      have hlen : (data p.ref).length = n := by rw [hd, if_pos hmem]; simp
      have hne : ¬ ((data p.ref).isEmpty = true) := by
        rw [List.isEmpty_iff_length_eq_zero, hlen]; omega
      rw [if_neg hne, hlen]
      let l := (List.range n).flatMap fun i => keys.map fun k => (i, k)
      have hl : ∀ x ∈ l, (data x.2)[x.1]? = some (r x.2 x.1) := by
        intro x hx
        obtain ⟨i, hi, hx⟩ := List.mem_flatMap.mp hx
        obtain ⟨k, hk', rfl⟩ := List.mem_map.mp hx
        rw [List.mem_range] at hi
        simp only
        rw [hd, if_pos ((hk k).mp hk')]
        simp [hi]
      have hf := feed_runOps cenv o data l (Win.init (Ego.cfg cenv o) e) (fun x => r x.2 x.1) hl
      rw [show ((List.range n).flatMap fun i => keys.map fun k => (i, k)) = l from rfl, hf]
      congr 2
      show List.map _ ((List.range n).flatMap _) = List.map _ ((List.range n).flatMap _)
      rw [List.map_flatMap, List.map_flatMap]
      simp [Function.comp_def]
  · simp [hd, hmem]

/-- All that the program submits, once it has returned. -/
theorem main_sent {env : Env T} {p : Params T} {cenv : Ego.Env T E G P V} {o : Ego.Opt} {keys : List ℕ} {noisy : Bool}
    {e : Ego.St T E} {s : Ego.Cal T E G P} (ho : Ego.OrderOk cenv) (hkd : keys.Nodup) (hk : ∀ k, k ∈ keys ↔ k ∈ p.sensors)
    (href : o.ref = p.ref) {d : Data T} (hsim : simulate env p .empty = .ok () d) (n : ℕ) (r : ℕ → ℕ → Ego.Meas T)
    (hs : ∀ k j, (r k j).sensor = k)
    (hd : ∀ k, (if noisy then d.noisy else d.clean) k = if k ∈ p.sensors then (List.range n).map (r k) else [])
    (h : main env p cenv o keys noisy e = .ok () s) :
    p.ref ∈ p.sensors ∧ 0 < n ∧ (∀ k, s.buf k = []) ∧
      ∀ k, (s.sent.map fun w => w k).flatten = if k ∈ p.sensors then (List.range n).map (r k) else [] := by
  rw [main_eq hk href hsim n r hd] at h
  split at h
  · rename_i hc
    refine ⟨hc.1, hc.2, ?_⟩
    cases hr : Win.runOps (Ego.cfg cenv o) (Win.init (Ego.cfg cenv o) e) ((stream keys n r).map Win.Op.add) with
    | throw x s1 => rw [hr] at h; simp [Res.bind] at h
    | ub => rw [hr] at h; simp [Res.bind] at h
    | diverge => rw [hr] at h; simp [Res.bind] at h
    | ok a s1 =>
      rw [hr] at h
      simp only [Res.bind] at h
      obtain ⟨acc, gone, hrun⟩ := run_of_adds _ Win.Run.init hr
      have hstr : ∀ k, (s1.sent.map fun w => w k).flatten ++ s1.buf k = if k ∈ p.sensors then (List.range n).map (r k) else [] := by
        intro k
        rw [stream_buf hr, stream_sensor hkd n hs]
        simp only [hk k]
      split at h
      · rcases Win.addMeasurements_ok h with ⟨_, h1⟩ | ⟨_, h2, _, _, h3, _⟩
        · simp [Ego.cfg] at h1
        · refine ⟨fun k => by rw [h2], fun k => ?_⟩
          rw [h3, ← hstr k]
          simp
      · rename_i hu
        simp only [Res.ok.injEq, true_and] at h
        subst h
        have hb : ∀ k, s1.buf k = [] := by
          intro k
          by_contra hc
          exact hu ((Ego.C72_unprocessed ho hrun).mpr ⟨k, hc⟩)
        refine ⟨hb, fun k => ?_⟩
        rw [← hstr k, hb k, List.append_nil]
  · cases h

/-- What `simulate` does on a new data object. -/
theorem simulate_new (env : Env T) (p : Params T) (hgood : Good env p) :
    ∃ (n : ℕ) (poses : List (ℤ × Pose)) (seg : ℤ) (S : ℤ → T) (d : Data T), p.Steps n ∧ env.fit poses seg = some S ∧
      simulate env p .empty = .ok () d ∧
      (∀ k, d.clean k = if k ∈ p.sensors then (List.range n).map (reading env p S k) else []) ∧
      (∀ k, d.noisy k = if k ∈ p.sensors then (List.range n).map (noisyReading env p S k) else []) := by
  obtain ⟨n, poses, seg, S, d, h1, _, _, h4, h5, h6, h7⟩ := C90_simulated_motions env p hgood .empty
  refine ⟨n, poses, seg, S, d, h1, h4, h5, fun k => ?_, fun k => ?_⟩
  · split_ifs with hk
    · rw [(h6 k hk).1]; simp [Data.empty]
    · rw [(h7 k hk).1]; rfl
  · split_ifs with hk
    · rw [(h6 k hk).2]; simp [Data.empty]
    · rw [(h7 k hk).2]; rfl

/-- **C91.**  If the program returns, every simulated measurement (noise-free or noisy, as configured) was submitted, in order, and
nothing is left over.  On noise-free data every error term of every submitted window is zero when evaluated with the simulated
trajectory, mountings and delays: the motion it predicts is the measured one. -/
theorem C91_end_to_end {env : Env T} {p : Params T} {cenv : Ego.Env T E G P V} {o : Ego.Opt} {keys : List ℕ} {noisy : Bool}
    {e : Ego.St T E} {s : Ego.Cal T E G P} (hgood : Good env p) (ho : Ego.OrderOk cenv) (hkd : keys.Nodup)
    (hk : ∀ k, k ∈ keys ↔ k ∈ p.sensors) (href : o.ref = p.ref) (h : main env p cenv o keys noisy e = .ok () s) :
    ∃ (n : ℕ) (poses : List (ℤ × Pose)) (seg : ℤ) (S : ℤ → T), p.Steps n ∧ 0 < n ∧ env.fit poses seg = some S ∧
      (∀ k, s.buf k = []) ∧
      (∀ k ∈ p.sensors, (s.sent.map fun w => w k).flatten
        = (List.range n).map (if noisy then noisyReading env p S k else reading env p S k)) ∧
      (∀ k, k ∉ p.sensors → ∀ w ∈ s.sent, w k = []) ∧
      (noisy = false → ∀ w ∈ s.sent, ∀ truth : E, (∀ k ∈ p.sensors, k ≠ p.ref → cenv.delay truth k = p.delay k) →
        ∀ (lo hi : ℤ) (k : ℕ), ∀ t ∈ Ego.expected cenv o truth lo hi w k,
          (if k = o.ref then Ego.predictedRef S t.src t.dst else Ego.predictedOther S (p.mount k) t.src t.dst) = t.m.motion) := by
  obtain ⟨n, poses, seg, S, d, h1, h4, hsim, hc, hn⟩ := simulate_new env p hgood
  have hmain := main_sent (noisy := noisy) ho hkd hk href hsim n
    (fun k => if noisy then noisyReading env p S k else reading env p S k)
    (by intro k j; cases noisy <;> rfl)
    (by
      intro k
      cases noisy
      · exact hc k
      · exact hn k) h
  obtain ⟨hm, hpos, hb, hfl⟩ := hmain
  refine ⟨n, poses, seg, S, h1, hpos, h4, hb, ?_, ?_, ?_⟩
  · intro k hks
    rw [hfl k, if_pos hks]
  · intro k hks w hw
    have := hfl k
    rw [if_neg hks, List.flatten_eq_nil_iff] at this
    exact this _ (List.mem_map.mpr ⟨w, hw, rfl⟩)
  · rintro rfl w hw truth htruth lo hi k t ht
    have hfl' := hfl k
    simp only [Bool.false_eq_true, if_false] at hfl'
    obtain ⟨a, b, hab⟩ := List.mem_iff_append.mp hw
    rw [hab] at hfl'
    simp only [List.map_append, List.map_cons, List.flatten_append, List.flatten_cons] at hfl'
    by_cases hks : k ∈ p.sensors
    · rw [if_pos hks] at hfl'
      have hcon : Ego.Contiguous (w k) := by
        apply Contiguous_mid
        rw [hfl', List.range_eq_range']
        exact readings_contiguous env p S hgood.ns.le k n 0
      have hall : ∀ m ∈ w k, ∃ j, m = reading env p S k j := by
        intro m hm
        have : m ∈ (List.range n).map (reading env p S k) := by
          rw [← hfl']; simp [hm]
        obtain ⟨j, _, rfl⟩ := List.mem_map.mp this
        exact ⟨j, rfl⟩
      refine Ego.C73_true_calibration_has_no_error S (p.mount k) hcon ht ?_
      intro m hm
      obtain ⟨j, rfl⟩ := hall m hm
      by_cases hkr : k = o.ref
      · rw [if_pos hkr]
        have hkr' : k = p.ref := hkr.trans href
        simp only [reading, Params.mount, Params.delay, hkr', if_true, mul_one, add_zero]
        congr 3; ring
      · rw [if_neg hkr]
        have hkr' : k ≠ p.ref := fun hc => hkr (hc.trans href.symm)
        rw [htruth k hks hkr']
        simp only [reading]
        congr 3
        · congr 2; ring
        · ring
    · rw [if_neg hks] at hfl'
      have : w k = [] := by
        rw [List.append_eq_nil_iff, List.append_eq_nil_iff] at hfl'
        exact hfl'.2.1
      unfold Ego.expected at ht
      rw [this] at ht
      split_ifs at ht <;> simp [Ego.pairTerms] at ht

/-- **C91.**  A simulation without a step, or without noise parameters for the reference sensor, ends in an uncaught exception
before the calibrator sees anything. -/
theorem C91_nothing_to_calibrate {env : Env T} {p : Params T} {cenv : Ego.Env T E G P V} {o : Ego.Opt} {keys : List ℕ} {noisy : Bool}
    {e : Ego.St T E} (hgood : Good env p) (href : o.ref = p.ref) (h0 : p.dur ≤ p.dt ∨ p.ref ∉ p.sensors) :
    main env p cenv o keys noisy e = .throw .stdOutOfRange (Win.init (Ego.cfg cenv o) e) := by
  obtain ⟨n, poses, seg, S, d, h1, h4, hsim, hc, hn⟩ := simulate_new env p hgood
  have h0' : n = 0 ∨ p.ref ∉ p.sensors := by
    rcases h0 with h | h
    · left
      by_contra hne
      have := (h1 1 le_rfl).mpr (by omega)
      simp only [Nat.cast_one, one_mul] at this
      linarith
    · exact Or.inr h
  have he : (if noisy then d.noisy else d.clean) o.ref = [] := by
    rw [href]
    cases noisy with
    | false =>
      simp only [Bool.false_eq_true, if_false, hc p.ref]
      rcases h0' with h0 | h0
      · subst h0; simp
      · simp [h0]
    | true =>
      simp only [if_true, hn p.ref]
      rcases h0' with h0 | h0
      · subst h0; simp
      · simp [h0]
  unfold main
  rw [hsim]
  simp only [he, List.isEmpty_nil, if_true]

end SimEgo
end Verif
