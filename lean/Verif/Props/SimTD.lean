import Verif.Lemmas.SimMotion
import Mathlib.Analysis.SpecialFunctions.Trigonometric.Basic
import Mathlib.Algebra.BigOperators.Intervals
import Mathlib.Algebra.Order.BigOperators.Group.Finset

/-!
# Properties of the time delay simulator (C86–C89)
-/

namespace Verif
namespace SimTD

/-! ## C86: the simulated data -/

/-- **C86.**  With a positive step and valid variances `simulate` returns, whatever the data object already holds; it appends
`n + 1` poses and velocities and `n` measurements of each kind, `n` being the number of steps `k dt < T`.  The `j`-th
measurement of a stream is stamped `j` steps after zero plus the stream's own offset (the wheel's delay, half a step for
the pose sensor); the noise-free wheel speeds are those of a differential drive of half width `b`, scaled; the noisy ones add
the sample before scaling; the pose sensor sees the vehicle pose after the step. -/
theorem C86_simulated_data (env : Env) (p : Params) (hv : p.Valid) (hd : 0 < p.dt) (d : Data) :
    ∃ (n : ℕ) (Q : ℕ → Pose), p.Steps n ∧ Q 0 = p.w_T_v_0 ∧
      simulate env p d = .ok ()
        { w_T_v := d.w_T_v ++ (List.range (n + 1)).map Q
          v_v_wv := d.v_v_wv ++ ⟨0, 0, 0⟩ :: (List.range n).map fun j => ⟨stepSpeed p (j + 1), 0, 0⟩
          v_om_wv := d.v_om_wv ++ ⟨0, 0, 0⟩ :: (List.range n).map fun j => ⟨0, 0, stepTurn p (j + 1)⟩
          w_v_wwl := d.w_v_wwl ++ (List.range n).map fun j => ⟨stepSpeed p (j + 1) - stepTurn p (j + 1) * p.b, 0, 0⟩
          w_v_wwr := d.w_v_wwr ++ (List.range n).map fun j => ⟨stepSpeed p (j + 1) + stepTurn p (j + 1) * p.b, 0, 0⟩
          lwData := d.lwData ++ (List.range n).map fun (j : ℕ) =>
            ((j : ℤ) * env.ns p.dt + env.ns p.t_l, p.k_l * (stepSpeed p (j + 1) - stepTurn p (j + 1) * p.b))
          lwData_n := d.lwData_n ++ (List.range n).map fun (j : ℕ) =>
            ((j : ℤ) * env.ns p.dt + env.ns p.t_l,
              p.k_l * (stepSpeed p (j + 1) - stepTurn p (j + 1) * p.b + env.noiseL j))
          rwData := d.rwData ++ (List.range n).map fun (j : ℕ) =>
            ((j : ℤ) * env.ns p.dt + env.ns p.t_r, p.k_r * (stepSpeed p (j + 1) + stepTurn p (j + 1) * p.b))
          rwData_n := d.rwData_n ++ (List.range n).map fun (j : ℕ) =>
            ((j : ℤ) * env.ns p.dt + env.ns p.t_r,
              p.k_r * (stepSpeed p (j + 1) + stepTurn p (j + 1) * p.b + env.noiseR j))
          poseData := d.poseData ++ (List.range n).map fun (j : ℕ) =>
            ((j : ℤ) * env.ns p.dt + env.ns (p.dt * 0.5),
              ⟨Vec3.add (Q (j + 1)).r ((Q (j + 1)).q.rotate p.v_T_p.r), env.euler (Q (j + 1)).q p.v_T_p.q⟩)
          poseData_n := d.poseData_n ++ (List.range n).map fun (j : ℕ) =>
            ((j : ℤ) * env.ns p.dt + env.ns (p.dt * 0.5),
              ⟨Vec3.add (Vec3.add (Q (j + 1)).r ((Q (j + 1)).q.rotate p.v_T_p.r)) (env.noisePos j),
                Vec3.add (env.euler (Q (j + 1)).q p.v_T_p.q) (env.noiseRot j)⟩) } := by
  obtain ⟨n, hn⟩ := steps_exist p hd
  refine ⟨n, poseAt p, hn, rfl, ?_⟩
  classical
  have hrun := Loop.run_ok (fun s : St => s.t < p.T) (body env p) (seq env p d) n (by
    intro k hk
    refine ⟨?_, ?_⟩
    · show (seq env p d k).t < p.T
      rw [seq_facts env p hv d k]
      have := (hn (k + 1) (by omega)).mpr (by omega)
      push_cast at this
      exact this
    · exact body_ok env p hv _) (by
    show ¬ (seq env p d n).t < p.T
    rw [seq_facts env p hv d n]
    intro h
    have := (hn (n + 1) (by omega)).mp (by push_cast; exact h)
    omega)
  have h0 : init p d = seq env p d 0 := rfl
  unfold simulate
  rw [h0, hrun, seq_facts env p hv d n]
  rfl

/-- **C86.**  A step that is not positive makes `simulate` loop for ever, if it enters the loop at all. -/
theorem C86_no_termination (env : Env) (p : Params) (hv : p.Valid) (hd : p.dt ≤ 0) (hT : p.dt < p.T) (d : Data) :
    simulate env p d = .diverge := by
  classical
  have hrun := Loop.run_diverge (fun s : St => s.t < p.T) (body env p) (seq env p d) (by
    intro k
    refine ⟨?_, body_ok env p hv _⟩
    show (seq env p d k).t < p.T
    rw [seq_facts env p hv d k]
    show ((k : ℝ) + 1) * p.dt < p.T
    have : (0 : ℝ) ≤ k := Nat.cast_nonneg k
    nlinarith)
  have h0 : init p d = seq env p d 0 := rfl
  unfold simulate
  rw [h0, hrun]
  rfl

/-- **C86.**  A wheel without noise cannot be simulated: with a left variance that is not positive the first step throws and
leaves streams of different lengths behind. -/
theorem C86_zero_variance (env : Env) (p : Params) (hT : p.dt < p.T) (hs : p.sigma2_l ≤ 0) (d : Data) :
    ∃ d', simulate env p d = .throw .badArgument d' ∧ d'.w_T_v.length = d.w_T_v.length + 2 ∧
      d'.lwData.length = d.lwData.length + 1 ∧ d'.lwData_n = d.lwData_n ∧ d'.rwData = d.rwData ∧ d'.poseData = d.poseData := by
  classical
  have hb : ∃ s', body env p (init p d) = .throw .badArgument s' ∧ s'.data.w_T_v.length = d.w_T_v.length + 2 ∧
      s'.data.lwData.length = d.lwData.length + 1 ∧ s'.data.lwData_n = d.lwData_n ∧ s'.data.rwData = d.rwData ∧
      s'.data.poseData = d.poseData := by
    unfold body
    simp only [hs, if_true]
    refine ⟨_, rfl, ?_⟩
    simp [init]
  obtain ⟨s', hb, h1, h2, h3, h4, h5⟩ := hb
  refine ⟨s'.data, ?_, h1, h2, h3, h4, h5⟩
  have hrun := Loop.run_throw (fun s : St => s.t < p.T) (body env p) (fun _ => init p d) 0 (by intro k hk; omega)
    (by exact hT) hb
  unfold simulate
  rw [hrun]
  rfl

/-- A configuration: unit start pose, quarter steps. -/
noncomputable def demo (A : ℝ) : Params :=
  { w_T_v_0 := ⟨⟨0, 0, 0, 1⟩, ⟨0, 0, 0⟩⟩, A := A, f := 1, v_T_p := ⟨⟨0, 0, 0, 1⟩, ⟨1, 0, 0⟩⟩, b := 1, k_l := 2, t_l := 1,
    k_r := 2, t_r := 1, dt := 1 / 4, T := 1, sigma2_l := 1, sigma2_r := 1, covPosOk := true, covRotOk := true }

theorem demo_valid (A : ℝ) : (demo A).Valid := by simp [demo, Params.Valid]
theorem demo_dt (A : ℝ) : 0 < (demo A).dt := by norm_num [demo]

/-- The hypotheses of C86 are met, and there are three steps. -/
example : (demo 1).Valid ∧ 0 < (demo 1).dt ∧ (demo 1).Steps 3 := by
  refine ⟨demo_valid 1, demo_dt 1, ?_⟩
  intro k hk
  show (k : ℝ) * (1 / 4) < 1 ↔ k ≤ 3
  constructor
  · intro h
    have : (k : ℝ) < 4 := by linarith
    have : k < 4 := by exact_mod_cast this
    omega
  · intro h
    have : (k : ℝ) ≤ 3 := by exact_mod_cast h
    linarith

example : ({ demo 1 with dt := 0 } : Params).Valid ∧ ({ demo 1 with dt := 0 } : Params).dt ≤ 0
    ∧ ({ demo 1 with dt := 0 } : Params).dt < ({ demo 1 with dt := 0 } : Params).T := by
  refine ⟨?_, ?_, ?_⟩ <;> simp [demo, Params.Valid]

example : ({ demo 1 with sigma2_l := 0 } : Params).dt < ({ demo 1 with sigma2_l := 0 } : Params).T
    ∧ ({ demo 1 with sigma2_l := 0 } : Params).sigma2_l ≤ 0 := by
  refine ⟨?_, ?_⟩ <;> norm_num [demo]

/-! ## C87: the simulated motion -/

theorem simulate_traj (env : Env) (p : Params) (hv : p.Valid) (hd : 0 < p.dt) (d : Data)
    (h : simulate env p .empty = .ok () d) :
    ∃ n, p.Steps n ∧ d.w_T_v = (List.range (n + 1)).map (poseAt p) := by
  obtain ⟨n, hn⟩ := steps_exist p hd
  refine ⟨n, hn, ?_⟩
  classical
  have hrun := Loop.run_ok (fun s : St => s.t < p.T) (body env p) (seq env p .empty) n (by
    intro k hk
    refine ⟨?_, ?_⟩
    · show (seq env p _ k).t < p.T
      rw [seq_facts env p hv _ k]
      have := (hn (k + 1) (by omega)).mpr (by omega)
      push_cast at this
      exact this
    · exact body_ok env p hv _) (by
    show ¬ (seq env p _ n).t < p.T
    rw [seq_facts env p hv _ n]
    intro h
    have := (hn (n + 1) (by omega)).mp (by push_cast; exact h)
    omega)
  have h0 : init p .empty = seq env p .empty 0 := rfl
  unfold simulate at h
  rw [h0, hrun, seq_facts env p hv _ n] at h
  simp only [Res.mapState, Res.ok.injEq, true_and] at h
  rw [← h]
  simp [Data.empty]

theorem simulate_traj_get (env : Env) (p : Params) (hv : p.Valid) (hd : 0 < p.dt) (d : Data)
    (h : simulate env p .empty = .ok () d) (k : ℕ) (hk : k < d.w_T_v.length) : d.w_T_v[k] = poseAt p k := by
  obtain ⟨n, _, e⟩ := simulate_traj env p hv hd d h
  simp only [e, List.getElem_map, List.getElem_range]

/-- **C87.**  Every simulated orientation is a unit quaternion (the start being one), and it is the start orientation turned
about the vertical axis by the angle turned so far; each position is the previous one moved by the step along the *previous*
orientation. -/
theorem C87_motion (env : Env) (p : Params) (hv : p.Valid) (hd : 0 < p.dt) (h0 : p.w_T_v_0.q.norm2 = 1) (d : Data)
    (h : simulate env p .empty = .ok () d) :
    (∀ k (hk : k < d.w_T_v.length), (d.w_T_v[k]).q.norm2 = 1) ∧
    (∀ k (hk : k < d.w_T_v.length) v, (d.w_T_v[k]).q.rotate v = p.w_T_v_0.q.rotate (rotZ (turned p k) v)) ∧
    (∀ k (hk : k + 1 < d.w_T_v.length),
      (d.w_T_v[k + 1]).r = Vec3.add (d.w_T_v[k]).r
        (Vec3.smul p.dt (p.w_T_v_0.q.rotate (rotZ (turned p k) ⟨stepSpeed p (k + 1), 0, 0⟩)))) := by
  refine ⟨?_, ?_, ?_⟩
  · intro k hk
    rw [simulate_traj_get env p hv hd d h k hk]
    exact poseAt_norm p h0 k
  · intro k hk v
    rw [simulate_traj_get env p hv hd d h k hk]
    exact poseAt_rotate p h0 k v
  · intro k hk
    rw [simulate_traj_get env p hv hd d h (k + 1) hk, simulate_traj_get env p hv hd d h k (by omega), poseAt_succ]
    simp only
    rw [poseAt_rotate p h0]

/-- **C87.**  Up to the machine epsilon per step, the angle turned after `k` steps is the change of direction of the sine path
between the end of the *first* step and the end of step `k`. -/
theorem C87_heading (p : Params) (hd : 0 < p.dt) (k : ℕ) (hk : 1 ≤ k) :
    |turned p k - (pathHeading p (k * p.dt) - pathHeading p p.dt)| ≤ k * (eps * p.dt) := by
  obtain ⟨j, rfl⟩ : ∃ j, k = j + 1 := ⟨k - 1, by omega⟩
  exact turned_close p hd j

/-- **C87.**  Without amplitude the vehicle drives straight ahead with speed one. -/
theorem C87_straight (env : Env) (p : Params) (hv : p.Valid) (hd : 0 < p.dt) (hA : p.A = 0) (d : Data)
    (h : simulate env p .empty = .ok () d) (k : ℕ) (hk : k < d.w_T_v.length) :
    d.w_T_v[k] = ⟨p.w_T_v_0.q, Vec3.add p.w_T_v_0.r (Vec3.smul (k * p.dt) (p.w_T_v_0.q.rotate ⟨1, 0, 0⟩))⟩ := by
  rw [simulate_traj_get env p hv hd d h k hk]
  clear hk
  have hphi : ∀ t, pathHeading p t = 0 := by intro t; simp [pathHeading, hA]
  have ht : ∀ j, stepTurn p j = 0 := by
    intro j; unfold stepTurn; split
    · rfl
    · rw [hphi, hphi]; simp
  have hs : ∀ j, stepSpeed p (j + 1) = 1 := by
    intro j
    simp only [stepSpeed, hphi, Real.cos_zero, Real.sin_zero, zero_mul, add_zero, one_mul]
    rw [div_eq_one_iff_eq hd.ne']; push_cast; ring
  induction k with
  | zero =>
    ext <;> simp [poseAt, Vec3.add, Vec3.smul]
  | succ k ih =>
    rw [poseAt_succ, ht, hs, ih]
    have : ¬ (eps < |(0 : ℝ)|) := by rw [abs_zero]; unfold eps; norm_num
    rw [if_neg this]
    ext <;> simp only [Vec3.add, Vec3.smul] <;> push_cast <;> ring

/-- The steps of `demo`. -/
theorem demo_steps (A : ℝ) (n : ℕ) (h : (demo A).Steps n) : n = 3 := by
  have h3 := (h 3 (by omega)).mp (by norm_num [demo])
  have h4 : ¬ (4 ≤ n) := by
    intro hc
    have := (h 4 (by omega)).mpr hc
    norm_num [demo] at this
  omega

/-- **C87, false part.**  The simulated vehicle does not drive along the sine path: with quarter-period steps and any amplitude
but zero, it is a quarter period later still on the axis, not at the crest. -/
theorem C87_off_the_path (A : ℝ) (hA : A ≠ 0) (env : Env) (d : Data) (h : simulate env (demo A) .empty = .ok () d) :
    ∃ hk : 1 < d.w_T_v.length, (d.w_T_v[1]).r = ⟨1 / 4, 0, 0⟩ ∧ pathY (demo A) (1 / 4) = A ∧
      (d.w_T_v[1]).r.y ≠ pathY (demo A) (1 / 4) := by
  obtain ⟨n, hn, e⟩ := simulate_traj env _ (demo_valid A) (demo_dt A) d h
  have hlen : 1 < d.w_T_v.length := by rw [e, demo_steps A n hn]; simp
  have hy : pathY (demo A) (1 / 4) = A := by
    simp only [pathY, demo]
    rw [show 2 * Real.pi * 1 * (1 / 4) = Real.pi / 2 by ring, Real.sin_pi_div_two, mul_one]
  have hr : (d.w_T_v[1]).r = ⟨1 / 4, 0, 0⟩ := by
    rw [simulate_traj_get env _ (demo_valid A) (demo_dt A) d h 1 hlen, poseAt_succ]
    have hphi : pathHeading (demo A) (1 / 4) = 0 := by
      simp only [pathHeading, demo]
      rw [show 2 * Real.pi * 1 * (1 / 4) = Real.pi / 2 by ring, Real.cos_pi_div_two]
      simp
    have hsp : stepSpeed (demo A) (0 + 1) = 1 := by
      simp only [stepSpeed, zero_add, Nat.cast_one, one_mul]
      have hdt : (demo A).dt = 1 / 4 := rfl
      rw [hdt, hphi]
      norm_num
    rw [hsp]
    ext <;> simp [poseAt, demo, Vec3.add, Vec3.smul, Quat.rotate, Quat.vec, Vec3.cross, Vec3.sub]
  refine ⟨hlen, hr, hy, ?_⟩
  rw [hr, hy]
  exact fun e => hA e.symm

/-- The simulator returns on `demo`. -/
example (env : Env) (A : ℝ) : ∃ d, simulate env (demo A) .empty = .ok () d ∧ (demo A).w_T_v_0.q.norm2 = 1 := by
  obtain ⟨n, Q, _, _, h⟩ := C86_simulated_data env _ (demo_valid A) (demo_dt A) .empty
  exact ⟨_, h, by simp [demo, Quat.norm2]⟩

/-! ## C88: what the calibrator makes of simulated data -/

theorem lw_eq (env : Env) (p : Params) (hv : p.Valid) (hd : 0 < p.dt) (d : Data) (h : simulate env p .empty = .ok () d) :
    ∃ n, p.Steps n ∧
      d.lwData = (List.range n).map (fun (j : ℕ) =>
        ((j : ℤ) * env.ns p.dt + env.ns p.t_l, p.k_l * (stepSpeed p (j + 1) - stepTurn p (j + 1) * p.b))) ∧
      d.rwData = (List.range n).map (fun (j : ℕ) =>
        ((j : ℤ) * env.ns p.dt + env.ns p.t_r, p.k_r * (stepSpeed p (j + 1) + stepTurn p (j + 1) * p.b))) ∧
      d.v_v_wv = ⟨0, 0, 0⟩ :: (List.range n).map (fun j => ⟨stepSpeed p (j + 1), 0, 0⟩) ∧
      d.v_om_wv = ⟨0, 0, 0⟩ :: (List.range n).map (fun j => ⟨0, 0, stepTurn p (j + 1)⟩) := by
  obtain ⟨n, Q, hn, _, e⟩ := C86_simulated_data env p hv hd .empty
  rw [e] at h
  simp only [Res.ok.injEq, true_and] at h
  refine ⟨n, hn, ?_⟩
  rw [← h]
  simp [Data.empty]

/-- `S` gives the body velocities of a continuous trajectory which, at the time of each simulated step, are the simulated ones:
step `j` (counted from 0) belongs to time `j dt`. -/
def Passes (env : Env) (p : Params) (d : Data) (S : ℤ → Vec3 × Vec3) : Prop :=
  ∀ j (h1 : j + 1 < d.v_v_wv.length) (h2 : j + 1 < d.v_om_wv.length),
    S ((j : ℤ) * env.ns p.dt) = (d.v_v_wv[j + 1], d.v_om_wv[j + 1])

/-- **C88 (partial).**  On a trajectory passing through the simulated velocities, the true scale and width and the *negated*
true delay leave no error in any noise-free wheel measurement. -/
theorem C88_no_error_partial (env : Env) (p : Params) (hv : p.Valid) (hd : 0 < p.dt) (d : Data)
    (h : simulate env p .empty = .ok () d) (S : ℤ → Vec3 × Vec3) (hS : Passes env p d S) :
    (∀ m ∈ d.lwData, wheelError p.k_l (leftVelocity p.b (S (evalTime (-env.ns p.t_l) m.1)).1
      (S (evalTime (-env.ns p.t_l) m.1)).2) m.2 = ⟨0, 0, 0⟩) ∧
    (∀ m ∈ d.rwData, wheelError p.k_r (rightVelocity p.b (S (evalTime (-env.ns p.t_r) m.1)).1
      (S (evalTime (-env.ns p.t_r) m.1)).2) m.2 = ⟨0, 0, 0⟩) := by
  obtain ⟨n, hn, hl, hr, hv', ho⟩ := lw_eq env p hv hd d h
  have hS' : ∀ j < n, S ((j : ℤ) * env.ns p.dt) = (⟨stepSpeed p (j + 1), 0, 0⟩, ⟨0, 0, stepTurn p (j + 1)⟩) := by
    intro j hj
    have := hS j (by rw [hv']; simp; omega) (by rw [ho]; simp; omega)
    rw [this]
    simp [hv', ho]
  constructor
  · intro m hm
    rw [hl, List.mem_map] at hm
    obtain ⟨j, hj, rfl⟩ := hm
    rw [List.mem_range] at hj
    have e : evalTime (-env.ns p.t_l) ((j : ℤ) * env.ns p.dt + env.ns p.t_l) = (j : ℤ) * env.ns p.dt := by
      unfold evalTime; ring
    simp only [e, hS' j hj]
    ext <;> simp [wheelError, leftVelocity, Vec3.add, Vec3.cross]; ring
  · intro m hm
    rw [hr, List.mem_map] at hm
    obtain ⟨j, hj, rfl⟩ := hm
    rw [List.mem_range] at hj
    have e : evalTime (-env.ns p.t_r) ((j : ℤ) * env.ns p.dt + env.ns p.t_r) = (j : ℤ) * env.ns p.dt := by
      unfold evalTime; ring
    simp only [e, hS' j hj]
    ext <;> simp [wheelError, rightVelocity, Vec3.add, Vec3.cross]

/-- **C88, false part.**  If no two times give the same left wheel speed, the only delay that explains a simulated measurement
is the negative of the one it was simulated with. -/
theorem C88_delay_is_negated (env : Env) (p : Params) (hv : p.Valid) (hd : 0 < p.dt) (hk : p.k_l ≠ 0) (d : Data)
    (h : simulate env p .empty = .ok () d) (S : ℤ → Vec3 × Vec3) (hS : Passes env p d S)
    (hinj : ∀ a b, (leftVelocity p.b (S a).1 (S a).2).x = (leftVelocity p.b (S b).1 (S b).2).x → a = b)
    (m : ℤ × ℝ) (hm : m ∈ d.lwData) (delay : ℤ) :
    (wheelError p.k_l (leftVelocity p.b (S (evalTime delay m.1)).1 (S (evalTime delay m.1)).2) m.2).x = 0
      ↔ delay = -env.ns p.t_l := by
  have hz := (C88_no_error_partial env p hv hd d h S hS).1 m hm
  have hz' := congrArg Vec3.x hz
  constructor
  · intro h0
    simp only [wheelError] at h0 hz'
    have e : p.k_l * (leftVelocity p.b (S (evalTime delay m.1)).1 (S (evalTime delay m.1)).2).x
        = p.k_l * (leftVelocity p.b (S (evalTime (-env.ns p.t_l) m.1)).1 (S (evalTime (-env.ns p.t_l) m.1)).2).x := by
      linarith
    have := hinj _ _ (mul_left_cancel₀ hk e)
    unfold evalTime at this
    omega
  · intro e; rw [e]; exact hz'

/-- **C88.**  From a noise-free pose measurement and the true mounting, the calibrator recovers the vehicle pose exactly. -/
theorem C88_knots (Q m : Pose) (hm : m.q.norm2 = 1) :
    knot m (Q.q.qplus m.q) (Vec3.add Q.r (Q.q.rotate m.r)) = Q := by
  have e : (Q.q.qplus m.q).qplus m.q.inv = Q.q := by
    rw [qplus_assoc, qplus_inv m.q hm, qplus_one]
  unfold knot
  simp only [e]
  ext <;> simp [Vec3.sub, Vec3.add]

theorem demo_traj (env : Env) : ∃ d, simulate env (demo 0) .empty = .ok () d ∧
    d.v_v_wv.length = 4 ∧ d.v_om_wv.length = 4 ∧ (1, 2) ∈ d.lwData.map (fun m => ((1 : ℤ), m.2)) := by
  obtain ⟨n, Q, hn, _, e⟩ := C86_simulated_data env _ (demo_valid 0) (demo_dt 0) .empty
  have := demo_steps 0 n hn
  subst this
  refine ⟨_, e, by simp [Data.empty], by simp [Data.empty], ?_⟩
  have hphi : ∀ t, pathHeading (demo 0) t = 0 := by intro t; simp [pathHeading, demo]
  have ht : ∀ j, stepTurn (demo 0) j = 0 := by
    intro j; unfold stepTurn; split
    · rfl
    · rw [hphi, hphi]; simp
  have hs : stepSpeed (demo 0) 1 = 1 := by
    simp only [stepSpeed, hphi, Real.cos_zero, Real.sin_zero, zero_mul, add_zero, one_mul]
    simp [demo]
  simp only [Data.empty, List.nil_append, List.map_map, List.mem_map, List.mem_range, Function.comp]
  refine ⟨0, by omega, ?_⟩
  rw [zero_add, ht, hs]
  norm_num [demo]

/-- For the straight drive the constant unit velocity passes through the simulated velocities: the hypotheses of
`C88_no_error_partial` are met. -/
example (env : Env) : ∃ d S, simulate env (demo 0) .empty = .ok () d ∧ Passes env (demo 0) d S ∧ d.lwData ≠ [] := by
  obtain ⟨d, hd, h1, h2, h3⟩ := demo_traj env
  refine ⟨d, fun _ => (⟨1, 0, 0⟩, ⟨0, 0, 0⟩), hd, ?_, ?_⟩
  · obtain ⟨n, hn, _, _, hv', ho⟩ := lw_eq env _ (demo_valid 0) (demo_dt 0) d hd
    have hphi : ∀ t, pathHeading (demo 0) t = 0 := by intro t; simp [pathHeading, demo]
    have ht : ∀ j, stepTurn (demo 0) j = 0 := by
      intro j; unfold stepTurn; split
      · rfl
      · rw [hphi, hphi]; simp
    have hs : ∀ j : ℕ, stepSpeed (demo 0) (j + 1) = 1 := by
      intro j
      simp only [stepSpeed, hphi, Real.cos_zero, Real.sin_zero, zero_mul, add_zero, one_mul]
      rw [div_eq_one_iff_eq (demo_dt 0).ne']; push_cast; ring
    intro j h1 h2
    simp [hv', ho, ht, hs]
  · intro e; rw [e] at h3; simp at h3

/-- A simulation of one step (`T` is half a second) with constant delay: here a velocity that grows with time passes through
the only simulated velocity, so the hypotheses of `C88_delay_is_negated` are met. -/
example (env : Env) : ∃ (p : Params) (d : Data) (S : ℤ → Vec3 × Vec3), p.Valid ∧ 0 < p.dt ∧ p.k_l ≠ 0 ∧
    simulate env p .empty = .ok () d ∧ Passes env p d S ∧ d.lwData ≠ [] ∧
    (∀ a b, (leftVelocity p.b (S a).1 (S a).2).x = (leftVelocity p.b (S b).1 (S b).2).x → a = b) := by
  let p : Params := { demo 0 with T := 1 / 2 }
  have hv : p.Valid := demo_valid 0
  have hd : 0 < p.dt := demo_dt 0
  obtain ⟨n, Q, hn, _, e⟩ := C86_simulated_data env p hv hd .empty
  have hn1 : n = 1 := by
    have h1 := (hn 1 (by omega)).mp (by norm_num [p, demo])
    have h2 : ¬ (2 ≤ n) := by
      intro hc
      have := (hn 2 (by omega)).mpr hc
      norm_num [p, demo] at this
    omega
  subst hn1
  obtain ⟨n', hn', hl, _, hv', ho⟩ := lw_eq env p hv hd _ e
  have hphi : ∀ t, pathHeading p t = 0 := by intro t; simp [pathHeading, p, demo]
  have ht : ∀ j, stepTurn p j = 0 := by
    intro j; unfold stepTurn; split
    · rfl
    · rw [hphi, hphi]; simp
  have hs : ∀ j : ℕ, stepSpeed p (j + 1) = 1 := by
    intro j
    simp only [stepSpeed, hphi, Real.cos_zero, Real.sin_zero, zero_mul, add_zero, one_mul]
    rw [div_eq_one_iff_eq hd.ne']; push_cast; ring
  refine ⟨p, _, fun a => (⟨1 + (a : ℝ), 0, 0⟩, ⟨0, 0, 0⟩), hv, hd, by norm_num [p, demo], e, ?_, ?_, ?_⟩
  · intro j h1 h2
    simp [Data.empty] at h1
    have : j = 0 := by omega
    subst this
    have hs0 := hs 0
    rw [zero_add] at hs0
    simp [Data.empty, ht, hs0]
  · simp [Data.empty]
  · intro a b hab
    simp only [leftVelocity, Vec3.add, Vec3.cross] at hab
    norm_num at hab
    exact hab

example : (⟨0, 0, 1, 0⟩ : Quat).norm2 = 1 := by norm_num [Quat.norm2]

/-! ## C89: predicted wheel speeds -/

/-- **C89 (partial).**  Predicted speed plus error is the measurement exactly when the wheel does not slip sideways. -/
theorem C89_prediction_partial (k : ℝ) (hk : k ≠ 0) (v : Vec3) (hx : v.x ≠ 0) (meas : ℝ) :
    ∃ s, predictedSpeed k v = some s ∧ (s + (wheelError k v meas).x = meas ↔ v.y = 0) := by
  refine ⟨_, by unfold predictedSpeed; rw [if_neg hx], ?_⟩
  set r := Real.sqrt (v.y * v.y / (v.x * v.x) + 1) with hr
  have hx2 : 0 < v.x * v.x := mul_self_pos.mpr hx
  have hnn : 0 ≤ v.y * v.y / (v.x * v.x) + 1 := by
    have : 0 ≤ v.y * v.y / (v.x * v.x) := div_nonneg (mul_self_nonneg _) hx2.le
    linarith
  have hr1 : r * r = v.y * v.y / (v.x * v.x) + 1 := Real.mul_self_sqrt hnn
  have hrpos : 0 < r := by
    rw [hr]; apply Real.sqrt_pos.mpr
    have : 0 ≤ v.y * v.y / (v.x * v.x) := div_nonneg (mul_self_nonneg _) hx2.le
    linarith
  have hval : v.x / r + v.y * v.y / (v.x * r) = v.x * r := by
    have h2 : v.x * v.x * (r * r) = v.y * v.y + v.x * v.x := by
      rw [hr1]; field_simp
    field_simp
    linarith
  simp only [wheelError]
  rw [hval]
  constructor
  · intro h
    have : k * (v.x * (r - 1)) = 0 := by linarith
    have hr' : r = 1 := by
      rcases mul_eq_zero.mp this with h | h
      · exact absurd h hk
      · rcases mul_eq_zero.mp h with h | h
        · exact absurd h hx
        · linarith
    rw [hr'] at hr1
    have : v.y * v.y / (v.x * v.x) = 0 := by linarith
    rcases div_eq_zero_iff.mp this with h | h
    · exact mul_self_eq_zero.mp h
    · exact absurd h hx2.ne'
  · intro h
    rw [h] at hr
    have : r = 1 := by rw [hr]; simp
    rw [this]; ring

/-- **C89, false part.**  A standing wheel has no finite prediction, although its error is finite. -/
theorem C89_standing (k : ℝ) (v : Vec3) (hx : v.x = 0) : predictedSpeed k v = none := by
  unfold predictedSpeed; rw [if_pos hx]

example : predictedSpeed 1 ⟨1, 0, 0⟩ = some 1 := by
  norm_num [predictedSpeed]

end SimTD
end Verif
