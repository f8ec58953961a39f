import Verif.Model.SimParams
import Verif.Props.Options
import Verif.Props.SimTD
import Verif.Props.NormalMv

/-! Property C114: the parameters of the simulations read from a configuration. -/

namespace Verif
namespace Opts

/-! ### Specification: which entry each parameter comes from -/

/-- three numbers below `tag`. -/
def Three (t : Tree) (tag : String) (v : List ℝ) : Prop := ["e1", "e2", "e3"].map (fun e => t.double (tag ++ e)) = v.map some

/-- every parameter of the time delay simulation is its entry; the vehicle starts in the origin. -/
def TDSimFrom (t : Tree) (s : TDSim) : Prop :=
  t.double "calibration/odometry/wss/b" = some s.b ∧ t.double "calibration/odometry/wss/k_l" = some s.k_l ∧
  t.double "calibration/odometry/wss/t_l" = some s.t_l ∧ t.double "calibration/odometry/wss/k_r" = some s.k_r ∧
  t.double "calibration/odometry/wss/t_r" = some s.t_r ∧ s.v_T_p.length = 6 ∧
  Three t "calibration/v_T_p/v_R_p/" (s.v_T_p.take 3) ∧ Three t "calibration/v_T_p/v_r_vp/" (s.v_T_p.drop 3) ∧
  t.double "dt" = some s.dt ∧ t.double "T" = some s.T ∧
  t.double "noise/odometry/wss/sigma2_l" = some s.sigma2_l ∧ t.double "noise/odometry/wss/sigma2_r" = some s.sigma2_r ∧
  Three t "noise/pose/sigma2_w_r_wp/" s.sigma2_w_r_wp ∧ Three t "noise/pose/sigma2_w_R_p/" s.sigma2_w_R_p ∧
  t.double "trajectory/A" = some s.traj.A ∧ t.double "trajectory/f" = some s.traj.f ∧ s.traj.start = List.replicate 6 0

/-- the `i`-th sensor of the configuration has index `k`, delay `d` and mounting `m` (yaw, pitch, roll, x, y, z). -/
def SensorEntry (t : Tree) (i : ℕ) (k : ℕ) (c : Int × List ℝ) : Prop :=
  t.int ("calibration/sensor_" ++ toString i ++ "/idx") = some (k : Int) ∧
  t.int ("calibration/sensor_" ++ toString i ++ "/intrinsics/timeDelay") = some c.1 ∧
  ["rotation/yaw", "rotation/pitch", "rotation/roll", "translation/x", "translation/y", "translation/z"].map
    (fun e => t.double ("calibration/sensor_" ++ toString i ++ "/extrinsics/" ++ e)) = c.2.map some

/-- the `i`-th noise entry of the configuration has index `k` and the variances `v`. -/
def NoiseEntry (t : Tree) (i : ℕ) (k : ℕ) (v : List ℝ) : Prop :=
  t.int ("noise/sensor_" ++ toString i ++ "/idx") = some (k : Int) ∧
  ["e1", "e2", "e3", "e4", "e5", "e6"].map (fun e => t.double ("noise/sensor_" ++ toString i ++ "/" ++ e)) = v.map some

/-- `m` holds the entries `0 … n-1`; of the entries with the same index the last. -/
def Holds {β : Type} (entry : ℕ → ℕ → β → Prop) (n : ℕ) (m : ℕ → Option β) : Prop :=
  (∀ i < n, ∃ k v, entry i k v) ∧
  ∀ k v, m k = some v ↔ ∃ i < n, entry i k v ∧ ∀ j, i < j → j < n → ¬ ∃ w, entry j k w

/-- every parameter of the egomotion simulation is its entry: `n` sensors and `n + 1` noise entries. -/
def EgoSimFrom (t parent : Tree) (s : EgoSim) : Prop :=
  parent.int "egomotion/calibrator/referenceSensor" = some (s.referenceSensor : Int) ∧
  (∃ n : ℕ, t.int "calibration/num" = some (n : Int) ∧ Holds (SensorEntry t) n s.sensorCalibration ∧
    Holds (NoiseEntry t) (n + 1) s.sigma2) ∧
  t.double "dt" = some s.dt ∧ t.double "T" = some s.T ∧ EgoTrajFrom (t.sub "trajectory") s.traj

/-- the integers of the configuration are values of an `int`. -/
def Tree.Ints (t : Tree) : Prop := ∀ k z, t.int k = some z → -2147483648 ≤ z ∧ z ≤ 2147483647

/-! ### The readers -/

theorem get3_ok (t : Tree) (tag : String) (v : List ℝ) : get3 t tag = .ok v () ↔ Three t tag v := by
  unfold get3 Three
  simp only [get_bind]
  constructor
  · rintro ⟨a, ha, b, hb, c, hc, h⟩
    simp only [Res.ok.injEq, and_true] at h
    subst h
    simp [ha, hb, hc]
  · intro h
    have hl : v.length = 3 := by simpa using (congrArg List.length h).symm
    match v, hl with
    | [a, b, c], _ =>
      simp only [List.map_cons, List.map_nil, List.cons.injEq, and_true] at h
      exact ⟨a, h.1, b, h.2.1, c, h.2.2, rfl⟩

theorem get3_clean (t : Tree) (tag : String) : Clean (get3 t tag) := by
  unfold get3
  iterate 3 refine get_clean _ _ fun _ => ?_
  exact .inl ⟨_, rfl⟩

theorem tdTraj_clean (t : Tree) : Clean (tdTraj t) := by
  unfold tdTraj
  iterate 2 refine get_clean _ _ fun _ => ?_
  exact .inl ⟨_, rfl⟩

/-- **C114** (time delay): the parameters are made exactly when every entry is there, each is then its entry, and otherwise the
library's exception is thrown. -/
theorem C114_timedelay (t : Tree) :
    (∀ s, tdSim t = .ok s () ↔ TDSimFrom t s) ∧ ((¬ ∃ s, TDSimFrom t s) → tdSim t = .throw .external ()) := by
  have hcl : Clean (tdSim t) := by
    unfold tdSim
    iterate 5 refine get_clean _ _ fun _ => ?_
    iterate 2 refine bind_clean (get3_clean _ _) _ fun _ => ?_
    iterate 4 refine get_clean _ _ fun _ => ?_
    iterate 2 refine bind_clean (get3_clean _ _) _ fun _ => ?_
    refine bind_clean (tdTraj_clean _) _ fun _ => ?_
    exact .inl ⟨_, rfl⟩
  have hiff : ∀ s, tdSim t = .ok s () ↔ TDSimFrom t s := by
    intro s
    unfold tdSim TDSimFrom
    simp only [bind_ok, get_ok, get3_ok, (C108_timedelay_trajectory _).1]
    obtain ⟨tj, vTp, b, kl, tl, kr, tr, dt, T, sl, sr, cp, cR⟩ := s
    simp only [Res.ok.injEq, TDSim.mk.injEq]
    constructor
    · rintro ⟨a1, h1, a2, h2, a3, h3, a4, h4, a5, h5, R, hR, r, hr, a6, h6, a7, h7, a8, h8, a9, h9, a10, h10, a11, h11, a12,
        ⟨h12, h13, h14⟩, ⟨rfl, rfl, rfl, rfl, rfl, rfl, rfl, rfl, rfl, rfl, rfl, rfl, rfl⟩, -⟩
      have hl : R.length = 3 := by simpa using (congrArg List.length hR).symm
      have hl' : r.length = 3 := by simpa using (congrArg List.length hr).symm
      refine ⟨h1, h2, h3, h4, h5, by simp [hl, hl'], ?_, ?_, h6, h7, h8, h9, h10, h11, h12, h13, h14⟩
      · rw [List.take_left' hl]; exact hR
      · rw [List.drop_left' hl]; exact hr
    · rintro ⟨h1, h2, h3, h4, h5, hl, hR, hr, h6, h7, h8, h9, h10, h11, h12, h13, h14⟩
      exact ⟨_, h1, _, h2, _, h3, _, h4, _, h5, _, hR, _, hr, _, h6, _, h7, _, h8, _, h9, _, h10, _, h11, tj, ⟨h12, h13, h14⟩,
        ⟨rfl, List.take_append_drop 3 _, rfl, rfl, rfl, rfl, rfl, rfl, rfl, rfl, rfl, rfl, rfl⟩, trivial⟩
  refine ⟨hiff, fun hn => ?_⟩
  rcases hcl with ⟨o, ho⟩ | hx
  · exact absurd ⟨o, (hiff o).1 ho⟩ hn
  · exact hx

/-! ### Simulating with the parameters -/

theorem diag3_ok {eig : NormalV.Eig 3} (he : eig.Exact) (raw : NormalV 3) {v : List ℝ} (h : ∀ x ∈ v, 0 ≤ x) :
    ∃ n, NormalV.ctor eig raw 0 (diag3 v) = .ok () n := by
  have hp : (diag3 v).PosSemidef := by
    unfold diag3
    refine Matrix.PosSemidef.diagonal fun i => ?_
    show 0 ≤ v.getD i 0
    rw [List.getD_eq_getElem?_getD]
    cases hi : v[(i : ℕ)]? with
    | none => simp
    | some x => exact h x (List.mem_of_getElem? hi)
  obtain ⟨n, hn, -⟩ := (NormalV.C107_setCovariance_partial he { raw with mean := 0 } (diag3 v)).1 hp
  exact ⟨n, hn⟩

/-- **C114** (time delay): a configuration with a positive step and positive variances of the wheel sensors and variances of the
pose sensor that are not negative can be simulated: reading it and simulating from nothing returns, with one reading of each sensor
for each step `k dt < T`, and the readings of the left wheel sensor are stamped with the configured delay and scaled with the
configured factor. -/
theorem C114_timedelay_simulates (t : Tree) (s : TDSim) (hs : tdSim t = .ok s ()) (hd : 0 < s.dt) (hl : 0 < s.sigma2_l)
    (hr : 0 < s.sigma2_r) (hp : ∀ x ∈ s.sigma2_w_r_wp, 0 ≤ x) (hR : ∀ x ∈ s.sigma2_w_R_p, 0 ≤ x)
    (ypr : ℝ → ℝ → ℝ → SimTD.Quat) {eig : NormalV.Eig 3} (he : eig.Exact) (raw : NormalV 3) (env : SimTD.Env) :
    ∃ (n : ℕ) (d : SimTD.Data) (b kl tl kr tr dt T : ℝ),
      t.double "calibration/odometry/wss/b" = some b ∧ t.double "calibration/odometry/wss/k_l" = some kl ∧
      t.double "calibration/odometry/wss/t_l" = some tl ∧ t.double "calibration/odometry/wss/k_r" = some kr ∧
      t.double "calibration/odometry/wss/t_r" = some tr ∧ t.double "dt" = some dt ∧ t.double "T" = some T ∧
      (∀ k : ℕ, 1 ≤ k → ((k : ℝ) * dt < T ↔ k ≤ n)) ∧
      SimTD.simulate env (s.params ypr eig raw) .empty = .ok () d ∧
      d.poseData.length = n ∧ d.poseData_n.length = n ∧ d.lwData_n.length = n ∧ d.rwData_n.length = n ∧
      ∃ v w : ℕ → ℝ,
        d.lwData = (List.range n).map (fun (j : ℕ) => ((j : ℤ) * env.ns dt + env.ns tl, kl * (v j - w j * b))) ∧
        d.rwData = (List.range n).map (fun (j : ℕ) => ((j : ℤ) * env.ns dt + env.ns tr, kr * (v j + w j * b))) := by
  classical
  obtain ⟨h1, h2, h3, h4, h5, -, -, -, h6, h7, -⟩ := ((C114_timedelay t).1 s).1 hs
  have hv : (s.params ypr eig raw).Valid := ⟨hl, hr, decide_eq_true (diag3_ok he raw hp), decide_eq_true (diag3_ok he raw hR)⟩
  obtain ⟨n, Q, hn, -, h⟩ := SimTD.C86_simulated_data env (s.params ypr eig raw) hv hd .empty
  refine ⟨n, _, _, _, _, _, _, _, _, h1, h2, h3, h4, h5, h6, h7, hn, h, ?_, ?_, ?_, ?_,
    fun j => SimTD.stepSpeed (s.params ypr eig raw) (j + 1), fun j => SimTD.stepTurn (s.params ypr eig raw) (j + 1), ?_, ?_⟩ <;>
    simp [SimTD.Data.empty, TDSim.params]

/-- **C114** (time delay): the default parameters can be simulated; in exact arithmetic there are 9999 readings of each sensor. -/
theorem C114_default_simulates (ypr : ℝ → ℝ → ℝ → SimTD.Quat) {eig : NormalV.Eig 3} (he : eig.Exact) (raw : NormalV 3)
    (env : SimTD.Env) : ∃ d, SimTD.simulate env (tdDefault.params ypr eig raw) .empty = .ok () d ∧
      d.lwData_n.length = 9999 ∧ d.rwData_n.length = 9999 ∧ d.poseData_n.length = 9999 := by
  classical
  have hv : (tdDefault.params ypr eig raw).Valid := by
    refine ⟨?_, ?_, decide_eq_true (diag3_ok he raw ?_), decide_eq_true (diag3_ok he raw ?_)⟩ <;>
      simp [TDSim.params, tdDefault]
  obtain ⟨n, Q, hn, -, h⟩ := SimTD.C86_simulated_data env (tdDefault.params ypr eig raw) hv
    (by simp [TDSim.params, tdDefault]) .empty
  have hn' : n = 9999 := by
    have a := hn 9999 (by norm_num)
    have b := hn 10000 (by norm_num)
    simp only [TDSim.params, tdDefault] at a b
    have a' := a.1 (by norm_num)
    have b' : ¬ 10000 ≤ n := fun c => absurd (b.2 c) (by norm_num)
    omega
  subst hn'
  exact ⟨_, h, by simp [SimTD.Data.empty], by simp [SimTD.Data.empty], by simp [SimTD.Data.empty]⟩

/-! ### Egomotion -/

theorem mapLoop_clean {β : Type} {f : ℕ → Res Unit (ℕ × β)} (hf : ∀ i, Clean (f i)) (n i : ℕ) (m : ℕ → Option β) :
    Clean (mapLoop f n i m) := by
  induction n generalizing i m with
  | zero => exact .inl ⟨_, rfl⟩
  | succ n ih => exact bind_clean (hf i) _ fun _ => ih _ _

theorem mapLoop_ok {β : Type} {f : ℕ → Res Unit (ℕ × β)} {entry : ℕ → ℕ → β → Prop}
    (hf : ∀ i p, f i = .ok p () ↔ entry i p.1 p.2) (n i : ℕ) (m r : ℕ → Option β) :
    mapLoop f n i m = .ok r () ↔ (∀ j, i ≤ j → j < i + n → ∃ k v, entry j k v) ∧
      ∀ k v, r k = some v ↔ (∃ j, i ≤ j ∧ j < i + n ∧ entry j k v ∧ ∀ l, j < l → l < i + n → ¬ ∃ w, entry l k w) ∨
        (m k = some v ∧ ∀ l, i ≤ l → l < i + n → ¬ ∃ w, entry l k w) := by
  have hfun : ∀ {j k k' v v'}, entry j k v → entry j k' v' → k = k' ∧ v = v' := by
    intro j k k' v v' h h'
    have a := (hf j (k, v)).2 h
    have b := (hf j (k', v')).2 h'
    rw [a] at b
    simp only [Res.ok.injEq, Prod.mk.injEq, and_true] at b
    exact b
  induction n generalizing i m with
  | zero =>
    simp only [mapLoop, Res.ok.injEq, and_true, add_zero]
    constructor
    · rintro rfl
      refine ⟨fun j h1 h2 => by omega, fun k v => ⟨fun h => .inr ⟨h, fun l h1 h2 => by omega⟩, ?_⟩⟩
      rintro (⟨j, h1, h2, -⟩ | ⟨h, -⟩)
      · omega
      · exact h
    · rintro ⟨-, h⟩
      funext k
      refine Option.ext fun v => ?_
      rw [h k v]
      constructor
      · intro hm; exact .inr ⟨hm, fun l h1 h2 => by omega⟩
      · rintro (⟨j, h1, h2, -⟩ | ⟨h, -⟩)
        · omega
        · exact h
  | succ n ih =>
    simp only [mapLoop, bind_ok, ih]
    constructor
    · rintro ⟨⟨k0, v0⟩, h0, hall, hr⟩
      have e0 := (hf i (k0, v0)).1 h0
      simp only at e0 hr
      refine ⟨fun j h1 h2 => ?_, fun k v => (hr k v).trans ?_⟩
      · rcases Nat.eq_or_lt_of_le h1 with rfl | h
        · exact ⟨_, _, e0⟩
        · exact hall j h (by omega)
      · constructor
        · rintro (⟨j, h1, h2, h3, h4⟩ | ⟨h, h'⟩)
          · exact .inl ⟨j, by omega, by omega, h3, fun l a b => h4 l a (by omega)⟩
          · split at h
            · rename_i hk
              subst hk
              simp only [Option.some.injEq] at h
              subst h
              exact .inl ⟨i, le_rfl, by omega, e0, fun l a b => h' l (by omega) (by omega)⟩
            · rename_i hk
              refine .inr ⟨h, fun l a b => ?_⟩
              rcases Nat.eq_or_lt_of_le a with rfl | a'
              · rintro ⟨w, hw⟩; exact hk (hfun hw e0).1
              · exact h' l a' (by omega)
        · rintro (⟨j, h1, h2, h3, h4⟩ | ⟨h, h'⟩)
          · rcases Nat.eq_or_lt_of_le h1 with rfl | h
            · obtain ⟨rfl, rfl⟩ := hfun h3 e0
              exact .inr ⟨by simp, fun l a b => h4 l (by omega) (by omega)⟩
            · exact .inl ⟨j, h, by omega, h3, fun l a b => h4 l a (by omega)⟩
          · refine .inr ⟨?_, fun l a b => h' l (by omega) (by omega)⟩
            rw [if_neg]
            · exact h
            · rintro rfl; exact h' i le_rfl (by omega) ⟨_, e0⟩
    · rintro ⟨hall, hr⟩
      obtain ⟨k0, v0, e0⟩ := hall i le_rfl (by omega)
      refine ⟨(k0, v0), (hf i (k0, v0)).2 e0, fun j h1 h2 => hall j (by omega) (by omega), fun k v => (hr k v).trans ?_⟩
      constructor
      · rintro (⟨j, h1, h2, h3, h4⟩ | ⟨h, h'⟩)
        · rcases Nat.eq_or_lt_of_le h1 with rfl | h
          · obtain ⟨rfl, rfl⟩ := hfun h3 e0
            exact .inr ⟨by simp, fun l a b => h4 l (by omega) (by omega)⟩
          · exact .inl ⟨j, h, by omega, h3, fun l a b => h4 l a (by omega)⟩
        · refine .inr ⟨?_, fun l a b => h' l (by omega) (by omega)⟩
          rw [if_neg]
          · exact h
          · rintro rfl; exact h' i le_rfl (by omega) ⟨_, e0⟩
      · rintro (⟨j, h1, h2, h3, h4⟩ | ⟨h, h'⟩)
        · exact .inl ⟨j, by omega, by omega, h3, fun l a b => h4 l a (by omega)⟩
        · split at h
          · rename_i hk
            simp only at hk
            subst hk
            simp only [Option.some.injEq] at h
            subst h
            exact .inl ⟨i, le_rfl, by omega, e0, fun l a b => h' l (by omega) (by omega)⟩
          · rename_i hk
            refine .inr ⟨h, fun l a b => ?_⟩
            rcases Nat.eq_or_lt_of_le a with rfl | a'
            · rintro ⟨w, hw⟩; exact hk (hfun hw e0).1
            · exact h' l a' (by omega)

theorem mapLoop_holds {β : Type} {f : ℕ → Res Unit (ℕ × β)} {entry : ℕ → ℕ → β → Prop}
    (hf : ∀ i p, f i = .ok p () ↔ entry i p.1 p.2) (n : ℕ) (r : ℕ → Option β) :
    mapLoop f n 0 (fun _ => none) = .ok r () ↔ Holds entry n r := by
  rw [mapLoop_ok hf]
  simp only [zero_add, zero_le, true_implies, true_and, reduceCtorEq, false_and, or_false, Holds]

theorem toSize_nonneg {z : Int} (h0 : 0 ≤ z) (h1 : z ≤ 2147483647) (k : ℕ) : toSize z = k ↔ z = (k : Int) := by
  unfold toSize; omega

theorem readCalib_ok (t : Tree) (i : ℕ)
    (h : ∀ z, t.int ("calibration/sensor_" ++ toString i ++ "/idx") = some z → 0 ≤ z ∧ z ≤ 2147483647) (p : ℕ × (Int × List ℝ)) :
    readCalib t i = .ok p () ↔ SensorEntry t i p.1 p.2 := by
  obtain ⟨k, d, m⟩ := p
  have e : ∀ b, "calibration/sensor_" ++ toString i ++ "/extrinsics/" ++ b = "calibration/sensor_" ++ toString i ++ "/" ++ ("extrinsics/" ++ b) := by
    intro b
    rw [show ("/extrinsics/" : String) = "/" ++ "extrinsics/" from rfl]
    simp only [String.append_assoc]
  have e1 : "calibration/sensor_" ++ toString i ++ "/idx" = "calibration/sensor_" ++ toString i ++ "/" ++ "idx" := by
    rw [show ("/idx" : String) = "/" ++ "idx" from rfl, ← String.append_assoc]
  have e2 : "calibration/sensor_" ++ toString i ++ "/intrinsics/timeDelay" = "calibration/sensor_" ++ toString i ++ "/" ++ "intrinsics/timeDelay" := by
    rw [show ("/intrinsics/timeDelay" : String) = "/" ++ "intrinsics/timeDelay" from rfl, ← String.append_assoc]
  unfold readCalib SensorEntry
  simp only [get_bind, e, e1, e2, Res.ok.injEq, Prod.mk.injEq, and_true] at h ⊢
  constructor
  · rintro ⟨yaw, h1, pitch, h2, roll, h3, x, h4, y, h5, z, h6, d', h7, idx, h8, h9, rfl, rfl⟩
    refine ⟨by rw [h8, (toSize_nonneg (h _ h8).1 (h _ h8).2 k).1 h9], h7, ?_⟩
    simp only [List.map_cons, List.map_nil]
    rw [show ("extrinsics/" ++ "rotation/yaw" : String) = "extrinsics/rotation/yaw" from rfl,
      show ("extrinsics/" ++ "rotation/pitch" : String) = "extrinsics/rotation/pitch" from rfl,
      show ("extrinsics/" ++ "rotation/roll" : String) = "extrinsics/rotation/roll" from rfl,
      show ("extrinsics/" ++ "translation/x" : String) = "extrinsics/translation/x" from rfl,
      show ("extrinsics/" ++ "translation/y" : String) = "extrinsics/translation/y" from rfl,
      show ("extrinsics/" ++ "translation/z" : String) = "extrinsics/translation/z" from rfl, h1, h2, h3, h4, h5, h6]
  · rintro ⟨h8, h7, hm⟩
    have hl : m.length = 6 := by simpa using (congrArg List.length hm).symm
    match m, hl with
    | [yaw, pitch, roll, x, y, z], _ =>
      simp only [List.map_cons, List.map_nil, List.cons.injEq, and_true] at hm
      obtain ⟨h1, h2, h3, h4, h5, h6⟩ := hm
      exact ⟨yaw, h1, pitch, h2, roll, h3, x, h4, y, h5, z, h6, d, h7, _, h8,
        (toSize_nonneg (h _ h8).1 (h _ h8).2 k).2 rfl, rfl, rfl⟩

theorem readNoise_ok (t : Tree) (i : ℕ)
    (h : ∀ z, t.int ("noise/sensor_" ++ toString i ++ "/idx") = some z → 0 ≤ z ∧ z ≤ 2147483647) (p : ℕ × List ℝ) :
    readNoise t i = .ok p () ↔ NoiseEntry t i p.1 p.2 := by
  obtain ⟨k, m⟩ := p
  have e1 : "noise/sensor_" ++ toString i ++ "/idx" = "noise/sensor_" ++ toString i ++ "/" ++ "idx" := by
    rw [show ("/idx" : String) = "/" ++ "idx" from rfl, ← String.append_assoc]
  unfold readNoise NoiseEntry
  simp only [get_bind, e1, Res.ok.injEq, Prod.mk.injEq, and_true] at h ⊢
  constructor
  · rintro ⟨idx, h8, a, h1, b, h2, c, h3, d, h4, e, h5, f, h6, h9, rfl⟩
    refine ⟨by rw [h8, (toSize_nonneg (h _ h8).1 (h _ h8).2 k).1 h9], ?_⟩
    simp only [List.map_cons, List.map_nil, h1, h2, h3, h4, h5, h6]
  · rintro ⟨h8, hm⟩
    have hl : m.length = 6 := by simpa using (congrArg List.length hm).symm
    match m, hl with
    | [a, b, c, d, e, f], _ =>
      simp only [List.map_cons, List.map_nil, List.cons.injEq, and_true] at hm
      obtain ⟨h1, h2, h3, h4, h5, h6⟩ := hm
      exact ⟨_, h8, a, h1, b, h2, c, h3, d, h4, e, h5, f, h6, (toSize_nonneg (h _ h8).1 (h _ h8).2 k).2 rfl, rfl⟩

theorem readCalib_clean (t : Tree) (i : ℕ) : Clean (readCalib t i) := by
  unfold readCalib
  iterate 8 refine get_clean _ _ fun _ => ?_
  exact .inl ⟨_, rfl⟩

theorem readNoise_clean (t : Tree) (i : ℕ) : Clean (readNoise t i) := by
  unfold readNoise
  iterate 7 refine get_clean _ _ fun _ => ?_
  exact .inl ⟨_, rfl⟩

theorem egoTraj_clean (raw : Int) (t : Tree) : Clean (egoTraj raw t) := by
  unfold egoTraj
  iterate 8 refine get_clean _ _ fun _ => ?_
  refine bind_clean (readSpline_clean _ _) _ fun _ => ?_
  refine get_clean _ _ fun _ => ?_
  exact .inl ⟨_, rfl⟩

/-- **C114** (egomotion): the parameters are made exactly when every entry is there, one calibration for each of the announced
sensors and one noise entry more; each parameter is then its entry, of several entries with the same index the last counts;
otherwise, in particular for a negative number of sensors, the library's exception is thrown.  Partial: the translation spline
order must have an entry, the indices must not be negative, and the number of sensors must be less than the largest `int`. -/
theorem C114_egomotion_partial (raw : Int) (t parent : Tree) (ht : t.Ints) (hp : parent.Ints)
    (horder : (t.int "trajectory/splines/transSplineOrder").isSome)
    (href : ∀ z, parent.int "egomotion/calibrator/referenceSensor" = some z → 0 ≤ z)
    (hcal : ∀ (i : ℕ) z, t.int ("calibration/sensor_" ++ toString i ++ "/idx") = some z → 0 ≤ z)
    (hnoise : ∀ (i : ℕ) z, t.int ("noise/sensor_" ++ toString i ++ "/idx") = some z → 0 ≤ z)
    (hn : t.int "calibration/num" ≠ some 2147483647) :
    (∀ s, egoSim raw t parent = .ok s () ↔ EgoSimFrom t parent s) ∧
    ((¬ ∃ s, EgoSimFrom t parent s) → egoSim raw t parent = .throw .external ()) := by
  have hcl : Clean (egoSim raw t parent) := by
    unfold egoSim
    refine get_clean _ _ fun _ => ?_
    cases hnum : t.int "calibration/num" with
    | none => exact .inr rfl
    | some n =>
      simp only [get, Res.bind]
      split
      · exact .inr rfl
      refine bind_clean (mapLoop_clean (readCalib_clean t) _ _ _) _ fun _ => ?_
      iterate 2 refine get_clean _ _ fun _ => ?_
      rw [if_neg (by rintro rfl; exact hn hnum)]
      refine bind_clean (mapLoop_clean (readNoise_clean t) _ _ _) _ fun _ => ?_
      refine bind_clean (egoTraj_clean _ _) _ fun _ => ?_
      exact .inl ⟨_, rfl⟩
  have hiff : ∀ s, egoSim raw t parent = .ok s () ↔ EgoSimFrom t parent s := by
    intro s
    have hT := (C108_egomotion_trajectory_partial raw (t.sub "trajectory") horder).1
    have h1 := fun n => mapLoop_holds (fun i p => readCalib_ok t i (fun z hz => ⟨hcal i z hz, (ht _ _ hz).2⟩) p) n
    have h2 := fun n => mapLoop_holds (fun i p => readNoise_ok t i (fun z hz => ⟨hnoise i z hz, (ht _ _ hz).2⟩) p) n
    obtain ⟨tj, cal, dt, T, noise, ref⟩ := s
    unfold egoSim EgoSimFrom
    simp only [get_bind]
    constructor
    · rintro ⟨r, hr, n, hnum, h⟩
      split at h
      · cases h
      rename_i hneg
      simp only [bind_ok, get_ok, h1] at h
      obtain ⟨c, hc, a, ha, b, hb, h⟩ := h
      split at h
      · cases h
      simp only [bind_ok, h2, hT] at h
      obtain ⟨v, hv, j, hj, h⟩ := h
      simp only [Res.ok.injEq, EgoSim.mk.injEq, and_true] at h
      obtain ⟨rfl, rfl, rfl, rfl, rfl, h⟩ := h
      refine ⟨?_, ⟨n.toNat, ?_, hc, ?_⟩, ha, hb, hj⟩
      · rw [hr, (toSize_nonneg (href _ hr) (hp _ _ hr).2 _).1 h]
      · rw [hnum, Int.toNat_of_nonneg (by omega)]
      · rwa [show n.toNat + 1 = (n + 1).toNat by omega]
    · rintro ⟨hr, ⟨n, hnum, hc, hv⟩, ha, hb, hj⟩
      refine ⟨_, hr, _, hnum, ?_⟩
      rw [if_neg (by omega)]
      simp only [bind_ok, get_ok, h1]
      refine ⟨cal, by simpa using hc, dt, ha, T, hb, ?_⟩
      rw [if_neg (by intro h; rw [h] at hnum; exact hn hnum)]
      simp only [bind_ok, h2, hT]
      refine ⟨noise, by simpa using hv, tj, hj, ?_⟩
      simp only [Res.ok.injEq, EgoSim.mk.injEq, and_true, true_and]
      exact (toSize_nonneg (href _ hr) (hp _ _ hr).2 _).2 rfl
  refine ⟨hiff, fun hn => ?_⟩
  rcases hcl with ⟨o, ho⟩ | hx
  · exact absurd ⟨o, (hiff o).1 ho⟩ hn
  · exact hx

/-- **C114** (egomotion): if every index with noise is the reference sensor or the index of one of the announced sensors, every
sensor that gets simulated has a calibration: the "complete configuration" of C90. -/
theorem C114_egomotion_complete_partial (raw : Int) (t parent : Tree) (ht : t.Ints) (hp : parent.Ints)
    (horder : (t.int "trajectory/splines/transSplineOrder").isSome)
    (href : ∀ z, parent.int "egomotion/calibrator/referenceSensor" = some z → 0 ≤ z)
    (hcal : ∀ (i : ℕ) z, t.int ("calibration/sensor_" ++ toString i ++ "/idx") = some z → 0 ≤ z)
    (hnoise : ∀ (i : ℕ) z, t.int ("noise/sensor_" ++ toString i ++ "/idx") = some z → 0 ≤ z)
    (s : EgoSim) (hs : egoSim raw t parent = .ok s ()) (n : ℕ) (hn : t.int "calibration/num" = some (n : Int))
    (hcover : ∀ i < n + 1, ∀ z, t.int ("noise/sensor_" ++ toString i ++ "/idx") = some z →
      parent.int "egomotion/calibrator/referenceSensor" = some z ∨
      ∃ j < n, t.int ("calibration/sensor_" ++ toString j ++ "/idx") = some z) :
    ∀ k, (s.sigma2 k).isSome → k ≠ s.referenceSensor → (s.sensorCalibration k).isSome := by
  have hlast : ∀ {β : Type} {entry : ℕ → ℕ → β → Prop} {m : ℕ → Option β} {N : ℕ}, Holds entry N m →
      ∀ k, (∃ j < N, ∃ v, entry j k v) → (m k).isSome := by
    intro β entry m N hm k ⟨j, hj, v, hv⟩
    classical
    let P : ℕ → Prop := fun i => i < N ∧ ∃ v, entry i k v
    obtain ⟨hlt, w, hw⟩ : P (Nat.findGreatest P N) := Nat.findGreatest_spec (P := P) (Nat.le_of_lt hj) ⟨hj, v, hv⟩
    rw [Option.isSome_iff_exists]
    refine ⟨w, (hm.2 k w).2 ⟨_, hlt, hw, fun i h1 h2 he => ?_⟩⟩
    exact absurd (Nat.le_findGreatest (P := P) (Nat.le_of_lt h2) ⟨h2, he⟩) (not_le.2 h1)
  have hmax : t.int "calibration/num" ≠ some 2147483647 := by
    intro h
    unfold egoSim at hs
    simp only [get_bind] at hs
    obtain ⟨r, hr, n', hnum, h'⟩ := hs
    rw [h] at hnum
    obtain rfl : 2147483647 = n' := by simpa using hnum
    rw [if_neg (by norm_num)] at h'
    simp only [bind_ok] at h'
    obtain ⟨c, hc, a, ha, b, hb, h'⟩ := h'
    rw [if_pos trivial] at h'
    cases h'
  obtain ⟨h1, ⟨n', hn', hc, hv⟩, -, -, -⟩ := ((C114_egomotion_partial raw t parent ht hp horder href hcal hnoise hmax).1 s).1 hs
  obtain rfl : n = n' := by
    rw [hn] at hn'; simpa using hn'
  intro k hk hr
  obtain ⟨v, hkv⟩ := Option.isSome_iff_exists.1 hk
  obtain ⟨i, hi, he, -⟩ := (hv.2 k v).1 hkv
  rcases hcover i hi k he.1 with h | ⟨j, hj, h⟩
  · rw [h1] at h
    exact absurd (by simpa using h.symm) hr
  · refine hlast hc k ⟨j, hj, ?_⟩
    obtain ⟨k', w, hw⟩ := hc.1 j hj
    have : k' = k := by have := hw.1; rw [h] at this; simpa using this.symm
    subst this
    exact ⟨w, hw⟩

/-! ### Non-vacuity, and what is missing -/

/-- a configuration in which every number is 1 and whose integers are given. -/
def demoEgo (f : String → Int) : Tree where
  double _ := some 1
  int k := some (f k)
  bool _ := some true
  str _ := some "circle"

theorem mapLoop_some {β : Type} {f : ℕ → Res Unit (ℕ × β)} (hf : ∀ i, ∃ p, f i = .ok p ()) (n i : ℕ) (m : ℕ → Option β) :
    ∃ r, mapLoop f n i m = .ok r () := by
  induction n generalizing i m with
  | zero => exact ⟨m, rfl⟩
  | succ n ih =>
    obtain ⟨p, hp⟩ := hf i
    obtain ⟨r, hr⟩ := ih (i + 1) (fun k => if k = p.1 then some p.2 else m k)
    exact ⟨r, by simp only [mapLoop, hp, Res.bind]; exact hr⟩

/-- two sensors, of index 1 and 2, with noise for 0, 1 and 2. -/
def two : String → Int := fun k =>
  if k = "calibration/num" then 2 else if k = "calibration/sensor_0/idx" then 1 else if k = "calibration/sensor_1/idx" then 2
  else if k = "noise/sensor_1/idx" then 1 else if k = "noise/sensor_2/idx" then 2 else 0

/-- non-vacuity: the hypotheses of the theorems on the egomotion parameters hold for `demoEgo two`, with reference sensor 0, and
the parameters are made. -/
example : (demoEgo two).Ints ∧ ((demoEgo two).int "trajectory/splines/transSplineOrder").isSome ∧
    (∀ k z, (demoEgo two).int k = some z → 0 ≤ z) ∧ (demoEgo two).int "calibration/num" = some (2 : ℕ) ∧
    (∀ i < 2 + 1, ∀ z, (demoEgo two).int ("noise/sensor_" ++ toString i ++ "/idx") = some z →
      (demoEgo two).int "egomotion/calibrator/referenceSensor" = some z ∨
      ∃ j < 2, (demoEgo two).int ("calibration/sensor_" ++ toString j ++ "/idx") = some z) ∧
    ∃ s, egoSim 0 (demoEgo two) (demoEgo two) = .ok s () ∧ s.sensorCalibration 1 = some (0, [1, 1, 1, 1, 1, 1]) ∧
      s.sensorCalibration 0 = none ∧ s.sigma2 0 = some [1, 1, 1, 1, 1, 1] := by
  have h : ∀ k, 0 ≤ two k ∧ two k ≤ 2 := by
    intro k; unfold two; split_ifs <;> simp
  refine ⟨fun k z hz => ?_, rfl, fun k z hz => ?_, rfl, ?_, _, rfl, rfl, rfl, rfl⟩
  · obtain rfl : two k = z := by simpa [demoEgo] using hz
    have := h k; omega
  · obtain rfl : two k = z := by simpa [demoEgo] using hz
    exact (h k).1
  · intro i hi z hz
    obtain rfl | rfl | rfl : i = 0 ∨ i = 1 ∨ i = 2 := by omega
    · left; rw [← hz]; rfl
    · right; exact ⟨0, by norm_num, by rw [← hz]; rfl⟩
    · right; exact ⟨1, by norm_num, by rw [← hz]; rfl⟩

/-- non-vacuity of the theorems on the time delay parameters. -/
example : ∃ s, tdSim (demoEgo two) = .ok s () ∧ 0 < s.dt ∧ 0 < s.sigma2_l ∧ 0 < s.sigma2_r ∧ (∀ x ∈ s.sigma2_w_r_wp, 0 ≤ x) ∧
    ∀ x ∈ s.sigma2_w_R_p, 0 ≤ x := by
  refine ⟨_, rfl, ?_, ?_, ?_, ?_, ?_⟩ <;> simp [demoEgo]

/-- **C114**, what is missing: two sensors with the same index are merged into one without any exception, the first is lost; and
the index -1 becomes a huge one. -/
theorem C114_same_index : (∃ (f : String → Int) (s : EgoSim), f "calibration/num" = 2 ∧
      f "calibration/sensor_0/intrinsics/timeDelay" = 10 ∧ f "calibration/sensor_1/intrinsics/timeDelay" = 20 ∧
      egoSim 0 (demoEgo f) (demoEgo f) = .ok s () ∧ ∀ k d m, s.sensorCalibration k = some (d, m) → d = 20) ∧
    ∃ (f : String → Int) (s : EgoSim), egoSim 0 (demoEgo f) (demoEgo f) = .ok s () ∧ f "calibration/sensor_0/idx" = -1 ∧
      (s.sensorCalibration 18446744073709551615).isSome := by
  refine ⟨⟨fun k => if k = "calibration/num" then 2 else if k = "calibration/sensor_0/intrinsics/timeDelay" then 10
    else if k = "calibration/sensor_1/intrinsics/timeDelay" then 20 else 0, _, rfl, rfl, rfl, rfl, ?_⟩,
    ⟨fun k => if k = "calibration/num" then 1 else if k = "calibration/sensor_0/idx" then -1 else 0, _, rfl, rfl, rfl⟩⟩
  intro k d m h
  change (if k = 0 then some ((20 : Int), _) else if k = 0 then some ((10 : Int), _) else none) = some (d, m) at h
  by_cases hk : k = 0
  · rw [if_pos hk] at h
    exact ((Prod.mk.inj (Option.some.inj h)).1).symm
  · rw [if_neg hk, if_neg hk] at h
    cases h

theorem egoSim_ub (raw : Int) (t p : Tree) (r : Int) (hp : p.int "egomotion/calibrator/referenceSensor" = some r)
    (hn : t.int "calibration/num" = some 2147483647) (hd : ∃ d, t.double "dt" = some d) (hT : ∃ d, t.double "T" = some d)
    (hf : ∀ i, ∃ q, readCalib t i = .ok q ()) : egoSim raw t p = .ub := by
  obtain ⟨d, hd⟩ := hd
  obtain ⟨T, hT⟩ := hT
  generalize hN : (2147483647 : Int) = N at hn
  obtain ⟨m, hm⟩ := mapLoop_some hf N.toNat 0 (fun _ => none)
  unfold egoSim
  rw [hp, hn, hd, hT]
  simp only [get, Res.bind]
  rw [if_neg (by omega), hm]
  simp only
  rw [if_pos hN.symm]

/-- **C114**, what is missing: with the largest number of sensors the number of noise entries overflows, and without an entry
for the translation spline order the parameters depend on what happens to be in memory. -/
theorem C114_overflow : (∃ t : Tree, t.int "calibration/num" = some 2147483647 ∧ ∀ raw, egoSim raw t t = .ub) ∧
    ∃ (t : Tree) (s s' : EgoSim), egoSim 4 t t = .ok s () ∧ egoSim 77 t t = .ok s' () ∧
      s.traj.spline.transSplineOrder ≠ s'.traj.spline.transSplineOrder := by
  constructor
  · refine ⟨demoEgo fun _ => 2147483647, rfl, fun raw => ?_⟩
    exact egoSim_ub raw _ _ _ rfl rfl ⟨1, rfl⟩ ⟨1, rfl⟩ fun i => ⟨_, rfl⟩
  · refine ⟨{ demoEgo (fun _ => 0) with int := fun k => if k = "trajectory/splines/transSplineOrder" then none else some 0 },
      _, _, rfl, rfl, ?_⟩
    decide

end Opts
end Verif
