import Verif.Lemmas.CarMain
import Verif.Props.Geodetic
import Verif.Props.CarPredict
import Mathlib.Analysis.Real.Cardinality

/-! Property C105: the programs that feed the car calibrator from a recorded bag. -/

namespace Verif
namespace CarMain
open Matrix Geodetic
open CarKin (V3 M3)
variable {K : Type}

/-- **C105**: for every sequence of messages and every calibrator, the program makes the calls `cs` in order (until one throws):
for every navigation message that comes after an accuracy message one pose and one velocity measurement with the same time
stamp, made of that message and the latest accuracy message before it; for every wheel and steering message of an active sensor
one measurement, and for every pair of consecutive odometer messages (the earlier one not at time -1) one speed; none for
inactive sensors.  Each stream has its own time stamp corrector, fed with the used messages in order. -/
theorem C105_calls (env : Env K) (use : Use) (ms : List Msg) :
    ∃ cs, CallsAre env use ms cs ∧
      ∀ {C : Type} (submit : C → Call → Res C Unit) (c : C), loop submit env use (St.init env) c ms = submitAll submit c cs :=
  ⟨_, (calls_spec env use ms).1, fun submit c => loop_eq submit env use _ c ms⟩

/-- **C105**: reading is online: the calls for a longer recording start with the calls for the shorter one. -/
theorem C105_online (env : Env K) (use : Use) (ms more : List Msg) :
    ∃ rest, callsFrom env use (St.init env) (ms ++ more) = callsFrom env use (St.init env) ms ++ rest := by
  suffices h : ∀ st, ∃ rest, callsFrom env use st (ms ++ more) = callsFrom env use st ms ++ rest from h _
  induction ms with
  | nil => intro st; exact ⟨_, rfl⟩
  | cons m ms ih =>
    intro st
    obtain ⟨rest, h⟩ := ih (step env use st m).1
    exact ⟨rest, by simp [callsFrom, h, List.append_assoc]⟩

/-- the last call of a velocity is right after the pose of the same message. -/
theorem C105_pose_then_velocity (env : Env K) (use : Use) (st : St K) (s : Vns) :
    (step env use st (.vns s)).2 = [] ∨ ∃ p v t, (step env use st (.vns s)).2 = [.pose p t, .vel v t] := by
  cases h : st.lastVnp with
  | none => left; simp [step, h]
  | some p => right; simp only [step, h]; exact ⟨_, _, _, rfl⟩

/-! ### Positions -/

theorem ecef_eta (s : Vns) : ![ecef s 0, ecef s 1, ecef s 2] = ecef s := by
  funext i; fin_cases i <;> rfl

theorem mapFrame_rotation (ms : List Msg) : IsRotation (mapFrame ms).R := by
  unfold mapFrame
  split
  · exact (C41_enu _ _ _ _ _).2.2.2.2.2.transpose
  · exact ⟨by simp, by simp, by simp⟩

/-- **C105**: positions are in a local frame that starts at the first used navigation message and keeps all distances of the
earth-fixed positions. -/
theorem C105_positions (env : Env K) (use : Use) (ms : List Msg) (cs : List Call) (h : CallsAre env use ms cs) :
    (∀ p t, (cs.filterMap Call.pose?)[0]? = some (p, t) → p.m_r_mr = 0) ∧
    ∀ (i j : ℕ) (p q : PoseM) (t u : ℤ) (x y : Vns × Vnp), (cs.filterMap Call.pose?)[i]? = some (p, t) → (cs.filterMap Call.pose?)[j]? = some (q, u) →
      (usable ms)[i]? = some x → (usable ms)[j]? = some y →
      dist2 p.m_r_mr q.m_r_mr = dist2 (ecef x.1) (ecef y.1) := by
  rw [h.pose]
  have key : ∀ (i : ℕ) (p : PoseM) (t : ℤ) (x : Vns × Vnp), (List.zip ((usable ms).map fun x => poseOf env (mapFrame ms) x.1 x.2)
      (stampsFrom env env.corr0 ((usable ms).map fun x => (nsec x.1.time1, x.1.stamp))))[i]? = some (p, t) →
      (usable ms)[i]? = some x → p = poseOf env (mapFrame ms) x.1 x.2 := by
    intro i p t x hi hx
    rw [List.getElem?_zip_eq_some, List.getElem?_map, hx] at hi
    simpa using hi.1.symm
  constructor
  · intro p t hp
    cases hu : usable ms with
    | nil => rw [hu] at hp; simp at hp
    | cons x l =>
      rw [key 0 p t x hp (by rw [hu]; rfl)]
      have : mapFrame ms = originOf x.1 := by unfold mapFrame; rw [hu]; rfl
      rw [this]
      simp only [poseOf, originOf]
      have h0 := (C41_enu (ecef x.1 0) (ecef x.1 1) (ecef x.1 2) (rad x.1.lat) (rad x.1.lon)).2.2.2.2.1
      rwa [ecef_eta] at h0
  · intro i j p q t u x y hi hj hx hy
    rw [key i p t x hi hx, key j q u y hj hy]
    exact dist2_rigid _ (mapFrame_rotation ms) _ _

/-! ### Attitude and velocity -/

/-- **C105**: attitude and velocity fit together: turning the velocity measurement into the map frame with the attitude of the
pose measurement gives the measured north, east and down velocity turned into the map frame; at the first message that is
east, north and up.  Assumes that the conversion from yaw, pitch and roll gives rotations and is inverse to the one back. -/
theorem C105_velocity (env : Env K) (hr : ∀ v, IsRotation (env.ofYpr v))
    (hi : ∀ M, IsRotation M → env.ofYpr (env.toYpr M) = M) (m_T_e : Rigid) (hT : IsRotation m_T_e.R) (s : Vns) (p : Vnp) :
    env.ofYpr (poseOf env m_T_e s p).m_R_r *ᵥ (velOf env s p).r_v_mr =
      (m_T_e.R * (localNed s).R) *ᵥ ![s.vNorth, s.vEast, s.vDown] ∧
    env.ofYpr (poseOf env (originOf s) s p).m_R_r *ᵥ (velOf env s p).r_v_mr = ![s.vEast, s.vNorth, -s.vDown] := by
  have hmul : ∀ A B : M3, IsRotation A → IsRotation B → IsRotation (A * B) := by
    intro A B hA hB
    refine ⟨?_, ?_, ?_⟩
    · rw [transpose_mul, mul_assoc, ← mul_assoc B, hB.1, one_mul, hA.1]
    · rw [transpose_mul, mul_assoc, ← mul_assoc A.transpose, hA.2.1, one_mul, hB.2.1]
    · rw [det_mul, hA.2.2, hB.2.2, one_mul]
  have hn : IsRotation (localNed s).R := (C41_ned _ _ _ _ _).2.2.2.2.2
  have hE : IsRotation (originOf s).R := (C41_enu _ _ _ _ _).2.2.2.2.2.transpose
  have ha := hr ![rad s.heading, rad s.pitch, rad s.roll]
  have gen : ∀ T : Rigid, IsRotation T.R → env.ofYpr (poseOf env T s p).m_R_r *ᵥ (velOf env s p).r_v_mr =
      (T.R * (localNed s).R) *ᵥ ![s.vNorth, s.vEast, s.vDown] := by
    intro T hT
    simp only [poseOf, velOf, attitude]
    rw [hi _ (hmul _ _ (hmul _ _ hT hn) ha), mulVec_mulVec, mul_assoc (T.R * (localNed s).R)]
    rw [ha.1, mul_one]
  refine ⟨gen _ hT, ?_⟩
  rw [gen _ hE]
  have h1 := C41_enu_ned (ecef s 0) (ecef s 1) (ecef s 2) (rad s.lat) (rad s.lon) s.vEast s.vNorth (-s.vDown)
  simp only [Rigid.apply, enu2ecef, ned2ecef, neg_neg] at h1
  have h2 := add_right_cancel h1
  have hE' := enuR_rotation (rad s.lat) (rad s.lon)
  simp only [originOf, localNed, ecef2enu, Rigid.inverse, enu2ecef, ned2ecef, transpose_transpose]
  rw [← mulVec_mulVec, ← h2, mulVec_mulVec, hE'.1, one_mulVec]

/-- the assumption on the conversions can be met. -/
theorem conversions_exist : ∃ (f : V3 → M3) (g : M3 → V3), (∀ v, IsRotation (f v)) ∧ ∀ M, IsRotation M → f (g M) = M := by
  have h3 : Cardinal.continuum.{0} ^ (3 : Cardinal.{0}) = Cardinal.continuum := by
    have h := Cardinal.power_nat_eq Cardinal.aleph0_le_continuum.{0} (show 1 ≤ 3 by norm_num)
    rw [← Cardinal.power_natCast] at h
    exact_mod_cast h
  have h1 : Cardinal.mk V3 = Cardinal.continuum := by
    simp only [V3, Cardinal.mk_pi, Cardinal.prod_const, Cardinal.mk_real, Cardinal.mk_fin, Cardinal.lift_id]
    exact_mod_cast h3
  have h2 : Cardinal.mk M3 = Cardinal.continuum := by
    show Cardinal.mk (Fin 3 → V3) = _
    rw [Cardinal.mk_pi, Cardinal.prod_const, h1, Cardinal.mk_fin, Cardinal.lift_id, Cardinal.lift_id]
    exact_mod_cast h3
  obtain ⟨e⟩ := Cardinal.eq.1 (h1.trans h2.symm)
  classical
  refine ⟨fun v => if IsRotation (e v) then e v else 1, e.symm, fun v => ?_, fun M hM => by simp [hM]⟩
  by_cases h : IsRotation (e v)
  · simp only [h, if_true]
  · simp only [h, if_false]
    exact ⟨by simp, by simp, by simp⟩

/-! ### Units and components -/

/-- degrees to radians (specification): 360 degrees are a full turn. -/
noncomputable def deg (x : ℝ) : ℝ := x / 360 * (2 * Real.pi)

/-- **C105**: angles of the messages are degrees, times of device clocks seconds; position, local frame, attitude (yaw, pitch,
roll), rotation rates and accuracies of each measurement are the components of its messages, in these units; accuracies are
standard deviations. -/
theorem C105_units (env : Env K) (m_T_e : Rigid) (s : Vns) (p : Vnp) :
    nsec 1 = 10 ^ 9 ∧ ecef s = wgs84ToEcef (deg s.lat) (deg s.lon) s.alt ∧
    (localNed s).R = (ned2ecef (ecef s 0) (ecef s 1) (ecef s 2) (deg s.lat) (deg s.lon)).R ∧
    (poseOf env m_T_e s p).m_R_r = env.toYpr (m_T_e.R * (localNed s).R * env.ofYpr ![deg s.heading, deg s.pitch, deg s.roll]) ∧
    (poseOf env m_T_e s p).m_r_mr = m_T_e.R *ᵥ wgs84ToEcef (deg s.lat) (deg s.lon) s.alt + m_T_e.t ∧
    (poseOf env m_T_e s p).sigma2_r = diagonal ![p.north ^ 2, p.east ^ 2, p.down ^ 2] ∧
    (poseOf env m_T_e s p).sigma2_R = diagonal ![deg p.heading ^ 2, deg p.pitch ^ 2, deg p.roll ^ 2] ∧
    (velOf env s p).r_v_mr = (env.ofYpr ![deg s.heading, deg s.pitch, deg s.roll]).transpose *ᵥ ![s.vNorth, s.vEast, s.vDown] ∧
    (velOf env s p).sigma2_v = diagonal ![p.vNorth ^ 2, p.vEast ^ 2, p.vDown ^ 2] ∧
    (velOf env s p).r_om_mr = ![deg s.omLong, deg s.omTrans, deg s.omDown] ∧
    (velOf env s p).sigma2_om = diagonal ![deg p.roll ^ 2, deg p.pitch ^ 2, deg p.heading ^ 2] := by
  have hr : rad = deg := by funext x; unfold rad deg; ring
  have hv : ∀ a b c, variances a b c = diagonal ![a ^ 2, b ^ 2, c ^ 2] := by
    intro a b c; simp [variances, sq]
  refine ⟨by norm_num [nsec], by rw [ecef, hr], by rw [localNed, hr], by simp only [poseOf, attitude, hr], ?_,
    by simp only [poseOf, hv], by simp only [poseOf, hv, hr], by simp only [velOf, attitude, hr], by simp only [velOf, hv],
    by simp only [velOf, hr], by simp only [velOf, hv, hr]⟩
  simp only [poseOf, ecef, hr]; rfl

/-! ### Covariances -/

/-- the covariance of a vector turned by `M` (specification). -/
def turned (M S : M3) : M3 := M * S * M.transpose

/-- **C105** (negation): the covariance given to the first position measurement is that of the local errors in north, east and
down, although the map axes are east, north and up; it is right only if both horizontal accuracies are the same. -/
theorem C105_position_covariance (env : Env K) (s : Vns) (p : Vnp) :
    turned ((originOf s).R * (localNed s).R) (variances p.north p.east p.down) = variances p.east p.north p.down ∧
    ((poseOf env (originOf s) s p).sigma2_r = turned ((originOf s).R * (localNed s).R) (variances p.north p.east p.down) ↔
      p.north ^ 2 = p.east ^ 2) := by
  have hP : (originOf s).R * (localNed s).R = !![0, 1, 0; 1, 0, 0; 0, 0, -1] := by
    have h1 := Real.sin_sq_add_cos_sq (rad s.lat)
    have h2 := Real.sin_sq_add_cos_sq (rad s.lon)
    simp only [originOf, localNed, ecef2enu, Rigid.inverse, enu2ecef, ned2ecef, transpose_transpose]
    ext i j
    fin_cases i <;> fin_cases j <;> simp [enuR, nedR, Matrix.mul_apply, Fin.sum_univ_three]
    · ring
    · linear_combination h2
    · ring
    · linear_combination Real.sin (rad s.lat) ^ 2 * h2 + h1
    · ring
    · linear_combination Real.sin (rad s.lat) * Real.cos (rad s.lat) * h2
    · linear_combination -Real.sin (rad s.lat) * Real.cos (rad s.lat) * h2
    · ring
    · linear_combination -Real.cos (rad s.lat) ^ 2 * h2 - h1
  have hT : turned ((originOf s).R * (localNed s).R) (variances p.north p.east p.down) =
      variances p.east p.north p.down := by
    rw [hP]
    unfold turned variances
    ext i j
    fin_cases i <;> fin_cases j <;> simp [Matrix.mul_apply, Fin.sum_univ_three, vecMul_diagonal]
  refine ⟨hT, ?_⟩
  rw [hT]
  simp only [poseOf, variances]
  constructor
  · intro h
    have := congrFun (congrFun h 0) 0
    simp [diagonal] at this
    nlinarith
  · intro h
    rw [← pow_two, ← pow_two, ← pow_two, h]

/-- **C105** (negation): the covariance given to a velocity in the vehicle frame is that of the errors in north, east and down;
heading east with different accuracies in north and east it is not the covariance of the turned velocity. -/
theorem C105_velocity_covariance (env : Env K) (s : Vns) (p : Vnp)
    (ha : attitude env s = !![0, -1, 0; 1, 0, 0; 0, 0, 1]) (hp : p.vNorth ^ 2 ≠ p.vEast ^ 2) :
    turned (attitude env s).transpose (variances p.vNorth p.vEast p.vDown) = variances p.vEast p.vNorth p.vDown ∧
    (velOf env s p).sigma2_v ≠ turned (attitude env s).transpose (variances p.vNorth p.vEast p.vDown) := by
  have hT : turned (attitude env s).transpose (variances p.vNorth p.vEast p.vDown) = variances p.vEast p.vNorth p.vDown := by
    rw [ha]
    unfold turned variances
    ext i j
    fin_cases i <;> fin_cases j <;> simp [Matrix.mul_apply, Fin.sum_univ_three]
  refine ⟨hT, ?_⟩
  rw [hT]
  intro h
  have := congrFun (congrFun h 0) 0
  simp [velOf, variances, diagonal] at this
  exact hp (by rw [pow_two, pow_two]; exact this)

/-! ### Odometer -/

/-- first and last entry. -/
def span (l : List (ℝ × ℝ × ℝ)) : ℝ := match l.head?, l.getLast? with | some a, some b => b.1 - a.1 | _, _ => 0

theorem span_cons (a b : ℝ × ℝ × ℝ) (l : List (ℝ × ℝ × ℝ)) : span (a :: b :: l) = (b.1 - a.1) + span (b :: l) := by
  simp only [span, List.head?_cons, List.getLast?_cons_cons]
  cases h : (b :: l).getLast? with
  | none => simp at h
  | some c => ring

/-- **C105** (partial): if no odometer message carries the time -1 and consecutive times differ, every odometer message but the
first gives a finite speed, and the speeds times the elapsed times add up to the distance travelled between the first and the
last message.  Missing: see `C105_odometer_sentinel` and `C105_odometer_same_time`. -/
theorem C105_odometer_partial (env : Env K) (use : Use) (ms : List Msg) (cs : List Call) (h : CallsAre env use ms cs)
    (hu : use.dmi = true) (hs : ∀ a ∈ dmiMsgs ms, a.2.1 ≠ -1) (hd : ∀ x ∈ consecutive (dmiMsgs ms), x.2.2.1 ≠ x.1.2.1) :
    (cs.filterMap Call.dmi?).length = (dmiMsgs ms).length - 1 ∧
    ∃ speeds : List ℝ, (cs.filterMap Call.dmi?).map Prod.fst = speeds.map some ∧
      (List.zipWith (fun v x => v * (x.2.2.1 - x.1.2.1)) speeds (consecutive (dmiMsgs ms))).sum = span (dmiMsgs ms) := by
  have hp : dmiPairs ms = consecutive (dmiMsgs ms) := by
    unfold dmiPairs
    apply List.filter_eq_self.2
    intro x hx
    have hmem : ∀ (l : List (ℝ × ℝ × ℝ)), ∀ x ∈ consecutive l, x.1 ∈ l := by
      intro l
      induction l with
      | nil => simp [consecutive]
      | cons a l ih =>
        cases l with
        | nil => simp [consecutive]
        | cons b l =>
          intro x hx
          rw [consecutive] at hx
          rcases List.mem_cons.1 hx with rfl | hx
          · simp
          · exact List.mem_cons_of_mem _ (ih x hx)
    simpa using hs _ (hmem _ x hx)
  have hlen : ∀ l : List (ℝ × ℝ × ℝ), (consecutive l).length = l.length - 1 := by
    intro l
    induction l with
    | nil => rfl
    | cons a l ih =>
      cases l with
      | nil => rfl
      | cons b l => rw [consecutive, List.length_cons, ih]; simp
  rw [h.dmi, if_pos hu, hp]
  constructor
  · simp [stampsFrom_length, hlen]
  · refine ⟨(consecutive (dmiMsgs ms)).map fun x => (x.2.1 - x.1.1) / (x.2.2.1 - x.1.2.1), ?_, ?_⟩
    · rw [List.map_fst_zip (by simp [stampsFrom_length]), List.map_map]
      apply List.map_congr_left
      intro x hx
      simp [dmiSpeed, hd x hx]
    · generalize dmiMsgs ms = l at hd ⊢
      induction l with
      | nil => simp [consecutive, span]
      | cons a l ih =>
        cases l with
        | nil => simp [consecutive, span]
        | cons b l =>
          rw [span_cons, ← ih (by intro x hx; exact hd x (by rw [consecutive]; exact List.mem_cons_of_mem _ hx))]
          simp only [consecutive, List.map_cons, List.zipWith_cons_cons, List.sum_cons]
          have hne : b.2.1 - a.2.1 ≠ 0 := sub_ne_zero.2 (hd (a, b) (by simp [consecutive]))
          rw [div_mul_cancel₀ _ hne]

/-- **C105** (negation): the time -1 is taken for "no message yet": the distance travelled after such a message is lost. -/
theorem C105_odometer_sentinel (env : Env K) (use : Use) (d1 d2 t s1 s2 : ℝ) :
    (callsFrom env use (St.init env) [.dmi d1 (-1) s1, .dmi d2 t s2]) = [] := by
  by_cases hu : use.dmi = true <;> simp [callsFrom, step, St.init, hu]

/-- **C105** (negation): two odometer messages with the same time give a measurement that is not a finite number. -/
theorem C105_odometer_same_time (env : Env K) (use : Use) (hu : use.dmi = true) (d1 d2 t s1 s2 : ℝ) (ht : t ≠ -1) :
    ∃ stamp, callsFrom env use (St.init env) [.dmi d1 t s1, .dmi d2 t s2] = [.dmi none stamp] := by
  refine ⟨(stampWith env env.corr0 (nsec t) s2).2, ?_⟩
  simp [callsFrom, step, St.init, hu, ht]

/-! ### The end of the programs -/

/-- **C105** (partial): at its end the calibration program submits what is left over, after which nothing is buffered — unless
fewer than two poses are left: then the remaining measurements are silently dropped. -/
theorem C105_end_partial {E G P : Type} (env : CarEnv E G P) (o : CarOpt) (s s' : CarCal E G P)
    (h : finish env o s = .ok () s') :
    (2 ≤ (s.buf .pose).length ∧ (∀ k, s'.buf k = []) ∧ s'.sent = s.sent ++ [s.buf]) ∨
    ((s.buf .pose).length < 2 ∧ s' = s) := by
  unfold finish at h
  by_cases hp : (s.buf .pose).length < 2
  · right
    refine ⟨hp, ?_⟩
    split_ifs at h
    · unfold CarCal.addMeasurements at h
      rw [if_pos hp] at h
      simpa using h.symm
    · simpa using h.symm
  · left
    have hu : s.unprocessed = true := by
      unfold CarCal.unprocessed
      cases hb : s.buf .pose with
      | nil => rw [hb] at hp; simp at hp
      | cons a l => simp
    rw [if_pos hu] at h
    unfold CarCal.addMeasurements at h
    rw [if_neg hp] at h
    refine ⟨by omega, ?_⟩
    split at h
    · cases h
    · split at h
      · cases h
      · simp only at h
        split at h <;> simp only [Res.ok.injEq, true_and, reduceCtorEq] at h
        subst h
        exact ⟨fun _ => rfl, rfl⟩

/-- **C105** (negation): a recording with wheel measurements and a single pose ends with no batch submitted and all
measurements still buffered. -/
theorem C105_end_drops : ∃ s, CarCal.runOps CarCal.demoEnv CarCal.demoOpt (CarCal.init CarCal.demoEnv 0)
      [.add (CarCal.demoPose 3), .add (CarCal.demoRear 5)] = .ok () s ∧
    finish CarCal.demoEnv CarCal.demoOpt s = .ok () s ∧ s.sent = [] ∧ s.buf .rear = [CarCal.demoRear 5] := by
  obtain ⟨s, h1, h2⟩ := CarCal.okTest_spec (r := CarCal.runOps CarCal.demoEnv CarCal.demoOpt (CarCal.init CarCal.demoEnv 0)
      [.add (CarCal.demoPose 3), .add (CarCal.demoRear 5)])
    (p := fun s => s.unprocessed && decide ((s.buf .pose).length < 2 ∧ s.sent.length = 0 ∧
      s.buf .rear = [CarCal.demoRear 5])) (by decide +kernel)
  simp only [Bool.and_eq_true, decide_eq_true_eq] at h2
  refine ⟨s, h1, ?_, List.length_eq_zero_iff.1 h2.2.2.1, h2.2.2.2⟩
  unfold finish CarCal.addMeasurements
  rw [if_pos h2.1, if_pos h2.2.1]

/-- **C105**: the analysis program predicts, per sensor, at most one value per measurement still buffered at the end: nothing of
the windows submitted earlier. -/
theorem C105_analysis_last_window_only {E G P V : Type} {env : CarEnv E G P} {eval : CarCal.Eval E V} {o : CarOpt} {e : E}
    {s : CarCal E G P} {acc : List Meas} {gone : List Window} (hr : CarCal.Run env o e s acc gone) {p : CarCal.Preds V}
    (h : finishAnalysis env eval o s = .ok () p) (k : Sensor) : (p k).vals.length ≤ (s.buf k).length := by
  unfold finishAnalysis at h
  split_ifs at h
  · rw [CarCal.C103_predictions_partial hr h k]
    simp only [CarCal.extendBy, CarCal.Preds.empty, List.nil_append, List.length_map, CarCal.predicted]
    exact List.length_filter_le _ _
  · simp only [Res.ok.injEq, true_and] at h
    subst h
    simp [CarCal.Preds.empty]

/-- **C105**: with nothing buffered the analysis program predicts nothing; otherwise it returns, per sensor, exactly the
predictions of the measurements buffered at the end. -/
theorem C105_analysis_exact {E G P V : Type} {env : CarEnv E G P} {eval : CarCal.Eval E V} {o : CarOpt} {e : E}
    {s : CarCal E G P} {acc : List Meas} {gone : List Window} (hr : CarCal.Run env o e s acc gone) :
    ((∀ k, s.buf k = []) → finishAnalysis env eval o s = .ok () .empty) ∧
    ∀ p : CarCal.Preds V, finishAnalysis env eval o s = .ok () p → ∀ k,
      (p k).vals = (CarCal.predicted env o s.est s.buf k).map (fun m =>
        (CarCal.predStamp env s.est m, (CarCal.termsFor o m).map fun t => (eval s.est (s.buf .pose) t).1)) := by
  constructor
  · intro h
    unfold finishAnalysis
    rw [if_neg]
    simp [CarCal.unprocessed, h]
  · intro p h k
    unfold finishAnalysis at h
    split_ifs at h with hu
    · rw [CarCal.C103_predictions_partial hr h k]
      simp [CarCal.extendBy, CarCal.Preds.empty]
    · simp only [Res.ok.injEq, true_and] at h
      subst h
      have : s.buf k = [] := by
        simp only [CarCal.unprocessed, Bool.not_eq_true, Bool.or_eq_false_iff, Bool.not_eq_false', List.isEmpty_iff] at hu
        cases k <;> simp [hu]
      simp [CarCal.Preds.empty, CarCal.predicted, this]

/-! ### Concrete instance -/

/-- a corrector that returns the host time. -/
def plain : Env Unit := ⟨(), fun k _ h => (k, h), fun _ => 1, fun _ => 0⟩
/-- an accuracy message. -/
def demoVnp : Vnp := ⟨1, 2, 3, 0, 0, 0, 1, 2, 3⟩
/-- a navigation message. -/
def demoVns (t : ℝ) : Vns := ⟨47, 8, 500, 0, 0, 0, 1, 0, 0, 0, 0, 0, t, t⟩

/-- concrete instance: a navigation message before the accuracy message is not used, the one after it is, and three odometer
messages give two speeds that add up to the distance. -/
example : (usable [.vns (demoVns 0), .vnp demoVnp, .vns (demoVns 1), .dmi 0 1 1, .dmi 6 3 3, .dmi 7 4 4]) =
      [(demoVns 1, demoVnp)] ∧
    dmiMsgs [.vns (demoVns 0), .vnp demoVnp, .vns (demoVns 1), .dmi 0 1 1, .dmi 6 3 3, .dmi 7 4 4] =
      [(0, 1, 1), (6, 3, 3), (7, 4, 4)] ∧
    span [(0, 1, 1), (6, 3, 3), (7, 4, 4)] = 7 ∧
    (∀ a ∈ ([(0, 1, 1), (6, 3, 3), (7, 4, 4)] : List (ℝ × ℝ × ℝ)), a.2.1 ≠ -1) ∧
    (∀ x ∈ consecutive ([(0, 1, 1), (6, 3, 3), (7, 4, 4)] : List (ℝ × ℝ × ℝ)), x.2.2.1 ≠ x.1.2.1) ∧
    demoVnp.north ^ 2 ≠ demoVnp.east ^ 2 := by
  refine ⟨?_, ?_, ?_, ?_, ?_, ?_⟩
  · simp [usable, latest, List.range_succ]
  · simp [dmiMsgs]
  · simp [span]
  · intro a ha; simp at ha; rcases ha with rfl | rfl | rfl <;> norm_num
  · intro a ha; simp [consecutive] at ha; rcases ha with rfl | rfl <;> norm_num
  · norm_num [demoVnp]

end CarMain
end Verif
