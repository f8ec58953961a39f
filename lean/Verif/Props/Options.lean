import Verif.Model.Options
import Mathlib.Tactic.Linarith

/-! Property C108: the options read from a configuration. -/

namespace Verif
namespace Opts

/-! ### Specification: which entry each option comes from -/

/-- the spline options are the entries of that name; the translation spline order is its entry when there is one. -/
def SplineFrom (t : Tree) (s : Spline) : Prop :=
  t.double "splines/transSplineLambda" = some s.transSplineLambda ∧ t.double "splines/rotSplineLambda" = some s.rotSplineLambda ∧
  t.int "splines/splineKnotsPerSecond" = some s.splineKnotsPerSecond ∧
  (∀ z, t.int "splines/transSplineOrder" = some z → s.transSplineOrder = z) ∧ t.int "splines/rotSplineOrder" = some s.rotSplineOrder

/-- every option of the car calibrator is its entry. -/
def CarFrom (t : Tree) (o : CarOptions) : Prop :=
  t.double "windowDuration" = some o.windowDuration ∧ t.bool "verbose" = some o.verbose ∧ t.bool "usePose" = some o.usePose ∧
  t.bool "useVelocities" = some o.useVelocities ∧ t.int "odometry/timeDelays/delayBound" = some o.delayBound ∧
  SplineFrom t o.spline ∧
  t.double "odometry/sensors/linearVelocityTolerance" = some o.linearVelocityTolerance ∧
  t.double "odometry/sensors/dmi/noise/dmiPercentError" = some o.dmiPercentError ∧
  t.double "odometry/sensors/dmi/noise/dmiVariance" = some o.dmiVariance ∧
  t.double "odometry/sensors/fws/noise/flwPercentError" = some o.flwPercentError ∧
  t.double "odometry/sensors/fws/noise/flwVariance" = some o.flwVariance ∧
  t.double "odometry/sensors/fws/noise/frwPercentError" = some o.frwPercentError ∧
  t.double "odometry/sensors/fws/noise/frwVariance" = some o.frwVariance ∧
  t.double "odometry/sensors/rws/noise/rlwPercentError" = some o.rlwPercentError ∧
  t.double "odometry/sensors/rws/noise/rlwVariance" = some o.rlwVariance ∧
  t.double "odometry/sensors/rws/noise/rrwPercentError" = some o.rrwPercentError ∧
  t.double "odometry/sensors/rws/noise/rrwVariance" = some o.rrwVariance ∧
  t.double "odometry/sensors/st/noise/steeringVariance" = some o.steeringVariance ∧
  t.double "odometry/constraints/noise/vyVariance" = some o.vyVariance ∧
  t.double "odometry/constraints/noise/vzVariance" = some o.vzVariance ∧
  t.int "odometry/sensors/wheelSpeedSensorCutoff" = some (o.wheelSpeedSensorCutoff : Int)

/-- every option of the time delay calibrator is its entry. -/
def TDFrom (t : Tree) (o : TDOptions) : Prop :=
  t.double "windowDuration" = some o.windowDuration ∧ t.bool "verbose" = some o.verbose ∧ t.int "delayBound" = some o.delayBound ∧
  SplineFrom t o.spline ∧ t.double "odometry/sensors/wss/noise/lwVariance" = some o.lwVariance ∧
  t.double "odometry/sensors/wss/noise/rwVariance" = some o.rwVariance ∧
  t.double "odometry/constraints/noise/vyVariance" = some o.vyVariance ∧
  t.double "odometry/constraints/noise/vzVariance" = some o.vzVariance

/-- every option of the egomotion calibrator is its entry. -/
def EgoFrom (t : Tree) (o : EgoOptions) : Prop :=
  t.double "windowDuration" = some o.windowDuration ∧ t.bool "verbose" = some o.verbose ∧ t.int "delayBound" = some o.delayBound ∧
  t.int "referenceSensor" = some (o.referenceSensor : Int) ∧ SplineFrom t o.spline

/-- every parameter of the egomotion trajectory is its entry. -/
def EgoTrajFrom (t : Tree) (o : EgoTraj) : Prop :=
  t.double "A" = some o.A ∧ t.double "f" = some o.f ∧
  ["w_T_v_0/yaw", "w_T_v_0/pitch", "w_T_v_0/roll", "w_T_v_0/x", "w_T_v_0/y", "w_T_v_0/z"].map t.double = o.start.map some ∧
  SplineFrom t o.spline ∧ t.str "type" = some o.type

/-! ### The readers -/

theorem get_bind {α β : Type} (o : Option α) (f : α → Unit → Res Unit β) (r : β) :
    (get o).bind f = .ok r () ↔ ∃ a, o = some a ∧ f a () = .ok r () := by
  cases o <;> simp [get, Res.bind]

theorem bind_ok {α β : Type} (m : Res Unit α) (f : α → Unit → Res Unit β) (r : β) :
    m.bind f = .ok r () ↔ ∃ a, m = .ok a () ∧ f a () = .ok r () := by
  cases m <;> simp [Res.bind]

theorem get_ok {α : Type} (o : Option α) (a : α) : get o = .ok a () ↔ o = some a := by
  cases o <;> simp [get]

/-- a read either succeeds or throws the library's exception. -/
def Clean {β : Type} (m : Res Unit β) : Prop := (∃ r, m = .ok r ()) ∨ m = .throw .external ()

theorem get_clean {α β : Type} (o : Option α) (f : α → Unit → Res Unit β) (h : ∀ a, Clean (f a ())) : Clean ((get o).bind f) := by
  cases o with
  | none => exact .inr rfl
  | some a => exact h a

theorem bind_clean {α β : Type} {m : Res Unit α} (hm : Clean m) (f : α → Unit → Res Unit β) (h : ∀ a, Clean (f a ())) :
    Clean (m.bind f) := by
  rcases hm with ⟨a, rfl⟩ | rfl
  · exact h a
  · exact .inr rfl

theorem readSpline_clean (raw : Int) (t : Tree) : Clean (readSpline raw t) := by
  unfold readSpline
  repeat (refine get_clean _ _ fun _ => ?_)
  exact .inl ⟨_, rfl⟩

theorem readSpline_ok (raw : Int) (t : Tree) (s : Spline) : readSpline raw t = .ok s () ↔
    SplineFrom t s ∧ (t.int "splines/transSplineOrder" = none → s.transSplineOrder = raw) := by
  unfold readSpline SplineFrom
  simp only [get_bind]
  obtain ⟨a, b, c, d, e⟩ := s
  cases h : t.int "splines/transSplineOrder" <;> simp [eq_comm (b := d)]
  · simp only [and_assoc]
  · intros; exact and_comm

theorem toU16_eq {z : Int} (h0 : 0 ≤ z) (h1 : z < 65536) : (toU16 z : Int) = z := by
  unfold toU16; omega

theorem toSize_eq {z : Int} (h0 : 0 ≤ z) (h1 : z < 2147483648) : (toSize z : Int) = z := by
  unfold toSize; omega

/-- **C108** (car calibrator): the options are made exactly when every entry is there, each option is then its entry, and
otherwise the library's exception is thrown.  Partial: the translation spline order must have an entry and the cutoff of the
wheel speed sensors must fit 16 bits. -/
theorem C108_car_partial (raw : Int) (t : Tree) (h : (t.int "splines/transSplineOrder").isSome)
    (hc : ∀ z, t.int "odometry/sensors/wheelSpeedSensorCutoff" = some z → 0 ≤ z ∧ z < 65536) :
    (∀ o, carOptions raw t = .ok o () ↔ CarFrom t o) ∧
    ((¬ ∃ o, CarFrom t o) → carOptions raw t = .throw .external ()) := by
  have hcl : Clean (carOptions raw t) := by
    unfold carOptions
    iterate 5 refine get_clean _ _ fun _ => ?_
    refine bind_clean (readSpline_clean _ _) _ fun _ => ?_
    iterate 15 refine get_clean _ _ fun _ => ?_
    exact .inl ⟨_, rfl⟩
  have hiff : ∀ o, carOptions raw t = .ok o () ↔ CarFrom t o := by
    intro o
    obtain ⟨z, hz⟩ := Option.isSome_iff_exists.1 h
    unfold carOptions CarFrom
    simp only [bind_ok, get_ok, readSpline_ok, hz, reduceCtorEq, false_implies, and_true]
    obtain ⟨o1, o2, o3, o4, o5, o6, o7, o8, o9, o10, o11, o12, o13, o14, o15, o16, o17, o18, o19, o20, o21⟩ := o
    simp only [Res.ok.injEq, CarOptions.mk.injEq]
    constructor
    · rintro ⟨a1, h1, a2, h2, a3, h3, a4, h4, a5, h5, a6, h6, a7, h7, a8, h8, a9, h9, a10, h10, a11, h11, a12, h12, a13, h13, a14,
        h14, a15, h15, a16, h16, a17, h17, a18, h18, a19, h19, a20, h20, a21, h21, ⟨rfl, rfl, rfl, rfl, rfl, rfl, rfl, rfl, rfl, rfl,
        rfl, rfl, rfl, rfl, rfl, rfl, rfl, rfl, rfl, rfl, rfl⟩, -⟩
      refine ⟨h1, h2, h3, h4, h5, h6, h7, h8, h9, h10, h11, h12, h13, h14, h15, h16, h17, h18, h19, h20, ?_⟩
      rw [h21, toU16_eq (hc _ h21).1 (hc _ h21).2]
    · rintro ⟨h1, h2, h3, h4, h5, h6, h7, h8, h9, h10, h11, h12, h13, h14, h15, h16, h17, h18, h19, h20, h21⟩
      refine ⟨_, h1, _, h2, _, h3, _, h4, _, h5, _, h6, _, h7, _, h8, _, h9, _, h10, _, h11, _, h12, _, h13, _, h14, _, h15, _, h16, _,
        h17, _, h18, _, h19, _, h20, _, h21, ⟨rfl, rfl, rfl, rfl, rfl, rfl, rfl, rfl, rfl, rfl,
        rfl, rfl, rfl, rfl, rfl, rfl, rfl, rfl, rfl, rfl, ?_⟩, trivial⟩
      have := toU16_eq (hc _ h21).1 (hc _ h21).2
      omega
  refine ⟨hiff, fun hn => ?_⟩
  rcases hcl with ⟨o, ho⟩ | hx
  · exact absurd ⟨o, (hiff o).1 ho⟩ hn
  · exact hx

/-- **C108** (time delay calibrator), partial: the translation spline order must have an entry. -/
theorem C108_timedelay_partial (raw : Int) (t : Tree) (h : (t.int "splines/transSplineOrder").isSome) :
    (∀ o, tdOptions raw t = .ok o () ↔ TDFrom t o) ∧ ((¬ ∃ o, TDFrom t o) → tdOptions raw t = .throw .external ()) := by
  have hcl : Clean (tdOptions raw t) := by
    unfold tdOptions
    iterate 3 refine get_clean _ _ fun _ => ?_
    refine bind_clean (readSpline_clean _ _) _ fun _ => ?_
    iterate 4 refine get_clean _ _ fun _ => ?_
    exact .inl ⟨_, rfl⟩
  have hiff : ∀ o, tdOptions raw t = .ok o () ↔ TDFrom t o := by
    intro o
    obtain ⟨z, hz⟩ := Option.isSome_iff_exists.1 h
    unfold tdOptions TDFrom
    simp only [bind_ok, get_ok, readSpline_ok, hz, reduceCtorEq, false_implies, and_true]
    obtain ⟨o1, o2, o3, o4, o5, o6, o7, o8⟩ := o
    simp only [Res.ok.injEq, TDOptions.mk.injEq]
    constructor
    · rintro ⟨a1, h1, a2, h2, a3, h3, a4, h4, a5, h5, a6, h6, a7, h7, a8, h8, ⟨rfl, rfl, rfl, rfl, rfl, rfl, rfl, rfl⟩, -⟩
      exact ⟨h1, h2, h3, h4, h5, h6, h7, h8⟩
    · rintro ⟨h1, h2, h3, h4, h5, h6, h7, h8⟩
      exact ⟨_, h1, _, h2, _, h3, _, h4, _, h5, _, h6, _, h7, _, h8, ⟨rfl, rfl, rfl, rfl, rfl, rfl, rfl, rfl⟩, trivial⟩
  refine ⟨hiff, fun hn => ?_⟩
  rcases hcl with ⟨o, ho⟩ | hx
  · exact absurd ⟨o, (hiff o).1 ho⟩ hn
  · exact hx

/-- **C108** (egomotion calibrator), partial: the translation spline order must have an entry and the reference sensor must be a
non-negative `int`. -/
theorem C108_egomotion_partial (raw : Int) (t : Tree) (h : (t.int "splines/transSplineOrder").isSome)
    (hc : ∀ z, t.int "referenceSensor" = some z → 0 ≤ z ∧ z < 2147483648) :
    (∀ o, egoOptions raw t = .ok o () ↔ EgoFrom t o) ∧ ((¬ ∃ o, EgoFrom t o) → egoOptions raw t = .throw .external ()) := by
  have hcl : Clean (egoOptions raw t) := by
    unfold egoOptions
    iterate 4 refine get_clean _ _ fun _ => ?_
    refine bind_clean (readSpline_clean _ _) _ fun _ => ?_
    exact .inl ⟨_, rfl⟩
  have hiff : ∀ o, egoOptions raw t = .ok o () ↔ EgoFrom t o := by
    intro o
    obtain ⟨z, hz⟩ := Option.isSome_iff_exists.1 h
    unfold egoOptions EgoFrom
    simp only [bind_ok, get_ok, readSpline_ok, hz, reduceCtorEq, false_implies, and_true]
    obtain ⟨o1, o2, o3, o4, o5⟩ := o
    simp only [Res.ok.injEq, EgoOptions.mk.injEq]
    constructor
    · rintro ⟨a1, h1, a2, h2, a3, h3, a4, h4, a5, h5, ⟨rfl, rfl, rfl, rfl, rfl⟩, -⟩
      exact ⟨h1, h2, h3, by rw [h4, toSize_eq (hc _ h4).1 (hc _ h4).2], h5⟩
    · rintro ⟨h1, h2, h3, h4, h5⟩
      refine ⟨_, h1, _, h2, _, h3, _, h4, _, h5, ⟨rfl, rfl, rfl, ?_, rfl⟩, trivial⟩
      have := toSize_eq (hc _ h4).1 (hc _ h4).2
      omega
  refine ⟨hiff, fun hn => ?_⟩
  rcases hcl with ⟨o, ho⟩ | hx
  · exact absurd ⟨o, (hiff o).1 ho⟩ hn
  · exact hx

/-- **C108** (trajectory of the egomotion simulation), partial: the translation spline order must have an entry. -/
theorem C108_egomotion_trajectory_partial (raw : Int) (t : Tree) (h : (t.int "splines/transSplineOrder").isSome) :
    (∀ o, egoTraj raw t = .ok o () ↔ EgoTrajFrom t o) ∧ ((¬ ∃ o, EgoTrajFrom t o) → egoTraj raw t = .throw .external ()) := by
  have hcl : Clean (egoTraj raw t) := by
    unfold egoTraj
    iterate 8 refine get_clean _ _ fun _ => ?_
    refine bind_clean (readSpline_clean _ _) _ fun _ => ?_
    refine get_clean _ _ fun _ => ?_
    exact .inl ⟨_, rfl⟩
  have hiff : ∀ o, egoTraj raw t = .ok o () ↔ EgoTrajFrom t o := by
    intro o
    obtain ⟨z, hz⟩ := Option.isSome_iff_exists.1 h
    unfold egoTraj EgoTrajFrom
    simp only [bind_ok, get_ok, readSpline_ok, hz, reduceCtorEq, false_implies, and_true]
    obtain ⟨o1, o2, o3, o4, o5⟩ := o
    simp only [Res.ok.injEq, EgoTraj.mk.injEq]
    constructor
    · rintro ⟨a1, h1, a2, h2, a3, h3, a4, h4, a5, h5, a6, h6, a7, h7, a8, h8, a9, h9, a10, h10, ⟨rfl, rfl, rfl, rfl, rfl⟩, -⟩
      exact ⟨h1, h2, by simp [h3, h4, h5, h6, h7, h8], h9, h10⟩
    · rintro ⟨h1, h2, h3, h4, h5⟩
      have hl : o3.length = 6 := by simpa using (congrArg List.length h3).symm
      obtain ⟨y, p, r, a, b, c, rfl⟩ : ∃ y p r a b c, o3 = [y, p, r, a, b, c] := by
        match o3, hl with
        | [y, p, r, a, b, c], _ => exact ⟨y, p, r, a, b, c, rfl⟩
      · simp only [List.map_cons, List.map_nil, List.cons.injEq, and_true] at h3
        obtain ⟨g1, g2, g3, g4, g5, g6⟩ := h3
        exact ⟨_, h1, _, h2, _, g1, _, g2, _, g3, _, g4, _, g5, _, g6, _, h4, _, h5, ⟨rfl, rfl, rfl, rfl, rfl⟩, trivial⟩
  refine ⟨hiff, fun hn => ?_⟩
  rcases hcl with ⟨o, ho⟩ | hx
  · exact absurd ⟨o, (hiff o).1 ho⟩ hn
  · exact hx

/-- **C108** (trajectory of the time delay simulation): amplitude and frequency are their entries, without which the exception is
thrown, and the vehicle always starts in the origin of the world frame. -/
theorem C108_timedelay_trajectory (t : Tree) :
    (∀ o, tdTraj t = .ok o () ↔ t.double "A" = some o.A ∧ t.double "f" = some o.f ∧ o.start = List.replicate 6 0) ∧
    ((t.double "A" = none ∨ t.double "f" = none) → tdTraj t = .throw .external ()) := by
  constructor
  · rintro ⟨A, f, s⟩
    simp only [tdTraj, get_bind, Res.ok.injEq, TDTraj.mk.injEq, and_true]
    constructor
    · rintro ⟨a, ha, b, hb, rfl, rfl, rfl⟩; exact ⟨ha, hb, rfl⟩
    · rintro ⟨ha, hb, hs⟩; exact ⟨A, ha, f, hb, rfl, rfl, by rw [hs]; rfl⟩
  · rintro (h | h)
    · simp [tdTraj, h, get, Res.bind]
    · cases hA : t.double "A" <;> simp [tdTraj, h, hA, get, Res.bind]

/-! ### What is missing -/

/-- a configuration in which every number is 1, every switch on; the translation spline order and the wheel cutoff and
reference sensor are given. -/
def demo (order : Option Int) (cutoff : Int) : Tree where
  double _ := some 1
  int k := if k = "splines/transSplineOrder" then order
    else if k = "odometry/sensors/wheelSpeedSensorCutoff" ∨ k = "referenceSensor" then some cutoff else some 5
  bool _ := some true
  str _ := some "circle"

/-- non-vacuity: the hypotheses of the partial theorems hold for `demo`, and the options are made. -/
example : ((demo (some 4) 350).int "splines/transSplineOrder").isSome ∧
    (∀ z, (demo (some 4) 350).int "odometry/sensors/wheelSpeedSensorCutoff" = some z → 0 ≤ z ∧ z < 65536) ∧
    (∀ z, (demo (some 4) 350).int "referenceSensor" = some z → 0 ≤ z ∧ z < 2147483648) ∧
    ∃ o, carOptions 7 (demo (some 4) 350) = .ok o () ∧ o.wheelSpeedSensorCutoff = 350 ∧ o.spline.transSplineOrder = 4 := by
  refine ⟨rfl, ?_, ?_, _, rfl, rfl, rfl⟩ <;> simp [demo]

/-- **C108**, what is missing: without an entry for the translation spline order, each of the four readers takes what happens to
be in memory, so two runs on the same configuration differ. -/
theorem C108_order_unset : ∃ t : Tree,
    (∃ o o', carOptions 4 t = .ok o () ∧ carOptions 77 t = .ok o' () ∧ o.spline.transSplineOrder ≠ o'.spline.transSplineOrder) ∧
    (∃ o o', tdOptions 4 t = .ok o () ∧ tdOptions 77 t = .ok o' () ∧ o.spline.transSplineOrder ≠ o'.spline.transSplineOrder) ∧
    (∃ o o', egoOptions 4 t = .ok o () ∧ egoOptions 77 t = .ok o' () ∧ o.spline.transSplineOrder ≠ o'.spline.transSplineOrder) ∧
    (∃ o o', egoTraj 4 t = .ok o () ∧ egoTraj 77 t = .ok o' () ∧ o.spline.transSplineOrder ≠ o'.spline.transSplineOrder) := by
  refine ⟨demo none 0, ⟨_, _, rfl, rfl, ?_⟩, ⟨_, _, rfl, rfl, ?_⟩, ⟨_, _, rfl, rfl, ?_⟩, ⟨_, _, rfl, rfl, ?_⟩⟩ <;> decide

/-- **C108**, what is missing: a cutoff of 65536 is accepted and becomes 0, and a reference sensor of -1 becomes a huge index. -/
theorem C108_wraps : (∃ o, carOptions 0 (demo (some 4) 65536) = .ok o () ∧ o.wheelSpeedSensorCutoff = 0) ∧
    (∃ o, egoOptions 0 (demo (some 4) (-1)) = .ok o () ∧ o.referenceSensor = 18446744073709551615) := by
  exact ⟨⟨_, rfl, rfl⟩, ⟨_, rfl, rfl⟩⟩

end Opts
end Verif
