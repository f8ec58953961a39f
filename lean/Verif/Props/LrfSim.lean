import Verif.Lemmas.LrfSim
import Verif.Props.Lrf
import Mathlib.Analysis.Real.Pi.Bounds

/-! C96: the simulated data of the 2D laser example. -/

namespace Verif
namespace Lrf
open ErrorTerms LrfSpec

/-- the noise covariances are accepted. -/
def Accepted (p : SimPar) : Prop := p.okQ = true ∧ (p.lm = [] ∨ p.okR0 = true ∧ p.okR1 = true)

/-- C96.  With enough inputs and admissible noise covariances the simulation returns records of `steps` entries (at least one), every
row of ranges and bearings with one entry per landmark; the first row is zero. -/
theorem C96_record {p : SimPar} {u : List V3} {steps : Nat} (hp : Accepted p) (hu : steps ≤ 1 ∨ steps ≤ u.length) :
    ∃ d, simulate p u steps = .ok () d ∧ d.xTrue.length = max 1 steps ∧ d.xOdom.length = max 1 steps ∧
      d.uNoise.length = max 1 steps ∧ d.r.length = max 1 steps ∧ d.b.length = max 1 steps ∧
      Complete d.r (max 1 steps) p.lm.length ∧ Complete d.b (max 1 steps) p.lm.length ∧
      (∀ j < p.lm.length, at2 d.r 0 j = some 0) ∧ (∀ row ∈ d.r ++ d.b, row.length = p.lm.length) := by
  refine ⟨_, simulate_eq hp.1 hp.2 hu, ?_, ?_, ?_, ?_, ?_, ?_, ?_, ?_, ?_⟩
  · simp [dataAt]; omega
  · simp [dataAt]; omega
  · simp [dataAt]; omega
  · simp [dataAt]; omega
  · simp [dataAt]; omega
  · intro i hi
    refine ⟨rangeRow p u i, ?_, ?_⟩
    · have : i < steps - 1 + 1 := by omega
      simp only [dataAt, List.getElem?_map, List.getElem?_range this, Option.map_some]
    · unfold rangeRow; split_ifs <;> simp
  · intro i hi
    refine ⟨bearingRow p u i, ?_, ?_⟩
    · have : i < steps - 1 + 1 := by omega
      simp only [dataAt, List.getElem?_map, List.getElem?_range this, Option.map_some]
    · unfold bearingRow; split_ifs <;> simp
  · intro j hj
    simp [dataAt, at2, rangeRow, hj]
  · intro row hrow
    simp only [dataAt, List.mem_append, List.mem_map] at hrow
    rcases hrow with ⟨i, _, rfl⟩ | ⟨i, _, rfl⟩
    · unfold rangeRow; split_ifs <;> simp
    · unfold bearingRow; split_ifs <;> simp

/-- settings for the examples. -/
noncomputable def demoPar : SimPar :=
  { dt := 1 / 10, Th := ![219 / 1000, 1 / 10, 78 / 100], x0 := ![1, 1, Real.pi / 4], lm := [![5, 5], ![10, 3]]
    nu := fun i => ![1 / (i + 1), 0, 1 / 100], nr := fun _ _ => 1 / 100, nb := fun _ _ => 1 / 50
    okQ := true, okR0 := true, okR1 := true }

theorem demo_accepted : Accepted demoPar := ⟨rfl, Or.inr ⟨rfl, rfl⟩⟩

example : ∃ d, simulate demoPar [0, ![1, 0, 1], ![1, 0, 2]] 3 = .ok () d ∧ d.r.length = max 1 3 := by
  obtain ⟨d, h1, _, _, _, h2, _⟩ := C96_record (u := [0, ![1, 0, 1], ![1, 0, 2]]) (steps := 3) demo_accepted (Or.inr le_rfl)
  exact ⟨d, h1, h2⟩

/-- C96.  The observation error of every simulated measurement, evaluated at the true pose, landmark and calibration, is the noise
that was drawn (bearing noise smaller than half a turn); without noise it is zero. -/
theorem C96_observation_noise {p : SimPar} {u : List V3} {steps : Nat} (hp : Accepted p)
    (hu : steps ≤ 1 ∨ steps ≤ u.length) :
    ∃ d, simulate p u steps = .ok () d ∧ ∀ i j l, 1 ≤ i → i < steps → p.lm[j]? = some l → |p.nb i j| < Real.pi →
      ∃ x r b, d.xTrue[i]? = some x ∧ at2 d.r i j = some r ∧ at2 d.b i j = some b ∧
        obsErr r b x l p.Th = ![p.nr i j, p.nb i j] := by
  refine ⟨_, simulate_eq hp.1 hp.2 hu, ?_⟩
  intro i j l hi his hl hn
  have hlt : i < steps - 1 + 1 := by omega
  have hi0 : i ≠ 0 := by omega
  refine ⟨poseT p u i, simRange p.Th (poseT p u i) l (p.nr i j), simBearing p.Th (poseT p u i) l (p.nb i j), ?_, ?_, ?_,
    obsErr_sim _ _ _ _ _ hn⟩
  · simp only [dataAt, List.getElem?_map, List.getElem?_range hlt, Option.map_some]
  · simp only [dataAt, at2, List.getElem?_map, List.getElem?_range hlt, Option.map_some, Option.bind_some, rangeRow, hi0,
      if_false, List.getElem?_mapIdx, hl]
  · simp only [dataAt, at2, List.getElem?_map, List.getElem?_range hlt, Option.map_some, Option.bind_some, bearingRow, hi0,
      if_false, List.getElem?_mapIdx, hl]

example : ∃ d, simulate demoPar [0, ![1, 0, 1], ![1, 0, 2]] 3 = .ok () d ∧ ∃ x r b, d.xTrue[2]? = some x ∧
    at2 d.r 2 1 = some r ∧ at2 d.b 2 1 = some b ∧ obsErr r b x ![10, 3] demoPar.Th = ![1 / 100, 1 / 50] := by
  obtain ⟨d, h1, h2⟩ := C96_observation_noise (u := [0, ![1, 0, 1], ![1, 0, 2]]) (steps := 3) demo_accepted (Or.inr le_rfl)
  refine ⟨d, h1, h2 2 1 ![10, 3] (by norm_num) (by norm_num) rfl ?_⟩
  have := Real.pi_gt_three
  simp only [demoPar]
  rw [abs_of_pos (by norm_num)]
  linarith

/-- C96 (partial).  The motion error of every step, evaluated at the true poses with the recorded input, is the noise that was drawn, provided
the true heading does not leave (-π, π) in that step.  Missing: steps in which the heading wraps, see `C96_heading_wrap`. -/
theorem C96_motion_noise_partial {p : SimPar} {u : List V3} {steps : Nat} (hp : Accepted p) (hT : p.dt ≠ 0)
    (hu : steps ≤ 1 ∨ steps ≤ u.length) :
    ∃ d, simulate p u steps = .ok () d ∧ ∀ i ui, 1 ≤ i → i < steps → u[i]? = some ui →
      ∃ x x' un, d.xTrue[i - 1]? = some x ∧ d.xTrue[i]? = some x' ∧ d.uNoise[i]? = some un ∧
        (|x 2 + p.dt * ui 2| < Real.pi → motionErr p.dt un x x' = p.nu i) ∧
        ∃ turns : ℤ, motionErr p.dt un x x' = p.nu i + ![0, 0, 2 * Real.pi * turns / p.dt] := by
  refine ⟨_, simulate_eq hp.1 hp.2 hu, ?_⟩
  intro i ui hi his hui
  obtain ⟨k, rfl⟩ : ∃ k, i = k + 1 := ⟨i - 1, by omega⟩
  have hlt : k + 1 < steps - 1 + 1 := by omega
  have hlt' : k < steps - 1 + 1 := by omega
  have hinp : inp u (k + 1) = ui := by simp [inp, hui]
  have hpose : poseT p u (k + 1) = motionStep p.dt (poseT p u k) ui := by simp [poseT, hinp]
  have hun : inpN p u (k + 1) = ui + p.nu (k + 1) := by simp [inpN, hinp]
  refine ⟨poseT p u k, poseT p u (k + 1), inpN p u (k + 1), ?_, ?_, ?_, ?_, ?_⟩
  · simp only [Nat.add_sub_cancel, dataAt, List.getElem?_map, List.getElem?_range hlt', Option.map_some]
  · simp only [dataAt, List.getElem?_map, List.getElem?_range hlt, Option.map_some]
  · simp only [dataAt, List.getElem?_map, List.getElem?_range hlt, Option.map_some]
  · intro h
    rw [hpose, hun, motionErr_step hT, roundAway_turn h]
    funext i
    fin_cases i <;> simp
  · exact ⟨_, by rw [hpose, hun, motionErr_step hT]⟩

/-- C96, the initial guess.  Along the odometry poses the motion errors are zero up to full turns of the heading. -/
theorem C96_odometry {p : SimPar} {u : List V3} {steps : Nat} (hp : Accepted p) (hT : p.dt ≠ 0)
    (hu : steps ≤ 1 ∨ steps ≤ u.length) :
    ∃ d, simulate p u steps = .ok () d ∧ ∀ i, 1 ≤ i → i < steps →
      ∃ x x' un, d.xOdom[i - 1]? = some x ∧ d.xOdom[i]? = some x' ∧ d.uNoise[i]? = some un ∧
        (|x 2 + p.dt * un 2| < Real.pi → motionErr p.dt un x x' = 0) ∧
        ∃ turns : ℤ, motionErr p.dt un x x' = ![0, 0, 2 * Real.pi * turns / p.dt] := by
  refine ⟨_, simulate_eq hp.1 hp.2 hu, ?_⟩
  intro i hi his
  obtain ⟨k, rfl⟩ : ∃ k, i = k + 1 := ⟨i - 1, by omega⟩
  have hlt : k + 1 < steps - 1 + 1 := by omega
  have hlt' : k < steps - 1 + 1 := by omega
  have hm := motionErr_step hT (poseO p u k) (inpN p u (k + 1)) 0
  rw [add_zero, zero_add] at hm
  refine ⟨poseO p u k, poseO p u (k + 1), inpN p u (k + 1), ?_, ?_, ?_, ?_, ?_⟩
  · simp only [Nat.add_sub_cancel, dataAt, List.getElem?_map, List.getElem?_range hlt', Option.map_some]
  · simp only [dataAt, List.getElem?_map, List.getElem?_range hlt, Option.map_some]
  · simp only [dataAt, List.getElem?_map, List.getElem?_range hlt, Option.map_some]
  · intro h
    simp only [poseO]
    rw [hm, roundAway_turn h]
    funext i
    fin_cases i <;> simp
  · exact ⟨_, by simp only [poseO]; exact hm⟩

example : ∃ d, simulate demoPar [0, ![1, 0, 1], ![1, 0, 2]] 3 = .ok () d ∧ ∃ x x' un, d.xOdom[1]? = some x ∧
    d.xOdom[2]? = some x' ∧ d.uNoise[2]? = some un ∧
    ∃ turns : ℤ, motionErr demoPar.dt un x x' = ![0, 0, 2 * Real.pi * turns / demoPar.dt] := by
  obtain ⟨d, h1, h2⟩ := C96_odometry (u := [0, ![1, 0, 1], ![1, 0, 2]]) (steps := 3) demo_accepted
    (by simp [demoPar]) (Or.inr le_rfl)
  obtain ⟨x, x', un, a, b, c, _, e⟩ := h2 2 (by norm_num) (by norm_num)
  exact ⟨d, h1, x, x', un, a, b, c, e⟩

/-- C96, the shipped path never wraps: with inputs from the path generator and an initial heading of at most a quarter turn,
the motion error of every step at the truth is exactly the noise drawn. -/
theorem C96_sine_path {p : SimPar} {u0 u : List V3} {steps : Nat} {A f : ℝ} (hp : Accepted p) (hT : 0 < p.dt) (hf : 0 < f)
    (hx : |p.x0 2| ≤ Real.pi / 2) (hu : genSineWavePath (· + ·) (· * ·) u0 steps A f p.dt = .ok () u) :
    ∃ d, simulate p u steps = .ok () d ∧ ∀ i, 1 ≤ i → i < steps →
      ∃ x x' un, d.xTrue[i - 1]? = some x ∧ d.xTrue[i]? = some x' ∧ d.uNoise[i]? = some un ∧
        x' 2 = p.x0 2 + heading A f (i * p.dt) ∧ motionErr p.dt un x x' = p.nu i := by
  obtain ⟨u', hu', hlen, _, om, h1, h2⟩ := C94_inputs_partial (u0 := u0) (steps := steps) (A := A) hT hf
  have : u = u' := by
    rw [hu'] at hu
    simpa using hu.symm
  subst this
  have hbound : ∀ k, k + 1 < steps → |p.x0 2 + ∑ i ∈ Finset.range (k + 1), om (i + 1) * p.dt| < Real.pi := by
    intro k hk
    rw [h2 k hk]
    have : |heading A f ((k + 1 : ℕ) * p.dt)| < Real.pi / 2 := by
      unfold heading
      rw [abs_lt]
      exact ⟨Real.neg_pi_div_two_lt_arctan _, Real.arctan_lt_pi_div_two _⟩
    calc _ ≤ |p.x0 2| + |heading A f ((k + 1 : ℕ) * p.dt)| := abs_add_le _ _
      _ < Real.pi / 2 + Real.pi / 2 := by linarith
      _ = Real.pi := by ring
  have hstep : ∀ k, k + 1 < steps → inp u (k + 1) 2 = om (k + 1) := by
    intro k hk
    simp only [inp, h1 k hk, Option.getD_some]
    rfl
  have hpose : ∀ k, k < steps → poseT p u k 2 = p.x0 2 + ∑ i ∈ Finset.range k, om (i + 1) * p.dt := by
    intro k
    induction k with
    | zero => intro _; simp [poseT]
    | succ k ih =>
      intro hk
      have e : poseT p u (k + 1) 2 = angleMod (poseT p u k 2 + p.dt * inp u (k + 1) 2) := rfl
      have e2 : poseT p u k 2 + p.dt * inp u (k + 1) 2 = p.x0 2 + ∑ i ∈ Finset.range (k + 1), om (i + 1) * p.dt := by
        rw [ih (by omega), hstep k hk, Finset.sum_range_succ]; ring
      rw [e, e2, angleMod_small (hbound k hk)]
  obtain ⟨d, hd, hm⟩ := C96_motion_noise_partial (steps := steps) hp hT.ne' (u := u) (by omega)
  have hd' := hd
  rw [simulate_eq hp.1 hp.2 (by omega)] at hd'
  simp only [Res.ok.injEq, true_and] at hd'
  refine ⟨d, hd, ?_⟩
  intro i hi his
  obtain ⟨k, rfl⟩ : ∃ k, i = k + 1 := ⟨i - 1, by omega⟩
  obtain ⟨x, x', un, hx1, hx2, hun, hmot, _⟩ := hm (k + 1) _ hi his (h1 k his)
  have ex : x = poseT p u k := by
    rw [← hd', Nat.add_sub_cancel] at hx1
    have hlt : k < steps - 1 + 1 := by omega
    simp only [dataAt, List.getElem?_map, List.getElem?_range hlt, Option.map_some, Option.some.injEq] at hx1
    exact hx1.symm
  have ex' : x' = poseT p u (k + 1) := by
    rw [← hd'] at hx2
    have hlt : k + 1 < steps - 1 + 1 := by omega
    simp only [dataAt, List.getElem?_map, List.getElem?_range hlt, Option.map_some, Option.some.injEq] at hx2
    exact hx2.symm
  refine ⟨x, x', un, hx1, hx2, hun, ?_, hmot ?_⟩
  · rw [ex', hpose (k + 1) his, h2 k his]
  · rw [ex, hpose k (by omega)]
    have e3 := hbound k his
    rw [Finset.sum_range_succ] at e3
    rw [show p.x0 2 + ∑ i ∈ Finset.range k, om (i + 1) * p.dt +
      p.dt * ![(speed A f (k * p.dt) + speed A f ((k + 1 : ℕ) * p.dt)) / 2, 0, om (k + 1)] 2 =
      p.x0 2 + (∑ i ∈ Finset.range k, om (i + 1) * p.dt + om (k + 1) * p.dt) by simp; ring]
    exact e3

/-- the parameters of the program. -/
example : ∃ u d, genSineWavePath (· + ·) (· * ·) [] 5000 1 (1 / 100) demoPar.dt = .ok () u ∧
    simulate demoPar u 5000 = .ok () d := by
  obtain ⟨u, hu, _⟩ := C94_inputs_partial (u0 := []) (steps := 5000) (A := 1) (f := 1 / 100) (T := demoPar.dt)
    (by norm_num [demoPar]) (by norm_num)
  obtain ⟨d, hd, _⟩ := C96_sine_path demo_accepted (by norm_num [demoPar]) (by norm_num)
    (by
      simp only [demoPar, Matrix.cons_val]
      rw [abs_of_pos (by positivity)]
      linarith [Real.pi_pos]) hu
  exact ⟨u, d, hu, hd⟩

/-- a robot that turns across the back: heading 3, one turn of 1. -/
noncomputable def wrapPar : SimPar :=
  { dt := 1, Th := 0, x0 := ![0, 0, 3], lm := [], nu := 0, nr := 0, nb := 0, okQ := true, okR0 := true, okR1 := true }

/-- C96 is false for steps in which the heading wraps: noise free data whose motion error at the truth is a full turn per time
step. -/
theorem C96_heading_wrap : ∃ d x x' un, simulate wrapPar [0, ![0, 0, 1]] 2 = .ok () d ∧
    d.xTrue[0]? = some x ∧ d.xTrue[1]? = some x' ∧ d.uNoise[1]? = some un ∧ wrapPar.nu 1 = 0 ∧
    motionErr wrapPar.dt un x x' = ![0, 0, 2 * Real.pi] ∧ motionErr wrapPar.dt un x x' ≠ 0 := by
  obtain ⟨x, x', un, a, b, c, d⟩ : ∃ x x' un,
      (dataAt wrapPar [0, ![0, 0, 1]] 1).xTrue[0]? = some x ∧ (dataAt wrapPar [0, ![0, 0, 1]] 1).xTrue[1]? = some x' ∧
      (dataAt wrapPar [0, ![0, 0, 1]] 1).uNoise[1]? = some un ∧ motionErr wrapPar.dt un x x' = ![0, 0, 2 * Real.pi] := by
    refine ⟨_, _, _, rfl, rfl, rfl, ?_⟩
    have hr : roundAway ((3 + 1 * 1) / (2 * Real.pi)) = 1 := by
      have h1 := Real.pi_gt_three
      have h2 := Real.pi_lt_four
      unfold roundAway
      rw [if_pos (by positivity), Int.floor_eq_iff]
      have h3 : (1 : ℝ) / 2 ≤ (3 + 1 * 1) / (2 * Real.pi) := by rw [le_div_iff₀ (by positivity)]; linarith
      have h4 : ((3 : ℝ) + 1 * 1) / (2 * Real.pi) < 3 / 2 := by rw [div_lt_iff₀ (by positivity)]; linarith
      push_cast
      constructor <;> linarith
    have := motionErr_step (T := wrapPar.dt) (by simp [wrapPar]) (poseT wrapPar [0, ![0, 0, 1]] 0) (inp [0, ![0, 0, 1]] 1) 0
    have e1 : inpN wrapPar [0, ![0, 0, 1]] 1 = inp [0, ![0, 0, 1]] 1 + 0 := by simp [inpN, wrapPar]
    show motionErr wrapPar.dt (inpN wrapPar [0, ![0, 0, 1]] 1) (poseT wrapPar [0, ![0, 0, 1]] 0)
      (motionStep wrapPar.dt (poseT wrapPar [0, ![0, 0, 1]] 0) (inp [0, ![0, 0, 1]] 1)) = _
    rw [e1, this]
    have e2 : (poseT wrapPar [0, ![0, 0, 1]] 0) 2 = 3 := rfl
    have e3 : (inp [0, ![0, 0, 1]] 1) 2 = 1 := rfl
    have e4 : wrapPar.dt = 1 := rfl
    rw [e2, e3, e4, hr]
    simp
  refine ⟨_, x, x', un, simulate_eq rfl (Or.inl rfl) (Or.inr le_rfl), a, b, c, rfl, d, ?_⟩
  rw [d]
  intro h
  have := congrFun h 2
  simp at this

/-- C96, too few inputs: undefined behaviour.  This is what happens for a time step that is not positive. -/
theorem C96_short_inputs_undefined {p : SimPar} {u : List V3} {steps : Nat} (hp : Accepted p) (h1 : 1 ≤ u.length)
    (hu : u.length < steps) : simulate p u steps = .ub := by
  unfold simulate
  rw [simInit_eq p u, simLoop_short hp.1 hp.2 _ 0 (by omega) (by omega)]

example : ∃ u, genSineWavePath (· + ·) (· * ·) [] 5000 1 (1 / 100) 0 = .ok () u ∧
    simulate { demoPar with dt := 0 } u 5000 = .ub :=
  ⟨[0], C94_step_not_positive le_rfl, C96_short_inputs_undefined ⟨rfl, Or.inr ⟨rfl, rfl⟩⟩ (by simp) (by simp)⟩

/-- C96, an inadmissible motion noise covariance is reported by the first step. -/
theorem C96_bad_motion_noise {p : SimPar} {u : List V3} {steps : Nat} (hQ : p.okQ = false) (hs : 2 ≤ steps)
    (hu : 2 ≤ u.length) : ∃ d, simulate p u steps = .throw .badArgument d := by
  obtain ⟨n, hn⟩ : ∃ n, steps - 1 = n + 1 := ⟨steps - 2, by omega⟩
  refine ⟨{ simInit p with xTrue := [p.x0, motionStep p.dt p.x0 u[1]] }, ?_⟩
  unfold simulate
  rw [hn]
  have h3 : u[1]? = some u[1] := List.getElem?_eq_getElem (by omega)
  have : simBody p u 1 (simInit p) = .throw .badArgument { simInit p with xTrue := [p.x0, motionStep p.dt p.x0 u[1]] } := by
    unfold simBody
    simp only [simInit, Nat.sub_self, List.getElem?_cons_zero, h3, hQ, Bool.not_false, if_true, List.cons_append,
      List.nil_append]
  simp only [simLoop, this, Res.bind]

example : ∃ d, simulate { demoPar with okQ := false } [0, 0] 2 = .throw .badArgument d :=
  C96_bad_motion_noise rfl le_rfl (by simp)

/-- C96, an inadmissible measurement noise covariance is reported by the first step, before its measurements but after its motion and odometry
are recorded – if there is a landmark. -/
theorem C96_bad_measurement_noise {p : SimPar} {u : List V3} {steps : Nat} (hQ : p.okQ = true) (hl : p.lm ≠ [])
    (hR : p.okR0 = false ∨ p.okR1 = false) (hs : 2 ≤ steps) (hu : 2 ≤ u.length) :
    ∃ d, simulate p u steps = .throw .badArgument d ∧ d.xTrue = [p.x0, motionStep p.dt p.x0 u[1]] ∧
      d.xOdom = [p.x0, motionStep p.dt p.x0 (u[1] + p.nu 1)] ∧ d.uNoise = [(0 : V3), u[1] + p.nu 1] ∧ d.r.length = 1 ∧ d.b.length = 1 := by
  obtain ⟨n, hn⟩ : ∃ n, steps - 1 = n + 1 := ⟨steps - 2, by omega⟩
  have h3 : u[1]? = some u[1] := List.getElem?_eq_getElem (by omega)
  have hR' : (p.lm ≠ [] ∧ (!(p.okR0 && p.okR1)) = true) := ⟨hl, by rcases hR with h | h <;> simp [h]⟩
  have : simBody p u 1 (simInit p) = .throw .badArgument { simInit p with
      xTrue := [p.x0, motionStep p.dt p.x0 u[1]], uNoise := [0, u[1] + p.nu 1],
      xOdom := [p.x0, motionStep p.dt p.x0 (u[1] + p.nu 1)] } := by
    unfold simBody
    simp only [simInit, Nat.sub_self, List.getElem?_cons_zero, h3, hQ, Bool.not_true, Bool.false_eq_true, if_false, if_pos hR',
      List.cons_append, List.nil_append]
  refine ⟨{ simInit p with
      xTrue := [p.x0, motionStep p.dt p.x0 u[1]], uNoise := [0, u[1] + p.nu 1],
      xOdom := [p.x0, motionStep p.dt p.x0 (u[1] + p.nu 1)] }, ?_, rfl, rfl, rfl, by simp [simInit], by simp [simInit]⟩
  unfold simulate
  rw [hn]
  simp only [simLoop, this, Res.bind]

example : ∃ d, simulate { demoPar with okR0 := false, lm := [0] } [0, 0] 2 = .throw .badArgument d ∧ d.r.length = 1 := by
  obtain ⟨d, h, -, -, -, h2, -⟩ := C96_bad_measurement_noise (p := { demoPar with okR0 := false, lm := [0] }) (u := [0, 0]) (steps := 2) rfl
    (by simp) (.inl rfl) le_rfl (by simp)
  exact ⟨d, h, h2⟩

end Lrf
end Verif
