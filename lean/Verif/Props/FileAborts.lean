import Verif.Spec.Inherits
import Verif.Props.SimFiles
import Verif.Props.EgoFiles
import Verif.Props.CarAnalysis
import Verif.Props.CarResults

/-!
# The file-writing programs neither hide nor confuse undefined behaviour and divergence

For C136, C137, C138 and C140: whenever the calibration, the prediction or the writer of the splines behaves undefinedly (does not
end), so does the program that writes the files.
-/

namespace Verif

/-- **C136**: the simulator program inherits undefined behaviour and divergence of the simulation, of the calibration and of the
writer of the splines. -/
theorem C136_inherits {E G P V A B : Type} (env : SimTD.Env) (p : SimTD.Params) (cenv : TD.Env E G P V) (o : TD.Opt) (val : ℝ → ℚ)
    (spl : E → Res (List (Tok A B)) Unit) (e : E) (fs : SimTD.Dir (SimTD.Row G P A B)) :
    Inherits (SimTD.simulate env p .empty) (SimTD.mainIO env p cenv o val spl e fs) ∧
    (∀ d, SimTD.simulate env p .empty = .ok () d →
      Inherits (SimTD.main env p cenv o val e) (SimTD.mainIO env p cenv o val spl e fs)) ∧
    ∀ d s, SimTD.simulate env p .empty = .ok () d → SimTD.main env p cenv o val e = .ok () s →
      Inherits (spl s.est) (SimTD.mainIO env p cenv o val spl e fs) := by
  refine ⟨⟨?_, ?_⟩, ?_, ?_⟩
  · intro h; unfold SimTD.mainIO; simp only [h]
  · intro h; unfold SimTD.mainIO; simp only [h]
  · intro d hd
    rw [SimTD.mainIO_eq hd]
    constructor <;> intro h <;> simp only [h]
  · intro d s hd hm
    rw [SimTD.mainIO_eq hd]
    simp only [hm, SimTD.results]
    constructor <;> intro h <;> simp only [h]

/-- **C137**: the egomotion simulator inherits undefined behaviour and divergence of the simulation, of the writer of the simulated
trajectory, of the calibration and of the writer of the estimated trajectory. -/
theorem C137_inherits {T E G P V L A B : Type} [Group T] (env : SimEgo.Env T) (p : SimEgo.Params T) (cenv : Ego.Env T E G P V) (o : Ego.Opt)
    (keys : List ℕ) (noisy : Bool) (view : P → ℕ → L) (calKeys : List ℕ) (traj : Res (List (Tok A B)) Unit)
    (spl : E → Res (List (Tok A B)) Unit) (e : Ego.St T E) (fs : SimTD.Dir (SimEgo.Row T G L A B)) :
    Inherits (SimEgo.simulate env p .empty) (SimEgo.mainIO env p cenv o keys noisy view calKeys traj spl e fs) ∧
    (∀ d, SimEgo.simulate env p .empty = .ok () d →
      Inherits traj (SimEgo.mainIO env p cenv o keys noisy view calKeys traj spl e fs)) ∧
    (∀ d toks, SimEgo.simulate env p .empty = .ok () d → traj = .ok () toks → Inherits (SimEgo.main env p cenv o keys noisy e)
      (SimEgo.mainIO env p cenv o keys noisy view calKeys traj spl e fs)) ∧
    ∀ d toks s, SimEgo.simulate env p .empty = .ok () d → traj = .ok () toks → SimEgo.main env p cenv o keys noisy e = .ok () s →
      Inherits (spl s.est.inner) (SimEgo.mainIO env p cenv o keys noisy view calKeys traj spl e fs) := by
  refine ⟨⟨?_, ?_⟩, ?_, ?_, ?_⟩
  · intro h; unfold SimEgo.mainIO; simp only [h]
  · intro h; unfold SimEgo.mainIO; simp only [h]
  · intro d hd
    constructor <;> intro h <;> unfold SimEgo.mainIO <;> simp only [hd, h]
  · rintro d toks hd rfl
    rw [SimEgo.mainIO_eq hd]
    constructor <;> intro h <;> simp only [h]
  · rintro d toks s hd rfl hm
    rw [SimEgo.mainIO_eq hd]
    simp only [hm, SimEgo.results]
    constructor <;> intro h <;> simp only [h]

namespace CarMain
variable {K E G P V A B : Type}

/-- the loop with its data files inherits undefined behaviour and divergence of the calls, and ends normally if they do. -/
theorem loopIO_inherits {C : Type} (submit : C → Call → Res C Unit) (env : Env K) (use : Use) (st : St K) (c : C) (ms : List Msg) :
    Inherits (loop submit env use st c ms) (loopIO submit env use st [] c ms) ∧
    ∀ c', loop submit env use st c ms = .ok () c' → ∃ w, loopIO submit env use st [] c ms = .ok () (w, c') := by
  rw [loop_eq, loopIO_eq]
  have hx := exec_calls submit [] c (actsFrom env use st ms)
  rw [actsFrom_calls] at hx
  exact ⟨⟨hx.2.2.1, hx.2.2.2⟩, fun c' h => ⟨_, hx.1 c' h⟩⟩

/-- **C138**: the car calibration program inherits undefined behaviour and divergence of the calibration and of the writer of the
splines. -/
theorem C138_inherits (cenv : CarEnv E G P) (o : CarOpt) (meas : Call → Meas) (env : Env K) (use : Use) (e : E)
    (vars : E → List ℝ) (spl : E → Res (List (Tok A B)) Unit) (fs : SimTD.Dir (ResRow G P A B)) (ms : List Msg) :
    Inherits (program cenv o meas env use e ms) (programIO cenv o meas env use e vars spl fs ms) ∧
    ∀ s, program cenv o meas env use e ms = .ok () s → 18 ≤ (vars s.est).length →
      Inherits (spl s.est) (programIO cenv o meas env use e vars spl fs ms) := by
  obtain ⟨⟨hu, hd⟩, hok⟩ := loopIO_inherits (fun s x => CarCal.add cenv o s (meas x)) env use (St.init env) (CarCal.init cenv e) ms
  constructor
  · unfold program
    cases hl : loop (fun s x => CarCal.add cenv o s (meas x)) env use (St.init env) (CarCal.init cenv e) ms with
    | throw x s => constructor <;> intro h <;> simp [Res.bind] at h
    | ub =>
      constructor <;> intro h <;> simp [Res.bind] at h
      unfold programIO
      rw [hu hl]
    | diverge =>
      constructor <;> intro h <;> simp [Res.bind] at h
      unfold programIO
      rw [hd hl]
    | ok u s =>
      obtain ⟨w, hw⟩ := hok s hl
      unfold programIO
      rw [hw]
      constructor <;> intro h <;> simp only [Res.bind] at h <;> simp only [h]
  · intro s hm hv
    obtain ⟨w, cs, s1, -, -, h3, h4⟩ := program_data hm
    have h18 : (Odometry.printedLabels.take 18).length = 18 := by decide
    have hdev := devRows_of_le (G := G) (P := P) (A := A) (B := B) (labels := Odometry.printedLabels.take 18) (vs := vars s.est)
      (by rw [h18]; exact hv)
    unfold programIO
    rw [h4]
    simp only [h3, carResults, hdev]
    constructor <;> intro h <;> simp only [h] <;> rfl

/-- **C140**: the analysis program inherits undefined behaviour and divergence of the calls, of the prediction and of the writer of
the splines. -/
theorem C140_inherits (cenv : CarEnv E G P) (eval : CarCal.Eval E V) (o : CarOpt) (meas : Call → Meas) (env : Env K) (use : Use)
    (e : E) (spl : E → Res (List (Tok A B)) Unit) (fs : SimTD.Dir (AnRow V A B)) (ms : List Msg) :
    Inherits (loop (fun s x => s.add cenv o (meas x)) env use (St.init env) (CarCal.init cenv e) ms)
      (analysisIO cenv eval o meas env use e spl fs ms) ∧
    ∀ s, loop (fun s x => s.add cenv o (meas x)) env use (St.init env) (CarCal.init cenv e) ms = .ok () s →
      Inherits (finishAnalysis cenv eval o s) (analysisIO cenv eval o meas env use e spl fs ms) ∧
      ∀ p, finishAnalysis cenv eval o s = .ok () p → Inherits (spl s.est) (analysisIO cenv eval o meas env use e spl fs ms) := by
  obtain ⟨⟨hu, hd⟩, hok⟩ := loopIO_inherits (fun s x => CarCal.add cenv o s (meas x)) env use (St.init env) (CarCal.init cenv e) ms
  refine ⟨⟨?_, ?_⟩, ?_⟩
  · intro h; unfold analysisIO; rw [hu h]
  · intro h; unfold analysisIO; rw [hd h]
  · intro s hl
    obtain ⟨w, hw⟩ := hok s hl
    unfold analysisIO
    rw [hw]
    refine ⟨?_, ?_⟩
    · constructor <;> intro h <;> simp only [h]
    · intro p hp
      simp only [hp, analysisFiles]
      constructor <;> intro h <;> simp only [h] <;> rfl

/-- a case: an empty recording; if the writer of the splines does not end, the analysis program does not. -/
example (use : Use) : analysisIO CarCal.demoEnv (fun _ _ _ => ((), [], 0)) CarCal.demoOpt analysisMeas plain use
    0 (fun _ => (.diverge : Res (List (Tok Unit Unit)) Unit)) (fun _ => none) [] = .diverge :=
  ((C140_inherits _ _ _ _ _ _ _ _ _ _).2 _ rfl).2 .empty (by rfl) |>.2 rfl

end CarMain
end Verif
