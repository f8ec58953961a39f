import Verif.Model.CarResults
import Verif.Props.CarFiles
import Verif.Props.Odometry
import Verif.Props.Programs

/-!
# C138: the result files of the car calibration program
-/

namespace Verif
namespace CarMain
variable {K E G P A B : Type}

theorem devRows_of_le {labels : List (Odometry.OVar × ℕ)} {vs : List ℝ} (h : labels.length ≤ vs.length) :
    devRows (G := G) (P := P) (A := A) (B := B) labels vs = some ((labels.zip vs).map fun q => .dev q.1 (Real.sqrt q.2)) := by
  induction labels generalizing vs with
  | nil => rfl
  | cons l ls ih =>
    cases vs with
    | nil => simp at h
    | cons v vs => simp [devRows, ih (by simpa using h)]

theorem devRows_of_lt {labels : List (Odometry.OVar × ℕ)} {vs : List ℝ} (h : vs.length < labels.length) :
    devRows (G := G) (P := P) (A := A) (B := B) labels vs = none := by
  induction labels generalizing vs with
  | nil => simp at h
  | cons l ls ih =>
    cases vs with
    | nil => rfl
    | cons v vs => simp [devRows, ih (by simpa using h)]

/-- the program with its data files, in terms of the program without. -/
theorem program_data {cenv : CarEnv E G P} {o : CarOpt} {meas : Call → Meas} {env : Env K} {use : Use} {e : E} {ms : List Msg}
    {s : CarCal E G P} (h : program cenv o meas env use e ms = .ok () s) :
    ∃ w cs s1, CallsAre env use ms cs ∧ Record ms w cs ∧ finish cenv o s1 = .ok () s ∧
      loopIO (fun s x => s.add cenv o (meas x)) env use (St.init env) [] (CarCal.init cenv e) ms = .ok () (w, s1) := by
  obtain ⟨cs, h1, h2⟩ := C135_data_files env use ms
  unfold program at h
  rw [loop_eq] at h
  cases hq : submitAll (fun s x => s.add cenv o (meas x)) (CarCal.init cenv e) (callsFrom env use (St.init env) ms) with
  | throw x s1 => rw [hq] at h; simp [Res.bind] at h
  | ub => rw [hq] at h; simp [Res.bind] at h
  | diverge => rw [hq] at h; simp [Res.bind] at h
  | ok u s1 =>
    rw [hq] at h
    refine ⟨actLines (actsFrom env use (St.init env) ms), callsFrom env use (St.init env) ms, s1, (calls_spec env use ms).1, ?_, h, ?_⟩
    · have := actsFrom_record env use (St.init env) ms
      rwa [actsFrom_calls] at this
    · rw [loopIO_eq, (exec_calls _ [] _ _).1 s1 (by rw [actsFrom_calls]; exact hq)]
      rfl

/-- **C138** (partial).  If the calibration ends normally, the estimator offers a variance for each of the eighteen labels and the
splines can be written, then the program ends normally and leaves, whatever was in the directory before: eighteen standard
deviations, each the root of the variance at its place, the estimated trajectory, one information gain for each submitted window
and one parameter vector more; the data files record the calls (C135); no other result file is touched.  Missing: that the estimator
offers eighteen variances (`C138_undefined`). -/
theorem C138_results_partial {cenv : CarEnv E G P} {o : CarOpt} {meas : Call → Meas} {env : Env K} {use : Use} {e : E}
    {vars : E → List ℝ} {spl : E → Res (List (Tok A B)) Unit} {ms : List Msg} {s : CarCal E G P} {toks : List (Tok A B)}
    (fs : SimTD.Dir (ResRow G P A B)) (hm : program cenv o meas env use e ms = .ok () s) (hv : 18 ≤ (vars s.est).length)
    (hw : spl s.est = .ok () toks) :
    ∃ w cs fs', programIO cenv o meas env use e vars spl fs ms = .ok () (w, fs', s) ∧ CallsAre env use ms cs ∧ Record ms w cs ∧
      (∃ rows, fs' "deviations.txt" = some rows ∧ rows.length = 18 ∧ ∀ i (hi : i < 18), ∃ l x,
        Odometry.printedLabels[i]? = some l ∧ (vars s.est)[i]? = some x ∧ rows[i]? = some (.dev l (Real.sqrt x))) ∧
      fs' "m_T_v_est.txt" = some (toks.map .tok) ∧ fs' "infoGainHist.txt" = some (s.gains.map .gain) ∧
      fs' "calibHist.txt" = some (s.params.map .par) ∧ s.gains.length = s.sent.length ∧ s.params.length = s.sent.length + 1 ∧
      ∀ name, name ≠ "deviations.txt" → name ≠ "m_T_v_est.txt" → name ≠ "infoGainHist.txt" → name ≠ "calibHist.txt" →
        fs' name = fs name := by
  obtain ⟨w, cs, s1, h1, h2, h3, h4⟩ := program_data hm
  obtain ⟨cs', ops, -, -, h7⟩ := CalibLib.program_runOps hm
  have hal := CarCal.C37_histories_aligned h7
  have h18 : (Odometry.printedLabels.take 18).length = 18 := by decide
  have hd := devRows_of_le (G := G) (P := P) (A := A) (B := B) (labels := Odometry.printedLabels.take 18) (vs := vars s.est)
    (by rw [h18]; exact hv)
  refine ⟨w, cs, (((fs.put "deviations.txt" (((Odometry.printedLabels.take 18).zip (vars s.est)).map fun q => .dev q.1 (Real.sqrt q.2))).put
    "m_T_v_est.txt" (toks.map .tok)).put "infoGainHist.txt" (s.gains.map .gain)).put "calibHist.txt" (s.params.map .par),
    ?_, h1, h2, ⟨((Odometry.printedLabels.take 18).zip (vars s.est)).map fun q => .dev q.1 (Real.sqrt q.2), by simp [SimTD.Dir.put], ?_, ?_⟩, ?_, ?_, ?_, hal.1, hal.2.1, ?_⟩
  · unfold programIO
    rw [h4]
    simp only [h3]
    simp only [carResults, hd, hw]
    rfl
  · rw [List.length_map, List.length_zip, h18]; omega
  · intro i hi
    have hi1 : i < Odometry.printedLabels.length := lt_of_lt_of_le hi (by decide)
    refine ⟨Odometry.printedLabels[i], (vars s.est)[i], List.getElem?_eq_getElem hi1, List.getElem?_eq_getElem (by omega), ?_⟩
    rw [List.getElem?_map, List.getElem?_zip_eq_some (z := (Odometry.printedLabels[i], (vars s.est)[i])).2 ⟨by rw [List.getElem?_take, if_pos hi, List.getElem?_eq_getElem hi1],
      List.getElem?_eq_getElem (by omega)⟩]
    rfl
  · simp [SimTD.Dir.put]
  · simp [SimTD.Dir.put]
  · simp [SimTD.Dir.put]
  · intro name a1 a2 a3 a4
    simp [SimTD.Dir.put, a1, a2, a3, a4]

/-- **C138 (negation).**  The estimator offers one variance for each calibrated dimension, or none if no window was accepted.  With
the calibrated variables of the constructor, which nothing in the program changes, these are less than eighteen: whatever the
recording, a calibration that ends normally is followed by reading beyond the variances. -/
theorem C138_undefined {cenv : CarEnv E G P} {o : CarOpt} {meas : Call → Meas} {env : Env K} {use : Use} {e : E}
    {vars : E → List ℝ} {spl : E → Res (List (Tok A B)) Unit} {ms : List Msg} {s : CarCal E G P}
    (fs : SimTD.Dir (ResRow G P A B)) (hm : program cenv o meas env use e ms = .ok () s) (timeActive : Bool)
    (hv : (vars s.est).length = (Odometry.columns (Odometry.ctorActive timeActive)).length ∨ vars s.est = []) :
    programIO cenv o meas env use e vars spl fs ms = .ub := by
  obtain ⟨w, cs, s1, h1, h2, h3, h4⟩ := program_data hm
  have hlt : (vars s.est).length < (Odometry.printedLabels.take 18).length := by
    rcases hv with hv | hv
    · rw [hv]; cases timeActive <;> decide
    · rw [hv]; decide
  unfold programIO
  rw [h4]
  simp only [h3]
  simp only [carResults, devRows_of_lt hlt]
  rfl

/-- **C138, the calibration throws**: the program ends with the exception, no result file is touched; the data files are those
of C135: what was written when a call threw (`C135_crash_partial`), or, if the last submission throws, a line for each call. -/
theorem C138_crash {cenv : CarEnv E G P} {o : CarOpt} {meas : Call → Meas} {env : Env K} {use : Use} {e : E} {vars : E → List ℝ}
    {spl : E → Res (List (Tok A B)) Unit} {ms : List Msg} {s : CarCal E G P} {x : Exc} (fs : SimTD.Dir (ResRow G P A B))
    (hm : program cenv o meas env use e ms = .throw x s) :
    ∃ w, programIO cenv o meas env use e vars spl fs ms = .throw x (w, fs, s) ∧
      (loopIO (fun s x => s.add cenv o (meas x)) env use (St.init env) [] (CarCal.init cenv e) ms = .throw x (w, s) ∨
        ∃ cs, CallsAre env use ms cs ∧ Record ms w cs) := by
  unfold program at hm
  rw [loop_eq] at hm
  unfold programIO
  rw [loopIO_eq]
  have hx := exec_calls (fun s x => s.add cenv o (meas x)) [] (CarCal.init cenv e) (actsFrom env use (St.init env) ms)
  rw [actsFrom_calls] at hx
  cases hq : submitAll (fun s x => s.add cenv o (meas x)) (CarCal.init cenv e) (callsFrom env use (St.init env) ms) with
  | throw y s1 =>
    rw [hq] at hm
    simp only [Res.bind, Res.throw.injEq] at hm
    obtain ⟨rfl, rfl⟩ := hm
    obtain ⟨a, -, -, -, -, -, -, h⟩ := hx.2.1 _ _ hq
    exact ⟨[] ++ actLines a, by rw [h], .inl h⟩
  | ub => rw [hq] at hm; simp [Res.bind] at hm
  | diverge => rw [hq] at hm; simp [Res.bind] at hm
  | ok u s1 =>
    rw [hq] at hm
    simp only [Res.bind] at hm
    refine ⟨[] ++ actLines (actsFrom env use (St.init env) ms), ?_, .inr ⟨_, (calls_spec env use ms).1, ?_⟩⟩
    · rw [hx.1 _ hq]
      simp only [hm]
    · have := actsFrom_record env use (St.init env) ms
      rwa [actsFrom_calls] at this

/-! ### The hypotheses are met -/

/-- a run with two windows that returns, with eighteen variances and with none. -/
example : ∃ s, program CalibLib.exCar CarCal.demoOpt CalibLib.exMeas plain ⟨false, false, false, false⟩
      ((CalibLib.exEnv CarBatch).start (-1) 1 CalibLib.exOpts CalibLib.exHeap) CalibLib.exBag = .ok () s ∧ s.sent.length = 2 ∧
    programIO (A := Unit) (B := Unit) CalibLib.exCar CarCal.demoOpt CalibLib.exMeas plain ⟨false, false, false, false⟩
      ((CalibLib.exEnv CarBatch).start (-1) 1 CalibLib.exOpts CalibLib.exHeap) (fun _ => []) (fun _ => .ok () []) (fun _ => none)
      CalibLib.exBag = .ub ∧
    ∃ r, programIO (A := Unit) (B := Unit) CalibLib.exCar CarCal.demoOpt CalibLib.exMeas plain ⟨false, false, false, false⟩
      ((CalibLib.exEnv CarBatch).start (-1) 1 CalibLib.exOpts CalibLib.exHeap) (fun _ => List.replicate 18 4) (fun _ => .ok () [])
      (fun _ => none) CalibLib.exBag = .ok () r := by
  obtain ⟨s, h1, -, -, h2, -⟩ := CalibLib.C125_car_witness
  refine ⟨s, h1, h2, C138_undefined _ h1 true (.inr rfl), ?_⟩
  obtain ⟨w, cs, fs', h, -⟩ := C138_results_partial (A := Unit) (B := Unit) (vars := fun _ => List.replicate 18 4)
    (spl := fun _ => .ok () []) (fun _ => none) h1 (by simp) rfl
  exact ⟨_, h⟩

/-- a run that throws. -/
example : ∃ x s, program CarCal.throwEnv CarCal.demoOpt CalibLib.exMeas plain ⟨false, false, false, false⟩ 0 CalibLib.exBag = .throw x s := by
  have hops : (callsFrom plain ⟨false, false, false, false⟩ (St.init plain) CalibLib.exBag).map
      (fun x => CarCal.Op.add (CalibLib.exMeas x)) =
      (([0, 9, 11, 19, 21].flatMap fun t => [CarCal.demoPose t, (⟨.vel, t * 1000000000, 0, 0, 0⟩ : Meas)]).map CarCal.Op.add) := by
    rw [← CalibLib.exBag_calls, List.map_map]; rfl
  unfold program
  rw [loop_eq, CalibLib.submitAll_runOps, hops]
  obtain ⟨s, h1, -⟩ := CarCal.throwTest_spec (r := (CarCal.runOps CarCal.throwEnv CarCal.demoOpt
      (CarCal.init CarCal.throwEnv 0)
      (([0, 9, 11, 19, 21].flatMap fun t => [CarCal.demoPose t, (⟨.vel, t * 1000000000, 0, 0, 0⟩ : Meas)]).map CarCal.Op.add)).bind
        fun _ s => finish CarCal.throwEnv CarCal.demoOpt s) (x := .invalidOperation) (p := fun _ => true)
    (by decide +kernel)
  exact ⟨_, s, h1⟩

end CarMain
end Verif
