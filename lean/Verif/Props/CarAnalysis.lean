import Verif.Model.CarAnalysis
import Verif.Props.CarFiles
import Verif.Props.CarMain
import Verif.Lemmas.Angle

/-!
# C140: the result files of the car analysis program
-/

namespace Verif
namespace CarMain
variable {K E G P V A B : Type}

/-- the file of the predictions of a sensor (specification). -/
def predFile : Verif.Sensor → String
  | .pose => "poseDataPred.txt"
  | .vel => "velDataPred.txt"
  | .dmi => "dmiDataPred.txt"
  | .front => "fwDataPred.txt"
  | .rear => "rwDataPred.txt"
  | .steer => "stDataPred.txt"

/-- the file of the prediction errors of a sensor (specification). -/
def errFile : Verif.Sensor → String
  | .pose => "posePredError.txt"
  | .vel => "velPredError.txt"
  | .dmi => "dmiPredError.txt"
  | .front => "fwPredError.txt"
  | .rear => "rwPredError.txt"
  | .steer => "stPredError.txt"

theorem submitAll_run {cenv : CarEnv E G P} {o : CarOpt} {meas : Call → Meas} {e : E} (cs : List Call) :
    ∀ {s s' : CarCal E G P} {acc : List Meas} {gone : List Window}, CarCal.Run cenv o e s acc gone →
      submitAll (fun s x => s.add cenv o (meas x)) s cs = .ok () s' →
      ∃ gone', CarCal.Run cenv o e s' (acc ++ cs.map meas) gone' := by
  induction cs with
  | nil =>
    intro s s' acc gone hr h
    simp only [submitAll, Res.ok.injEq, true_and] at h
    subst h
    exact ⟨gone, by simpa using hr⟩
  | cons x xs ih =>
    intro s s' acc gone hr h
    simp only [submitAll] at h
    cases hq : s.add cenv o (meas x) with
    | ok u s1 =>
      rw [hq] at h
      obtain ⟨g, hg⟩ := ih (CarCal.Run.addOk hr hq) h
      exact ⟨g, by simpa using hg⟩
    | throw y s1 => rw [hq] at h; simp [Res.bind] at h
    | ub => rw [hq] at h; simp [Res.bind] at h
    | diverge => rw [hq] at h; simp [Res.bind] at h

/-- what the lists of predictions hold at the end. -/
theorem analysis_lists {cenv : CarEnv E G P} {eval : CarCal.Eval E V} {o : CarOpt} {e : E}
    {s : CarCal E G P} {acc : List Meas} {gone : List Window} (hr : CarCal.Run cenv o e s acc gone) {p : CarCal.Preds V}
    (h : finishAnalysis cenv eval o s = .ok () p) (k : Verif.Sensor) :
    (p k).vals = (CarCal.predicted cenv o s.est s.buf k).map (fun m =>
        (CarCal.predStamp cenv s.est m, (CarCal.termsFor o m).map fun t => (eval s.est (s.buf .pose) t).1)) ∧
    (p k).errs = (CarCal.predicted cenv o s.est s.buf k).map (fun m =>
        (CarCal.termsFor o m).flatMap fun t => (eval s.est (s.buf .pose) t).2.1) := by
  unfold finishAnalysis at h
  split_ifs at h with hu
  · rw [CarCal.C103_predictions_partial hr h k]
    simp [CarCal.extendBy, CarCal.Preds.empty]
  · simp only [Res.ok.injEq, true_and] at h
    subst h
    have : s.buf k = [] := by
      simp only [CarCal.unprocessed, Bool.or_eq_true, Bool.not_eq_true', not_or, Bool.not_eq_false, List.isEmpty_iff] at hu
      cases k <;> tauto
    simp [CarCal.Preds.empty, CarCal.predicted, this]

/-- **C140** (partial).  If all calls return, the prediction and the writing of the trajectory succeed, then the program ends
normally and leaves, whatever was in the directory before: the estimated trajectory; for each sensor a file with one line for each
admissible measurement still buffered at the end, in order, with the time of the prediction in seconds and the predicted values, and
a file with the prediction errors in the same order; the data files record the calls (C135); no other result file is touched.
Missing: one prediction for each admissible measurement recorded (`C140_missing`), and that the prediction cannot fail
(`C140_no_pose`). -/
theorem C140_files_partial {cenv : CarEnv E G P} {eval : CarCal.Eval E V} {o : CarOpt} {meas : Call → Meas} {env : Env K} {use : Use}
    {e : E} {spl : E → Res (List (Tok A B)) Unit} {ms : List Msg} {s : CarCal E G P} {p : CarCal.Preds V} {toks : List (Tok A B)}
    (fs : SimTD.Dir (AnRow V A B))
    (hl : loop (fun s x => s.add cenv o (meas x)) env use (St.init env) (CarCal.init cenv e) ms = .ok () s)
    (hp : finishAnalysis cenv eval o s = .ok () p) (hw : spl s.est = .ok () toks) :
    ∃ w cs fs', analysisIO cenv eval o meas env use e spl fs ms = .ok () (w, fs', s) ∧ CallsAre env use ms cs ∧ Record ms w cs ∧
      fs' "m_T_v.txt" = some (toks.map .tok) ∧
      (∀ k : Verif.Sensor, fs' (predFile k) = some ((CarCal.predicted cenv o s.est s.buf k).map fun m =>
          .pred ((CarCal.predStamp cenv s.est m : ℚ) / 1000000000)
            ((CarCal.termsFor o m).map fun t => (eval s.est (s.buf .pose) t).1)) ∧
        fs' (errFile k) = some ((CarCal.predicted cenv o s.est s.buf k).map fun m =>
          .err ((CarCal.termsFor o m).flatMap fun t => (eval s.est (s.buf .pose) t).2.1))) ∧
      ∀ name, name ≠ "m_T_v.txt" → (∀ k, name ≠ predFile k ∧ name ≠ errFile k) → fs' name = fs name := by
  have hq := hl
  rw [loop_eq] at hq
  obtain ⟨gone, hr⟩ := submitAll_run (callsFrom env use (St.init env) ms) CarCal.Run.init hq
  have hlists := analysis_lists hr hp
  have hIO : loopIO (fun s x => s.add cenv o (meas x)) env use (St.init env) [] (CarCal.init cenv e) ms =
      .ok () (actLines (actsFrom env use (St.init env) ms), s) := by
    rw [loopIO_eq, (exec_calls _ [] _ _).1 s (by rw [actsFrom_calls]; exact hq)]
    rfl
  have hrec : Record ms (actLines (actsFrom env use (St.init env) ms)) (callsFrom env use (St.init env) ms) := by
    have := actsFrom_record env use (St.init env) ms
    rwa [actsFrom_calls] at this
  have hfile : ∃ fs', analysisFiles spl fs s.est p = .ok () fs' ∧ fs' "m_T_v.txt" = some (toks.map .tok) ∧
      (∀ k : Verif.Sensor, fs' (predFile k) = some (predRows (p k)) ∧ fs' (errFile k) = some (errRows (p k))) ∧
      ∀ name, name ≠ "m_T_v.txt" → (∀ k, name ≠ predFile k ∧ name ≠ errFile k) → fs' name = fs name := by
    unfold analysisFiles
    rw [hw]
    refine ⟨_, rfl, by simp [SimTD.Dir.put], ?_, ?_⟩
    · intro k
      cases k <;> simp [SimTD.Dir.put, predFile, errFile]
    · intro name h1 h2
      have a := h2 .pose
      have b := h2 .vel
      have c := h2 .dmi
      have d := h2 .front
      have f := h2 .rear
      have g := h2 .steer
      simp only [predFile, errFile] at a b c d f g
      simp [SimTD.Dir.put, h1, a, b, c, d, f, g]
  obtain ⟨fs', f1, f2, f3, f4⟩ := hfile
  refine ⟨_, _, fs', ?_, (calls_spec env use ms).1, hrec, f2, ?_, f4⟩
  · unfold analysisIO
    rw [hIO]
    simp only [hp, f1]
    rfl
  · intro k
    rw [(f3 k).1, (f3 k).2, predRows, errRows, (hlists k).1, (hlists k).2]
    simp [Function.comp_def]

/-- **C140, failure**: if a call of the calibrator or the prediction throws, the program ends with this exception and no result file
is touched; if writing the trajectory throws, only the file of the trajectory is.  The data files are those of C135. -/
theorem C140_failure {cenv : CarEnv E G P} {eval : CarCal.Eval E V} {o : CarOpt} {meas : Call → Meas} {env : Env K} {use : Use}
    {e : E} {spl : E → Res (List (Tok A B)) Unit} {ms : List Msg} (fs : SimTD.Dir (AnRow V A B)) (x : Exc) :
    (∀ s, loop (fun s x => s.add cenv o (meas x)) env use (St.init env) (CarCal.init cenv e) ms = .throw x s →
      ∃ w, analysisIO cenv eval o meas env use e spl fs ms = .throw x (w, fs, s) ∧
        loopIO (fun s x => s.add cenv o (meas x)) env use (St.init env) [] (CarCal.init cenv e) ms = .throw x (w, s)) ∧
    (∀ s p, loop (fun s x => s.add cenv o (meas x)) env use (St.init env) (CarCal.init cenv e) ms = .ok () s →
      finishAnalysis cenv eval o s = .throw x p →
      ∃ w cs, analysisIO cenv eval o meas env use e spl fs ms = .throw x (w, fs, s) ∧ CallsAre env use ms cs ∧ Record ms w cs) ∧
    ∀ s p toks, loop (fun s x => s.add cenv o (meas x)) env use (St.init env) (CarCal.init cenv e) ms = .ok () s →
      finishAnalysis cenv eval o s = .ok () p → spl s.est = .throw x toks →
      ∃ w cs fs', analysisIO cenv eval o meas env use e spl fs ms = .throw x (w, fs', s) ∧ CallsAre env use ms cs ∧ Record ms w cs ∧
        fs' "m_T_v.txt" = some (toks.map .tok) ∧ ∀ name, name ≠ "m_T_v.txt" → fs' name = fs name := by
  have hok : ∀ s, loop (fun s x => s.add cenv o (meas x)) env use (St.init env) (CarCal.init cenv e) ms = .ok () s →
      ∃ w cs, CallsAre env use ms cs ∧ Record ms w cs ∧
        loopIO (fun s x => s.add cenv o (meas x)) env use (St.init env) [] (CarCal.init cenv e) ms = .ok () (w, s) := by
    intro s hl
    rw [loop_eq] at hl
    refine ⟨actLines (actsFrom env use (St.init env) ms), callsFrom env use (St.init env) ms, (calls_spec env use ms).1, ?_, ?_⟩
    · have := actsFrom_record env use (St.init env) ms
      rwa [actsFrom_calls] at this
    · rw [loopIO_eq, (exec_calls _ [] _ _).1 s (by rw [actsFrom_calls]; exact hl)]
      rfl
  refine ⟨?_, ?_, ?_⟩
  · intro s hl
    rw [loop_eq] at hl
    have hx := exec_calls (fun s x => s.add cenv o (meas x)) [] (CarCal.init cenv e) (actsFrom env use (St.init env) ms)
    rw [actsFrom_calls] at hx
    obtain ⟨a, -, -, -, -, -, -, h⟩ := hx.2.1 _ _ hl
    refine ⟨[] ++ actLines a, ?_, by rw [loopIO_eq]; exact h⟩
    unfold analysisIO
    rw [loopIO_eq, h]
  · intro s p hl hp
    obtain ⟨w, cs, h1, h2, h3⟩ := hok s hl
    refine ⟨w, cs, ?_, h1, h2⟩
    unfold analysisIO
    rw [h3]
    simp only [hp]
  · intro s p toks hl hp hw
    obtain ⟨w, cs, h1, h2, h3⟩ := hok s hl
    refine ⟨w, cs, fs.put "m_T_v.txt" (toks.map .tok), ?_, h1, h2, by simp [SimTD.Dir.put], ?_⟩
    · unfold analysisIO
      rw [h3]
      simp only [hp, analysisFiles, hw]
      rfl
    · intro name hn
      simp [SimTD.Dir.put, hn]

/-- **C140** (negation): if at the end there are measurements in the buffers but no pose, as at the end of a recording in which the
last window was just submitted, the program's behaviour is undefined. -/
theorem C140_no_pose {cenv : CarEnv E G P} {eval : CarCal.Eval E V} {o : CarOpt} {meas : Call → Meas} {env : Env K} {use : Use}
    {e : E} {spl : E → Res (List (Tok A B)) Unit} {ms : List Msg} {s : CarCal E G P} (fs : SimTD.Dir (AnRow V A B))
    (hl : loop (fun s x => s.add cenv o (meas x)) env use (St.init env) (CarCal.init cenv e) ms = .ok () s)
    (hb : s.buf .pose = []) (k : Verif.Sensor) (hk : s.buf k ≠ []) :
    analysisIO cenv eval o meas env use e spl fs ms = .ub := by
  rw [loop_eq] at hl
  have hu : s.unprocessed = true := by
    simp only [CarCal.unprocessed, Bool.or_eq_true, Bool.not_eq_true', List.isEmpty_eq_false_iff]
    cases k <;> tauto
  have hf : finishAnalysis cenv eval o s = .ub := by
    unfold finishAnalysis CarCal.predict CarCal.numSegments
    rw [if_pos hu, hb]
    rfl
  unfold analysisIO
  rw [loopIO_eq, (exec_calls _ [] _ _).1 s (by rw [actsFrom_calls]; exact hl)]
  simp only [hf]

/-- a call as a measurement: kind and time only, wheel speeds of 400. -/
def analysisMeas : Call → Meas
  | .pose _ t => ⟨.pose, t, 0, 0, 0⟩
  | .vel _ t => ⟨.vel, t, 0, 0, 0⟩
  | .front _ _ t => ⟨.front, t, 400, 400, 0⟩
  | .rear _ _ t => ⟨.rear, t, 400, 400, 0⟩
  | .steer _ t => ⟨.steer, t, 0, 0, 0⟩
  | .dmi _ t => ⟨.dmi, t, 0, 0, 0⟩

theorem roundAway_int (n : ℤ) : ErrorTerms.roundAway (n : ℝ) = n := by
  rw [ErrorTerms.roundAway_eq, Int.floor_eq_iff]
  · constructor <;> norm_num
  · intro k h
    have h2 : ((2 * n : ℤ) : ℝ) = ((2 * k + 1 : ℤ) : ℝ) := by push_cast; linarith
    have := Int.cast_injective h2
    omega

/-- a recording: an accuracy message and four navigation messages at 0, 100, 105 and 108 seconds. -/
noncomputable def analysisMsgs : List Msg :=
  [.vnp demoVnp, .vns (demoVns ((0 : ℤ) : ℝ)), .vns (demoVns ((100000000000 : ℤ) : ℝ)), .vns (demoVns ((105000000000 : ℤ) : ℝ)),
    .vns (demoVns ((108000000000 : ℤ) : ℝ))]

theorem analysis_loop (use : Use) : ∃ s, loop (fun s x => CarCal.add CarCal.demoEnv CarCal.demoOpt s (analysisMeas x)) plain use (St.init plain)
      (CarCal.init CarCal.demoEnv 0) analysisMsgs = .ok () s ∧
    s.buf .pose = [⟨.pose, 105000000000, 0, 0, 0⟩, ⟨.pose, 108000000000, 0, 0, 0⟩] ∧
    (s.buf .vel).map Meas.t = [100000000000, 105000000000, 108000000000] ∧ s.buf .rear = [] ∧
    CarCal.numSegments 5 (s.buf .pose) = some 2 := by
  have hl : loop (fun s x => CarCal.add CarCal.demoEnv CarCal.demoOpt s (analysisMeas x)) plain use (St.init plain)
      (CarCal.init CarCal.demoEnv 0) analysisMsgs = CarCal.runOps CarCal.demoEnv CarCal.demoOpt (CarCal.init CarCal.demoEnv 0)
      [.add ⟨.pose, 0, 0, 0, 0⟩, .add ⟨.vel, 0, 0, 0, 0⟩, .add ⟨.pose, 100000000000, 0, 0, 0⟩, .add ⟨.vel, 100000000000, 0, 0, 0⟩,
        .add ⟨.pose, 105000000000, 0, 0, 0⟩, .add ⟨.vel, 105000000000, 0, 0, 0⟩, .add ⟨.pose, 108000000000, 0, 0, 0⟩,
        .add ⟨.vel, 108000000000, 0, 0, 0⟩] := by
    rw [loop_eq]
    simp only [analysisMsgs, callsFrom, step, St.init, stampWith, plain, demoVns, roundAway_int, List.nil_append, List.cons_append,
      submitAll, analysisMeas, CarCal.runOps]
    rfl
  obtain ⟨s, h1, h2⟩ := CarCal.okTest_spec (r := CarCal.runOps CarCal.demoEnv CarCal.demoOpt (CarCal.init CarCal.demoEnv 0)
      [.add ⟨.pose, 0, 0, 0, 0⟩, .add ⟨.vel, 0, 0, 0, 0⟩, .add ⟨.pose, 100000000000, 0, 0, 0⟩, .add ⟨.vel, 100000000000, 0, 0, 0⟩,
        .add ⟨.pose, 105000000000, 0, 0, 0⟩, .add ⟨.vel, 105000000000, 0, 0, 0⟩, .add ⟨.pose, 108000000000, 0, 0, 0⟩,
        .add ⟨.vel, 108000000000, 0, 0, 0⟩])
    (p := fun s => decide (s.buf .pose = [⟨.pose, 105000000000, 0, 0, 0⟩, ⟨.pose, 108000000000, 0, 0, 0⟩] ∧
      (s.buf .vel).map Meas.t = [100000000000, 105000000000, 108000000000] ∧ s.buf .rear = [] ∧
      CarCal.numSegments 5 (s.buf .pose) = some 2)) (by decide +kernel)
  exact ⟨s, by rw [hl]; exact h1, of_decide_eq_true h2⟩

/-- **C140** (negation), and an instance of `C140_files_partial`: a recording with four poses, all in the data file; the program ends
normally and the file of the pose predictions has two lines, for the poses at 105 s and 108 s. -/
theorem C140_missing : ∃ w fs' s, analysisIO CarCal.demoEnv (fun _ _ _ => ((), [], 0)) CarCal.demoOpt analysisMeas plain
      ⟨true, true, true, true⟩ 0 (fun _ => .ok () []) (fun _ => none : SimTD.Dir (AnRow Unit Unit Unit)) analysisMsgs = .ok () (w, fs', s) ∧
    (w.filter fun l => decide (l.sensor = .pose)).length = 4 ∧
    fs' "poseDataPred.txt" = some [.pred 105 [()], .pred 108 [()]] ∧ fs' "rwDataPred.txt" = some [] := by
  obtain ⟨s, hl, hb1, hb2, hb3, hb4⟩ := analysis_loop ⟨true, true, true, true⟩
  have hne : s.buf .pose ≠ [] := by simp [hb1]
  have hf : ∃ p, finishAnalysis CarCal.demoEnv (fun _ _ _ => ((), [], 0)) CarCal.demoOpt s = .ok () p := by
    unfold finishAnalysis CarCal.predict
    have hk : CarCal.demoOpt.knots = 5 := rfl
    rw [hk, hb4, if_pos]
    · exact ⟨_, rfl⟩
    · simp [CarCal.unprocessed, hne]
  obtain ⟨p, hp⟩ := hf
  obtain ⟨w, cs, fs', h1, h2, h3, h4, h5, h6⟩ := C140_files_partial (spl := fun _ => .ok () []) (toks := [])
    (fun _ => none : SimTD.Dir (AnRow Unit Unit Unit)) hl hp rfl
  refine ⟨w, fs', s, h1, ?_, ?_, ?_⟩
  · have hq := hl
    rw [loop_eq] at hq
    have hIO : loopIO (fun s x => CarCal.add CarCal.demoEnv CarCal.demoOpt s (analysisMeas x)) plain ⟨true, true, true, true⟩ (St.init plain) []
        (CarCal.init CarCal.demoEnv 0) analysisMsgs = .ok () (actLines (actsFrom plain ⟨true, true, true, true⟩ (St.init plain) analysisMsgs), s) := by
      rw [loopIO_eq, (exec_calls _ [] _ _).1 s (by rw [actsFrom_calls]; exact hq)]
      rfl
    have hw : w = actLines (actsFrom plain ⟨true, true, true, true⟩ (St.init plain) analysisMsgs) := by
      unfold analysisIO at h1
      rw [hIO] at h1
      simp only [hp, analysisFiles, Res.mapState, Res.ok.injEq, true_and, Prod.mk.injEq] at h1
      exact h1.1.symm
    rw [hw]
    simp [analysisMsgs, actsFrom, stepIO, actLines, St.init]
  · have := (h5 .pose).1
    simp only [predFile] at this
    rw [this]
    simp [CarCal.predicted, hb1, CarCal.Used, CarCal.allOn, CarCal.predStamp, CarCal.termsFor]
    norm_num
  · have := (h5 .rear).1
    simp only [predFile] at this
    rw [this]
    simp [CarCal.predicted, hb3]

/-- instance of `C140_no_pose`: a recording of one front wheel message. -/
example : analysisIO CarCal.demoEnv (fun _ _ _ => ((), [], 0)) CarCal.demoOpt analysisMeas plain
      ⟨true, true, true, true⟩ 0 (fun _ => .ok () []) (fun _ => none : SimTD.Dir (AnRow Unit Unit Unit))
      [.fws 400 400 0 ((5 : ℤ) : ℝ)] = .ub := by
  have hl : loop (fun s x => CarCal.add CarCal.demoEnv CarCal.demoOpt s (analysisMeas x)) plain ⟨true, true, true, true⟩ (St.init plain)
      (CarCal.init CarCal.demoEnv 0) [.fws 400 400 0 ((5 : ℤ) : ℝ)] = CarCal.runOps CarCal.demoEnv CarCal.demoOpt (CarCal.init CarCal.demoEnv 0)
      [.add ⟨.front, 5, 400, 400, 0⟩] := by
    rw [loop_eq]
    simp only [callsFrom, step, St.init, stampWith, plain, roundAway_int, if_true, List.nil_append, List.cons_append, submitAll,
      analysisMeas, CarCal.runOps]
    rfl
  obtain ⟨s, h1, h2⟩ := CarCal.okTest_spec (r := CarCal.runOps CarCal.demoEnv CarCal.demoOpt (CarCal.init CarCal.demoEnv 0)
      [.add ⟨.front, 5, 400, 400, 0⟩]) (p := fun s => decide (s.buf .pose = [] ∧ s.buf .front ≠ [])) (by decide +kernel)
  have h2 := of_decide_eq_true h2
  exact C140_no_pose _ (hl.trans h1) h2.1 .front h2.2

end CarMain
end Verif
