import Verif.Model.SimFiles
import Verif.Props.TDMain
import Verif.Props.Programs

/-!
# C136: the files of the time delay simulation program
-/

namespace Verif
namespace SimTD
variable {E G P V A B : Type}

/-- the names of the files of the simulated data. -/
def dataNames : List String :=
  ["w_T_v.txt", "w_v_wwl.txt", "w_v_wwr.txt", "rwData.txt", "lwData.txt", "poseData.txt", "rwData_n.txt", "lwData_n.txt",
    "poseData_n.txt"]

/-- the names of the files of the calibration. -/
def resultNames : List String := ["w_T_v_est.txt", "infoGainHist.txt", "calibHist.txt"]

/-- the files of the simulated data are complete: `n` lines for the velocities of the wheels and for the measurements without
and with noise, one more for the trajectory, the `i`-th line for the `i`-th step. -/
structure DataComplete (env : Env) (p : Params) (n : ℕ) (Q : ℕ → Pose) (fs : Dir (Row G P A B)) : Prop where
  trajectory : fs "w_T_v.txt" = some ((List.range (n + 1)).map fun j => .pose (Q j))
  left : fs "w_v_wwl.txt" = some ((List.range n).map fun j => .vec ⟨stepSpeed p (j + 1) - stepTurn p (j + 1) * p.b, 0, 0⟩)
  right : fs "w_v_wwr.txt" = some ((List.range n).map fun j => .vec ⟨stepSpeed p (j + 1) + stepTurn p (j + 1) * p.b, 0, 0⟩)
  rw : fs "rwData.txt" = some ((List.range n).map fun j => .num (p.k_r * (stepSpeed p (j + 1) + stepTurn p (j + 1) * p.b)))
  lw : fs "lwData.txt" = some ((List.range n).map fun j => .num (p.k_l * (stepSpeed p (j + 1) - stepTurn p (j + 1) * p.b)))
  pose : fs "poseData.txt" = some ((List.range n).map fun j =>
    .meas ⟨Vec3.add (Q (j + 1)).r ((Q (j + 1)).q.rotate p.v_T_p.r), env.euler (Q (j + 1)).q p.v_T_p.q⟩)
  rw_n : fs "rwData_n.txt" = some ((List.range n).map fun j =>
    .num (p.k_r * (stepSpeed p (j + 1) + stepTurn p (j + 1) * p.b + env.noiseR j)))
  lw_n : fs "lwData_n.txt" = some ((List.range n).map fun j =>
    .num (p.k_l * (stepSpeed p (j + 1) - stepTurn p (j + 1) * p.b + env.noiseL j)))
  pose_n : fs "poseData_n.txt" = some ((List.range n).map fun j =>
    .meas ⟨Vec3.add (Vec3.add (Q (j + 1)).r ((Q (j + 1)).q.rotate p.v_T_p.r)) (env.noisePos j),
      Vec3.add (env.euler (Q (j + 1)).q p.v_T_p.q) (env.noiseRot j)⟩)

theorem dataFiles_other (d : Data) (fs : Dir (Row G P A B)) {name : String} (h : name ∉ dataNames) : dataFiles d fs name = fs name := by
  simp only [dataNames, List.mem_cons, List.not_mem_nil, or_false, not_or] at h
  simp [dataFiles, Dir.put, h]

theorem data_complete (env : Env) (p : Params) (hv : p.Valid) (hd : 0 < p.dt) :
    ∃ n Q d, p.Steps n ∧ Q 0 = p.w_T_v_0 ∧ simulate env p .empty = .ok () d ∧
      ∀ fs : Dir (Row G P A B), DataComplete env p n Q (dataFiles d fs) := by
  obtain ⟨n, Q, hn, hq, e⟩ := C86_simulated_data env p hv hd .empty
  refine ⟨n, Q, _, hn, hq, e, fun fs => ?_⟩
  constructor <;> simp [dataFiles, Dir.put, Data.empty, Function.comp_def]

/-- the program with its files, in terms of the program without. -/
theorem mainIO_eq {env : Env} {p : Params} {d : Data} (hs : simulate env p .empty = .ok () d) (cenv : TD.Env E G P V) (o : TD.Opt)
    (val : ℝ → ℚ) (spl : E → Res (List (Tok A B)) Unit) (e : E) (fs : Dir (Row G P A B)) :
    mainIO env p cenv o val spl e fs =
      match main env p cenv o val e with
      | .ok _ s => results spl (dataFiles d fs) s
      | .throw x s => .throw x (dataFiles d fs, s)
      | .ub => .ub
      | .diverge => .diverge := by
  unfold mainIO main
  simp only [hs]
  cases feed cenv o val d (List.range d.rwData_n.length) (Win.init (TD.cfg cenv o) e) with
  | ok u s =>
    simp only [Res.bind]
    split
    · cases s.addMeasurements (TD.cfg cenv o) <;> rfl
    · rfl
  | throw x s => rfl
  | ub => rfl
  | diverge => rfl

/-- **C136, normal end.**  With parameters that can be simulated: if the calibration returns and the splines can be written, the
program leaves exactly twelve files, whatever was in the directory before: the data files, complete, the estimated trajectory,
one information gain for each submitted window and one parameter vector more; all other files are untouched. -/
theorem C136_files {env : Env} {p : Params} {cenv : TD.Env E G P V} {o : TD.Opt} {val : ℝ → ℚ}
    {spl : E → Res (List (Tok A B)) Unit} {e : E} {s : TD.Cal E G P} {toks : List (Tok A B)} (fs : Dir (Row G P A B))
    (hv : p.Valid) (hd : 0 < p.dt) (hm : main env p cenv o val e = .ok () s) (hw : spl s.est = .ok () toks) :
    ∃ n Q fs', mainIO env p cenv o val spl e fs = .ok () (fs', s) ∧ p.Steps n ∧ Q 0 = p.w_T_v_0 ∧ DataComplete env p n Q fs' ∧
      fs' "w_T_v_est.txt" = some (toks.map .tok) ∧ fs' "infoGainHist.txt" = some (s.gains.map .gain) ∧
      fs' "calibHist.txt" = some (s.params.map .par) ∧ s.gains.length = s.sent.length ∧ s.params.length = s.sent.length + 1 ∧
      ∀ name, name ∉ dataNames → name ∉ resultNames → fs' name = fs name := by
  obtain ⟨n, Q, d, hn, hq, hsim, hc⟩ := data_complete (G := G) (P := P) (A := A) (B := B) env p hv hd
  obtain ⟨-, -, -, -, -, -, -, -, hg⟩ := C115_end_to_end_partial hv hd hm
  have hpar : s.params.length = s.sent.length + 1 := by
    have hm' := hm
    obtain ⟨n', d', hn', hsim', hr, hl, hpl, -⟩ := simulate_new env p hv hd
    rw [main_eq cenv o val e hsim' hr hl hpl] at hm'
    obtain ⟨ops, -, h8⟩ := CalibLib.win_end hm'
    exact (Win.histories_aligned h8).2.1
  refine ⟨n, Q, (((dataFiles d fs).put "w_T_v_est.txt" (toks.map .tok)).put "infoGainHist.txt" (s.gains.map .gain)).put
    "calibHist.txt" (s.params.map .par), ?_, hn, hq, ?_, ?_, ?_, ?_, hg, hpar, ?_⟩
  · rw [mainIO_eq hsim, hm]
    simp only [results, hw]
  · have := hc fs
    constructor
    · simpa [Dir.put] using this.trajectory
    · simpa [Dir.put] using this.left
    · simpa [Dir.put] using this.right
    · simpa [Dir.put] using this.rw
    · simpa [Dir.put] using this.lw
    · simpa [Dir.put] using this.pose
    · simpa [Dir.put] using this.rw_n
    · simpa [Dir.put] using this.lw_n
    · simpa [Dir.put] using this.pose_n
  · simp [Dir.put]
  · simp [Dir.put]
  · simp [Dir.put]
  · intro name h1 h2
    simp only [resultNames, List.mem_cons, List.not_mem_nil, or_false, not_or] at h2
    simp [Dir.put, h2, dataFiles_other d fs h1]

/-- **C136, the calibration throws** (partial).  The program ends with the exception; the data files are complete all the same;
the three files of the calibration, and all others, are what they were before the program was started.  Missing: that the result
files do not belong to another run (`C136_stale`). -/
theorem C136_crash_partial {env : Env} {p : Params} {cenv : TD.Env E G P V} {o : TD.Opt} {val : ℝ → ℚ}
    {spl : E → Res (List (Tok A B)) Unit} {e : E} {s : TD.Cal E G P} {x : Exc} (fs : Dir (Row G P A B))
    (hv : p.Valid) (hd : 0 < p.dt) (hm : main env p cenv o val e = .throw x s) :
    ∃ n Q fs', mainIO env p cenv o val spl e fs = .throw x (fs', s) ∧ p.Steps n ∧ Q 0 = p.w_T_v_0 ∧ DataComplete env p n Q fs' ∧
      ∀ name, name ∉ dataNames → fs' name = fs name := by
  obtain ⟨n, Q, d, hn, hq, hsim, hc⟩ := data_complete (G := G) (P := P) (A := A) (B := B) env p hv hd
  refine ⟨n, Q, dataFiles d fs, ?_, hn, hq, hc fs, fun name h => dataFiles_other d fs h⟩
  rw [mainIO_eq hsim, hm]

/-- **C136, writing the splines throws**: the data files are complete, the trajectory file holds what was written up to there, and
the two histories are not written. -/
theorem C136_splines_fail {env : Env} {p : Params} {cenv : TD.Env E G P V} {o : TD.Opt} {val : ℝ → ℚ}
    {spl : E → Res (List (Tok A B)) Unit} {e : E} {s : TD.Cal E G P} {toks : List (Tok A B)} {x : Exc} (fs : Dir (Row G P A B))
    (hv : p.Valid) (hd : 0 < p.dt) (hm : main env p cenv o val e = .ok () s) (hw : spl s.est = .throw x toks) :
    ∃ n Q fs', mainIO env p cenv o val spl e fs = .throw x (fs', s) ∧ p.Steps n ∧ Q 0 = p.w_T_v_0 ∧ DataComplete env p n Q fs' ∧
      fs' "w_T_v_est.txt" = some (toks.map .tok) ∧
      ∀ name, name ∉ dataNames → name ≠ "w_T_v_est.txt" → fs' name = fs name := by
  obtain ⟨n, Q, d, hn, hq, hsim, hc⟩ := data_complete (G := G) (P := P) (A := A) (B := B) env p hv hd
  refine ⟨n, Q, (dataFiles d fs).put "w_T_v_est.txt" (toks.map .tok), ?_, hn, hq, ?_, by simp [Dir.put], fun name h1 h2 => ?_⟩
  · rw [mainIO_eq hsim, hm]
    simp only [results, hw]
  · have := hc fs
    constructor
    · simpa [Dir.put] using this.trajectory
    · simpa [Dir.put] using this.left
    · simpa [Dir.put] using this.right
    · simpa [Dir.put] using this.rw
    · simpa [Dir.put] using this.lw
    · simpa [Dir.put] using this.pose
    · simpa [Dir.put] using this.rw_n
    · simpa [Dir.put] using this.lw_n
    · simpa [Dir.put] using this.pose_n
  · simp [Dir.put, h2, dataFiles_other d fs h1]

/-- **C136, refused parameters**: nothing is written. -/
theorem C136_refused {env : Env} {p : Params} {x : Exc} {d : Data} (cenv : TD.Env E G P V) (o : TD.Opt) (val : ℝ → ℚ)
    (spl : E → Res (List (Tok A B)) Unit) (e : E) (fs : Dir (Row G P A B)) (h : simulate env p .empty = .throw x d) :
    ∃ s, mainIO env p cenv o val spl e fs = .throw x (fs, s) := by
  refine ⟨Win.init (TD.cfg cenv o) e, ?_⟩
  unfold mainIO
  rw [h]

/-- an estimator that refuses the first batch: the program ends with that exception, nothing is estimated. -/
theorem one_window_throws {env : Env} {p : Params} {cenv : TD.Env E G P V} {o : TD.Opt} (val : ℝ → ℚ) (e : E) (x : Exc)
    (hv : p.Valid) (hd : 0 < p.dt) (h2 : 2 * p.dt < p.T)
    (hwin : ∀ n, p.Steps n → ∀ a ∈ [p.t_r, p.t_l, p.dt * 0.5], ∀ b ∈ [p.t_r, p.t_l, p.dt * 0.5], ∀ i < n, ∀ j < n,
      ∀ x : ℤ, x = ((i : ℤ) - j) * env.ns p.dt + (env.ns a - env.ns b) → FitsInt64 x ∧ cenv.sec x < o.window)
    (hseg : ∀ n, p.Steps n → ∀ poses : List TD.Meas,
      poses.map TD.Meas.t = (List.range n).map (fun (i : ℕ) => (i : ℤ) * env.ns p.dt + env.ns (p.dt * 0.5)) →
      ∃ q, TD.numSegments o.knots poses = some q)
    (hadd : ∀ b, ∃ e', cenv.addBatch e b = .throw x e') (hfit : ∀ e l n, cenv.fit e l n = none) :
    ∃ s, main env p cenv o val e = .throw x s ∧ s.gains = [] := by
  obtain ⟨n, d, hn, hsim, hr, hl, hp, g1, g2, g3⟩ := simulate_new env p hv hd
  have hn2 : 2 ≤ n := (hn 2 (by norm_num)).1 (by push_cast; exact h2)
  obtain ⟨s, hrun, hs, he, hg⟩ := collect (cenv := cenv) (o := o) (order (measAt val d) (List.range n)) (by
      intro a ha b hb
      obtain ⟨i, hi, c, hc, ea⟩ := measAt_time g1 g2 g3 ha
      obtain ⟨j, hj, c', hc', eb⟩ := measAt_time g1 g2 g3 hb
      have := hwin n hn c hc c' hc' i hi j hj (a.t - b.t) (by rw [ea, eb]; ring)
      exact ⟨this.1, Or.inl this.2⟩) (order (measAt val d) (List.range n)) (Win.init (TD.cfg cenv o) e) (fun _ h => h) (Or.inl rfl)
      (by simp [Win.init])
  have hs' : s.sent = [] := hs
  have hg' : s.gains = [] := hg
  have he' : s.est = e := he
  have hbuf : ∀ k, s.buf k = simulated val d k := by
    intro k
    have := stream_of hrun k
    rw [hs'] at this
    simp only [List.map_nil, List.flatten_nil, List.nil_append] at this
    rw [this, simulated_eq val d n hr hl hp]
  have hlen : (s.buf .pose).length = n := by rw [hbuf, simulated_eq val d n hr hl hp]; simp
  have hun : TD.unprocessed s = true := (TD.C69_unprocessed s).2 ⟨.pose, fun hc => by rw [hc] at hlen; simp at hlen; omega⟩
  obtain ⟨q, hq⟩ := hseg n hn (s.buf .pose) (by
    rw [hbuf, simulated_eq val d n hr hl hp, List.map_map]
    refine List.map_congr_left fun i hi => ?_
    rw [List.mem_range] at hi
    obtain ⟨x, hx, hx'⟩ := Option.map_eq_some_iff.1 (g3 i hi)
    simp [measAt, hx, poseMeas, hx'])
  have hprep : ∃ b, TD.prepare cenv o e s.buf = .ok b e := by
    unfold TD.prepare TD.initSplines
    rw [hq]
    simp only [hfit]
    exact ⟨_, rfl⟩
  obtain ⟨b, hb⟩ := hprep
  obtain ⟨e', hge⟩ := hadd b
  have hfin : ∃ s', s.addMeasurements (TD.cfg cenv o) = .throw x s' ∧ s'.gains = s.gains := by
    unfold Win.addMeasurements
    rw [if_neg]
    · have h1 : (TD.cfg cenv o).prepare s.est s.buf = .ok b e := by rw [he']; exact hb
      have h2 : (TD.cfg cenv o).addBatch e b = .throw x e' := hge
      rw [h1]
      simp only [h2]
      exact ⟨_, rfl, rfl⟩
    · show ¬ TD.ready s.buf = false
      simp only [TD.ready, Bool.not_eq_false', decide_eq_true_eq]
      omega
  obtain ⟨s', hfin, hg2⟩ := hfin
  refine ⟨s', ?_, by rw [hg2, hg']⟩
  rw [main_eq cenv o val e hsim hr hl hp, hrun]
  simp only [Res.bind, hun, if_true]
  exact hfin

/-- **C136, negation**: results of another run among the files.  In the same directory the program is run twice, the second time
with an estimator that throws: afterwards the directory holds the data of the second run together with an information gain, which
is the first run's: the second has none. -/
theorem C136_stale :
    ∃ (spl : ℕ → Res (List (Tok Unit Unit)) Unit) (fs0 fs1 fs2 : Dir (Row ℕ ℕ Unit Unit)) (s1 s2 : TD.Cal ℕ ℕ ℕ) (g : ℕ) (x : Exc),
      fs0 = (fun _ => none) ∧
      mainIO nsEnv (demo 1) TD.demoEnv TD.demoOpt (fun _ => 1) spl 0 fs0 = .ok () (fs1, s1) ∧
      mainIO nsEnv (demo 1) TD.throwEnv TD.demoOpt (fun _ => 1) spl 0 fs1 = .throw x (fs2, s2) ∧
      s2.gains = [] ∧ fs2 "infoGainHist.txt" = some [.gain g] := by
  obtain ⟨s1, w, g, d, b, hm, -, -, hg, -⟩ := C115_one_window (cenv := TD.demoEnv) (fun _ => 1) 0 (demo_valid 1) (demo_dt 1) (by norm_num [demo])
    demo_window demo_segments (fun _ _ _ => rfl) (fun b => ⟨_, _, rfl⟩)
  obtain ⟨s2, ht, hg2⟩ := one_window_throws (cenv := TD.throwEnv) (fun _ => 1) 0 .invalidOperation (demo_valid 1) (demo_dt 1)
    (by norm_num [demo]) demo_window demo_segments (fun b => ⟨_, rfl⟩) (fun _ _ _ => rfl)
  let spl : ℕ → Res (List (Tok Unit Unit)) Unit := fun _ => .ok () []
  obtain ⟨-, -, fs1, h1, -, -, -, -, hgain, -⟩ := C136_files (spl := spl) (toks := []) (fun _ => none) (demo_valid 1) (demo_dt 1) hm rfl
  obtain ⟨-, -, fs2, h2, -, -, -, hrest⟩ := C136_crash_partial (spl := spl) fs1 (demo_valid 1) (demo_dt 1) ht
  refine ⟨spl, fun _ => none, fs1, fs2, s1, s2, g, .invalidOperation, rfl, h1, h2, hg2, ?_⟩
  rw [hrest "infoGainHist.txt" (by decide), hgain, hg]
  rfl

/-! ### The hypotheses are met -/

/-- a run that returns (`C136_files`, `C136_splines_fail`). -/
example : ∃ s : TD.Cal ℕ ℕ ℕ, (demo 1).Valid ∧ 0 < (demo 1).dt ∧
    main nsEnv (demo 1) TD.demoEnv TD.demoOpt (fun _ => 1) 0 = .ok () s ∧ s.gains ≠ [] := by
  obtain ⟨s1, w, g, d, b, hm, -, -, hg, -⟩ := C115_one_window (cenv := TD.demoEnv) (fun _ => 1) 0 (demo_valid 1) (demo_dt 1) (by norm_num [demo])
    demo_window demo_segments (fun _ _ _ => rfl) (fun b => ⟨_, _, rfl⟩)
  exact ⟨s1, demo_valid 1, demo_dt 1, hm, by simp [hg]⟩

/-- a run that throws (`C136_crash_partial`). -/
example : ∃ s : TD.Cal ℕ ℕ ℕ, (demo 1).Valid ∧ 0 < (demo 1).dt ∧
    main nsEnv (demo 1) TD.throwEnv TD.demoOpt (fun _ => 1) 0 = .throw .invalidOperation s := by
  obtain ⟨s2, ht, -⟩ := one_window_throws (cenv := TD.throwEnv) (fun _ => 1) 0 .invalidOperation (demo_valid 1) (demo_dt 1)
    (by norm_num [demo]) demo_window demo_segments (fun b => ⟨_, rfl⟩) (fun _ _ _ => rfl)
  exact ⟨s2, demo_valid 1, demo_dt 1, ht⟩

/-- refused parameters (`C136_refused`). -/
example : ∃ x d, simulate nsEnv { demo 1 with sigma2_l := 0 } .empty = .throw x d := by
  obtain ⟨d, h, -⟩ := C86_zero_variance nsEnv { demo 1 with sigma2_l := 0 } (by norm_num [demo]) (by norm_num [demo]) .empty
  exact ⟨_, d, h⟩

end SimTD
end Verif
