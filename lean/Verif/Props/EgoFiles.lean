import Verif.Lemmas.EgoFiles
import Verif.Props.SimEgoTraj
import Verif.Props.Programs

/-!
# C137: the files of the egomotion simulation program
-/

namespace Verif
namespace SimEgo
variable {T E G P V A B L : Type} [Group T]

/-- the files of the simulation are complete: the trajectory, and for each sensor one line per step without and one with noise. -/
structure DataComplete (env : Env T) (p : Params T) (n : ℕ) (S : ℤ → T) (toks : List (Tok A B)) (fs : SimTD.Dir (Row T G L A B)) :
    Prop where
  trajectory : fs "w_T_v.txt" = some (toks.map .tok)
  clean : 0 < n → ∀ k ∈ p.sensors,
    fs ("motionData_" ++ toString k ++ ".txt") = some ((List.range n).map fun j => .motion (reading env p S k j).motion)
  noisy : 0 < n → ∀ k ∈ p.sensors,
    fs ("motionDataNoisy_" ++ toString k ++ ".txt") = some ((List.range n).map fun j => .motion (noisyReading env p S k j).motion)

/-- `name` is none of the names of the files of the simulation. -/
def NotData (p : Params T) (name : String) : Prop :=
  name ≠ "w_T_v.txt" ∧ ∀ k ∈ p.sensors, name ≠ "motionData_" ++ toString k ++ ".txt" ∧ name ≠ "motionDataNoisy_" ++ toString k ++ ".txt"

/-- the files of the simulation, SM 49-77. -/
def dataDir (d : Data T) (keys : List ℕ) (toks : List (Tok A B)) (fs : SimTD.Dir (Row T G L A B)) : SimTD.Dir (Row T G L A B) :=
  motionFiles "motionDataNoisy_" d.noisy keys (motionFiles "motionData_" d.clean keys (fs.put "w_T_v.txt" (toks.map .tok)))

theorem bar1 : ("motionData_" : String).toList = "motionData".toList ++ ['_'] := by decide
theorem bar2 : ("motionDataNoisy_" : String).toList = "motionDataNoisy".toList ++ ['_'] := by decide
theorem bar3 : ("calibHist_" : String).toList = "calibHist".toList ++ ['_'] := by decide

theorem dataDir_complete {env : Env T} {p : Params T} {n : ℕ} {S : ℤ → T} {d : Data T} {keys : List ℕ}
    (hk : ∀ k, k ∈ keys ↔ k ∈ p.sensors)
    (hc : ∀ k, d.clean k = if k ∈ p.sensors then (List.range n).map (reading env p S k) else [])
    (hn : ∀ k, d.noisy k = if k ∈ p.sensors then (List.range n).map (noisyReading env p S k) else [])
    (toks : List (Tok A B)) (fs : SimTD.Dir (Row T G L A B)) :
    DataComplete env p n S toks (dataDir d keys toks fs) ∧ ∀ name, NotData p name → dataDir d keys toks fs name = fs name := by
  have hne : ∀ i j, keyed "motionData_" i ≠ keyed "motionDataNoisy_" j := fun i j e =>
    absurd (keyed_inj bar1 bar2 e).1 (by decide)
  refine ⟨⟨?_, ?_, ?_⟩, ?_⟩
  · unfold dataDir
    rw [motionFiles_other, motionFiles_other]
    · simp [SimTD.Dir.put]
    · exact fun k _ _ => (keyed_ne (c := 'm') (d := 'w') (by decide) (by decide) (by decide)).symm
    · exact fun k _ _ => (keyed_ne (c := 'm') (d := 'w') (by decide) (by decide) (by decide)).symm
  · intro hpos k hks
    have hd : d.clean k = (List.range n).map (reading env p S k) := by rw [hc, if_pos hks]
    show dataDir d keys toks fs (keyed "motionData_" k) = _
    unfold dataDir
    rw [motionFiles_other _ _ _ _ _ fun j _ _ => hne k j,
      motionFiles_get _ _ bar1 _ _ _ k ((hk k).2 hks) (by rw [hd]; simp; omega), hd, List.map_map]
    rfl
  · intro hpos k hks
    have hd : d.noisy k = (List.range n).map (noisyReading env p S k) := by rw [hn, if_pos hks]
    show dataDir d keys toks fs (keyed "motionDataNoisy_" k) = _
    unfold dataDir
    rw [motionFiles_get _ _ bar2 _ _ _ k ((hk k).2 hks) (by rw [hd]; simp; omega), hd, List.map_map]
    rfl
  · intro name ⟨h1, h2⟩
    unfold dataDir
    rw [motionFiles_other _ _ _ _ _ fun j hj _ => (h2 j ((hk j).1 hj)).2,
      motionFiles_other _ _ _ _ _ fun j hj _ => (h2 j ((hk j).1 hj)).1]
    simp [SimTD.Dir.put, h1]

/-- the program with its files, in terms of the program without. -/
theorem mainIO_eq {env : Env T} {p : Params T} {d : Data T} (hs : simulate env p .empty = .ok () d) (cenv : Ego.Env T E G P V)
    (o : Ego.Opt) (keys : List ℕ) (noisy : Bool) (view : P → ℕ → L) (calKeys : List ℕ) (toks : List (Tok A B))
    (spl : E → Res (List (Tok A B)) Unit) (e : Ego.St T E) (fs : SimTD.Dir (Row T G L A B)) :
    mainIO env p cenv o keys noisy view calKeys (.ok () toks) spl e fs =
      match main env p cenv o keys noisy e with
      | .ok _ s => results view calKeys spl (dataDir d keys toks fs) s
      | .throw x s => .throw x (dataDir d keys toks fs, s)
      | .ub => .ub
      | .diverge => .diverge := by
  unfold mainIO main
  simp only [hs]
  unfold dataDir
  generalize (if noisy = true then d.noisy else d.clean) = data
  by_cases hd : (data o.ref).isEmpty = true
  · simp only [hd, if_true]
  · simp only [hd]
    cases feed cenv o data ((List.range (data o.ref).length).flatMap fun i => keys.map fun k => (i, k))
      (Win.init (Ego.cfg cenv o) e) with
    | ok u s =>
      simp only [Res.bind]
      by_cases hu : Ego.unprocessed cenv s = true
      · simp only [hu, if_true]
        cases s.addMeasurements (Ego.cfg cenv o) <;> simp
      · simp [hu]
    | throw x s => simp [Res.bind]
    | ub => simp [Res.bind]
    | diverge => simp [Res.bind]

/-- one parameter vector more than gains, as many gains as windows. -/
theorem main_lengths {env : Env T} {p : Params T} {cenv : Ego.Env T E G P V} {o : Ego.Opt} {keys : List ℕ} {noisy : Bool}
    {e : Ego.St T E} {s : Ego.Cal T E G P} (hgood : Good env p) (hk : ∀ k, k ∈ keys ↔ k ∈ p.sensors) (href : o.ref = p.ref)
    (h : main env p cenv o keys noisy e = .ok () s) :
    s.gains.length = s.sent.length ∧ s.params.length = s.sent.length + 1 := by
  obtain ⟨n, poses, seg, S, d, k1, k4, hsim, hcl, hno⟩ := simulate_new env p hgood
  rw [main_eq hk href hsim n (fun k => if noisy then noisyReading env p S k else reading env p S k)
    (by
      intro k
      cases noisy
      · exact hcl k
      · exact hno k)] at h
  split at h
  · obtain ⟨ops, h7, h8⟩ := CalibLib.win_end h
    have := Win.histories_aligned h8
    exact ⟨this.1, this.2.1⟩
  · cases h

/-- **C137, normal end.**  With parameters that can be simulated: if the calibration returns and the splines can be written, the
program leaves the trajectory, the noise-free and the noisy motions of each sensor, one line per step, the estimated trajectory,
one information gain for each submitted window, and for each sensor that is calibrated one parameter vector more; all other files
are untouched. -/
theorem C137_files {env : Env T} {p : Params T} {cenv : Ego.Env T E G P V} {o : Ego.Opt} {keys : List ℕ} {noisy : Bool}
    {view : P → ℕ → L} {calKeys : List ℕ} {traj est : List (Tok A B)} {spl : E → Res (List (Tok A B)) Unit} {e : Ego.St T E}
    {s : Ego.Cal T E G P} (fs : SimTD.Dir (Row T G L A B)) (hgood : Good env p) (hk : ∀ k, k ∈ keys ↔ k ∈ p.sensors)
    (href : o.ref = p.ref) (hm : main env p cenv o keys noisy e = .ok () s) (hw : spl s.est.inner = .ok () est) :
    ∃ n poses seg S fs', mainIO env p cenv o keys noisy view calKeys (.ok () traj) spl e fs = .ok () (fs', s) ∧
      p.Steps n ∧ env.fit poses seg = some S ∧ DataComplete env p n S traj fs' ∧
      fs' "w_T_v_est.txt" = some (est.map .tok) ∧ fs' "infoGainHist.txt" = some (s.gains.map .gain) ∧
      (∀ k ∈ calKeys, fs' ("calibHist_" ++ toString k ++ ".txt") = some (s.params.map fun p => .par (view p k))) ∧
      s.gains.length = s.sent.length ∧ s.params.length = s.sent.length + 1 ∧
      ∀ name, NotData p name → name ≠ "w_T_v_est.txt" → name ≠ "infoGainHist.txt" →
        (∀ k ∈ calKeys, name ≠ "calibHist_" ++ toString k ++ ".txt") → fs' name = fs name := by
  obtain ⟨n, poses, seg, S, d, k1, k4, hsim, hcl, hno⟩ := simulate_new env p hgood
  obtain ⟨hd, hr⟩ := dataDir_complete (G := G) (L := L) hk hcl hno traj fs
  obtain ⟨hg, hp⟩ := main_lengths hgood hk href hm
  have hnot : ∀ (name : String) (c : Char), name.toList.head? = some c → c ≠ 'c' → ∀ k ∈ calKeys, name ≠ keyed "calibHist_" k :=
    fun name c h1 h2 k _ => (keyed_ne (c := 'c') (d := c) (by decide) h1 (Ne.symm h2)).symm
  have hcal : ∀ (pre : String) (a' : List Char) (i : ℕ), pre.toList = a' ++ ['_'] → pre ≠ "calibHist_" →
      ∀ k ∈ calKeys, keyed pre i ≠ keyed "calibHist_" k := fun pre a' i h1 h2 k _ e => h2 (keyed_inj h1 bar3 e).1
  refine ⟨n, poses, seg, S, calibFiles view s.params calKeys (((dataDir d keys traj fs).put "w_T_v_est.txt" (est.map .tok)).put
    "infoGainHist.txt" (s.gains.map .gain)), ?_, k1, k4, ⟨?_, ?_, ?_⟩, ?_, ?_, ?_, hg, hp, ?_⟩
  · rw [mainIO_eq hsim, hm]
    simp only [results, hw]
  · rw [calibFiles_other _ _ _ _ _ (hnot _ 'w' (by decide) (by decide))]
    simpa [SimTD.Dir.put] using hd.trajectory
  · intro hpos k hks
    have h1 := hd.clean hpos k hks
    show calibFiles view s.params calKeys _ (keyed "motionData_" k) = _
    rw [calibFiles_other _ _ _ _ _ (hcal _ _ k bar1 (by decide))]
    have e1 : keyed "motionData_" k ≠ "w_T_v_est.txt" := keyed_ne (c := 'm') (d := 'w') (by decide) (by decide) (by decide)
    have e2 : keyed "motionData_" k ≠ "infoGainHist.txt" := keyed_ne (c := 'm') (d := 'i') (by decide) (by decide) (by decide)
    simp only [SimTD.Dir.put, e1, e2, if_false]
    exact h1
  · intro hpos k hks
    have h1 := hd.noisy hpos k hks
    show calibFiles view s.params calKeys _ (keyed "motionDataNoisy_" k) = _
    rw [calibFiles_other _ _ _ _ _ (hcal _ _ k bar2 (by decide))]
    have e1 : keyed "motionDataNoisy_" k ≠ "w_T_v_est.txt" := keyed_ne (c := 'm') (d := 'w') (by decide) (by decide) (by decide)
    have e2 : keyed "motionDataNoisy_" k ≠ "infoGainHist.txt" := keyed_ne (c := 'm') (d := 'i') (by decide) (by decide) (by decide)
    simp only [SimTD.Dir.put, e1, e2, if_false]
    exact h1
  · rw [calibFiles_other _ _ _ _ _ (hnot _ 'w' (by decide) (by decide))]
    simp [SimTD.Dir.put]
  · rw [calibFiles_other _ _ _ _ _ (hnot _ 'i' (by decide) (by decide))]
    simp [SimTD.Dir.put]
  · intro k hkc
    exact calibFiles_get view s.params calKeys _ k hkc
  · intro name h1 h2 h3 h4
    rw [calibFiles_other _ _ _ _ _ h4]
    simp [SimTD.Dir.put, h2, h3, hr name h1]

/-- **C137, the calibration throws** (partial).  The program ends with the exception; the files of the simulation are complete all
the same (those of the motions if there was a step at all); all other files are what they were before the program was started.
Missing: that the result files, and those of sensors that are not simulated, do not belong to another run (`C137_foreign`). -/
theorem C137_crash_partial {env : Env T} {p : Params T} {cenv : Ego.Env T E G P V} {o : Ego.Opt} {keys : List ℕ} {noisy : Bool}
    {view : P → ℕ → L} {calKeys : List ℕ} {traj : List (Tok A B)} {spl : E → Res (List (Tok A B)) Unit} {e : Ego.St T E}
    {s : Ego.Cal T E G P} {x : Exc} (fs : SimTD.Dir (Row T G L A B)) (hgood : Good env p) (hk : ∀ k, k ∈ keys ↔ k ∈ p.sensors)
    (hm : main env p cenv o keys noisy e = .throw x s) :
    ∃ n poses seg S fs', mainIO env p cenv o keys noisy view calKeys (.ok () traj) spl e fs = .throw x (fs', s) ∧
      p.Steps n ∧ env.fit poses seg = some S ∧ DataComplete env p n S traj fs' ∧ ∀ name, NotData p name → fs' name = fs name := by
  obtain ⟨n, poses, seg, S, d, k1, k4, hsim, hcl, hno⟩ := simulate_new env p hgood
  obtain ⟨hd, hr⟩ := dataDir_complete (G := G) (L := L) hk hcl hno traj fs
  refine ⟨n, poses, seg, S, dataDir d keys traj fs, ?_, k1, k4, hd, hr⟩
  rw [mainIO_eq hsim, hm]

/-- **C137, the simulated trajectory cannot be written**: the program ends there; only the file of the trajectory was touched. -/
theorem C137_trajectory_fails {env : Env T} {p : Params T} {cenv : Ego.Env T E G P V} {o : Ego.Opt} {keys : List ℕ} {noisy : Bool}
    {view : P → ℕ → L} {calKeys : List ℕ} {traj : List (Tok A B)} {spl : E → Res (List (Tok A B)) Unit} {e : Ego.St T E}
    {x : Exc} (fs : SimTD.Dir (Row T G L A B)) (hgood : Good env p) :
    ∃ fs', mainIO env p cenv o keys noisy view calKeys (.throw x traj) spl e fs = .throw x (fs', Win.init (Ego.cfg cenv o) e) ∧
      fs' "w_T_v.txt" = some (traj.map .tok) ∧ ∀ name, name ≠ "w_T_v.txt" → fs' name = fs name := by
  obtain ⟨n, poses, seg, S, d, k1, k4, hsim, hcl, hno⟩ := simulate_new env p hgood
  refine ⟨fs.put "w_T_v.txt" (traj.map .tok), ?_, by simp [SimTD.Dir.put], fun name h => by simp [SimTD.Dir.put, h]⟩
  unfold mainIO
  simp only [hsim]

/-- **C137, the estimated trajectory cannot be written**: the files of the simulation are complete, that of the estimated
trajectory holds what was written so far, and the histories are not written. -/
theorem C137_estimate_fails {env : Env T} {p : Params T} {cenv : Ego.Env T E G P V} {o : Ego.Opt} {keys : List ℕ} {noisy : Bool}
    {view : P → ℕ → L} {calKeys : List ℕ} {traj est : List (Tok A B)} {spl : E → Res (List (Tok A B)) Unit} {e : Ego.St T E}
    {s : Ego.Cal T E G P} {x : Exc} (fs : SimTD.Dir (Row T G L A B)) (hgood : Good env p) (hk : ∀ k, k ∈ keys ↔ k ∈ p.sensors)
    (hm : main env p cenv o keys noisy e = .ok () s) (hw : spl s.est.inner = .throw x est) :
    ∃ n poses seg S fs', mainIO env p cenv o keys noisy view calKeys (.ok () traj) spl e fs = .throw x (fs', s) ∧
      p.Steps n ∧ env.fit poses seg = some S ∧ DataComplete env p n S traj fs' ∧ fs' "w_T_v_est.txt" = some (est.map .tok) ∧
      ∀ name, NotData p name → name ≠ "w_T_v_est.txt" → fs' name = fs name := by
  obtain ⟨n, poses, seg, S, d, k1, k4, hsim, hcl, hno⟩ := simulate_new env p hgood
  obtain ⟨hd, hr⟩ := dataDir_complete (G := G) (L := L) hk hcl hno traj fs
  refine ⟨n, poses, seg, S, (dataDir d keys traj fs).put "w_T_v_est.txt" (est.map .tok), ?_, k1, k4, ⟨?_, ?_, ?_⟩, ?_, ?_⟩
  · rw [mainIO_eq hsim, hm]
    simp only [results, hw]
  · simpa [SimTD.Dir.put] using hd.trajectory
  · intro hpos k hks
    have e1 : keyed "motionData_" k ≠ "w_T_v_est.txt" := keyed_ne (c := 'm') (d := 'w') (by decide) (by decide) (by decide)
    have h1 := hd.clean hpos k hks
    show SimTD.Dir.put _ _ _ (keyed "motionData_" k) = _
    simp only [SimTD.Dir.put, e1, if_false]
    exact h1
  · intro hpos k hks
    have e1 : keyed "motionDataNoisy_" k ≠ "w_T_v_est.txt" := keyed_ne (c := 'm') (d := 'w') (by decide) (by decide) (by decide)
    have h1 := hd.noisy hpos k hks
    show SimTD.Dir.put _ _ _ (keyed "motionDataNoisy_" k) = _
    simp only [SimTD.Dir.put, e1, if_false]
    exact h1
  · simp [SimTD.Dir.put]
  · intro name h1 h2
    simp [SimTD.Dir.put, h2, hr name h1]

/-- the run of the example that returns. -/
theorem demo_returns : ∃ s, main demoEnv (demo .combined) Ego.orderEnv Ego.demoOpt [1, 0] true ⟨0, 1⟩ = .ok () s := by
  obtain ⟨s, w, g, h, -⟩ := C91_one_window (keys := [1, 0]) (noisy := true) (e := ⟨0, 1⟩) (demo_good .combined) Ego.orderEnv_ok (by simp)
    (by simp [demo, or_comm]) (o := Ego.demoOpt) rfl (by simp [demo])
    (by norm_num [demo]) demo_window demo_known (fun _ _ _ => rfl) demo_segs (fun b => ⟨_, _, rfl⟩)
  exact ⟨s, h⟩

/-- **C137, negation**: files of another run, even after a normal end.  In a directory with the motions of a sensor that an earlier
configuration had, the program returns and the file of that sensor is still there, as if it had been simulated. -/
theorem C137_foreign :
    ∃ (fs fs' : SimTD.Dir (Row (Multiplicative ℤ) ℕ ℕ Unit Unit)) (s : Ego.Cal (Multiplicative ℤ) ℕ ℕ ℕ),
      mainIO demoEnv (demo .combined) Ego.orderEnv Ego.demoOpt [1, 0] true (fun p _ => p) [1] (.ok () []) (fun _ => .ok () []) ⟨0, 1⟩ fs
        = .ok () (fs', s) ∧ 7 ∉ (demo .combined).sensors ∧ fs' "motionData_7.txt" = some [.motion 1] := by
  obtain ⟨s, hm⟩ := demo_returns
  obtain ⟨-, -, -, -, fs', h1, -, -, -, -, -, -, -, -, h2⟩ := C137_files (view := fun p _ => p) (calKeys := [1]) (traj := ([] : List (Tok Unit Unit)))
    (est := []) (spl := fun _ => .ok () []) (fun _ => some [.motion 1]) (demo_good .combined) (by simp [demo, or_comm]) rfl hm rfl
  refine ⟨_, fs', s, h1, by simp [demo], h2 _ ⟨by decide, ?_⟩ (by decide) (by decide) ?_⟩
  · intro k hk
    simp only [demo, List.mem_cons, List.not_mem_nil, or_false] at hk
    rcases hk with rfl | rfl <;> exact ⟨by decide, by decide⟩
  · intro k hk
    simp only [List.mem_cons, List.not_mem_nil, or_false] at hk
    subst hk
    decide

/-! ### The hypotheses are met -/

/-- a run that returns (`C137_files`, `C137_estimate_fails`). -/
example : ∃ s, Good demoEnv (demo .combined) ∧ (∀ k, k ∈ [1, 0] ↔ k ∈ (demo .combined).sensors) ∧ Ego.demoOpt.ref = (demo .combined).ref ∧
    main demoEnv (demo .combined) Ego.orderEnv Ego.demoOpt [1, 0] true ⟨0, 1⟩ = .ok () s := by
  obtain ⟨s, h⟩ := demo_returns
  exact ⟨s, demo_good _, by simp [demo, or_comm], rfl, h⟩

/-- a run that throws (`C137_crash_partial`): the noise parameters of the reference sensor are missing. -/
example : ∃ p : Params (Multiplicative ℤ), Good demoEnv p ∧ main demoEnv p Ego.orderEnv { Ego.demoOpt with ref := p.ref } [1, 0] true ⟨0, 1⟩ =
    .throw .stdOutOfRange (Win.init (Ego.cfg Ego.orderEnv { Ego.demoOpt with ref := p.ref }) ⟨0, 1⟩) := by
  obtain ⟨a, b, c, _, d, e, f, _, g⟩ := demo_good .straight
  have hg : Good demoEnv ({ demo .straight with dur := 1 / 2 } : Params (Multiplicative ℤ)) := by
    refine ⟨a, b, c, by norm_num, d, e, f, ?_, g⟩
    intro n hn
    have h0 : n = 0 := by
      by_contra hne
      have := (hn 1 le_rfl).mpr (by omega)
      norm_num [demo] at this
    rw [h0]
    norm_num [FitsInt32]
  exact ⟨_, hg, C91_nothing_to_calibrate hg rfl (.inl (by norm_num [demo]))⟩

end SimEgo
end Verif
