import Verif.Props.ProperTD
import Verif.Props.SimEgo
import Verif.Props.Programs

/-! Property C126 for the simulation program of the egomotion example and the car calibration program. -/

namespace Verif
open Proper

namespace SimEgo
variable {T E G P V : Type} [Group T]

/-- the times of the measurements of a simulation with `n` steps: the ends, and the beginnings of those of the reference sensor. -/
def stamps (env : Env T) (p : Params T) (n : ℕ) : List Int :=
  (List.range n).flatMap fun j : ℕ => (p.sensors.map fun k => ((j : ℤ) + 1) * env.ns p.dt + p.delay k) ++
    [(j : ℤ) * env.ns p.dt + p.delay p.ref]

/-- **C126**, simulation program of the egomotion example: with proper parameters and simulated times that fit, the program returns or ends
with an exception: of the spline fitter, of the estimator, or `std::out_of_range`.  It runs into no undefined behaviour and does
not run forever. -/
theorem C126_egomotion_program {env : Env T} {p : Params T} {cenv : Ego.Env T E G P V} {o : Ego.Opt} {keys : List ℕ} {X : Exc → Prop}
    (noisy : Bool) (e : Ego.St T E) (hgood : Good env p) (hkeys : ∀ k, k ∈ keys ↔ k ∈ p.sensors) (href : o.ref = p.ref)
    (hk : 0 ≤ o.knots) (ht : ∀ n, p.Steps n → TimesFit o.knots (stamps env p n))
    (he : ∀ n, p.Steps n → Answers cenv.addBatch X (n * keys.length + 1) e.inner) :
    (∃ s, main env p cenv o keys noisy e = .ok () s) ∨
    ∃ x s, main env p cenv o keys noisy e = .throw x s ∧ (X x ∨ x = .stdOutOfRange ∨ ∃ e l n, cenv.fit e l n = some x) := by
  obtain ⟨n, poses, seg, S, d, hn, -, hsim, hcl, hno⟩ := simulate_new env p hgood
  obtain ⟨r, hr, hd⟩ : ∃ r : ℕ → ℕ → Ego.Meas T, (∀ k j, (r k j).sensor = k ∧ (r k j).t = ((j : ℤ) + 1) * env.ns p.dt + p.delay k ∧
      (r k j).duration = env.ns p.dt) ∧
      ∀ k, (if noisy then d.noisy else d.clean) k = if k ∈ p.sensors then (List.range n).map (r k) else [] := by
    cases noisy
    · exact ⟨reading env p S, fun k j => ⟨rfl, rfl, rfl⟩, hcl⟩
    · exact ⟨noisyReading env p S, fun k j => ⟨rfl, rfl, rfl⟩, hno⟩
  rw [main_eq hkeys href hsim n r hd]
  split_ifs with hc
  swap
  · exact Or.inr ⟨_, _, rfl, Or.inr (Or.inl rfl)⟩
  have hadd : Win.added ((stream keys n r).map Win.Op.add ++ [.flush]) = stream keys n r := by
    unfold Win.added
    rw [List.filterMap_append, List.filterMap_map]
    simp
  have hlen : ((stream keys n r).map (Win.Op.add (M := Ego.Meas T)) ++ [Win.Op.flush]).length = n * keys.length + 1 := by
    simp [stream, List.length_flatMap]
  obtain ⟨lo, hi, f1, f2, f3⟩ := ht n hn
  refine win_program (Ego.provides hk f3) f2 _ _ _ (Ego.proper_start ?_ ?_)
  · rw [hadd]
    intro t ht
    apply f1
    unfold stamps
    rcases List.mem_append.1 ht with ht | ht
    · obtain ⟨m, hm, rfl⟩ := List.mem_map.1 ht
      obtain ⟨j, hj, hm⟩ := List.mem_flatMap.1 hm
      obtain ⟨k, hk', rfl⟩ := List.mem_map.1 hm
      refine List.mem_flatMap.2 ⟨j, hj, List.mem_append_left _ (List.mem_map.2 ⟨k, (hkeys k).1 hk', (hr k j).2.1.symm⟩)⟩
    · obtain ⟨m, hm, rfl⟩ := List.mem_map.1 ht
      obtain ⟨hm, hs⟩ := List.mem_filter.1 hm
      obtain ⟨j, hj, hm⟩ := List.mem_flatMap.1 hm
      obtain ⟨k, hk', rfl⟩ := List.mem_map.1 hm
      have hkr : k = p.ref := by
        have h0 := of_decide_eq_true hs
        rw [(hr k j).1] at h0
        rw [h0, href]
      subst hkr
      refine List.mem_flatMap.2 ⟨j, hj, List.mem_append_right _ ?_⟩
      rw [List.mem_singleton, (hr _ j).2.1, (hr _ j).2.2]
      ring
  · rw [hlen]
    exact Answers.mono (fun x hx => Or.inl hx) _ _ (he n hn)

end SimEgo

/-! ### The car -/

/-- the calls the reading loop of the car calibration program makes: the loop is run with a recorder in place of the calibrator. -/
def CarMain.Calls {K : Type} (env : CarMain.Env K) (use : CarMain.Use) (ms : List CarMain.Msg) (cs : List CarMain.Call) : Prop :=
  CarMain.loop (fun l x => .ok () (l ++ [x])) env use (CarMain.St.init env) [] ms = .ok () cs

theorem CarMain.submitAll_record : ∀ cs l : List CarMain.Call, CarMain.submitAll (fun l x => .ok () (l ++ [x])) l cs = .ok () (l ++ cs)
  | [], l => by simp [CarMain.submitAll]
  | x :: cs, l => by simp [CarMain.submitAll, Res.bind, CarMain.submitAll_record cs]

/-- **C126**, car calibration program: if the poses the program hands over have increasing times and all times fit, the program returns or
ends with an exception of the spline fitter or of the estimator. -/
theorem C126_car_program {K E G P : Type} {cenv : CarEnv E G P} {op : CarOpt} {meas : CarMain.Call → Meas} {env : CarMain.Env K}
    {use : CarMain.Use} {X : Exc → Prop} (e : E) (ms : List CarMain.Msg) (cs : List CarMain.Call) (hk : 0 ≤ op.knots)
    (hcs : CarMain.Calls env use ms cs) (ht : TimesFit op.knots ((cs.map meas).map Meas.t))
    (hp : (((cs.map meas).filter fun m => m.kind = .pose).map Meas.t).Pairwise (· < ·)) (he : Answers cenv.addBatch X (cs.length + 1) e) :
    (∃ s, CarMain.program cenv op meas env use e ms = .ok () s) ∨
    ∃ x s, CarMain.program cenv op meas env use e ms = .throw x s ∧ (X x ∨ ∃ e l n, cenv.fit e l n = some x) := by
  obtain ⟨cs', -, h2⟩ := CarMain.C105_calls env use ms
  obtain rfl : cs' = cs := by
    unfold CarMain.Calls at hcs
    rw [h2, CarMain.submitAll_record] at hcs
    simpa using hcs
  obtain ⟨lo, hi, f1, f2, f3⟩ := ht
  have hadd := CalibLib.added_calls meas cs' [.flush] (Or.inr rfl)
  unfold CarMain.program
  rw [h2, CalibLib.submitAll_runOps]
  have hinv : CarInv lo hi _ (CarCal.init cenv e) ((cs'.map fun x => CarCal.Op.add (meas x)) ++ [.flush]) :=
    car_start (knots := op.knots) (by rw [hadd]; exact f1) (by rw [hadd]; exact hp)
      (Answers.mono (Y := fun x => X x ∨ ∃ e l n, cenv.fit e l n = some x) (fun x hx => Or.inl hx) _ _ (by simpa using he))
  have := runOps_inv (step := fun s op' => CarCal.Op.run cenv op s op')
    (fun s ops => CarInv lo hi (Answers cenv.addBatch fun x => X x ∨ ∃ e l n, cenv.fit e l n = some x) s (ops ++ [.flush])) _
    (CarCal.runOps cenv op)
    (fun s => rfl) (fun s op ops => rfl) (fun s op' ops hs => car_step car_provides f2 hk f3 s op' (ops ++ [.flush]) hs)
    (cs'.map fun x => CarCal.Op.add (meas x)) (CarCal.init cenv e) hinv
  rcases this with ⟨s1, h3, hi1⟩ | ⟨x, s1, h3, hx⟩
  · rw [h3]
    simp only [Res.bind, CarMain.finish]
    split_ifs
    · rcases car_step car_provides f2 hk f3 s1 .flush [] hi1 with ⟨s2, h4, -⟩ | ⟨x, s2, h4, hx, -⟩
      · exact Or.inl ⟨s2, h4⟩
      · exact Or.inr ⟨x, s2, h4, hx⟩
    · exact Or.inl ⟨s1, rfl⟩
  · rw [h3]
    exact Or.inr ⟨x, s1, rfl, hx⟩

/-! ### The hypotheses are met -/

namespace CalibLib

/-- four poses, a submission, a cleared window, a wheel measurement far behind. -/
def exCarOps : List CarCal.Op :=
  [.flush, .add (CarCal.demoPose 0), .add (CarCal.demoPose 1), .flush, .add (CarCal.demoPose 12), .clear, .add (CarCal.demoRear (-5)),
    .add (CarCal.demoPose 13), .flush]

theorem exCarOps_fit : TimesFit CarCal.demoOpt.knots ((CarCal.added exCarOps).map Meas.t) :=
  ⟨-5000000000, 13000000000, by simp [exCarOps, CarCal.added, CarCal.demoPose, CarCal.demoRear], by norm_num, by norm_num [CarCal.demoOpt]⟩

theorem exCarOps_poses : (((CarCal.added exCarOps).filter fun m => m.kind = .pose).map Meas.t).Pairwise (· < ·) := by
  simp [exCarOps, CarCal.added, CarCal.demoPose, CarCal.demoRear]

/-- an estimator that always throws answers. -/
theorem throws_answer {E B G : Type} {f : E → B → Res E G} {x : Exc} (h : ∀ e b, ∃ e', f e b = .throw x e') :
    ∀ n e, Answers f (fun y => y = x) n e
  | 0, _ => trivial
  | n + 1, e => fun b => Or.inr (by obtain ⟨e', he⟩ := h e b; exact ⟨x, e', he, rfl, throws_answer h n e'⟩)

/-- the hypotheses of `C126_car` are met with the estimator of the library, and with one that throws at every call. -/
example : ∃ outs s, runCaught (fun s op => CarCal.Op.run exCar CarCal.demoOpt s op)
      (CarCal.init exCar ((exEnv CarBatch).start (-1) 1 exOpts exHeap)) exCarOps = .ok outs s ∧ outs.length = exCarOps.length ∧
    ∀ x, some x ∈ outs → x = .external ∨ ∃ e l n, exCar.fit e l n = some x :=
  C126_car _ _ (by norm_num [CarCal.demoOpt]) exCarOps_fit exCarOps_poses
    (C126_library_answers (ex_good CarBatch) (by simp [exEnv]) (.inr rfl) _ _ .start
      (by show 0 + 9 ≤ IncProblem.maxBatches; unfold IncProblem.maxBatches; norm_num))

example : ∃ outs s, runCaught (fun s op => CarCal.Op.run CarCal.throwEnv CarCal.demoOpt s op) (CarCal.init CarCal.throwEnv 0) exCarOps =
      .ok outs s ∧ outs.length = exCarOps.length ∧
    ∀ x, some x ∈ outs → x = .invalidOperation ∨ ∃ e l n, CarCal.throwEnv.fit e l n = some x :=
  C126_car _ _ (by norm_num [CarCal.demoOpt]) exCarOps_fit exCarOps_poses (throws_answer (fun e b => ⟨e, rfl⟩) _ _)

/-- in this program exactly one call throws. -/
example : (match runCaught (fun s op => CarCal.Op.run CarCal.throwEnv CarCal.demoOpt s op) (CarCal.init CarCal.throwEnv 0) exCarOps with
    | .ok l _ => l | _ => []) = [none, none, none, some .invalidOperation, none, none, none, none, none] := by
  decide +kernel

/-- the same calls of the time delay calibrator. -/
def exTdOps : List (Win.Op TD.Meas) :=
  [.flush, .add (TD.demoPose 0), .add (TD.demoPose 1), .flush, .add (TD.demoPose 12), .clear, .add (TD.demoLeft (-5)),
    .add (TD.demoPose 13), .flush]

/-- the hypotheses of `TD.C126_time_delay` are met with the estimator of the library. -/
example : ∃ outs s, runCaught (fun s op => Win.Op.run (TD.cfg exTd TD.demoOpt) s op)
      (Win.init (TD.cfg exTd TD.demoOpt) ((exEnv TD.Batch).start (-1) 1 exOpts exHeap)) exTdOps = .ok outs s ∧
    outs.length = exTdOps.length ∧ ∀ x, some x ∈ outs → x = .external ∨ ∃ e l n, exTd.fit e l n = some x :=
  TD.C126_time_delay _ _ (by norm_num [TD.demoOpt])
    ⟨-5000000000, 13000000000, by simp [exTdOps, Win.added, TD.demoPose, TD.demoLeft], by norm_num, by norm_num [TD.demoOpt]⟩
    (by simp [exTdOps, Win.added, TD.demoPose, TD.demoLeft])
    (C126_library_answers (ex_good TD.Batch) (by simp [exEnv]) (.inr rfl) _ _ .start
      (by show 0 + 9 ≤ IncProblem.maxBatches; unfold IncProblem.maxBatches; norm_num))

/-- the hypotheses of `Ego.C126_egomotion` are met, also out of order and with a sensor that is not known (2). -/
example : ∃ outs s, runCaught (fun s op => Win.Op.run (Ego.cfg Ego.demoEnv Ego.demoOpt) s op)
      (Win.init (Ego.cfg Ego.demoEnv Ego.demoOpt) ⟨0, 1⟩)
      [.flush, .add (Ego.dm 0 5), .add (Ego.dm 1 3), .flush, .add (Ego.dm 0 5), .add (Ego.dm 2 1), .flush] = .ok outs s ∧
    outs.length = 7 ∧ ∀ x, some x ∈ outs → x = .external ∨ x = .stdOutOfRange ∨ ∃ e l n, Ego.demoEnv.fit e l n = some x :=
  Ego.C126_egomotion _ _ (by norm_num [Ego.demoOpt])
    ⟨0, 10000000000, by simp [Win.added, Ego.dm, Ego.demoOpt], by norm_num, by norm_num [Ego.demoOpt]⟩
    ((show ∀ n (e : Nat), Answers Ego.demoEnv.addBatch (fun y => y = .external) n e from fun n => by
      induction n with
      | zero => intro e; trivial
      | succ n ih => intro e b; exact Or.inl ⟨_, _, rfl, ih _⟩) _ _)

/-- the hypotheses of `SimTD.C126_time_delay_program` are met with the estimator of the library. -/
example : (∃ s, SimTD.main SimTD.nsEnv (SimTD.demo 1) exTd TD.demoOpt (fun _ => 1) ((exEnv TD.Batch).start (-1) 1 exOpts exHeap) = .ok () s) ∨
    ∃ x s, SimTD.main SimTD.nsEnv (SimTD.demo 1) exTd TD.demoOpt (fun _ => 1) ((exEnv TD.Batch).start (-1) 1 exOpts exHeap) = .throw x s ∧
      (x = .external ∨ ∃ e l n, exTd.fit e l n = some x) :=
  SimTD.C126_time_delay_program _ _ (SimTD.demo_valid 1) (SimTD.demo_dt 1) (by rw [SimTD.ns_dt]; norm_num) (by norm_num [TD.demoOpt])
    (by
      intro n hn
      obtain rfl := SimTD.demo_steps 1 n hn
      unfold SimTD.stamps
      rw [SimTD.ns_dt, SimTD.ns_half, SimTD.ns_r, SimTD.ns_l]
      exact ⟨0, 10000000000, by simp [List.range_succ], by norm_num, by norm_num [TD.demoOpt]⟩)
    (by
      intro n hn
      obtain rfl := SimTD.demo_steps 1 n hn
      exact C126_library_answers (ex_good TD.Batch) (by simp [exEnv]) (.inr rfl) _ _ .start
        (by show 0 + _ ≤ IncProblem.maxBatches; unfold IncProblem.maxBatches; norm_num))

/-- the hypotheses of `SimEgo.C126_egomotion_program` are met with the estimator of the library. -/
example : (∃ s, SimEgo.main SimEgo.demoEnv (SimEgo.demo .combined) exEgo' Ego.demoOpt [1, 0] true
        ⟨exLate.start (-1) 1 exOpts exHeap, 1⟩ = .ok () s) ∨
    ∃ x s, SimEgo.main SimEgo.demoEnv (SimEgo.demo .combined) exEgo' Ego.demoOpt [1, 0] true
        ⟨exLate.start (-1) 1 exOpts exHeap, 1⟩ = .throw x s ∧
      (x = .external ∨ x = .stdOutOfRange ∨ ∃ e l n, exEgo'.fit e l n = some x) :=
  SimEgo.C126_egomotion_program _ _ (SimEgo.demo_good .combined) (by simp [SimEgo.demo, or_comm]) rfl (by norm_num [Ego.demoOpt])
    (by
      intro n hn
      obtain rfl := SimEgo.demo_steps _ n hn
      unfold SimEgo.stamps
      rw [SimEgo.demo_ns]
      exact ⟨0, 10000000000, by simp [List.range_succ, SimEgo.demo, SimEgo.Params.delay], by norm_num, by norm_num [Ego.demoOpt]⟩)
    (by
      intro n hn
      obtain rfl := SimEgo.demo_steps _ n hn
      exact C126_library_answers exLate_good (by simp [exLate, exEnv]) (.inr rfl) _ _ .start
        (by show 0 + _ ≤ IncProblem.maxBatches; unfold IncProblem.maxBatches; norm_num))

/-- the hypotheses of `C126_car_program` are met by a recording with five poses. -/
example : ∃ cs, CarMain.Calls CarMain.plain ⟨false, false, false, false⟩ exBag cs ∧
    TimesFit CarCal.demoOpt.knots ((cs.map exMeas).map Meas.t) ∧
    (((cs.map exMeas).filter fun m => m.kind = .pose).map Meas.t).Pairwise (· < ·) ∧
    Answers exCar.addBatch (fun x => x = .external) (cs.length + 1) ((exEnv CarBatch).start (-1) 1 exOpts exHeap) := by
  refine ⟨_, by unfold CarMain.Calls; rw [CarMain.loop_eq, CarMain.submitAll_record], ?_, ?_, ?_⟩
  · rw [List.nil_append, exBag_calls]
    exact ⟨0, 21000000000, by simp [CarCal.demoPose], by norm_num, by norm_num [CarCal.demoOpt]⟩
  · rw [List.nil_append, exBag_calls]
    simp [CarCal.demoPose]
  · have hl := congrArg List.length exBag_calls
    simp only [List.length_map, List.length_flatMap, List.length_cons, List.length_nil, List.map_cons, List.map_nil, List.sum_cons,
      List.sum_nil] at hl
    rw [List.nil_append, hl]
    exact C126_library_answers (ex_good CarBatch) (by simp [exEnv]) (.inr rfl) _ _ .start
      (by show 0 + _ ≤ IncProblem.maxBatches; unfold IncProblem.maxBatches; norm_num)

end CalibLib
end Verif
