import Verif.Spec.Programs
import Verif.Lemmas.Delivered
import Verif.Props.Together
import Verif.Props.TDMain
import Verif.Props.SimEgoTraj
import Verif.Props.CarMain

/-! Property C125: the calibration programs, with the estimator of the library, from their input to what they report. -/

namespace Verif
namespace CalibLib
variable {X V F M : Type} {g : GroupId} {o : EstOptions F} {mo : F} {h : Heap V}

/-! ### All programs -/

theorem reported {c : Env X V F M} {W : Type} {made : St X V F M → W → X → Prop} (hx : ∀ x, Good c x) (hc : 0 < c.ncal)
    (hg : g = 0 ∨ g = 1) {e : St X V F M} {sent : List W} {gains : List F} {params : List (List V)}
    (hr : Reach c (c.start mo g o h) e) (hrec : Recorded (c.cal.map h.params) e gains params sent.length)
    (hl : sent.length ≤ IncProblem.maxBatches) (hall : gains.length = sent.length)
    (hmade : ∀ k w b, sent[k]? = some w → e.log[k]? = some b →
      ∃ e0, Reach c (c.start mo g o h) e0 ∧ e0.log = e.log.take k ∧ made e0 w b.win) :
    Reported c g o mo h made e sent gains params := by
  have hret : ∀ b ∈ e.log, b.ret.isSome = true := by
    intro b hb
    obtain ⟨k, hk⟩ := List.getElem?_of_mem hb
    obtain ⟨r, h6, -⟩ := C121_entries hx hc hg hr hrec hl hall hk
    rw [h6]; rfl
  have hfil : e.log.filter (fun b => b.ret.isSome) = e.log := List.filter_eq_self.2 hret
  have hpar : params = c.cal.map h.params :: e.log.map Sub.after := by rw [hrec.params, paramsOf, hfil]
  have hlast : params.getLast? = some (c.params e) := by
    rw [(C121_problem hx hc hg hr (hrec.sent ▸ hl)).2.2.2.1, hpar, calAfter]
    cases hq : e.log using List.reverseRecOn with
    | nil => rfl
    | append_singleton l b => simp [List.getLast?_cons, List.getLast?_append]
  refine ⟨⟨hrec.sent, hall, by rw [hpar]; simp [hrec.sent], by rw [hpar]; rfl⟩, ?_, ?_⟩
  · intro k w hw
    have hk : k < e.log.length := by rw [hrec.sent]; exact (List.getElem?_eq_some_iff.1 hw).1
    have hb : e.log[k]? = some e.log[k] := List.getElem?_eq_getElem hk
    obtain ⟨r, h1, h2, h3, h4, h5⟩ := C121_entries hx hc hg hr hrec hl hall hb
    refine ⟨_, r, hb, h1, hmade k w _ hw hb, ?_, h2, h3, h4, h5⟩
    refine C121_windows (post := e.log.drop (k + 1)) hx hc hg hr (hrec.sent ▸ hl) ?_
    rw [List.getElem_cons_drop, List.take_append_drop]
  · rw [hlast]
    rcases C122_together_partial hx hc hg hr (hrec.sent ▸ hl) hret with ⟨h1, h2, h3, h4⟩ |
      ⟨pre, b, post, r, inp, sc, k1, k2, k3, k4, k5, k6, k7, k8, k9, k10⟩
    · exact .inl ⟨h1, by rw [h2], h3, h4⟩
    · refine .inr ⟨pre.length, b, r, inp, sc, by rw [k1]; simp, k2, k3, ?_, ?_, k6, k7, by rw [k8], k9, k10⟩
      · intro k' b' r' hk hb' hr'
        refine k4 b' ?_ r' hr'
        rw [k1, List.getElem?_append_right hk.le, List.getElem?_cons] at hb'
        split at hb'
        · omega
        · exact List.mem_of_getElem? hb'
      · rw [k1]; simpa using k5

/-! ### The car -/

/-- the batch of the car calibrator: its splines are fitted to all poses of the window, with the number of segments the
configuration asks for; for every sensor there is exactly one error term (for wheel pairs: one left and one right) per
measurement that can be used, in order of arrival, and none for any other. -/
def MadeCar (env : CarEnv (St CarBatch V F M) F (List V)) (op : CarOpt) (e : St CarBatch V F M) (w : Window) (x : CarBatch) : Prop :=
  2 ≤ (w .pose).length ∧ x.poses = w .pose ∧ CarCal.numSegments op.knots (w .pose) = some x.segments ∧
  (∀ k, x.terms.filterMap (CarCal.sourceOf k) = (w k).filter fun m => decide (CarCal.Used env op e w m)) ∧
  ∀ k, k = .front ∨ k = .rear →
    x.terms.filterMap (CarCal.rightSourceOf k) = (w k).filter fun m => decide (CarCal.Used env op e w m)

theorem submitAll_runOps {E G P : Type} (cenv : CarEnv E G P) (op : CarOpt) (meas : CarMain.Call → Meas) :
    ∀ (cs : List CarMain.Call) (s : CarCal E G P), CarMain.submitAll (fun s x => s.add cenv op (meas x)) s cs =
      CarCal.runOps cenv op s (cs.map fun x => .add (meas x))
  | [], _ => rfl
  | x :: cs, s => by
    simp only [CarMain.submitAll, List.map_cons, CarCal.runOps, CarCal.Op.run]
    congr 1
    funext _ s'
    exact submitAll_runOps cenv op meas cs s'

theorem runOps_append {E G P : Type} (cenv : CarEnv E G P) (op : CarOpt) : ∀ (a b : List CarCal.Op) (s : CarCal E G P),
    CarCal.runOps cenv op s (a ++ b) = (CarCal.runOps cenv op s a).bind fun _ s' => CarCal.runOps cenv op s' b
  | [], b, s => rfl
  | x :: a, b, s => by
    simp only [List.cons_append, CarCal.runOps]
    cases CarCal.Op.run cenv op s x with
    | ok u s1 => exact runOps_append cenv op a b s1
    | throw e s1 => rfl
    | ub => rfl
    | diverge => rfl

/-- the program is a sequence of calls: the measurements, and perhaps a submission at the end. -/
theorem program_runOps {K E G P : Type} {cenv : CarEnv E G P} {op : CarOpt} {meas : CarMain.Call → Meas} {env : CarMain.Env K}
    {use : CarMain.Use} {e : E} {ms : List CarMain.Msg} {s : CarCal E G P}
    (hp : CarMain.program cenv op meas env use e ms = .ok () s) :
    ∃ cs ops, CarMain.CallsAre env use ms cs ∧ (ops = [] ∨ ops = [CarCal.Op.flush]) ∧
      CarCal.runOps cenv op (CarCal.init cenv e) ((cs.map fun x => CarCal.Op.add (meas x)) ++ ops) = .ok () s := by
  obtain ⟨cs, h1, h2⟩ := CarMain.C105_calls env use ms
  unfold CarMain.program at hp
  rw [h2, submitAll_runOps] at hp
  cases hq : CarCal.runOps cenv op (CarCal.init cenv e) (cs.map fun x => CarCal.Op.add (meas x)) with
  | throw x s1 => rw [hq] at hp; simp [Res.bind] at hp
  | ub => rw [hq] at hp; simp [Res.bind] at hp
  | diverge => rw [hq] at hp; simp [Res.bind] at hp
  | ok u s1 =>
    rw [hq] at hp
    simp only [Res.bind, CarMain.finish] at hp
    split at hp
    · refine ⟨cs, [.flush], h1, .inr rfl, ?_⟩
      rw [runOps_append, hq]
      simp only [Res.bind, CarCal.runOps, CarCal.Op.run, hp]
    · refine ⟨cs, [], h1, .inl rfl, ?_⟩
      rw [List.append_nil, hq, ← hp]

theorem added_calls (meas : CarMain.Call → Meas) (cs : List CarMain.Call) (ops : List CarCal.Op)
    (h : ops = [] ∨ ops = [CarCal.Op.flush]) : CarCal.added ((cs.map fun x => CarCal.Op.add (meas x)) ++ ops) = cs.map meas := by
  unfold CarCal.added
  induction cs with
  | nil => rcases h with rfl | rfl <;> rfl
  | cons x cs ih => rw [List.map_cons, List.cons_append, List.filterMap_cons, ih]; rfl

/-- **C125**: the car calibration program, with the estimator of the library: if it ends without exception, then the
windows handed over followed by what is left are the measurements the recording contains, in order, per sensor; and what the
program reports – parameter history, information gains, and at the end calibration and uncertainties – is `Reported`. -/
theorem C125_car {K : Type} {c : Env CarBatch V F M} {cenv : CarEnv (St CarBatch V F M) F (List V)} {op : CarOpt}
    {meas : CarMain.Call → Meas} {env : CarMain.Env K} {use : CarMain.Use} {ms : List CarMain.Msg}
    {s : CarCal (St CarBatch V F M) F (List V)} (hx : ∀ x, Good c x) (hc : 0 < c.ncal) (hg : g = 0 ∨ g = 1)
    (hadd : cenv.addBatch = c.submit) (hpar : cenv.params = c.params)
    (hp : CarMain.program cenv op meas env use (c.start mo g o h) ms = .ok () s) (hl : s.sent.length ≤ IncProblem.maxBatches) :
    (∃ cs, CarMain.CallsAre env use ms cs ∧
      ∀ k, (s.sent.map fun w => w k).flatten ++ s.buf k = (cs.map meas).filter fun m => m.kind = k) ∧
    Reported c g o mo h (MadeCar cenv op) s.est s.sent s.gains s.params := by
  obtain ⟨cs, ops, h1, h2, h3⟩ := program_runOps hp
  have hnc : CarCal.Op.clear ∉ (cs.map fun x => CarCal.Op.add (meas x)) ++ ops := by
    intro hm
    rcases List.mem_append.1 hm with hm | hm
    · obtain ⟨_, _, hm⟩ := List.mem_map.1 hm; cases hm
    · rcases h2 with rfl | rfl <;> simp at hm
  have hstr := CarCal.C36_stream hnc h3
  have hadded : CarCal.added ((cs.map fun x => CarCal.Op.add (meas x)) ++ ops) = cs.map meas := by
    exact added_calls meas cs ops h2
  rw [hadded] at hstr
  refine ⟨⟨cs, h1, hstr⟩, ?_⟩
  obtain ⟨acc, gone, hrun⟩ := car_history _ .init h3
  obtain ⟨hr, hrec⟩ := C121_car hx hc hg hadd hpar hrun hl
  refine reported hx hc hg hr hrec hl (CarCal.C37_histories_aligned h3).1 ?_
  intro k w b hw hb
  obtain ⟨e, q0, q1, q2, q3, q4, q5⟩ := car_delivered hx hc hg hadd hpar hrun hl k w b hw hb
  have hsort : CarCal.Sorted w := by
    intro k m hm
    have : m ∈ (s.sent.map fun w => w k).flatten ++ s.buf k :=
      List.mem_append_left _ (List.mem_flatten.2 ⟨w k, List.mem_map.2 ⟨w, List.mem_of_getElem? hw, rfl⟩, hm⟩)
    rw [hstr k] at this
    simpa [CarCal.ofSensor] using (List.mem_filter.1 this).2
  refine ⟨e, q4, q5, q0, q1, q2, fun k => ?_, fun k hk => ?_⟩
  · rw [q3]; exact CarCal.build_source cenv op e w hsort k
  · rw [q3]; exact CarCal.build_right cenv op e w hsort k hk

/-! ### The time delay simulator -/

theorem td_delivered {W : Type} {c : Env TD.Batch V F M} {env : TD.Env (St TD.Batch V F M) F (List V) W} {op : TD.Opt}
    (hx : ∀ x, Good c x) (hc : 0 < c.ncal) (hg : g = 0 ∨ g = 1) (hadd : env.addBatch = c.submit) (hpar : env.params = c.params)
    {s : Win TD.Sensor TD.Meas (St TD.Batch V F M) F (List V)} {acc : List TD.Meas} {gone : List (TD.Sensor → List TD.Meas)}
    (hs : Win.Run (TD.cfg env op) (c.start mo g o h) s acc gone) (hl : s.sent.length ≤ IncProblem.maxBatches) :
    Link c (c.start mo g o h) (TD.cfg env op) (fun e => e) s := by
  refine win_delivered (π := fun e => e) hx hc hg ?_ ?_ ?_ rfl hs hl
  · intro e b e' hp
    simp only [TD.cfg, TD.prepare] at hp
    have hi : ∀ e', (TD.initSplines env op e (b .pose)).state? = some e' → e' = e := by
      intro e' hp
      unfold TD.initSplines at hp
      repeat' split at hp
      all_goals first
        | (simp [Res.state?] at hp; done)
        | (simp only [Res.state?, Option.some.injEq] at hp; exact hp.symm)
    cases hq : TD.initSplines env op e (b .pose) <;> rw [hq] at hp hi <;> simp only at hp
    · simp only [Res.state?, Option.some.injEq] at hp; subst hp; exact hi _ rfl
    · exact hi _ hp
    · simp [Res.state?] at hp
    · simp [Res.state?] at hp
  · intro e b
    simp only [TD.cfg, hadd]
    cases c.submit e b <;> rfl
  · intro e; simp only [TD.cfg, hpar]

/-- the batch of the time delay calibrator: its splines are fitted to all poses of the window, with the number of segments the
configuration asks for; it has one error term per pose, and one per wheel measurement that fits the time span of the poses, at the
time stamp plus the delay of the wheel, with the configured variances; left before right, in order of arrival. -/
def MadeTD {W : Type} (env : TD.Env (St TD.Batch V F M) F (List V) W) (op : TD.Opt) (e : St TD.Batch V F M)
    (w : TD.Sensor → List TD.Meas) (x : TD.Batch) : Prop :=
  2 ≤ (w .pose).length ∧ x.poses = w .pose ∧ TD.numSegments op.knots (w .pose) = some x.segments ∧
  x.terms = (w .pose).map .pose ++
    ((TD.usedWheel op w (env.delay e false) .left).map fun m =>
      .wheel m false (m.t + env.delay e false) m.value (op.lwVar, op.vyVar, op.vzVar)) ++
    ((TD.usedWheel op w (env.delay e true) .right).map fun m =>
      .wheel m true (m.t + env.delay e true) m.value (op.rwVar, op.vyVar, op.vzVar))

theorem win_runOps_append {K N E B G P : Type} [DecidableEq K] (w : WinCfg K N E B G P) : ∀ (a b : List (Win.Op N)) (s : Win K N E G P),
    Win.runOps w s (a ++ b) = (Win.runOps w s a).bind fun _ s' => Win.runOps w s' b
  | [], b, s => rfl
  | x :: a, b, s => by
    simp only [List.cons_append, Win.runOps]
    cases Win.Op.run w s x with
    | ok u s1 => exact win_runOps_append w a b s1
    | throw e s1 => rfl
    | ub => rfl
    | diverge => rfl

/-- an end of the form "submit what is left". -/
theorem win_end {K N E B G P : Type} [DecidableEq K] {w : WinCfg K N E B G P} {e : E} {l : List N} {s : Win K N E G P} {p : Win K N E G P → Bool}
    (hp : ((Win.runOps w (Win.init w e) (l.map .add)).bind fun _ s => if p s then s.addMeasurements w else .ok () s) = .ok () s) :
    ∃ ops, (ops = [] ∨ ops = [Win.Op.flush]) ∧ Win.runOps w (Win.init w e) (l.map .add ++ ops) = .ok () s := by
  cases hq : Win.runOps w (Win.init w e) (l.map .add) with
  | throw x s1 => rw [hq] at hp; simp [Res.bind] at hp
  | ub => rw [hq] at hp; simp [Res.bind] at hp
  | diverge => rw [hq] at hp; simp [Res.bind] at hp
  | ok u s1 =>
    rw [hq] at hp
    simp only [Res.bind] at hp
    split at hp
    · refine ⟨[.flush], .inr rfl, ?_⟩
      rw [win_runOps_append, hq]
      simp only [Res.bind, Win.runOps, Win.Op.run, hp]
    · exact ⟨[], .inl rfl, by rw [List.append_nil, hq, ← hp]⟩

/-- **C125**: the time delay simulator, with the estimator of the library: if it ends without exception, then the windows
handed over followed by what is left – at most one measurement per sensor – are the simulated measurements, in order, per sensor;
and what the program reports is `Reported`. -/
theorem C125_time_delay {W : Type} {c : Env TD.Batch V F M} {cenv : TD.Env (St TD.Batch V F M) F (List V) W} {op : TD.Opt}
    {senv : SimTD.Env} {p : SimTD.Params} {val : ℝ → ℚ} {s : TD.Cal (St TD.Batch V F M) F (List V)}
    (hx : ∀ x, Good c x) (hc : 0 < c.ncal) (hg : g = 0 ∨ g = 1) (hadd : cenv.addBatch = c.submit) (hpar : cenv.params = c.params)
    (hv : p.Valid) (hd : 0 < p.dt) (hp : SimTD.main senv p cenv op val (c.start mo g o h) = .ok () s)
    (hl : s.sent.length ≤ IncProblem.maxBatches) :
    (∃ n d, p.Steps n ∧ SimTD.simulate senv p .empty = .ok () d ∧ (∀ k, (SimTD.simulated val d k).length = n) ∧
      (∀ k, (s.sent.map fun w => w k).flatten ++ s.buf k = SimTD.simulated val d k) ∧ ∀ k, (s.buf k).length ≤ 1) ∧
    Reported c g o mo h (MadeTD cenv op) s.est s.sent s.gains s.params := by
  obtain ⟨n, d, h1, h2, h3, h4, h5, h6, h7⟩ := SimTD.C115_end_to_end_partial hv hd hp
  refine ⟨⟨n, d, h1, h2, h3, h4, h5⟩, ?_⟩
  have hrun : ∃ acc gone, Win.Run (TD.cfg cenv op) (c.start mo g o h) s acc gone := by
    have hp' := hp
    obtain ⟨n, d, hn, hsim, hr, hl, hpl, -⟩ := SimTD.simulate_new senv p hv hd
    rw [SimTD.main_eq cenv op val (c.start mo g o h) hsim hr hl hpl] at hp'
    obtain ⟨ops, -, h8⟩ := win_end hp'
    exact win_history _ .init h8
  obtain ⟨acc, gone, hrun⟩ := hrun
  obtain ⟨hr, hrec⟩ := C121_time_delay hx hc hg hadd hpar hrun hl
  refine reported hx hc hg hr hrec hl h7 ?_
  intro k w b hw hb
  obtain ⟨e, e1, q0, q1, q2, q3⟩ := td_delivered hx hc hg hadd hpar hrun hl k w b hw hb
  obtain ⟨-, r1, r2, r3⟩ := TD.prepare_ok (show TD.prepare cenv op e w = .ok b.win e1 from q1)
  exact ⟨e, q2, q3, h6 w (List.mem_of_getElem? hw), r1, r2, r3⟩

/-! ### The egomotion simulator -/

/-- the batch of the egomotion calibrator: its trajectory spans the time from the beginning of the first to the end of the last
motion of the reference sensor; for every sensor it has one error term per pair of consecutive motions that can be used, in order of
arrival. -/
def MadeEgo {T W : Type} [Group T] (env : Ego.Env T (St (Ego.Batch T) V F M) F (List V) W) (op : Ego.Opt) (e : St (Ego.Batch T) V F M)
    (w : Nat → List (Ego.Meas T)) (x : Ego.Batch T) : Prop :=
  ∃ m ms, w op.ref = m :: ms ∧ ∀ lo hi, lo = m.t - m.duration → hi = ((m :: ms).getLast (by simp)).t →
    Ego.tMin x.knots = lo ∧ Ego.tMax x.knots = hi ∧
    ∀ k, x.terms.filter (fun t => decide (t.m.sensor = k)) = Ego.expected env op e lo hi w k

theorem ego_delivered {T W : Type} [Group T] {c : Env (Ego.Batch T) V F M}
    {env : Ego.Env T (St (Ego.Batch T) V F M) F (List V) W} {op : Ego.Opt} {t0 : T}
    (hx : ∀ x, Good c x) (hc : 0 < c.ncal) (hg : g = 0 ∨ g = 1) (hadd : env.addBatch = c.submit) (hpar : env.params = c.params)
    {s : Win Nat (Ego.Meas T) (Ego.St T (St (Ego.Batch T) V F M)) F (List V)} {acc : List (Ego.Meas T)}
    {gone : List (Nat → List (Ego.Meas T))}
    (hs : Win.Run (Ego.cfg env op) ⟨c.start mo g o h, t0⟩ s acc gone) (hl : s.sent.length ≤ IncProblem.maxBatches) :
    Link c (c.start mo g o h) (Ego.cfg env op) Ego.St.inner s := by
  refine win_delivered (π := Ego.St.inner) hx hc hg ?_ ?_ ?_ rfl hs hl
  · intro e b e' hp
    simp only [Ego.cfg, Ego.prepare] at hp
    have hi : ∀ e', (Ego.initSplines env op e b).state? = some e' → e'.inner = e.inner := by
      intro e' hp
      unfold Ego.initSplines at hp
      simp only at hp
      repeat' split at hp
      all_goals first
        | (simp [Res.state?] at hp; done)
        | (simp only [Res.state?, Option.some.injEq] at hp; subst hp; rfl)
    cases hq : Ego.initSplines env op e b <;> rw [hq] at hp hi <;> simp only at hp
    · split at hp <;> simp only [Res.state?, Option.some.injEq] at hp <;> subst hp <;> exact hi _ rfl
    · exact hi _ hp
    · simp [Res.state?] at hp
    · simp [Res.state?] at hp
  · intro e b
    simp only [Ego.cfg, Ego.addBatch, hadd]
    cases c.submit e.inner b <;> rfl
  · intro e; simp only [Ego.cfg, hpar]

/-- **C125**: the egomotion simulator, with the estimator of the library: if it ends without exception, then nothing is
left, the windows handed over are the simulated motions (the noisy ones if the option asks for them), in order, per sensor; and
what the program reports is `Reported`. -/
theorem C125_egomotion {T W : Type} [Group T] {c : Env (Ego.Batch T) V F M}
    {cenv : Ego.Env T (St (Ego.Batch T) V F M) F (List V) W} {op : Ego.Opt} {t0 : T}
    {senv : SimEgo.Env T} {p : SimEgo.Params T} {keys : List ℕ} {noisy : Bool}
    {s : Ego.Cal T (St (Ego.Batch T) V F M) F (List V)}
    (hx : ∀ x, Good c x) (hc : 0 < c.ncal) (hg : g = 0 ∨ g = 1) (hadd : cenv.addBatch = c.submit) (hpar : cenv.params = c.params)
    (hgood : SimEgo.Good senv p) (ho : Ego.OrderOk cenv) (hkd : keys.Nodup) (hk : ∀ k, k ∈ keys ↔ k ∈ p.sensors)
    (href : op.ref = p.ref) (hp : SimEgo.main senv p cenv op keys noisy ⟨c.start mo g o h, t0⟩ = .ok () s)
    (hl : s.sent.length ≤ IncProblem.maxBatches) :
    (∃ (n : ℕ) (poses : List (ℤ × SimTD.Pose)) (seg : ℤ) (S : ℤ → T), p.Steps n ∧ 0 < n ∧ senv.fit poses seg = some S ∧
      (∀ k, s.buf k = []) ∧
      (∀ k ∈ p.sensors, (s.sent.map fun w => w k).flatten
        = (List.range n).map (if noisy then SimEgo.noisyReading senv p S k else SimEgo.reading senv p S k)) ∧
      ∀ k, k ∉ p.sensors → ∀ w ∈ s.sent, w k = []) ∧
    Reported c g o mo h (MadeEgo cenv op) s.est.inner s.sent s.gains s.params := by
  obtain ⟨n, poses, seg, S, h1, h2, h3, h4, h5, h6, -⟩ := SimEgo.C91_end_to_end hgood ho hkd hk href hp
  refine ⟨⟨n, poses, seg, S, h1, h2, h3, h4, h5, h6⟩, ?_⟩
  have hops : ∃ (l : List (Ego.Meas T)) (ops : List (Win.Op (Ego.Meas T))), (ops = [] ∨ ops = [Win.Op.flush]) ∧
      Win.runOps (Ego.cfg cenv op) (Win.init (Ego.cfg cenv op) ⟨c.start mo g o h, t0⟩) (l.map .add ++ ops) = .ok () s := by
    obtain ⟨n, poses, seg, S, d, k1, k4, hsim, hcl, hno⟩ := SimEgo.simulate_new senv p hgood
    have hp' := hp
    rw [SimEgo.main_eq hk href hsim n (fun k => if noisy then SimEgo.noisyReading senv p S k else SimEgo.reading senv p S k)
      (by
        intro k
        cases noisy
        · exact hcl k
        · exact hno k)] at hp'
    split at hp'
    · obtain ⟨ops, h7, h8⟩ := win_end hp'
      exact ⟨_, ops, h7, h8⟩
    · cases hp'
  obtain ⟨l, ops, -, hops⟩ := hops
  obtain ⟨acc, gone, hrun⟩ := win_history _ .init hops
  obtain ⟨hr, hrec⟩ := C121_egomotion hx hc hg hadd hpar hrun hl
  refine reported hx hc hg hr hrec hl (Ego.C72_histories_aligned hops).1 ?_
  intro k w b hw hb
  have hmem := List.mem_of_getElem? hw
  have hfin : Ego.FinBuf w := by
    refine ⟨p.sensors.foldr max 0 + 1, fun k hk => ?_⟩
    refine h6 k ?_ w hmem
    intro hks
    have : ∀ (l : List ℕ), k ∈ l → k ≤ l.foldr max 0 := by
      intro l
      induction l with
      | nil => simp
      | cons a l ih =>
        intro hm
        rcases List.mem_cons.1 hm with rfl | hm
        · simp
        · exact (ih hm).trans (by simp)
    have := this _ hks
    omega
  have hsep : Win.Separate (Ego.cfg cenv op) w := by
    intro k m hm
    by_cases hks : k ∈ p.sensors
    · have : m ∈ (s.sent.map fun w => w k).flatten := List.mem_flatten.2 ⟨w k, List.mem_map.2 ⟨w, hmem, rfl⟩, hm⟩
      rw [h5 k hks] at this
      obtain ⟨j, -, rfl⟩ := List.mem_map.1 this
      cases noisy <;> rfl
    · rw [h6 k hks w hmem] at hm; cases hm
  obtain ⟨e, e1, q0, q1, q2, q3⟩ := ego_delivered hx hc hg hadd hpar hrun hl k w b hw hb
  exact ⟨e.inner, q2, q3, Ego.prepare_contents ho hfin hsep (show Ego.prepare cenv op e w = .ok b.win e1 from q1)⟩

/-! ### Concrete instances -/

/-- the data of a call does not matter to this estimator, only the time. -/
def exMeas : CarMain.Call → Meas
  | .pose _ t => CarCal.demoPose t
  | .vel _ t => ⟨.vel, t * 1000000000, 0, 0, 0⟩
  | .front _ _ t => ⟨.front, t * 1000000000, 0, 0, 0⟩
  | .rear _ _ t => CarCal.demoRear t
  | .steer _ t => ⟨.steer, t * 1000000000, 0, 0, 0⟩
  | .dmi _ t => ⟨.dmi, t * 1000000000, 0, 0, 0⟩

/-- a recording of five navigation messages. -/
def exBag : List CarMain.Msg :=
  [.vnp CarMain.demoVnp, .vns (CarMain.demoVns 0), .vns (CarMain.demoVns 9), .vns (CarMain.demoVns 11), .vns (CarMain.demoVns 19),
    .vns (CarMain.demoVns 21)]

theorem roundAway_int (n : ℤ) : ErrorTerms.roundAway (n : ℝ) = n := by
  unfold ErrorTerms.roundAway
  split_ifs
  · rw [Int.floor_eq_iff]; constructor <;> push_cast <;> linarith
  · have : ⌊-(n : ℝ) + 1 / 2⌋ = -n := by rw [Int.floor_eq_iff]; constructor <;> push_cast <;> linarith
    rw [this]; ring

theorem exBag_calls : (CarMain.callsFrom CarMain.plain ⟨false, false, false, false⟩ (CarMain.St.init CarMain.plain) exBag).map exMeas =
    [0, 9, 11, 19, 21].flatMap fun t => [CarCal.demoPose t, ⟨.vel, t * 1000000000, 0, 0, 0⟩] := by
  have r0 : ErrorTerms.roundAway (0 : ℝ) = 0 := by exact_mod_cast roundAway_int 0
  have r9 : ErrorTerms.roundAway (9 : ℝ) = 9 := by exact_mod_cast roundAway_int 9
  have r11 : ErrorTerms.roundAway (11 : ℝ) = 11 := by exact_mod_cast roundAway_int 11
  have r19 : ErrorTerms.roundAway (19 : ℝ) = 19 := by exact_mod_cast roundAway_int 19
  have r21 : ErrorTerms.roundAway (21 : ℝ) = 21 := by exact_mod_cast roundAway_int 21
  simp [exBag, CarMain.callsFrom, CarMain.step, CarMain.stampWith, CarMain.plain, CarMain.St.init, exMeas, CarMain.demoVns, r0, r9, r11,
    r19, r21]

/-- the car program on this recording: two windows, the first is accepted, the second is not, and one pose is left. -/
theorem C125_car_witness : ∃ s, CarMain.program exCar CarCal.demoOpt exMeas CarMain.plain ⟨false, false, false, false⟩
      ((exEnv CarBatch).start (-1) 1 exOpts exHeap) exBag = .ok () s ∧ s.gains = [5, 0] ∧
    s.params = [[7, 7], [100, 100], [100, 100]] ∧ s.sent.length = 2 ∧ (s.buf .pose).length = 1 := by
  have hops : (CarMain.callsFrom CarMain.plain ⟨false, false, false, false⟩ (CarMain.St.init CarMain.plain) exBag).map
      (fun x => CarCal.Op.add (exMeas x)) =
      (([0, 9, 11, 19, 21].flatMap fun t => [CarCal.demoPose t, (⟨.vel, t * 1000000000, 0, 0, 0⟩ : Meas)]).map CarCal.Op.add) := by
    rw [← exBag_calls, List.map_map]; rfl
  unfold CarMain.program
  rw [CarMain.loop_eq, submitAll_runOps, hops]
  obtain ⟨s, h1, h2⟩ := CarCal.okTest_spec (r := (CarCal.runOps exCar CarCal.demoOpt
      (CarCal.init exCar ((exEnv CarBatch).start (-1) 1 exOpts exHeap))
      (([0, 9, 11, 19, 21].flatMap fun t => [CarCal.demoPose t, (⟨.vel, t * 1000000000, 0, 0, 0⟩ : Meas)]).map CarCal.Op.add)).bind
        fun _ s => CarMain.finish exCar CarCal.demoOpt s)
    (p := fun s => decide (s.gains = [5, 0] ∧ s.params = [[7, 7], [100, 100], [100, 100]] ∧ s.sent.length = 2 ∧
      (s.buf .pose).length = 1))
    (by decide +kernel)
  exact ⟨s, h1, of_decide_eq_true h2⟩

/-- `C125_car` applies to it. -/
example : ∃ s : CarCal (St CarBatch Nat Int Nat) Int (List Nat), s.gains = [5, 0] ∧
    Reported (exEnv CarBatch) 1 exOpts (-1) exHeap (MadeCar exCar CarCal.demoOpt) s.est s.sent s.gains s.params := by
  obtain ⟨s, h1, h2, -, h4, -⟩ := C125_car_witness
  exact ⟨s, h2, (C125_car (ex_good CarBatch) (by simp [exEnv]) (.inr rfl) rfl rfl h1
    (by rw [h4]; unfold IncProblem.maxBatches; norm_num)).2⟩

theorem ex_accepts {X : Type} {c : Env X Nat Int Nat} (hx : ∀ x, Good c x) (hc : 0 < c.ncal)
    (hor : ∀ n i, (c.oracle n i).report ≠ none ∧ (c.oracle n i).marginal ≠ none) (hb : ∀ n, c.buildOk n = true) (x : X) :
    ∃ r s', c.submit (c.start (-1) 1 exOpts exHeap) x = .ok r s' := by
  rcases C121_never_refused hx hc (.inr rfl) .start
    (by show 0 < IncProblem.maxBatches; unfold IncProblem.maxBatches; norm_num) x with h | ⟨s', -, h | h⟩
  · exact h
  · obtain ⟨inp, h⟩ := h
    rcases h with h | h
    · exact absurd h (hor _ _).1
    · exact absurd h (hor _ _).2
  · rw [hb] at h; cases h

theorem exTd_accepts (b : TD.Batch) : ∃ r s', exTd.addBatch ((exEnv TD.Batch).start (-1) 1 exOpts exHeap) b = .ok r s' := by
  have h1 : exTd.addBatch = (exEnv TD.Batch).submit := rfl
  rw [h1]
  exact ex_accepts (ex_good TD.Batch) (by simp [exEnv]) (fun n i => by simp [exEnv]) (fun n => by simp [exEnv]) b

/-- `C125_time_delay` applies to a simulation of three steps. -/
example : ∃ s : TD.Cal (St TD.Batch Nat Int Nat) Int (List Nat), s.sent.length = 1 ∧
    Reported (exEnv TD.Batch) 1 exOpts (-1) exHeap (MadeTD exTd TD.demoOpt) s.est s.sent s.gains s.params := by
  have := SimTD.C115_one_window (env := SimTD.nsEnv) (p := SimTD.demo 1) (cenv := exTd) (o := TD.demoOpt) (fun _ => 1)
    ((exEnv TD.Batch).start (-1) 1 exOpts exHeap) (SimTD.demo_valid 1) (SimTD.demo_dt 1) (by norm_num [SimTD.demo])
    SimTD.demo_window SimTD.demo_segments (fun _ _ _ => rfl) exTd_accepts
  obtain ⟨s, w, g, d, b, h1, -, h2, -⟩ := this
  have h3 : s.sent.length = 1 := by rw [h2]; rfl
  exact ⟨s, h3, (C125_time_delay (ex_good TD.Batch) (by simp [exEnv]) (.inr rfl) rfl rfl (SimTD.demo_valid 1) (SimTD.demo_dt 1) h1
    (by rw [h3]; unfold IncProblem.maxBatches; norm_num)).2⟩

/-- the environment of the egomotion example: the calibration variables come last. -/
def exLate : Env (Ego.Batch Ego.Z) Nat Int Nat := { exEnv (Ego.Batch Ego.Z) with late := true }

open Classical in
/-- the calibrator of the example with an iteration order for any map with finitely many entries. -/
noncomputable def exEgo' : Ego.Env Ego.Z (St (Ego.Batch Ego.Z) Nat Int Nat) Int (List Nat) Nat where
  sec := fun n => (n : ℚ) / 1000000000
  order := fun w => if h : Ego.FinBuf w then (List.range h.choose).filter fun k => decide (w k ≠ []) else []
  known := fun k => decide (k < 2)
  delay := fun _ _ => 100000000
  lroundInf := -9223372036854775808
  fit := fun _ _ _ => none
  addBatch := exLate.submit
  params := exLate.params
  eval := fun _ _ _ => (0, [], 0)

theorem exEgo'_ok : Ego.OrderOk exEgo' := Ego.orderEnv_ok

theorem exLate_good (x : Ego.Batch Ego.Z) : Good exLate x := ex_good (Ego.Batch Ego.Z) x

theorem exEgo'_accepts (b : Ego.Batch Ego.Z) : ∃ r s', exEgo'.addBatch (exLate.start (-1) 1 exOpts exHeap) b = .ok r s' := by
  have h1 : exEgo'.addBatch = exLate.submit := rfl
  rw [h1]
  exact ex_accepts exLate_good (by simp [exLate, exEnv]) (fun n i => by simp [exLate, exEnv])
    (fun n => by simp [exLate, exEnv]) b

/-- `C125_egomotion` applies to a simulation of eight steps with two sensors. -/
example : ∃ s : Ego.Cal Ego.Z (St (Ego.Batch Ego.Z) Nat Int Nat) Int (List Nat), s.sent.length = 1 ∧
    Reported exLate 1 exOpts (-1) exHeap (MadeEgo exEgo' Ego.demoOpt) s.est.inner s.sent s.gains
      s.params := by
  have := SimEgo.C91_one_window (cenv := exEgo') (o := Ego.demoOpt) (noisy := true)
    (e := ⟨exLate.start (-1) 1 exOpts exHeap, 1⟩) (keys := [1, 0])
    (SimEgo.demo_good .combined) exEgo'_ok (by simp)
    (by simp [SimEgo.demo, or_comm]) rfl (by simp [SimEgo.demo])
    (by norm_num [SimEgo.demo]) SimEgo.demo_window SimEgo.demo_known (fun _ _ _ => rfl) SimEgo.demo_segs
    exEgo'_accepts
  obtain ⟨s, w, g, h1, h2, -⟩ := this
  have h3 : s.sent.length = 1 := by rw [h2]; rfl
  exact ⟨s, h3, (C125_egomotion exLate_good
    (by simp [exLate, exEnv]) (.inr rfl) rfl rfl (SimEgo.demo_good .combined) exEgo'_ok (by simp) (by simp [SimEgo.demo, or_comm]) rfl h1
    (by rw [h3]; unfold IncProblem.maxBatches; norm_num)).2⟩

end CalibLib
end Verif
