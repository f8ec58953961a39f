import Verif.Props.SimEgo
import Verif.Lemmas.SimEgo3

/-!
# The program on one window (C91), the simulated trajectory (C92) and `bestQuat` (C93)
-/

namespace Verif
namespace SimEgo
open SimTD (Vec3 Quat Pose Path)
variable {T : Type} [Group T] {E G P V : Type}

/-! ## C91: a run that fits one window -/

/-- Measurements that all fit one window are only collected. -/
theorem collect {cenv : Ego.Env T E G P V} {o : Ego.Opt} (l0 : List (Ego.Meas T))
    (hw : ∀ a ∈ l0, ∀ b ∈ l0, FitsInt64 (a.t - b.t) ∧ cenv.sec (a.t - b.t) < o.window) (l : List (Ego.Meas T)) :
    ∀ s : Ego.Cal T E G P, (∀ m ∈ l, m ∈ l0) → (s.start = -1 ∨ ∃ b ∈ l0, s.start = b.t) →
      ∃ s', Win.runOps (Ego.cfg cenv o) s (l.map Win.Op.add) = .ok () s' ∧ s'.sent = s.sent ∧ s'.est = s.est ∧ s'.gains = s.gains := by
  induction l with
  | nil => intro s _ _; exact ⟨s, rfl, rfl, rfl, rfl⟩
  | cons m l ih =>
    intro s hl hs
    have hm : m ∈ l0 := hl m List.mem_cons_self
    have hst : ∃ b ∈ l0, (s.stamped m.t).start = b.t := by
      unfold Win.stamped
      simp only
      split_ifs with h
      · exact ⟨m, hm, rfl⟩
      · exact hs.resolve_left h
    obtain ⟨b, hb, hbt⟩ := hst
    obtain ⟨h1, h2⟩ := hw m hm b hb
    have hadd : s.add (Ego.cfg cenv o) m =
        .ok () { s.stamped m.t with buf := Win.push (Ego.cfg cenv o) (s.stamped m.t).buf m } := by
      unfold Win.add
      have e1 : (Ego.cfg cenv o).time m = m.t := rfl
      rw [e1, Win.addMeasurement_eq, hbt, if_neg (by unfold FitsInt64 at h1; omega), if_neg (show ¬ (Ego.cfg cenv o).sec (m.t - b.t) ≥ (Ego.cfg cenv o).window from not_le.mpr h2)]
      rfl
    obtain ⟨s', r1, r2, r3, r4⟩ := ih _ (fun x hx => hl x (List.mem_cons_of_mem _ hx))
      (Or.inr ⟨b, hb, hbt⟩ : ({ s.stamped m.t with buf := Win.push (Ego.cfg cenv o) (s.stamped m.t).buf m } : Ego.Cal T E G P).start = -1 ∨ _)
    refine ⟨s', ?_, r2, r3, r4⟩
    simp only [List.map_cons, Win.runOps, Win.Op.run]
    rw [hadd]
    exact r1

theorem allTerms_some {cenv : Ego.Env T E G P V} {o : Ego.Opt} {e : E} {lo hi : ℤ} {w : ℕ → List (Ego.Meas T)} {ks : List ℕ}
    (h : ∀ k ∈ ks, k = o.ref ∨ cenv.known k = true) : ∃ l, Ego.allTerms cenv o e lo hi w ks = some l := by
  induction ks with
  | nil => exact ⟨[], rfl⟩
  | cons k ks ih =>
    obtain ⟨l, hl⟩ := ih fun x hx => h x (List.mem_cons_of_mem _ hx)
    rw [Ego.allTerms]
    have : ∃ l', Ego.sensorTerms cenv o e lo hi w k = some l' := by
      unfold Ego.sensorTerms
      rcases h k List.mem_cons_self with h1 | h1
      · rw [if_pos h1]; exact ⟨_, rfl⟩
      · split_ifs
        · exact ⟨_, rfl⟩
        · exact ⟨_, rfl⟩
    obtain ⟨l', hl'⟩ := this
    rw [hl', hl]
    exact ⟨_, rfl⟩

/-- **C91.**  If all simulated measurements fit one window, every simulated sensor is known to the calibrator, its splines can be
fitted and the estimator accepts the batch, then the program returns, with exactly one batch submitted: the whole simulation. -/
theorem C91_one_window {env : Env T} {p : Params T} {cenv : Ego.Env T E G P V} {o : Ego.Opt} {keys : List ℕ} {noisy : Bool}
    {e : Ego.St T E} (hgood : Good env p) (ho : Ego.OrderOk cenv) (hkd : keys.Nodup)
    (hk : ∀ k, k ∈ keys ↔ k ∈ p.sensors) (href : o.ref = p.ref) (hmem : p.ref ∈ p.sensors) (hstep : p.dt < p.dur)
    (hwin : ∀ n, p.Steps n → ∀ k ∈ p.sensors, ∀ k' ∈ p.sensors, ∀ i < n, ∀ j < n,
      ∀ x : ℤ, x = ((i : ℤ) - j) * env.ns p.dt + (p.delay k - p.delay k') → FitsInt64 x ∧ cenv.sec x < o.window)
    (hknown : ∀ k ∈ p.sensors, k ≠ p.ref → cenv.known k = true)
    (hfit : ∀ e l n, cenv.fit e l n = none)
    (hseg : ∀ n : ℕ, p.Steps n → FitsInt32 ⌈(o.knots : ℚ) * ((((n : ℤ) * env.ns p.dt : ℤ) : ℚ) / 1000000000)⌉)
    (hadd : ∀ b, ∃ g e', cenv.addBatch e.inner b = .ok g e') :
    ∃ s w g, main env p cenv o keys noisy e = .ok () s ∧ s.sent = [w] ∧ s.gains = [g] ∧ (∀ k, s.buf k = []) ∧
      ∀ k, (w k).length ≠ 0 ↔ k ∈ p.sensors := by
  obtain ⟨n, poses, seg, S, d, h1, h4, hsim, hc, hn⟩ := simulate_new env p hgood
  let r : ℕ → ℕ → Ego.Meas T := fun k => if noisy then noisyReading env p S k else reading env p S k
  have hn1 : 1 ≤ n := (h1 1 le_rfl).mp (by simpa using hstep)
  have hrt : ∀ k j, (r k j).t = ((j : ℤ) + 1) * env.ns p.dt + p.delay k := by intro k j; cases noisy <;> rfl
  have hrd : ∀ k j, (r k j).duration = env.ns p.dt := by intro k j; cases noisy <;> rfl
  have hrs : ∀ k j, (r k j).sensor = k := by intro k j; cases noisy <;> rfl
  have hd : ∀ k, (if noisy then d.noisy else d.clean) k = if k ∈ p.sensors then (List.range n).map (r k) else [] := by
    intro k
    cases noisy
    · exact hc k
    · exact hn k
  rw [main_eq hk href hsim n r hd, if_pos ⟨hmem, hn1⟩]
  have hmemS : ∀ m ∈ stream keys n r, ∃ k ∈ p.sensors, ∃ i < n, m = r k i := by
    intro m hm
    obtain ⟨i, hi, hm⟩ := List.mem_flatMap.mp hm
    obtain ⟨k, hk', rfl⟩ := List.mem_map.mp hm
    exact ⟨k, (hk k).mp hk', i, List.mem_range.mp hi, rfl⟩
  obtain ⟨s, hr, hsent, hest, hg⟩ := collect (cenv := cenv) (o := o) (stream keys n r) (by
      intro a ha b hb
      obtain ⟨k, hk1, i, hi, rfl⟩ := hmemS a ha
      obtain ⟨k', hk2, j, hj, rfl⟩ := hmemS b hb
      refine hwin n h1 k hk1 k' hk2 i hi j hj _ ?_
      rw [hrt, hrt]; ring) (stream keys n r) (Win.init (Ego.cfg cenv o) e) (fun _ h => h) (Or.inl rfl)
  rw [hr]
  simp only [Res.bind]
  have hsent' : s.sent = [] := hsent
  have hg' : s.gains = [] := hg
  have hbuf : ∀ k, s.buf k = if k ∈ p.sensors then (List.range n).map (r k) else [] := by
    intro k
    have := stream_buf hr k
    rw [hsent', stream_sensor hkd n hrs] at this
    simpa [hk k] using this
  obtain ⟨acc, gone, hrun⟩ := run_of_adds _ Win.Run.init hr
  have hne : s.buf o.ref ≠ [] := by
    rw [hbuf, href, if_pos hmem]
    intro hc
    have := congrArg List.length hc
    simp at this
    omega
  have hu : Ego.unprocessed cenv s = true := (Ego.C72_unprocessed ho hrun).mpr ⟨o.ref, hne⟩
  rw [if_pos hu]
  -- the batch
  have hprep : ∃ b e', Ego.prepare cenv o e s.buf = .ok b e' ∧ e'.inner = e.inner := by
    obtain ⟨m, ms, hms⟩ := List.exists_cons_of_ne_nil hne
    have hint := Ego.integrate_eq m ms e.prev
    have hlist : m :: ms = (List.range n).map (r p.ref) := by rw [← hms, hbuf, href, if_pos hmem]
    have hm0 : m = r p.ref 0 := by
      have := congrArg List.head? hlist
      rw [List.head?_cons, List.head?_map, List.head?_range] at this
      have hn0 : n ≠ 0 := by omega
      simpa [hn0] using this
    have hdel : p.delay p.ref = 0 := by simp [Params.delay]
    have hmin : Ego.tMin (Ego.integrate (m :: ms) [] e.prev).1 = 0 := by
      rw [hint]
      unfold Ego.tMin
      simp only [List.head?_cons]
      rw [hm0, hrt, hrd, hdel]; push_cast; ring
    have hdr : ∀ (l : List (Ego.Meas T)) (q : T), ((Ego.deadReckoning q l).map Prod.fst) = l.map Ego.Meas.t := by
      intro l
      induction l with
      | nil => intro q; rfl
      | cons a l ih => intro q; simp [Ego.deadReckoning, ih]
    have hmax : Ego.tMax (Ego.integrate (m :: ms) [] e.prev).1 = (n : ℤ) * env.ns p.dt := by
      rw [hint]
      have hh : (((m.t - m.duration, e.prev) :: Ego.deadReckoning e.prev (m :: ms)).map Prod.fst).getLast? = some ((n : ℤ) * env.ns p.dt) := by
        rw [List.map_cons, hdr, hlist, List.map_map]
        obtain ⟨n', rfl⟩ : ∃ n', n = n' + 1 := ⟨n - 1, by omega⟩
        rw [List.range_succ, List.map_append, ← List.cons_append, List.map_cons, List.map_nil, List.getLast?_append]
        simp [hrt, hdel]
      rw [List.getLast?_map] at hh
      unfold Ego.tMax
      cases hgl : ((m.t - m.duration, e.prev) :: Ego.deadReckoning e.prev (m :: ms)).getLast? with
      | none => rw [hgl] at hh; simp at hh
      | some q =>
        rw [hgl] at hh
        simpa using hh
    have hel : Ego.elapsed (Ego.integrate (m :: ms) [] e.prev).1 = (((n : ℤ) * env.ns p.dt : ℤ) : ℚ) / 1000000000 := by
      unfold Ego.elapsed; rw [hmin, hmax, sub_zero]
    have hsegs : ∃ q, Ego.numSegments cenv.lroundInf o.knots (m :: ms).length (Ego.integrate (m :: ms) [] e.prev).1 = some q := by
      unfold Ego.numSegments
      rw [hel]
      simp only
      split_ifs
      · exact ⟨_, by unfold Ego.toInt32; exact if_pos (hseg n h1)⟩
      · exact ⟨_, rfl⟩
      · exact ⟨_, by unfold Ego.toInt32; exact if_pos (hseg n h1)⟩
      · exact ⟨_, rfl⟩
    obtain ⟨q, hq⟩ := hsegs
    have hks : ∀ k ∈ cenv.order s.buf, k = o.ref ∨ cenv.known k = true := by
      intro k hk'
      have hnb := ((ho s.buf (Ego.finBuf hrun)).2 k).mp hk'
      rw [hbuf] at hnb
      by_cases hkr : k = o.ref
      · exact Or.inl hkr
      · right
        apply hknown
        · by_contra hc; rw [if_neg hc] at hnb; exact hnb rfl
        · rw [← href]; exact hkr
    unfold Ego.prepare Ego.initSplines
    rw [hms]
    simp only [List.isEmpty_cons, Bool.false_eq_true, if_false, hq, hfit]
    obtain ⟨ts, hts⟩ := allTerms_some (cenv := cenv) (o := o) (e := e.inner) (lo := Ego.tMin (Ego.integrate (m :: ms) [] e.prev).1)
      (hi := Ego.tMax (Ego.integrate (m :: ms) [] e.prev).1) (w := s.buf) hks
    rw [hts]
    exact ⟨_, _, rfl, rfl⟩
  obtain ⟨b, e', hb, he'⟩ := hprep
  obtain ⟨g, e'', hge⟩ := hadd b
  have hest' : s.est = e := hest
  have hfin : s.addMeasurements (Ego.cfg cenv o) =
      .ok () { s.clear with start := s.last, sent := s.sent ++ [s.buf], est := ⟨e'', e'.prev⟩, gains := s.gains ++ [g],
                            params := s.params ++ [cenv.params e''] } := by
    unfold Win.addMeasurements
    rw [if_neg (by simp [Ego.cfg])]
    have h1 : (Ego.cfg cenv o).prepare s.est s.buf = .ok b e' := by rw [hest']; exact hb
    have h2 : (Ego.cfg cenv o).addBatch e' b = .ok g ⟨e'', e'.prev⟩ := by
      show Ego.addBatch cenv e' b = _
      unfold Ego.addBatch; rw [he', hge]
    rw [h1]
    simp only [h2]
    rfl
  refine ⟨_, s.buf, g, hfin, by simp [hsent'], by simp [hg'], fun _ => rfl, fun k => ?_⟩
  rw [hbuf]
  split_ifs with hkk
  · simp only [List.length_map, List.length_range, hkk, iff_true]; omega
  · simp [hkk]

theorem demo_window : ∀ n, (demo .combined).Steps n → ∀ k ∈ (demo .combined).sensors, ∀ k' ∈ (demo .combined).sensors, ∀ i < n, ∀ j < n,
    ∀ x : ℤ, x = ((i : ℤ) - j) * demoEnv.ns (demo .combined).dt + ((demo .combined).delay k - (demo .combined).delay k') →
      FitsInt64 x ∧ (x : ℚ) / 1000000000 < 10 := by
  intro n hn k hk k' hk' i hi j hj x hx
  rw [demo_steps _ n hn] at hi hj
  rw [demo_ns] at hx
  have hdel : ∀ k, 0 ≤ (demo .combined).delay k ∧ (demo .combined).delay k ≤ 5 := by
    intro k
    unfold Params.delay
    simp only [demo]
    by_cases h0 : k = 0
    · simp [h0]
    · by_cases h1 : k = 1
      · simp [h1]
      · simp [h0, h1]
  have h1 := hdel k
  have h2 := hdel k'
  have hb : -8000000000 ≤ x ∧ x ≤ 8000000000 := by constructor <;> omega
  refine ⟨by unfold FitsInt64; omega, ?_⟩
  show (x : ℚ) / 1000000000 < 10
  have : (x : ℚ) ≤ 8000000000 := by exact_mod_cast hb.2
  linarith

theorem demo_known : ∀ k ∈ (demo .combined).sensors, k ≠ (demo .combined).ref → decide (k < 2) = true := by
  intro k hk hr
  simp only [demo, List.mem_cons, List.not_mem_nil, or_false] at hk
  rcases hk with rfl | rfl
  · exact absurd rfl hr
  · rfl

theorem demo_segs : ∀ n, (demo .combined).Steps n →
    FitsInt32 ⌈(Ego.demoOpt.knots : ℚ) * ((((n : ℤ) * demoEnv.ns (demo .combined).dt : ℤ) : ℚ) / 1000000000)⌉ := by
  intro n hn
  rw [demo_steps _ n hn, demo_ns]
  norm_num [Ego.demoOpt, FitsInt32]

/-- The hypotheses of `C91_one_window`, and so those of `C91_end_to_end`, are met: the eight steps of the example and the
calibrator of the other file, with windows of ten seconds. -/
example : ∃ s w g, main demoEnv (demo .combined) Ego.orderEnv Ego.demoOpt [1, 0] true ⟨0, 1⟩ = .ok () s ∧ s.sent = [w] ∧ s.gains = [g] ∧
    (∀ k, s.buf k = []) ∧ ∀ k, (w k).length ≠ 0 ↔ k ∈ (demo .combined).sensors := by
  refine C91_one_window (demo_good _) Ego.orderEnv_ok (by simp) (by simp [demo, or_comm]) rfl (by simp [demo])
    (by norm_num [demo]) demo_window demo_known (fun _ _ _ => rfl) demo_segs (fun b => ⟨_, _, rfl⟩)

/-- A simulation shorter than a step meets the hypotheses of `C91_nothing_to_calibrate`. -/
example : Good demoEnv ({ demo .straight with dur := 1 / 2 } : Params (Multiplicative ℤ)) ∧
    ({ demo .straight with dur := 1 / 2 } : Params (Multiplicative ℤ)).dur ≤ (demo .straight).dt := by
  obtain ⟨a, b, c, _, d, e, f, _, g⟩ := demo_good .straight
  refine ⟨⟨a, b, c, by norm_num, d, e, f, ?_, g⟩, by norm_num [demo]⟩
  intro n hn
  have h0 : n = 0 := by
    by_contra hne
    have := (hn 1 le_rfl).mpr (by omega)
    norm_num [demo] at this
  rw [h0]
  norm_num [FitsInt32]

/-! ## C92: the simulated trajectory -/

omit [Group T] in
/-- **C92** (the part that holds for every kind).  The poses start with the configured one, are stamped `0, dt, 2 dt, …`, keep unit
quaternions, and no two consecutive quaternions have opposite signs. -/
theorem C92_poses (env : Env T) (p : Params T) (hd : 0 < p.dt) (hu : p.w_T_v_0.q.norm2 = 1) {g : Gen}
    (h : generate env p = .ok () g) :
    g.poses.head? = some (0, p.w_T_v_0) ∧
    (∀ (i : ℕ) (hi : i < g.poses.length), (g.poses[i]).1 = (i : ℤ) * env.ns p.dt ∧ (g.poses[i]).2.q.norm2 = 1) ∧
    (∀ (i : ℕ) (hi : i + 1 < g.poses.length), 0 ≤ dot (g.poses[i]).2.q (g.poses[i + 1]).2.q) := by
  obtain ⟨n, g', hg, hi⟩ := generate_returns env p hd
  rw [h] at hg
  simp only [Res.ok.injEq, true_and] at hg
  subst hg
  refine ⟨hi.start, fun i h => ⟨?_, hi.unit hu _ (List.getElem_mem h)⟩, hi.signs⟩
  have := congrArg (fun l => l[i]?) hi.stamps
  simp only [List.getElem?_map, List.getElem?_eq_getElem h, Option.map_some] at this
  rw [List.getElem?_range (by have := hi.length; omega)] at this
  simpa using this

/-- The amplitude of the path of a planar trajectory. -/
def amplitude (p : Params T) : ℝ := if p.kind = .straight then 0 else p.A

omit [Group T] in
/-- **C92** (straight and sine trajectories).  In step `i` the vehicle advances by the projection of the step of the configured
path on its heading, so never farther than that path. -/
theorem C92_planar_steps (env : Env T) (p : Params T) (hd : 0 < p.dt) (hu : p.w_T_v_0.q.norm2 = 1)
    (hk : p.kind = .straight ∨ p.kind = .other) {g : Gen} (h : generate env p = .ok () g) (i : ℕ)
    (hi : i + 1 < g.poses.length) :
    dist (g.poses[i + 1]).2.r (g.poses[i]).2.r =
      |Real.cos (heading p (amplitude p) ((i + 1 : ℕ) * p.dt)) * ((pathPoint p (amplitude p) (i + 1)).x - (pathPoint p (amplitude p) i).x) +
       Real.sin (heading p (amplitude p) ((i + 1 : ℕ) * p.dt)) * ((pathPoint p (amplitude p) (i + 1)).y - (pathPoint p (amplitude p) i).y)| ∧
    dist (g.poses[i + 1]).2.r (g.poses[i]).2.r ≤ dist (pathPoint p (amplitude p) (i + 1)) (pathPoint p (amplitude p) i) := by
  have hmain : ∀ (path : Path), path.x = 0 → path.y = 0 → generate env p = genPhase env p false (amplitude p) p.dur (genInit p path) →
      dist (g.poses[i + 1]).2.r (g.poses[i]).2.r =
      |Real.cos (heading p (amplitude p) ((i + 1 : ℕ) * p.dt)) * ((pathPoint p (amplitude p) (i + 1)).x - (pathPoint p (amplitude p) i).x) +
       Real.sin (heading p (amplitude p) ((i + 1 : ℕ) * p.dt)) * ((pathPoint p (amplitude p) (i + 1)).y - (pathPoint p (amplitude p) i).y)| := by
    intro path hx hy heq
    obtain ⟨m, r1, i1, _, _⟩ := phase_ok hd (genInit_inv env p path) false (amplitude p) p.dur
    rw [heq, r1] at h
    simp only [Res.ok.injEq, true_and] at h
    subst h
    have hlen := i1.length
    obtain ⟨a, b, ha, hb, hab⟩ := phase_dist hd (genInit_inv env p path) hu (amplitude p) (by simp [genInit]) m i (by omega)
    rw [Nat.zero_add] at ha hb hab
    have ha' : (genSeq env p false (amplitude p) (genInit p path) m).poses[i] = a := by
      rw [List.getElem?_eq_getElem (by omega)] at ha; exact Option.some.inj ha
    have hb' : (genSeq env p false (amplitude p) (genInit p path) m).poses[i + 1] = b := by
      rw [List.getElem?_eq_getElem hi] at hb; exact Option.some.inj hb
    rw [ha', hb', hab]
    have hpx : (genInit p path).path = path := rfl
    rw [hpx, hx, hy]
    congr 3
    · split_ifs with h0
      · subst h0; simp [pathPoint]
      · rfl
    · split_ifs with h0
      · subst h0; simp [pathPoint]
      · rfl
  have hexact : dist (g.poses[i + 1]).2.r (g.poses[i]).2.r =
      |Real.cos (heading p (amplitude p) ((i + 1 : ℕ) * p.dt)) * ((pathPoint p (amplitude p) (i + 1)).x - (pathPoint p (amplitude p) i).x) +
       Real.sin (heading p (amplitude p) ((i + 1 : ℕ) * p.dt)) * ((pathPoint p (amplitude p) (i + 1)).y - (pathPoint p (amplitude p) i).y)| := by
    rcases hk with hk | hk
    · exact hmain ⟨0, 0, 0⟩ rfl rfl (by unfold generate amplitude; rw [hk]; simp)
    · exact hmain (curvedStart p) rfl rfl (by unfold generate amplitude; rw [hk]; simp)
  refine ⟨hexact, ?_⟩
  rw [hexact]
  unfold dist Vec3.norm Vec3.sub
  have hz : (pathPoint p (amplitude p) (i + 1)).z - (pathPoint p (amplitude p) i).z = 0 := by simp [pathPoint]
  simp only [hz]
  exact advance_le _ _ _

omit [Group T] in
/-- **C92** (straight trajectories).  Every step is `dt` long: one metre per second. -/
theorem C92_straight_speed (env : Env T) (p : Params T) (hd : 0 < p.dt) (hu : p.w_T_v_0.q.norm2 = 1)
    (hk : p.kind = .straight) {g : Gen} (h : generate env p = .ok () g) (i : ℕ) (hi : i + 1 < g.poses.length) :
    dist (g.poses[i + 1]).2.r (g.poses[i]).2.r = p.dt := by
  rw [(C92_planar_steps env p hd hu (Or.inl hk) h i hi).1]
  have : amplitude p = 0 := by simp [amplitude, hk]
  rw [this]
  simp only [heading, pathPoint, mul_zero, zero_mul, Real.arctan_zero, Real.cos_zero, Real.sin_zero, one_mul, add_zero]
  rw [← abs_of_pos hd]
  congr 1
  rw [abs_of_pos hd]
  push_cast; ring

/-- The hypotheses of the three theorems above are met by the example, whose trajectory has nine poses. -/
example : ∃ g, generate demoEnv (demo .straight) = .ok () g ∧ 0 < (demo .straight).dt ∧ (demo .straight).w_T_v_0.q.norm2 = 1 ∧
    g.poses.length = 9 := by
  obtain ⟨n, g, hn, hg, hi⟩ := generate_ok demoEnv (demo .straight) (by norm_num [demo]) (demo_exact _) (by norm_num [demo])
  refine ⟨g, hg, by norm_num [demo], by norm_num [demo, Quat.norm2], ?_⟩
  rw [hi.length, demo_steps _ n hn]

omit [Group T] in
/-- **C92** (negation, combined trajectories).  The second third of a combined trajectory starts its path again at the origin but
not its clock: at its first step the vehicle advances by the projection of the whole path from the origin to where the path
is at that time. -/
theorem C92_combined_jump (env : Env T) (p : Params T) (hd : 0 < p.dt) (he : Exact env p) (hu : p.w_T_v_0.q.norm2 = 1)
    (hk : p.kind = .combined) {g : Gen} (h : generate env p = .ok () g) (n : ℕ)
    (hn : ∀ k : ℕ, 1 ≤ k → ((k : ℝ) * p.dt < p.dur / 3 ↔ k ≤ n)) (h2 : ((n + 1 : ℕ) : ℝ) * p.dt < 2 / 3 * p.dur) :
    ∃ a b : ℤ × Pose, g.poses[n]? = some a ∧ g.poses[n + 1]? = some b ∧
      dist b.2.r a.2.r =
        |Real.cos (heading p p.A ((n + 1 : ℕ) * p.dt)) * (pathPoint p p.A (n + 1)).x +
         Real.sin (heading p p.A ((n + 1 : ℕ) * p.dt)) * (pathPoint p p.A (n + 1)).y| := by
  unfold generate at h
  rw [hk] at h
  simp only at h
  obtain ⟨m1, r1, i1, a1, b1⟩ := phase_ok hd (genInit_inv env p ⟨0, 0, 0⟩) false 0 (p.dur / 3)
  obtain ⟨m2, r2, i2, a2, b2⟩ := phase_ok hd (i1.reset (curvedStart p)) false p.A (2 / 3 * p.dur)
  obtain ⟨m3, r3, i3, a3, b3⟩ := phase_ok hd (i2.reset (curvedStart p)) true p.A p.dur
  simp only [r1, Res.bind, r2, r3, Res.ok.injEq, true_and] at h
  have s1 := steps_of_phase p.dt _ _ hd 0 m1 (by simp [genInit]) a1 b1 (by intro k h1 h2; omega)
  have hnm : n = 0 + m1 := by
    apply le_antisymm
    · by_contra hc
      push Not at hc
      have := (s1 n (by omega)).mp ((hn n (by omega)).mpr le_rfl)
      omega
    · by_contra hc
      push Not at hc
      have := (hn (0 + m1) (by omega)).mp ((s1 (0 + m1) (by omega)).mpr le_rfl)
      omega
  have ht : ({ genSeq env p false 0 (genInit p ⟨0, 0, 0⟩) m1 with
      path := curvedStart p, t := env.sec (genSeq env p false 0 (genInit p ⟨0, 0, 0⟩) m1).stamp + p.dt } : Gen).t =
      (((0 + m1 : ℕ) : ℝ) + 1) * p.dt := by
    simp only
    rw [i1.stamp, he]; push_cast; ring
  have hm2 : 0 < m2 := by
    rcases Nat.eq_zero_or_pos m2 with h0 | h0
    · subst h0
      exfalso
      apply b2
      rw [ht, ← hnm]
      simpa using h2
    · exact h0
  obtain ⟨a, b, ha, hb, hab⟩ := phase_dist hd (i1.reset (curvedStart p)) hu p.A ht m2 0 hm2
  rw [← hnm] at ha hb hab
  rw [Nat.add_zero] at ha hb hab
  have hpre := genSeq_prefix env p true p.A
    { genSeq env p false p.A { genSeq env p false 0 (genInit p ⟨0, 0, 0⟩) m1 with
        path := curvedStart p, t := env.sec (genSeq env p false 0 (genInit p ⟨0, 0, 0⟩) m1).stamp + p.dt } m2 with
      path := curvedStart p, t := env.sec (genSeq env p false p.A { genSeq env p false 0 (genInit p ⟨0, 0, 0⟩) m1 with
        path := curvedStart p, t := env.sec (genSeq env p false 0 (genInit p ⟨0, 0, 0⟩) m1).stamp + p.dt } m2).stamp + p.dt } 0 m3
  obtain ⟨l, hl⟩ := hpre
  rw [Nat.zero_add, h, genSeq] at hl
  simp only at hl
  refine ⟨a, b, ?_, ?_, ?_⟩
  · rw [hl, List.getElem?_append_left]
    · exact ha
    · by_contra hc
      rw [List.getElem?_eq_none (by omega)] at ha; cases ha
  · rw [hl, List.getElem?_append_left]
    · exact hb
    · by_contra hc
      rw [List.getElem?_eq_none (by omega)] at hb; cases hb
  · rw [hab]
    simp [curvedStart]

/-- **C92** (negation, instance).  With amplitude zero and steps of one second, a combined trajectory of nine seconds, whose first
two thirds are straight at one metre per second, jumps by three metres in its third step. -/
theorem C92_combined_counterexample : ∃ (g : Gen) (a b : ℤ × Pose), generate demoEnv (demo .combined) = .ok () g ∧
    g.poses[2]? = some a ∧ g.poses[3]? = some b ∧ dist b.2.r a.2.r = 3 ∧
    dist (pathPoint (demo .combined) (demo .combined).A 3) (pathPoint (demo .combined) (demo .combined).A 2) = 1 := by
  obtain ⟨n, g, hg, _⟩ := generate_returns demoEnv (demo .combined) (by norm_num [demo])
  obtain ⟨a, b, ha, hb, hab⟩ := C92_combined_jump demoEnv (demo .combined) (by norm_num [demo]) (demo_exact _)
    (by norm_num [demo, Quat.norm2]) rfl hg 2 (by
      intro k hk
      simp only [demo, mul_one]
      constructor
      · intro h
        have : (k : ℝ) < 3 := by linarith
        have : k < 3 := by exact_mod_cast this
        omega
      · intro h
        have : (k : ℝ) ≤ 2 := by exact_mod_cast h
        linarith) (by norm_num [demo])
  refine ⟨g, a, b, hg, ha, hb, ?_, ?_⟩
  · rw [hab]
    norm_num [heading, pathPoint, demo]
  · simp only [dist, Vec3.norm, Vec3.sub, pathPoint, demo]
    norm_num

/-! ## C93: `bestQuat` -/

/-- **C93.**  `bestQuat(p, c)` represents the same rotation as `c`, has the same norm, and of the two representatives is the one
closer to `p`: their inner product is not negative. -/
theorem C93_best (p c : Quat) :
    (bestQuat p c = c ∨ bestQuat p c = qneg c) ∧ (∀ v, (bestQuat p c).rotate v = c.rotate v) ∧
    (bestQuat p c).norm2 = c.norm2 ∧ dot p (bestQuat p c) = |dot p c| ∧
    (qsub p (bestQuat p c)).norm2 ≤ (qsub p c).norm2 ∧ (qsub p (bestQuat p c)).norm2 ≤ (qsub p (qneg c)).norm2 := by
  refine ⟨(bestQuat_cases p c).imp And.left And.left, bestQuat_rotate p c, bestQuat_norm2 p c, bestQuat_dot p c, ?_⟩
  have hexp : ∀ x : Quat, (qsub p x).norm2 = p.norm2 + x.norm2 - 2 * dot p x := by
    intro x; simp only [qsub, Quat.norm2, dot]; ring
  have hneg : dot p (qneg c) = -dot p c := by simp only [dot, qneg]; ring
  rw [hexp, hexp, hexp, bestQuat_norm2, bestQuat_dot, qneg_norm2, hneg]
  have h1 := le_abs_self (dot p c)
  have h2 := neg_le_abs (dot p c)
  constructor <;> linarith

/-- Both cases of `bestQuat` occur. -/
example : bestQuat ⟨0, 0, 0, 1⟩ ⟨1, 0, 0, -1⟩ = ⟨-1, 0, 0, 1⟩ ∧ bestQuat ⟨0, 0, 0, 1⟩ ⟨1, 0, 0, 1⟩ = ⟨1, 0, 0, 1⟩ := by
  constructor
  · rcases bestQuat_cases ⟨0, 0, 0, 1⟩ ⟨1, 0, 0, -1⟩ with ⟨_, h⟩ | ⟨h, _⟩
    · norm_num [dot] at h
    · rw [h]; simp [qneg]
  · rcases bestQuat_cases ⟨0, 0, 0, 1⟩ ⟨1, 0, 0, 1⟩ with ⟨h, _⟩ | ⟨_, h⟩
    · exact h
    · norm_num [dot] at h

/-- The loop turns the middle one of three quaternions around. -/
example : alignSigns [] [⟨0, 0, 0, 1⟩, ⟨0, 0, 0, -1⟩, ⟨0, 0, 0, 1⟩] = [⟨0, 0, 0, 1⟩, ⟨0, 0, 0, 1⟩, ⟨0, 0, 0, 1⟩] := by
  have h1 : bestQuat ⟨0, 0, 0, 1⟩ ⟨0, 0, 0, -1⟩ = ⟨0, 0, 0, 1⟩ := by
    rcases bestQuat_cases ⟨0, 0, 0, 1⟩ ⟨0, 0, 0, -1⟩ with ⟨_, h⟩ | ⟨h, _⟩
    · norm_num [dot] at h
    · rw [h]; simp [qneg]
  have h2 : bestQuat ⟨0, 0, 0, 1⟩ ⟨0, 0, 0, 1⟩ = ⟨0, 0, 0, 1⟩ := by
    rcases bestQuat_cases ⟨0, 0, 0, 1⟩ ⟨0, 0, 0, 1⟩ with ⟨h, _⟩ | ⟨_, h⟩
    · exact h
    · norm_num [dot] at h
  simp [alignSigns, h1, h2]

/-- **C93.**  The rotation control points of the three calibrators: as many as poses, the first unchanged, each representing the same
rotation as its pose, and no two consecutive ones of opposite sign - so that the spline does not swing through the origin. -/
theorem C93_aligned (qs : List Quat) : ∃ l, alignSigns [] qs = l ∧ l.length = qs.length ∧ l.head? = qs.head? ∧
    (∀ (i : ℕ) (h : i < l.length) (h' : i < qs.length), (l[i] = qs[i] ∨ l[i] = qneg qs[i]) ∧
      ∀ v, (l[i]).rotate v = (qs[i]).rotate v) ∧
    (∀ (i : ℕ) (h : i + 1 < l.length), (0 : ℝ) ≤ dot l[i] l[i + 1]) := by
  obtain ⟨l, h1, h2, h3, _, h5, h6⟩ := alignSigns_spec qs []
  refine ⟨l, by simpa using h1, h2, h6 rfl, fun i h h' => ⟨h3 i h h', fun v => ?_⟩, h5⟩
  rcases h3 i h h' with e | e
  · rw [e]
  · rw [e, qneg_rotate]

end SimEgo
end Verif
