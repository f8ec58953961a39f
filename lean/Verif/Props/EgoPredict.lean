import Verif.Props.Egomotion

/-! Property C116: the predictions of the egomotion calibrator. -/

namespace Verif
namespace Ego
open Win
variable {T E G P V : Type} [Group T]

/-- the lists of a sensor followed by prediction (with the time stamp of the measurement), error and squared error of each of the
terms (specification). -/
def PredLists.followedBy (l : PredLists V) (eval : Term T → V × List ℚ × ℚ) (ts : List (Term T)) : PredLists V where
  vals := l.vals ++ ts.map fun t => (t.m.t, (eval t).1)
  errs := l.errs ++ ts.map fun t => (eval t).2.1
  errs2 := l.errs2 ++ ts.map fun t => (eval t).2.2

theorem followedBy_nil (l : PredLists V) (eval : Term T → V × List ℚ × ℚ) : l.followedBy eval [] = l := by
  simp [PredLists.followedBy]

theorem push_followedBy (l : PredLists V) (eval : Term T → V × List ℚ × ℚ) (t : Term T) (ts : List (Term T)) :
    (l.push t.m.t (eval t)).followedBy eval ts = l.followedBy eval (t :: ts) := by
  simp [PredLists.followedBy, PredLists.push]

theorem predictRef_eq (env : Env T E G P V) (e : E) (kn : List (Int × T)) (ms : List (Meas T)) :
    ∀ (prev : Option Int) (l : PredLists V), predictRef env e kn prev ms l = l.followedBy (env.eval e kn) (refTerms prev ms) := by
  induction ms with
  | nil => intro prev l; cases prev <;> simp [predictRef, refTerms, followedBy_nil]
  | cons m ms ih =>
    intro prev l
    cases prev with
    | none => rw [predictRef, refTerms, ih]
    | some p =>
      rw [predictRef, refTerms, ih]
      exact push_followedBy l (env.eval e kn) ⟨m, p, m.t⟩ _

theorem predictOther_eq (env : Env T E G P V) (e : E) (kn : List (Int × T)) (bound d : Int) (ms : List (Meas T)) :
    ∀ (prev : Option Int) (l : PredLists V), predictOther env e kn bound d prev ms l =
      l.followedBy (env.eval e kn) (otherTerms bound (tMin kn) (tMax kn) d prev ms) := by
  induction ms with
  | nil => intro prev l; simp [predictOther, otherTerms, followedBy_nil]
  | cons m ms ih =>
    intro prev l
    cases prev with
    | none =>
      rw [predictOther, otherTerms]
      split_ifs with hc
      · exact ih _ l
      · exact ih _ l
    | some p =>
      rw [predictOther, otherTerms]
      split_ifs with hc
      · exact ih _ l
      · rw [ih]
        exact push_followedBy l (env.eval e kn) ⟨m, p, m.t - d⟩ _

theorem predictAll_eq (env : Env T E G P V) (o : Opt) (e : E) (kn : List (Int × T)) (w : Nat → List (Meas T)) (ks : List Nat) :
    ∀ p : Nat → PredLists V, ks.Nodup →
      (∀ ts, allTerms env o e (tMin kn) (tMax kn) w ks = some ts → predictAll env o e kn w ks p =
        .ok () fun k => if k ∈ ks then (p k).followedBy (env.eval e kn) (expected env o e (tMin kn) (tMax kn) w k) else p k) ∧
      (allTerms env o e (tMin kn) (tMax kn) w ks = none → ∃ p', predictAll env o e kn w ks p = .throw .stdOutOfRange p') := by
  induction ks with
  | nil => intro p _; exact ⟨fun ts _ => by simp [predictAll], fun h => by simp [allTerms] at h⟩
  | cons k ks ih =>
    intro p hn
    obtain ⟨hk, hn⟩ := List.nodup_cons.1 hn
    have hcomb : ∀ f : PredLists V, (∀ l, sensorTerms env o e (tMin kn) (tMax kn) w k = some l →
          f = (p k).followedBy (env.eval e kn) l) → sensorTerms env o e (tMin kn) (tMax kn) w k ≠ none →
        (∀ ts, allTerms env o e (tMin kn) (tMax kn) w (k :: ks) = some ts →
          predictAll env o e kn w ks (fun i => if i = k then f else p i) =
          .ok () fun j => if j ∈ k :: ks then (p j).followedBy (env.eval e kn) (expected env o e (tMin kn) (tMax kn) w j) else p j) ∧
        (allTerms env o e (tMin kn) (tMax kn) w (k :: ks) = none →
          ∃ p', predictAll env o e kn w ks (fun i => if i = k then f else p i) = .throw .stdOutOfRange p') := by
      intro f hf hne
      obtain ⟨l, hl⟩ := Option.ne_none_iff_exists'.1 hne
      obtain ⟨i1, i2⟩ := ih (fun i => if i = k then f else p i) hn
      rw [allTerms, hl]
      simp only
      constructor
      · intro ts hts
        obtain ⟨r, hr, -⟩ := Option.map_eq_some_iff.1 hts
        rw [i1 r hr]
        congr 1
        funext j
        by_cases hj : j = k
        · subst hj
          rw [if_neg hk, if_pos rfl, if_pos List.mem_cons_self, hf l hl, (sensorTerms_eq hl).1]
        · simp only [hj, if_false, List.mem_cons, false_or]
      · intro hnone
        exact i2 (Option.map_eq_none_iff.1 hnone)
    rw [predictAll]
    by_cases h1 : k = o.ref
    · rw [if_pos h1]
      exact hcomb _ (fun l hl => by
        rw [predictRef_eq]; unfold sensorTerms at hl; rw [if_pos h1] at hl; rw [Option.some.inj hl])
        (by unfold sensorTerms; rw [if_pos h1]; simp)
    · rw [if_neg h1]
      by_cases h2 : env.known k
      · rw [if_pos h2]
        exact hcomb _ (fun l hl => by
          rw [predictOther_eq]; unfold sensorTerms at hl; rw [if_neg h1, if_pos h2] at hl; rw [Option.some.inj hl])
          (by unfold sensorTerms; rw [if_neg h1, if_pos h2]; simp)
      · rw [if_neg h2]
        have : allTerms env o e (tMin kn) (tMax kn) w (k :: ks) = none := by
          rw [allTerms]; unfold sensorTerms; rw [if_neg h1, if_neg h2]
        rw [this]
        exact ⟨fun ts h => (by cases h), fun _ => ⟨p, rfl⟩⟩

/-- **C116**: `predict` and building a batch from the same buffers agree in every case: if a batch can be built, `predict` returns,
having appended for every sensor prediction, error and squared error of exactly the error terms the batch has for that sensor, in
order, evaluated with the batch's trajectory and the current estimate; if building throws or is undefined, so is `predict`.  In
every case buffers, window, submitted windows and histories stay as they are, and the estimator is not touched. -/
theorem C116_predictions {env : Env T E G P V} {o : Opt} {e0 : St T E} {s : Cal T E G P} {acc : List (Meas T)}
    {gone : List (Nat → List (Meas T))} (ho : OrderOk env) (hr : Run (cfg env o) e0 s acc gone) (p : Nat → PredLists V) :
    (∃ b e', prepare env o s.est s.buf = .ok b e' ∧ e'.inner = s.est.inner ∧
      predict env o s p = .ok () (fun k => (p k).followedBy (env.eval s.est.inner b.knots)
        (b.terms.filter fun t => decide (t.m.sensor = k)), { s with est := e' })) ∨
    (∃ x e' p', prepare env o s.est s.buf = .throw x e' ∧ e'.inner = s.est.inner ∧
      predict env o s p = .throw x (p', { s with est := e' })) ∨
    (prepare env o s.est s.buf = .ub ∧ predict env o s p = .ub) := by
  have hw := (separate hr).1
  cases hi : initSplines env o s.est s.buf with
  | throw x e' =>
    refine Or.inr (Or.inl ⟨x, e', p, by unfold prepare; rw [hi], ?_, by unfold predict; rw [hi]⟩)
    unfold initSplines at hi
    split at hi
    · simp only [Res.throw.injEq] at hi; rw [← hi.2]
    · simp only at hi
      split at hi
      · cases hi
      · split at hi
        · simp only [Res.throw.injEq] at hi; rw [← hi.2]
        · cases hi
  | ub => exact Or.inr (Or.inr ⟨by unfold prepare; rw [hi], by unfold predict; rw [hi]⟩)
  | diverge =>
    exfalso
    unfold initSplines at hi
    split at hi
    · cases hi
    · simp only at hi
      split at hi
      · cases hi
      · split at hi <;> cases hi
  | ok r e' =>
    obtain ⟨kn, n⟩ := r
    obtain ⟨m, ms, h1, h2, h3, _⟩ := initSplines_ok hi
    have hin : e'.inner = s.est.inner := by rw [h3]
    obtain ⟨q1, q2⟩ := predictAll_eq env o e'.inner kn s.buf (env.order s.buf) p (ho _ (finBuf hr)).1
    cases ht : allTerms env o e'.inner (tMin kn) (tMax kn) s.buf (env.order s.buf) with
    | none =>
      obtain ⟨p', hp'⟩ := q2 ht
      refine Or.inr (Or.inl ⟨.stdOutOfRange, e', p', by unfold prepare; rw [hi]; simp only [ht], hin, ?_⟩)
      unfold predict; rw [hi]; simp only [hp', Res.mapState]
    | some ts =>
      refine Or.inl ⟨⟨kn, n, ts⟩, e', by unfold prepare; rw [hi]; simp only [ht], hin, ?_⟩
      unfold predict; rw [hi]; simp only [q1 ts ht, Res.mapState]
      congr 2
      funext k
      obtain ⟨h5, _⟩ := allTerms_eq ht
      rw [h5, filter_flatMap _ (fun k t ht => expected_sensor (fun x hx => hw k x hx) ht) _ (ho _ (finBuf hr)).1, hin]
      split_ifs with hk
      · rfl
      · rw [followedBy_nil]

/-- **C116**: the lists of each sensor are aligned: as many predictions as errors and squared errors, and at most one fewer than
buffered measurements of that sensor. -/
theorem C116_aligned {env : Env T E G P V} {o : Opt} {e0 : St T E} {s s' : Cal T E G P} {acc : List (Meas T)}
    {gone : List (Nat → List (Meas T))} (ho : OrderOk env) (hr : Run (cfg env o) e0 s acc gone) {p' : Nat → PredLists V}
    (h : predict env o s clearPredictions = .ok () (p', s')) (k : Nat) :
    (p' k).errs.length = (p' k).vals.length ∧ (p' k).errs2.length = (p' k).vals.length ∧
    (p' k).vals.length ≤ (s.buf k).length - 1 ∧ (k = o.ref → (p' k).vals.length = (s.buf k).length - 1) ∧
    ((p' k).vals.map Prod.fst).Sublist ((s.buf k).map Meas.t) := by
  have hw := (separate hr).1
  rcases C116_predictions ho hr (clearPredictions (V := V)) with ⟨b, e', h1, _, h2⟩ | ⟨x, e', q, _, _, h2⟩ | ⟨_, h2⟩
  · rw [h2] at h
    simp only [Res.ok.injEq, true_and, Prod.mk.injEq] at h
    obtain ⟨rfl, -⟩ := h
    obtain ⟨m, ms, g1, g2, g3, g4⟩ := prepare_ok h1
    obtain ⟨h5, _⟩ := allTerms_eq g4
    have key : b.terms.filter (fun t => decide (t.m.sensor = k)) =
        expected env o s.est.inner (tMin b.knots) (tMax b.knots) s.buf k := by
      rw [h5, filter_flatMap _ (fun k t ht => expected_sensor (fun x hx => hw k x hx) ht) _ (ho _ (finBuf hr)).1]
      split_ifs with hk
      · rfl
      · have hempty : s.buf k = [] := by
          by_contra hne; exact hk (((ho _ (finBuf hr)).2 k).2 hne)
        unfold expected
        rw [hempty]; split_ifs <;> rfl
    have htail : ∀ l : List (Int × Meas T), (pairTerms l).map (fun t => t.m.t) = (l.map fun x => x.2.t).tail := by
      intro l
      induction l with
      | nil => simp [pairTerms]
      | cons a l ih =>
        cases l with
        | nil => simp [pairTerms]
        | cons b l => rw [pairTerms]; simpa using ih
    have hsub : ∀ l : List (Int × Meas T), ((pairTerms l).map fun t => t.m.t).Sublist (l.map fun x => x.2.t) := fun l => by
      rw [htail]; exact List.tail_sublist _
    simp only [PredLists.followedBy, clearPredictions, List.nil_append, List.length_map, key, true_and, List.map_map]
    unfold expected
    refine ⟨?_, ?_, ?_⟩
    · split_ifs
      · rw [pairTerms_length, List.length_map]
      · rw [pairTerms_length, List.length_map]
        have := List.length_filter_le (fun m => decide (Fits o (tMin b.knots) (tMax b.knots) (env.delay s.est.inner k) m)) (s.buf k)
        omega
    · intro hk
      rw [if_pos hk, pairTerms_length, List.length_map]
    · split_ifs
      · have := hsub ((s.buf k).map fun m => (m.t, m))
        rw [List.map_map] at this
        exact this
      · have := hsub (((s.buf k).filter fun m => decide (Fits o (tMin b.knots) (tMax b.knots) (env.delay s.est.inner k) m)).map
          fun m => (m.t - env.delay s.est.inner k, m))
        rw [List.map_map] at this
        exact this.trans (List.Sublist.map _ List.filter_sublist)
  · rw [h2] at h; cases h
  · rw [h2] at h; cases h

/-- **C116** (negation, definedness): without a reference measurement `predict` throws `std::out_of_range` and leaves everything as
it is, whatever other measurements there are. -/
theorem C116_no_reference (env : Env T E G P V) (o : Opt) (s : Cal T E G P) (p : Nat → PredLists V) (h : s.buf o.ref = []) :
    predict env o s p = .throw .stdOutOfRange (p, s) := by
  unfold predict
  rw [initSplines_noref h]

/-- **C116** (negation, definedness): with more knots than fit an `int`, `predict`, like building a batch, is undefined. -/
theorem C116_too_many_segments {env : Env T E G P V} {o : Opt} {s : Cal T E G P} {m : Meas T} {ms : List (Meas T)}
    (hm : s.buf o.ref = m :: ms) {sec : ℚ}
    (hs : sec = ((((m :: ms).getLast (by simp)).t - (m.t - m.duration) : Int) : ℚ) / 10 ^ 9) {rate : Int}
    (hr : sec ≠ 0 → NearestAway (((m :: ms).length : ℚ) / sec) rate) (hr0 : sec = 0 → rate = env.lroundInf) (hk : o.knots < rate)
    (hbig : ¬ FitsInt32 ⌈(o.knots : ℚ) * sec⌉) (p : Nat → PredLists V) :
    prepare env o s.est s.buf = .ub ∧ predict env o s p = .ub := by
  have hlast : ∀ (l : List (Meas T)) (q : T) (x : Meas T),
      ∃ z, (deadReckoning q (x :: l)).getLast? = some (((x :: l).getLast (by simp)).t, z) := by
    intro l
    induction l with
    | nil => intro q x; exact ⟨_, rfl⟩
    | cons y l ih =>
      intro q x
      obtain ⟨z, hz⟩ := ih (q * x.motion) y
      refine ⟨z, ?_⟩
      rw [deadReckoning, deadReckoning, List.getLast?_cons_cons]
      rw [deadReckoning] at hz
      rw [hz]; simp
  obtain ⟨z, hz⟩ := hlast ms s.est.prev m
  have hnone : numSegments env.lroundInf o.knots (m :: ms).length (integrate (m :: ms) [] s.est.prev).1 = none := by
    rw [integrate_eq]
    refine (C73_segments_exact (first := (m.t - m.duration, s.est.prev))
      (last := (((m :: ms).getLast (by simp)).t, z)) rfl ?_ hs hr hr0).2.2 hk hbig
    show List.getLast? ((m.t - m.duration, s.est.prev) :: deadReckoning s.est.prev (m :: ms)) = _
    rw [deadReckoning] at hz ⊢
    rw [List.getLast?_cons_cons]
    exact hz
  have hi : initSplines env o s.est s.buf = .ub := by
    unfold initSplines
    rw [hm]
    simp only [List.isEmpty_cons, Bool.false_eq_true, if_false, hnone]
  exact ⟨by unfold prepare; rw [hi], by unfold predict; rw [hi]⟩

/-! ### Instances -/

/-- a run in which both sensors have predictions; the first measurement of the other sensor is too early. -/
example : ∃ s p' s', after [.add (dm 1 0), .add (dm 0 1), .add (dm 0 2), .add (dm 1 2), .add (dm 0 3), .add (dm 1 3)] = .ok () s ∧
    predict demoEnv demoOpt s clearPredictions = .ok () (p', s') ∧ (p' 0).vals.map Prod.fst = [2000000000, 3000000000] ∧
    (p' 1).vals.map Prod.fst = [3000000000] ∧ s'.buf 0 = s.buf 0 := by
  obtain ⟨s, h1, h2⟩ := okTest_spec
    (r := after [.add (dm 1 0), .add (dm 0 1), .add (dm 0 2), .add (dm 1 2), .add (dm 0 3), .add (dm 1 3)])
    (p := fun s => match predict demoEnv demoOpt s clearPredictions with
      | .ok _ (p', s') => decide ((p' 0).vals.map Prod.fst = [2000000000, 3000000000] ∧ (p' 1).vals.map Prod.fst = [3000000000] ∧
          s'.buf 0 = s.buf 0)
      | _ => false) (by decide +kernel)
  split at h2
  · next p' s' hp => exact ⟨s, p', s', h1, hp, of_decide_eq_true h2⟩
  · cases h2

/-- the hypotheses of `C116_predictions` are met by a fresh calibrator (and after every history of it). -/
example : OrderOk orderEnv ∧ Run (cfg orderEnv demoOpt) (⟨0, 1⟩ : St Z Nat) (init (cfg orderEnv demoOpt) ⟨0, 1⟩) [] [] :=
  ⟨orderEnv_ok, Run.init⟩

/-- the hypotheses of `C116_too_many_segments`: two measurements a billion seconds apart, and minus three knots per second. -/
example : ∃ s, runOps (cfg demoEnv ⟨10000000000, -3, 0, 0⟩) (init (cfg demoEnv ⟨10000000000, -3, 0, 0⟩) ⟨0, 1⟩)
      [.add (dm 0 1), .add (dm 0 1000000000)] = .ok () s ∧ s.buf 0 = [dm 0 1, dm 0 1000000000] ∧
    NearestAway ((2 : ℚ) / 1000000000) 0 ∧ (-3 : Int) < 0 ∧ ¬ FitsInt32 ⌈((-3 : Int) : ℚ) * 1000000000⌉ := by
  obtain ⟨s, h1, h2⟩ := okTest_spec
    (r := runOps (cfg demoEnv ⟨10000000000, -3, 0, 0⟩) (init (cfg demoEnv ⟨10000000000, -3, 0, 0⟩) ⟨0, 1⟩)
      [.add (dm 0 1), .add (dm 0 1000000000)])
    (p := fun s => decide (s.buf 0 = [dm 0 1, dm 0 1000000000])) (by decide +kernel)
  refine ⟨s, h1, of_decide_eq_true h2, by norm_num [NearestAway], by norm_num, ?_⟩
  have : ((-3 : Int) : ℚ) * 1000000000 = ((-3000000000 : Int) : ℚ) := by norm_num
  rw [this, Int.ceil_intCast]
  norm_num [FitsInt32]

end Ego
end Verif
