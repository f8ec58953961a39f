import Verif.Model.Egomotion
import Verif.Lemmas.Window
import Verif.Lemmas.Rounding
import Mathlib.Tactic.Linarith
import Mathlib.Tactic.NormNum
import Mathlib.Tactic.Group
import Mathlib.Algebra.BigOperators.Group.List.Basic
import Mathlib.Algebra.Group.TypeTags.Basic
import Mathlib.Algebra.Group.Int.Defs

/-! Properties C72 (windowing), C73 (contents of a batch), C74 (a calibrator that cannot go on) and C75 (dead reckoning) of the
egomotion calibrator. -/

namespace Verif
namespace Ego
open Win
variable {T E G P V : Type} [Group T]

/-- the calibrator's state. -/
abbrev Cal (T E G P : Type) := Win Nat (Meas T) (St T E) G P

/-- only finitely many sensors have measurements (the map has finitely many entries). -/
def FinBuf (w : Nat → List (Meas T)) : Prop := ∃ n, ∀ k, n ≤ k → w k = []

/-- the iteration order of the map visits each sensor that has measurements once. -/
def OrderOk (env : Env T E G P V) : Prop :=
  ∀ w, FinBuf w → (env.order w).Nodup ∧ ∀ k, k ∈ env.order w ↔ w k ≠ []

/-- the buffers of a calibrator always have finitely many entries. -/
theorem finBuf {env : Env T E G P V} {o : Opt} {e : St T E} {s : Cal T E G P} {acc : List (Meas T)}
    {gone : List (Nat → List (Meas T))} (h : Run (cfg env o) e s acc gone) : FinBuf s.buf := by
  have hb : ∀ l : List (Meas T), ∃ n, ∀ m ∈ l, m.sensor < n := by
    intro l
    induction l with
    | nil => exact ⟨0, by simp⟩
    | cons a l ih =>
      obtain ⟨n, hn⟩ := ih
      refine ⟨max n (a.sensor + 1), fun m hm => ?_⟩
      rcases List.mem_cons.1 hm with rfl | hm
      · omega
      · have := hn m hm; omega
  obtain ⟨n, hn⟩ := hb acc
  refine ⟨n, fun k hk => ?_⟩
  have h1 := one_place h k
  have h2 : ofSensor (cfg env o) k acc = [] := by
    unfold ofSensor
    rw [List.filter_eq_nil_iff]
    intro m hm
    have := hn m hm
    have h3 : ¬ (m.sensor = k) := by omega
    exact fun hc => h3 (of_decide_eq_true hc)
  rw [h2] at h1
  exact (List.append_eq_nil_iff.1 h1).2

/-! ### What `initSplines` and `prepare` do -/

theorem initSplines_noref {env : Env T E G P V} {o : Opt} {e : St T E} {w : Nat → List (Meas T)} (h : w o.ref = []) :
    initSplines env o e w = .throw .stdOutOfRange e := by
  unfold initSplines; rw [h]; rfl

theorem prepare_noref {env : Env T E G P V} {o : Opt} {e : St T E} {w : Nat → List (Meas T)} (h : w o.ref = []) :
    prepare env o e w = .throw .stdOutOfRange e := by
  unfold prepare; rw [initSplines_noref h]

/-- the poses of a window: the starting pose, then one pose per reference measurement. -/
def deadReckoning (prev : T) : List (Meas T) → List (Int × T)
  | [] => []
  | m :: ms => (m.t, prev * m.motion) :: deadReckoning (prev * m.motion) ms

theorem integrate_cons (ms : List (Meas T)) (acc : List (Int × T)) (prev : T) (h : acc ≠ []) :
    integrate ms acc prev = (acc ++ deadReckoning prev ms, prev * (ms.map Meas.motion).prod) := by
  induction ms generalizing acc prev with
  | nil => simp [integrate, deadReckoning]
  | cons m ms ih =>
    have he : acc.isEmpty = false := by simpa using h
    rw [integrate]
    simp only [he, Bool.false_eq_true, if_false]
    rw [ih _ _ (by simp)]
    simp [deadReckoning, mul_assoc]

theorem integrate_eq (m : Meas T) (ms : List (Meas T)) (prev : T) :
    integrate (m :: ms) [] prev =
      ((m.t - m.duration, prev) :: deadReckoning prev (m :: ms), prev * ((m :: ms).map Meas.motion).prod) := by
  rw [integrate]
  simp only [List.isEmpty_nil, if_true]
  rw [integrate_cons _ _ _ (by simp)]
  simp [deadReckoning, mul_assoc]

theorem initSplines_ok {env : Env T E G P V} {o : Opt} {e e' : St T E} {w : Nat → List (Meas T)} {r : List (Int × T) × Int}
    (h : initSplines env o e w = .ok r e') :
    ∃ m ms, w o.ref = m :: ms ∧ r.1 = (m.t - m.duration, e.prev) :: deadReckoning e.prev (w o.ref) ∧
      e' = ⟨e.inner, e.prev * ((w o.ref).map Meas.motion).prod⟩ ∧
      numSegments env.lroundInf o.knots (w o.ref).length r.1 = some r.2 := by
  unfold initSplines at h
  cases hw : w o.ref with
  | nil => rw [hw] at h; simp at h
  | cons m ms =>
    rw [hw] at h
    simp only [List.isEmpty_cons, Bool.false_eq_true, if_false] at h
    split at h
    · cases h
    · next n hn =>
      split at h
      · cases h
      · simp only [Res.ok.injEq] at h
        obtain ⟨rfl, rfl⟩ := h
        refine ⟨m, ms, rfl, ?_, ?_, hn⟩
        · rw [integrate_eq]
        · rw [integrate_eq]

/-- what `prepare` returns. -/
theorem prepare_ok {env : Env T E G P V} {o : Opt} {e e' : St T E} {w : Nat → List (Meas T)} {b : Batch T}
    (h : prepare env o e w = .ok b e') :
    ∃ m ms, w o.ref = m :: ms ∧ b.knots = (m.t - m.duration, e.prev) :: deadReckoning e.prev (w o.ref) ∧
      e' = ⟨e.inner, e.prev * ((w o.ref).map Meas.motion).prod⟩ ∧
      allTerms env o e.inner (tMin b.knots) (tMax b.knots) w (env.order w) = some b.terms := by
  unfold prepare at h
  split at h
  · cases h
  · cases h
  · cases h
  · next kn n e1 hi =>
    obtain ⟨m, ms, h1, h2, h3, _⟩ := initSplines_ok hi
    split at h
    · cases h
    · next ts ht =>
      simp only [Res.ok.injEq] at h
      obtain ⟨rfl, rfl⟩ := h
      refine ⟨m, ms, h1, h2, h3, ?_⟩
      rw [h3] at ht; exact ht

/-! ### C72: windowing -/

/-- **C72**: a measurement either joins the current window, or first the window without it is submitted and it opens the
next one; it only enters the buffer of its own sensor. -/
theorem C72_trigger_not_in_own_window {env : Env T E G P V} {o : Opt} {s s' : Cal T E G P} {m : Meas T}
    (h : s.add (cfg env o) m = .ok () s') :
    (s'.sent = s.sent ∧ s'.buf m.sensor = s.buf m.sensor ++ [m] ∧ ∀ k, k ≠ m.sensor → s'.buf k = s.buf k) ∨
    (s'.sent = s.sent ++ [s.buf] ∧ s'.buf m.sensor = [m] ∧ ∀ k, k ≠ m.sensor → s'.buf k = []) := by
  rcases trigger h with h1 | ⟨h1, _, h3, h4⟩
  · exact Or.inl h1
  · exact Or.inr ⟨h1, h3, h4⟩

/-- **C72**: in every history, also with exceptions caught by the caller and buffers cleared by hand, the windows
that left the buffers followed by the buffers are, sensor by sensor and in order of arrival, exactly the measurements whose
call returned normally.  (A measurement whose call threw is nowhere, and after certain exceptions no measurement is ever
accepted again, C74.) -/
theorem C72_every_measurement_in_one_place {env : Env T E G P V} {o : Opt} {e : St T E} {s : Cal T E G P}
    {acc : List (Meas T)} {gone : List (Nat → List (Meas T))} (h : Run (cfg env o) e s acc gone) (k : Nat) :
    (gone.map fun w => w k).flatten ++ s.buf k = acc.filter fun m => decide (m.sensor = k) := one_place h k

/-- **C72**: for a program that only adds measurements (and flushes) and sees no exception, submitted windows followed by
the buffers are the stream itself. -/
theorem C72_stream {env : Env T E G P V} {o : Opt} {e : St T E} {s : Cal T E G P} {ops : List (Op (Meas T))}
    (hops : NoClear ops) (h : runOps (cfg env o) (init (cfg env o) e) ops = .ok () s) (k : Nat) :
    (s.sent.map fun w => w k).flatten ++ s.buf k = (added ops).filter fun m => decide (m.sensor = k) := stream hops h k

/-- **C72**: `unprocessedMeasurements` tells exactly whether some buffer is not empty. -/
theorem C72_unprocessed {env : Env T E G P V} {o : Opt} {e : St T E} (ho : OrderOk env) {s : Cal T E G P}
    {acc : List (Meas T)} {gone : List (Nat → List (Meas T))} (hr : Run (cfg env o) e s acc gone) :
    unprocessed env s = true ↔ ∃ k, s.buf k ≠ [] := by
  unfold unprocessed
  rw [Bool.not_eq_true', List.isEmpty_eq_false_iff]
  constructor
  · intro h
    obtain ⟨k, hk⟩ := List.exists_mem_of_ne_nil _ h
    exact ⟨k, ((ho s.buf (finBuf hr)).2 k).1 hk⟩
  · rintro ⟨k, hk⟩ h
    have := ((ho s.buf (finBuf hr)).2 k).2 hk
    rw [h] at this; cases this

/-- **C72**: with non-decreasing time stamps and a positive window duration every submitted window is shorter than the window
duration: so is the time between any two of its measurements.  (The exact windows of the other calibrators, C37 and C69, are
longer because those wait for two poses.) -/
theorem C72_window_duration {env : Env T E G P V} {o : Opt} {e : St T E} (hm : Monotone env.sec) (h0 : env.sec 0 < o.window)
    {s : Cal T E G P} (h : Timed (cfg env o) e s) (w : Nat → List (Meas T)) (hw : w ∈ s.sent) (m m' : Meas T) (k k' : Nat)
    (hk : m ∈ w k) (hk' : m' ∈ w k') : env.sec (m.t - m'.t) < o.window := by
  have hi := timed_inv (c := cfg env o) hm (Or.inl h0)
    (by
      intro e b e1 _ hp
      rw [show (cfg env o).prepare e (fun _ => []) = prepare env o e (fun _ => []) from rfl, prepare_noref rfl] at hp
      cases hp) h
  rcases (hi.sent w hw).2 with h1 | ⟨w0, x, _, h3, _⟩
  · exact h1 k m k' m' hk hk'
  · exact absurd h3 (by simp [cfg])

/-- **C72**: the history of every calibration variable always has exactly one entry more than the information gain history,
also with exceptions. -/
theorem C72_histories {env : Env T E G P V} {o : Opt} {e : St T E} {s : Cal T E G P} {acc : List (Meas T)}
    {gone : List (Nat → List (Meas T))} (h : Run (cfg env o) e s acc gone) :
    s.params.length = s.gains.length + 1 ∧ s.gains.length ≤ s.sent.length := histories h

/-- **C72**: without exceptions there is exactly one information gain per submitted window, and the last entry of the
parameter history is the current parameter vector. -/
theorem C72_histories_aligned {env : Env T E G P V} {o : Opt} {e : St T E} {s : Cal T E G P} {ops : List (Op (Meas T))}
    (h : runOps (cfg env o) (init (cfg env o) e) ops = .ok () s) :
    s.gains.length = s.sent.length ∧ s.params.length = s.sent.length + 1 ∧
      s.params.getLast? = some (env.params s.est.inner) := histories_aligned h

/-! ### C73: error terms -/

/-- the terms made from a sequence of times and measurements: one per consecutive pair, none for the first measurement. -/
def pairTerms : List (Int × Meas T) → List (Term T)
  | [] => []
  | [_] => []
  | a :: b :: l => ⟨b.2, a.1, b.1⟩ :: pairTerms (b :: l)

theorem refTerms_eq (ms : List (Meas T)) : refTerms none ms = pairTerms (ms.map fun m => (m.t, m)) := by
  have key : ∀ (ms : List (Meas T)) (p : Meas T),
      refTerms (some p.t) ms = pairTerms ((p.t, p) :: ms.map fun m => (m.t, m)) := by
    intro ms
    induction ms with
    | nil => intro p; rfl
    | cons m ms ih => intro p; rw [refTerms, ih m]; rfl
  cases ms with
  | nil => rfl
  | cons m ms => rw [refTerms, key ms m]; rfl

/-- the delayed measurement can be moved by the delay bound either way without leaving the time span of the trajectory
(specification). -/
def Fits (o : Opt) (lo hi d : Int) (m : Meas T) : Prop := lo ≤ m.t - d - o.delayBound ∧ m.t - d + o.delayBound ≤ hi

instance (o : Opt) (lo hi d : Int) (m : Meas T) : Decidable (Fits o lo hi d m) := by unfold Fits; infer_instance

theorem otherTerms_eq (o : Opt) (lo hi d : Int) (ms : List (Meas T)) :
    otherTerms o.delayBound lo hi d none ms =
      pairTerms ((ms.filter fun m => decide (Fits o lo hi d m)).map fun m => (m.t - d, m)) := by
  have key : ∀ (ms : List (Meas T)) (p : Meas T), otherTerms o.delayBound lo hi d (some (p.t - d)) ms =
      pairTerms ((p.t - d, p) :: (ms.filter fun m => decide (Fits o lo hi d m)).map fun m => (m.t - d, m)) := by
    intro ms
    induction ms with
    | nil => intro p; rfl
    | cons m ms ih =>
      intro p
      rw [otherTerms]
      by_cases hf : Fits o lo hi d m
      · have hf' := hf
        unfold Fits at hf'
        rw [if_neg (by omega), List.filter_cons_of_pos (by simpa using hf)]
        simp only [List.map_cons, pairTerms]
        rw [ih m]
      · have hf' := hf
        unfold Fits at hf'
        rw [if_pos (by omega), List.filter_cons_of_neg (by simpa using hf), ih p]
  induction ms with
  | nil => rfl
  | cons m ms ih =>
    rw [otherTerms]
    by_cases hf : Fits o lo hi d m
    · have hf' := hf
      unfold Fits at hf'
      rw [if_neg (by omega), List.filter_cons_of_pos (by simpa using hf)]
      simp only [List.map_cons]
      rw [key ms m]
    · have hf' := hf
      unfold Fits at hf'
      rw [if_pos (by omega), List.filter_cons_of_neg (by simpa using hf), ih]

theorem pairTerms_sub {l : List (Int × Meas T)} {t : Term T} (h : t ∈ pairTerms l) :
    ∃ a ∈ l, ∃ b ∈ l, t = ⟨b.2, a.1, b.1⟩ := by
  induction l with
  | nil => cases h
  | cons a l ih =>
    cases l with
    | nil => cases h
    | cons b l =>
      rcases List.mem_cons.1 h with h | h
      · exact ⟨a, List.mem_cons_self, b, by simp, h⟩
      · obtain ⟨x, hx, y, hy, e⟩ := ih h
        exact ⟨x, List.mem_cons_of_mem _ hx, y, List.mem_cons_of_mem _ hy, e⟩

/-- the terms a sensor contributes (specification). -/
def expected (env : Env T E G P V) (o : Opt) (e : E) (lo hi : Int) (w : Nat → List (Meas T)) (k : Nat) : List (Term T) :=
  if k = o.ref then pairTerms ((w k).map fun m => (m.t, m))
  else pairTerms (((w k).filter fun m => decide (Fits o lo hi (env.delay e k) m)).map fun m => (m.t - env.delay e k, m))

theorem sensorTerms_eq {env : Env T E G P V} {o : Opt} {e : E} {lo hi : Int} {w : Nat → List (Meas T)} {k : Nat}
    {l : List (Term T)} (h : sensorTerms env o e lo hi w k = some l) :
    l = expected env o e lo hi w k ∧ (k = o.ref ∨ env.known k = true) := by
  unfold sensorTerms at h
  unfold expected
  split_ifs at h ⊢ with h1 h2
  · rw [refTerms_eq] at h; exact ⟨(Option.some.inj h).symm, Or.inl h1⟩
  · rw [otherTerms_eq] at h; exact ⟨(Option.some.inj h).symm, Or.inr h2⟩

theorem allTerms_eq {env : Env T E G P V} {o : Opt} {e : E} {lo hi : Int} {w : Nat → List (Meas T)} {ks : List Nat}
    {l : List (Term T)} (h : allTerms env o e lo hi w ks = some l) :
    l = ks.flatMap (expected env o e lo hi w) ∧ ∀ k ∈ ks, k = o.ref ∨ env.known k = true := by
  induction ks generalizing l with
  | nil => simp only [allTerms, Option.some.injEq] at h; subst h; simp
  | cons k ks ih =>
    rw [allTerms] at h
    split at h
    · cases h
    · next l1 h1 =>
      obtain ⟨e1, e2⟩ := sensorTerms_eq h1
      cases h2 : allTerms env o e lo hi w ks with
      | none => rw [h2] at h; cases h
      | some r =>
        rw [h2] at h
        simp only [Option.map_some, Option.some.injEq] at h
        obtain ⟨e3, e4⟩ := ih h2
        refine ⟨?_, ?_⟩
        · rw [← h, e1, e3, List.flatMap_cons]
        · intro x hx
          rcases List.mem_cons.1 hx with rfl | hx
          · exact e2
          · exact e4 x hx

theorem expected_sensor {env : Env T E G P V} {o : Opt} {e : E} {lo hi : Int} {w : Nat → List (Meas T)} {k : Nat}
    (hw : ∀ m ∈ w k, m.sensor = k) {t : Term T} (h : t ∈ expected env o e lo hi w k) : t.m.sensor = k := by
  unfold expected at h
  split_ifs at h
  · obtain ⟨a, _, b, hb, rfl⟩ := pairTerms_sub h
    obtain ⟨m, hm, rfl⟩ := List.mem_map.1 hb
    exact hw m hm
  · obtain ⟨a, _, b, hb, rfl⟩ := pairTerms_sub h
    obtain ⟨m, hm, rfl⟩ := List.mem_map.1 hb
    exact hw m (List.mem_filter.1 hm).1

theorem filter_flatMap (f : Nat → List (Term T)) (hf : ∀ k, ∀ t ∈ f k, t.m.sensor = k) (ks : List Nat) (hn : ks.Nodup) (k : Nat) :
    (ks.flatMap f).filter (fun t => decide (t.m.sensor = k)) = if k ∈ ks then f k else [] := by
  induction ks with
  | nil => rfl
  | cons a ks ih =>
    rw [List.flatMap_cons, List.filter_append, ih (List.nodup_cons.1 hn).2]
    by_cases ha : a = k
    · subst ha
      have h1 : (f a).filter (fun t => decide (t.m.sensor = a)) = f a :=
        List.filter_eq_self.2 fun t ht => by simpa using hf a t ht
      rw [h1, if_neg (List.nodup_cons.1 hn).1]; simp
    · have h1 : (f a).filter (fun t => decide (t.m.sensor = k)) = [] :=
        List.filter_eq_nil_iff.2 fun t ht => by rw [hf a t ht]; simpa using ha
      rw [h1, List.nil_append]
      simp [Ne.symm ha]

theorem prepare_contents {env : Env T E G P V} {o : Opt} {e e' : St T E} {w : Nat → List (Meas T)} {b : Batch T}
    (ho : OrderOk env) (hf : FinBuf w) (hw : Separate (cfg env o) w) (hp : prepare env o e w = .ok b e') :
    ∃ m ms, w o.ref = m :: ms ∧
      ∀ lo hi, lo = m.t - m.duration → hi = ((m :: ms).getLast (by simp)).t → tMin b.knots = lo ∧ tMax b.knots = hi ∧
        ∀ k, b.terms.filter (fun t => decide (t.m.sensor = k)) = expected env o e.inner lo hi w k := by
  obtain ⟨m, ms, h1, h2, h3, h4⟩ := prepare_ok hp
  refine ⟨m, ms, h1, ?_⟩
  rintro lo hi rfl rfl
  have hlo : tMin b.knots = m.t - m.duration := by rw [h2]; rfl
  have hdr : ∀ (l : List (Meas T)) (p : T) (x : Meas T),
      ((deadReckoning p (x :: l)).getLast?).map Prod.fst = some ((x :: l).getLast (by simp)).t := by
    intro l
    induction l with
    | nil => intro p x; rfl
    | cons y l ih =>
      intro p x
      rw [deadReckoning, deadReckoning, List.getLast?_cons_cons]
      have := ih (p * x.motion) y
      rw [deadReckoning] at this
      rw [this]; rfl
  have hhi : tMax b.knots = ((m :: ms).getLast (by simp)).t := by
    rw [h2, h1]
    unfold tMax
    have := hdr ms e.prev m
    have h6 : deadReckoning e.prev (m :: ms) ≠ [] := by simp [deadReckoning]
    obtain ⟨p, q, hpq⟩ := List.exists_cons_of_ne_nil h6
    rw [hpq] at this ⊢
    rw [List.getLast?_cons_cons]
    cases hg : (p :: q).getLast? with
    | none => rw [hg] at this; cases this
    | some z => rw [hg] at this; simpa using this
  refine ⟨hlo, hhi, fun k => ?_⟩
  rw [hlo, hhi] at h4
  obtain ⟨h5, _⟩ := allTerms_eq h4
  rw [h5, filter_flatMap _ (fun k t ht => expected_sensor (fun x hx => hw k x hx) ht) _ (ho _ hf).1]
  split_ifs with hk
  · rfl
  · have hempty : w k = [] := by
      by_contra hne; exact hk (((ho _ hf).2 k).2 hne)
    unfold expected
    rw [hempty]; split_ifs <;> rfl

/-- **C73**: a submission hands the estimator one batch; its trajectory spans the time from the beginning of the first to the
end of the last reference measurement; for every sensor it contains exactly one term per pair of consecutive used
measurements, in order of arrival: all measurements of the reference sensor are used, at their time stamps, and those
measurements of any other sensor that fit the time span of the trajectory with the delay bound, at time stamp minus the
sensor's delay. -/
theorem C73_batch_contents {env : Env T E G P V} {o : Opt} {e0 : St T E} {s s' : Cal T E G P} {acc : List (Meas T)}
    {gone : List (Nat → List (Meas T))} (ho : OrderOk env) (hr : Run (cfg env o) e0 s acc gone)
    (h : s.addMeasurements (cfg env o) = .ok () s') :
    ∃ b g m ms, env.addBatch s.est.inner b = .ok g s'.est.inner ∧ s.buf o.ref = m :: ms ∧
      ∀ lo hi, lo = m.t - m.duration → hi = ((m :: ms).getLast (by simp)).t → tMin b.knots = lo ∧ tMax b.knots = hi ∧
        ∀ k, b.terms.filter (fun t => decide (t.m.sensor = k)) = expected env o s.est.inner lo hi s.buf k := by
  have hw := (separate hr).1
  unfold addMeasurements at h
  rw [if_neg (by simp [cfg])] at h
  cases hp : (cfg env o).prepare s.est s.buf with
  | throw ex e1 => rw [hp] at h; simp at h
  | ub => rw [hp] at h; simp at h
  | diverge => rw [hp] at h; simp at h
  | ok b e1 =>
    rw [hp] at h
    obtain ⟨m, ms, -, -, h3, -⟩ := prepare_ok (show prepare env o s.est s.buf = .ok b e1 from hp)
    obtain ⟨m, ms, h1, h2⟩ := prepare_contents ho (finBuf hr) hw (show prepare env o s.est s.buf = .ok b e1 from hp)
    simp only at h
    have hb : (cfg env o).addBatch e1 b = addBatch env e1 b := rfl
    rw [hb] at h
    unfold addBatch at h
    rw [h3] at h
    simp only at h
    cases hq : env.addBatch s.est.inner b with
    | throw ex e2 => rw [hq] at h; simp at h
    | ub => rw [hq] at h; simp at h
    | diverge => rw [hq] at h; simp at h
    | ok g e2 =>
      rw [hq] at h
      simp only [Res.ok.injEq, true_and] at h
      subst h
      exact ⟨b, g, m, ms, hq, h1, h2⟩

theorem pairTerms_length (l : List (Int × Meas T)) : (pairTerms l).length = l.length - 1 := by
  induction l with
  | nil => rfl
  | cons a l ih =>
    cases l with
    | nil => rfl
    | cons b l => rw [pairTerms, List.length_cons, ih]; simp

/-- **C73**: each window of each sensor gives one term less than it has used measurements: in every window the first used
measurement of every sensor is not used as a constraint. -/
theorem C73_first_measurement_unused (env : Env T E G P V) (o : Opt) (e : E) (lo hi : Int) (w : Nat → List (Meas T)) :
    (expected env o e lo hi w o.ref).length = (w o.ref).length - 1 ∧
    ∀ k, k ≠ o.ref → (expected env o e lo hi w k).length =
      ((w k).filter fun m => decide (Fits o lo hi (env.delay e k) m)).length - 1 := by
  refine ⟨by unfold expected; rw [if_pos rfl, pairTerms_length, List.length_map], fun k hk => ?_⟩
  unfold expected; rw [if_neg hk, pairTerms_length, List.length_map]

/-- consecutive measurements of a sensor join without gap or overlap. -/
def Contiguous : List (Meas T) → Prop
  | [] => True
  | [_] => True
  | a :: b :: l => a.t = b.t - b.duration ∧ 0 ≤ b.duration ∧ Contiguous (b :: l)

omit [Group T] in
theorem Contiguous.tail {a : Meas T} {l : List (Meas T)} (h : Contiguous (a :: l)) : Contiguous l := by
  cases l with
  | nil => trivial
  | cons b l => exact h.2.2

omit [Group T] in
theorem Contiguous.le {a : Meas T} {l : List (Meas T)} (h : Contiguous (a :: l)) : ∀ x ∈ l, a.t ≤ x.t := by
  induction l generalizing a with
  | nil => intro x hx; cases hx
  | cons b l ih =>
    intro x hx
    have h1 : a.t ≤ b.t := by have := h.1; have := h.2.1; omega
    rcases List.mem_cons.1 hx with rfl | hx
    · exact h1
    · exact le_trans h1 (ih h.2.2 x hx)

/-- a used measurement directly followed by an unused one is the last used one, for contiguous measurements: the used ones
are contiguous. -/
theorem Contiguous.filter {o : Opt} {lo hi d : Int} {l : List (Meas T)} (h : Contiguous l) :
    Contiguous (l.filter fun m => decide (Fits o lo hi d m)) := by
  induction l with
  | nil => trivial
  | cons a l ih =>
    by_cases ha : Fits o lo hi d a
    · rw [List.filter_cons_of_pos (by simpa using ha)]
      cases l with
      | nil => trivial
      | cons b l =>
        by_cases hb : Fits o lo hi d b
        · have := ih h.2.2
          rw [List.filter_cons_of_pos (by simpa using hb)] at this ⊢
          exact ⟨h.1, h.2.1, this⟩
        · have hnil : ((b :: l).filter fun m => decide (Fits o lo hi d m)) = [] := by
            apply List.filter_eq_nil_iff.2
            intro x hx hf
            have hf' : Fits o lo hi d x := by simpa using hf
            have hab : a.t ≤ b.t := by have := h.1; have := h.2.1; omega
            have hbx : b.t ≤ x.t := by
              rcases List.mem_cons.1 hx with rfl | hx
              · exact le_refl _
              · exact h.2.2.le x hx
            apply hb
            unfold Fits at ha hf' ⊢
            omega
          rw [hnil]; trivial
    · rw [List.filter_cons_of_neg (by simpa using ha)]
      exact ih h.tail

theorem pairTerms_span {d : Int} {l : List (Meas T)} (h : Contiguous l) {t : Term T}
    (ht : t ∈ pairTerms (l.map fun m => (m.t - d, m))) : t.src = t.m.t - d - t.m.duration ∧ t.dst = t.m.t - d := by
  induction l with
  | nil => cases ht
  | cons a l ih =>
    cases l with
    | nil => cases ht
    | cons b l =>
      rcases List.mem_cons.1 ht with rfl | ht
      · refine ⟨?_, rfl⟩
        have := h.1
        show a.t - d = b.t - d - b.duration
        omega
      · exact ih h.2.2 ht

/-- **C73**: if the measurements of each sensor join without gap, every term compares the measured motion with the predicted
motion over exactly the interval it was measured in (shifted by the sensor's delay). -/
theorem C73_terms_span_the_measured_interval {env : Env T E G P V} {o : Opt} {e : E} {lo hi : Int} {w : Nat → List (Meas T)}
    {k : Nat} (h : Contiguous (w k)) {t : Term T} (ht : t ∈ expected env o e lo hi w k) (d : Int)
    (hd : d = if k = o.ref then 0 else env.delay e k) :
    t.src = t.m.t - d - t.m.duration ∧ t.dst = t.m.t - d := by
  unfold expected at ht
  split_ifs at ht hd with hk
  · subst hd
    have : ((w k).map fun m => (m.t, m)) = (w k).map fun m => (m.t - 0, m) := by simp
    rw [this] at ht
    exact pairTerms_span h ht
  · subst hd
    exact pairTerms_span h.filter ht

/-- **C73** (negation of the same without the gap condition): if one measurement of a sensor is missing, the next term compares
a motion measured over one interval with the motion predicted over two. -/
theorem C73_gap_breaks_the_interval : ∃ (w : Nat → List (Meas (Multiplicative Int))) (o : Opt) (t : Term (Multiplicative Int)),
    t ∈ pairTerms ((w o.ref).map fun m => (m.t, m)) ∧ t.m.duration = 1 ∧ t.dst - t.src = 2 :=
  ⟨fun _ => [⟨0, 1, 1, 1, 0⟩, ⟨0, 3, 1, 1, 0⟩], ⟨10, 5, 0, 0⟩, ⟨⟨0, 3, 1, 1, 0⟩, 1, 3⟩, by simp [pairTerms], rfl, rfl⟩

/-- **C73**: with noise free measurements of a vehicle moving along `S` and sensors mounted at `C k` with delays `d k`, every
term predicts exactly the measured motion when evaluated with the true trajectory, mounting and delay. -/
theorem C73_true_calibration_has_no_error {env : Env T E G P V} {o : Opt} {e : E} {lo hi : Int} {w : Nat → List (Meas T)}
    {k : Nat} (S : Int → T) (C : T) (h : Contiguous (w k)) {t : Term T} (ht : t ∈ expected env o e lo hi w k)
    (htrue : ∀ m ∈ w k, m.motion = if k = o.ref then (S (m.t - m.duration))⁻¹ * S m.t
      else (S (m.t - m.duration - env.delay e k) * C)⁻¹ * (S (m.t - env.delay e k) * C)) :
    (if k = o.ref then predictedRef S t.src t.dst else predictedOther S C t.src t.dst) = t.m.motion := by
  have hmem : t.m ∈ w k := by
    unfold expected at ht
    split_ifs at ht
    · obtain ⟨a, _, b, hb, rfl⟩ := pairTerms_sub ht
      obtain ⟨m, hm, rfl⟩ := List.mem_map.1 hb
      exact hm
    · obtain ⟨a, _, b, hb, rfl⟩ := pairTerms_sub ht
      obtain ⟨m, hm, rfl⟩ := List.mem_map.1 hb
      exact (List.mem_filter.1 hm).1
  obtain ⟨h1, h2⟩ := C73_terms_span_the_measured_interval h ht _ rfl
  rw [htrue _ hmem, h1, h2]
  split_ifs with hk
  · simp [predictedRef]
  · simp only [predictedOther]
    have : t.m.t - env.delay e k - t.m.duration = t.m.t - t.m.duration - env.delay e k := by omega
    rw [this]

/-- **C73**: the predicted motion does not depend on where the trajectory starts: moving the whole trajectory by a fixed rigid
motion changes no prediction. -/
theorem C73_gauge_freedom (S : Int → T) (C A : T) (src dst : Int) :
    predictedRef (fun t => A * S t) src dst = predictedRef S src dst ∧
    predictedOther (fun t => A * S t) C src dst = predictedOther S C src dst := by
  unfold predictedRef predictedOther
  constructor <;> group

omit [Group T] in
/-- **C73**: the number of spline segments, exactly.  With `n` reference measurements spanning `sec` seconds and `rate` the
integer nearest to `n / sec` (whatever `lround` returns for infinity, if `sec` is zero): if `rate` is at most the configured number
of knots per second there are `n` segments, otherwise `⌈knots * sec⌉`; undefined exactly if the latter does not fit an `int`. -/
theorem C73_segments_exact {inf knots : Int} {n : Nat} {first last : Int × T} {l : List (Int × T)} (hf : l.head? = some first)
    (hl : l.getLast? = some last) {sec : ℚ} (hT : sec = ((last.1 - first.1 : Int) : ℚ) / 10 ^ 9)
    {rate : Int} (hr : sec ≠ 0 → NearestAway ((n : ℚ) / sec) rate) (hr0 : sec = 0 → rate = inf) :
    (rate ≤ knots → numSegments inf knots n l = some (n : Int)) ∧
    (knots < rate → FitsInt32 ⌈(knots : ℚ) * sec⌉ → numSegments inf knots n l = some ⌈(knots : ℚ) * sec⌉) ∧
    (knots < rate → ¬ FitsInt32 ⌈(knots : ℚ) * sec⌉ → numSegments inf knots n l = none) := by
  have hel : elapsed l = sec := by
    rw [hT, elapsed, tMin, tMax, hf, hl]; norm_num
  have hround : (if sec = 0 then inf else lround ((n : ℚ) / sec)) = rate := by
    split_ifs with h
    · exact (hr0 h).symm
    · exact (nearestAway_round _).unique (hr h)
  have hi : ∀ x : Int, (FitsInt32 x → toInt32 x = some x) ∧ (¬ FitsInt32 x → toInt32 x = none) := fun x =>
    ⟨fun h => by unfold toInt32; exact if_pos h, fun h => by unfold toInt32; exact if_neg h⟩
  unfold numSegments
  rw [hel]
  simp only [hround]
  refine ⟨fun h => if_neg (by omega), fun h h1 => ?_, fun h h1 => ?_⟩
  · rw [if_pos h, (hi _).1 h1]
  · rw [if_pos h, (hi _).2 h1]

/-- **C73**: what becomes of the splines of a window with `n` segments: a failing fitter makes the submission fail with its
exception - but the motion of the window has been added to the pose the next trajectory starts from. -/
theorem C73_splines {env : Env T E G P V} {o : Opt} {e : St T E} {w : Nat → List (Meas T)} {kn : List (Int × T)} {last : T} {n : Int}
    (hw : w o.ref ≠ []) (hi : integrate (w o.ref) [] e.prev = (kn, last))
    (h : numSegments env.lroundInf o.knots (w o.ref).length kn = some n) :
    last = e.prev * ((w o.ref).map Meas.motion).prod ∧
    (∀ x, env.fit e.inner kn n = some x → prepare env o e w = .throw x ⟨e.inner, last⟩) ∧
    (env.fit e.inner kn n = none → ∀ b e', prepare env o e w = .ok b e' → b.segments = n ∧ b.knots = kn ∧ e' = ⟨e.inner, last⟩) := by
  have hprod : ∀ (ms : List (Meas T)) (acc : List (Int × T)) (p : T), (integrate ms acc p).2 = p * (ms.map Meas.motion).prod := by
    intro ms
    induction ms with
    | nil => intro acc p; simp [integrate]
    | cons m ms ih => intro acc p; rw [integrate, ih, List.map_cons, List.prod_cons, mul_assoc]
  refine ⟨by rw [← hprod (w o.ref) [] e.prev, hi], fun x hx => ?_, fun hx b e' hb => ?_⟩
  · unfold prepare initSplines
    rw [if_neg (by simpa using hw)]
    simp only [hi, h, hx]
  · unfold prepare initSplines at hb
    rw [if_neg (by simpa using hw)] at hb
    simp only [hi, h, hx] at hb
    split at hb
    · cases hb
    · cases hb; exact ⟨rfl, rfl, rfl⟩

/-- Three measurements of one second each, a fitter that fails. -/
example : NearestAway ((3 : ℚ) / 3) 1 ∧
    (integrate [⟨0, 1000000000, Multiplicative.ofAdd 1, 1000000000, 0⟩, ⟨0, 2000000000, Multiplicative.ofAdd 1, 1000000000, 0⟩,
      ⟨0, 3000000000, Multiplicative.ofAdd 1, 1000000000, 0⟩] [] (1 : Multiplicative Int)).2 = Multiplicative.ofAdd (3 : Int) := by
  refine ⟨by norm_num [NearestAway], ?_⟩
  decide

/-! ### C75: dead reckoning -/

/-- reference motions of a window. -/
def refMotions (o : Opt) (w : Nat → List (Meas T)) : List T := (w o.ref).map Meas.motion

theorem addMeasurements_prev {env : Env T E G P V} {o : Opt} {s s' : Cal T E G P}
    (h : s.addMeasurements (cfg env o) = .ok () s') :
    s'.est.prev = s.est.prev * (refMotions o s.buf).prod := by
  unfold addMeasurements at h
  rw [if_neg (by simp [cfg])] at h
  cases hp : (cfg env o).prepare s.est s.buf with
  | throw ex e1 => rw [hp] at h; simp at h
  | ub => rw [hp] at h; simp at h
  | diverge => rw [hp] at h; simp at h
  | ok b e1 =>
    rw [hp] at h
    obtain ⟨m, ms, h1, h2, h3, h4⟩ := prepare_ok (show prepare env o s.est s.buf = .ok b e1 from hp)
    simp only at h
    have hb : (cfg env o).addBatch e1 b = addBatch env e1 b := rfl
    rw [hb] at h
    unfold addBatch at h
    cases hq : env.addBatch e1.inner b with
    | throw ex e2 => rw [hq] at h; simp at h
    | ub => rw [hq] at h; simp at h
    | diverge => rw [hq] at h; simp at h
    | ok g e2 =>
      rw [hq] at h
      simp only [Res.ok.injEq, true_and] at h
      subst h
      rw [h3]; rfl

/-- **C75** (partial): without exceptions (and without `predict`, see `C75_predict_moves_the_trajectory`) the pose from which
the next window's trajectory starts is the initial pose followed by all reference motions of all submitted windows, in
order. -/
theorem C75_dead_reckoning_partial {env : Env T E G P V} {o : Opt} {e : St T E} {s : Cal T E G P} {ops : List (Op (Meas T))}
    (h : runOps (cfg env o) (init (cfg env o) e) ops = .ok () s) :
    s.est.prev = e.prev * ((s.sent.map (refMotions o)).flatten).prod := by
  suffices H : ∀ (ops : List (Op (Meas T))) (s0 s : Cal T E G P),
      s0.est.prev = e.prev * ((s0.sent.map (refMotions o)).flatten).prod →
      runOps (cfg env o) s0 ops = .ok () s → s.est.prev = e.prev * ((s.sent.map (refMotions o)).flatten).prod from
    H ops _ s (by simp [Win.init]) h
  intro ops
  have key : ∀ {s0 s1 : Cal T E G P}, s0.est.prev = e.prev * ((s0.sent.map (refMotions o)).flatten).prod →
      s0.addMeasurements (cfg env o) = .ok () s1 →
      s1.est.prev = e.prev * ((s1.sent.map (refMotions o)).flatten).prod := by
    intro s0 s1 h0 hf
    rw [addMeasurements_prev hf, h0]
    rcases addMeasurements_ok hf with ⟨_, hf⟩ | ⟨_, _, _, _, hs, _⟩
    · simp [cfg] at hf
    · rw [hs]; simp [mul_assoc]
  induction ops with
  | nil => intro s0 s h0 h; simp only [runOps, Res.ok.injEq, true_and] at h; subst h; exact h0
  | cons op ops ih =>
    intro s0 s h0 h
    unfold runOps at h
    cases hr : op.run (cfg env o) s0 with
    | ub => rw [hr] at h; simp [Res.bind] at h
    | diverge => rw [hr] at h; simp [Res.bind] at h
    | throw x s1 => rw [hr] at h; simp [Res.bind] at h
    | ok a s1 =>
      rw [hr] at h
      simp only [Res.bind] at h
      refine ih s1 s ?_ h
      cases op with
      | clear =>
        have : Res.ok () s0.clear = Res.ok a s1 := hr
        simp only [Res.ok.injEq] at this; rw [← this.2]; exact h0
      | flush => exact key h0 hr
      | add m =>
        obtain ⟨s2, h1, rfl⟩ := add_ok (show s0.add (cfg env o) m = .ok () s1 from hr)
        rcases addMeasurement_ok h1 with ⟨_, rfl⟩ | ⟨_, h2⟩
        · exact h0
        · exact key (s0 := s0.stamped _) (s1 := s2) h0 h2

/-- **C75**: the poses a submitted trajectory is fitted to: the pose reached so far at the beginning of the first reference
measurement, then the pose reached after each reference measurement at its time stamp. -/
theorem C75_trajectory_of_a_window {env : Env T E G P V} {o : Opt} {e e' : St T E} {w : Nat → List (Meas T)} {b : Batch T}
    (h : prepare env o e w = .ok b e') :
    b.knots.length = (w o.ref).length + 1 ∧
    (∃ m, (w o.ref).head? = some m ∧ b.knots.head? = some (m.t - m.duration, e.prev)) ∧
    ∀ i (hi : i < (w o.ref).length), b.knots[i + 1]? = some ((w o.ref)[i].t,
      e.prev * (((w o.ref).take (i + 1)).map Meas.motion).prod) := by
  obtain ⟨m, ms, h1, h2, _, _⟩ := prepare_ok h
  have hlen : ∀ (l : List (Meas T)) (p : T), (deadReckoning p l).length = l.length := by
    intro l; induction l with
    | nil => intro p; rfl
    | cons a l ih => intro p; simp [deadReckoning, ih]
  have hget : ∀ (l : List (Meas T)) (p : T) (i : Nat) (hi : i < l.length), (deadReckoning p l)[i]? =
      some (l[i].t, p * ((l.take (i + 1)).map Meas.motion).prod) := by
    intro l; induction l with
    | nil => intro p i hi; cases hi
    | cons a l ih =>
      intro p i hi
      cases i with
      | zero => simp [deadReckoning]
      | succ i =>
        simp only [List.length_cons, Nat.add_lt_add_iff_right] at hi
        rw [deadReckoning, List.getElem?_cons_succ, ih _ _ hi]
        simp [mul_assoc]
  refine ⟨by rw [h2, List.length_cons, hlen], ⟨m, by rw [h1]; rfl, by rw [h2]; rfl⟩, fun i hi => ?_⟩
  rw [h2, List.getElem?_cons_succ, hget _ _ i hi]

/-- **C75** (negation): asking for predictions moves the starting pose of the next trajectory by the motion of the buffered
reference measurements, although these stay in the buffer and are integrated again when the window is submitted. -/
theorem C75_predict_moves_the_trajectory {env : Env T E G P V} {o : Opt} {s s' : Cal T E G P} {p p' : Nat → PredLists V}
    (h : predict env o s p = .ok () (p', s')) :
    s'.est.prev = s.est.prev * (refMotions o s.buf).prod ∧ s'.buf = s.buf := by
  unfold predict at h
  split at h
  · cases h
  · cases h
  · cases h
  · next kn n e1 hi =>
    obtain ⟨_, _, _, _, h3, _⟩ := initSplines_ok hi
    cases hq : predictAll env o e1.inner kn s.buf (env.order s.buf) p with
    | throw x y => rw [hq] at h; cases h
    | ub => rw [hq] at h; cases h
    | diverge => rw [hq] at h; cases h
    | ok a y =>
      rw [hq] at h
      simp only [Res.mapState, Res.ok.injEq, true_and, Prod.mk.injEq] at h
      rw [← h.2]
      exact ⟨by rw [h3]; rfl, rfl⟩

/-! ### C74: a calibrator that cannot go on -/

/-- the buffers cannot be turned into a batch: no reference measurement, or a measurement of a sensor without design
variables. -/
def Blocked (env : Env T E G P V) (o : Opt) (w : Nat → List (Meas T)) : Prop :=
  w o.ref = [] ∨ ∃ k, k ≠ o.ref ∧ w k ≠ [] ∧ env.known k = false

theorem prepare_blocked {env : Env T E G P V} {o : Opt} (ho : OrderOk env) {e : St T E} {w : Nat → List (Meas T)}
    (hf : FinBuf w) (hb : Blocked env o w) (b : Batch T) (e' : St T E) : prepare env o e w ≠ .ok b e' := by
  intro h
  rcases hb with hb | ⟨k, hk, hne, hu⟩
  · rw [prepare_noref hb] at h; cases h
  · obtain ⟨_, _, _, _, _, h4⟩ := prepare_ok h
    have := (allTerms_eq h4).2 k (((ho w hf).2 k).2 hne)
    rcases this with rfl | h5
    · exact hk rfl
    · rw [hu] at h5; cases h5

/-- **C74** (negation): once the window has run out while the buffers hold no measurement of the reference sensor, or hold one
of a sensor that was not configured, no later call can change that: whatever is added (with time stamps from then on), flushed
or cleared, every addition and every flush fails, nothing is stored or submitted, and nothing is learnt. -/
theorem C74_stuck_forever {env : Env T E G P V} {o : Opt} {e : St T E} (ho : OrderOk env) {s s' : Cal T E G P}
    {acc : List (Meas T)} {gone : List (Nat → List (Meas T))} (hr : Run (cfg env o) e s acc gone) (hs : s.start ≠ -1) (hb : Blocked env o s.buf) (op : Op (Meas T))
    (ht : ∀ m, op = .add m → o.window ≤ env.sec (m.t - s.start))
    (h : (op.run (cfg env o) s).state? = some s') :
    (∀ u, op.run (cfg env o) s = .ok () u → op = .clear ∧ u = s.clear) ∧
    Blocked env o s'.buf ∧ s'.start = s.start ∧ s'.sent = s.sent ∧ s'.gains = s.gains ∧ s'.params = s.params ∧
      s'.est.inner = s.est.inner := by
  have inner : ∀ {s s' : Cal T E G P}, FinBuf s.buf → Blocked env o s.buf → (s.addMeasurements (cfg env o)).state? = some s' →
      (∀ u, s.addMeasurements (cfg env o) ≠ .ok () u) ∧ s'.buf = s.buf ∧ s'.start = s.start ∧ s'.sent = s.sent ∧
      s'.gains = s.gains ∧ s'.params = s.params ∧ s'.est.inner = s.est.inner := by
    intro s s' hf hb h
    have hpi : ∀ x e', prepare env o s.est s.buf = .throw x e' → e'.inner = s.est.inner := by
      intro x e' hp
      unfold prepare at hp
      have hin : ∀ {x e'}, initSplines env o s.est s.buf = .throw x e' → e'.inner = s.est.inner := by
        intro x e' hi
        unfold initSplines at hi
        split_ifs at hi with hc
        · simp only [Res.throw.injEq] at hi; rw [← hi.2]
        · simp only at hi
          split at hi
          · cases hi
          · split at hi
            · simp only [Res.throw.injEq] at hi; rw [← hi.2]
            · cases hi
      split at hp
      · next hi => simp only [Res.throw.injEq] at hp; rw [← hp.2]; exact hin hi
      · cases hp
      · cases hp
      · next kn n e1 hi =>
        obtain ⟨_, _, _, _, h3, _⟩ := initSplines_ok hi
        split at hp
        · simp only [Res.throw.injEq] at hp; rw [← hp.2, h3]
        · cases hp
    unfold addMeasurements at h ⊢
    rw [if_neg (by simp [cfg])] at h ⊢
    cases hp : (cfg env o).prepare s.est s.buf with
    | ok b e1 => exact absurd hp (prepare_blocked ho hf hb b e1)
    | ub => rw [hp] at h; simp [Res.state?] at h
    | diverge => rw [hp] at h; simp [Res.state?] at h
    | throw x e1 =>
      rw [hp] at h
      simp only [Res.state?, Option.some.injEq] at h
      subst h
      exact ⟨by simp, rfl, rfl, rfl, rfl, rfl, hpi x e1 hp⟩
  cases op with
  | clear =>
    have h' : s.clear = s' := by simpa [Op.run, Res.state?] using h
    subst h'
    refine ⟨fun u hu => ?_, Or.inl rfl, rfl, rfl, rfl, rfl, rfl⟩
    have : Res.ok () s.clear = Res.ok () u := hu
    simp only [Res.ok.injEq, true_and] at this
    exact ⟨rfl, this.symm⟩
  | flush =>
    obtain ⟨h1, h2, h3⟩ := inner (finBuf hr) hb h
    exact ⟨fun u hu => absurd hu (h1 u), h2 ▸ hb, h3⟩
  | add m =>
    have hst : (s.stamped m.t).start = s.start := by simp [stamped, hs]
    have hlate : o.window ≤ env.sec (m.t - (s.stamped m.t).start) := by rw [hst]; exact ht m rfl
    have hb' : Blocked env o (s.stamped m.t).buf := hb
    have hf' : FinBuf (s.stamped m.t).buf := show FinBuf s.buf from finBuf hr
    have heq : s.addMeasurement (cfg env o) m.t =
        if m.t - (s.stamped m.t).start < -9223372036854775808 ∨ 9223372036854775807 < m.t - (s.stamped m.t).start then .ub
        else (s.stamped m.t).addMeasurements (cfg env o) := by
      rw [addMeasurement_eq]
      split_ifs with h1 h2
      · rfl
      · rfl
      · exact absurd hlate h2
    have hadd : (s.add (cfg env o) m).state? = some s' := h
    have hnok : ∀ u, s.add (cfg env o) m ≠ .ok () u := by
      intro u hu
      obtain ⟨s1, h1, _⟩ := add_ok hu
      have h1' : s.addMeasurement (cfg env o) m.t = .ok () s1 := h1
      rw [heq] at h1'
      split_ifs at h1'
      exact (inner hf' hb' (by rw [h1']; rfl)).1 s1 h1'
    cases hr : s.add (cfg env o) m with
    | ok a u => exact absurd hr (hnok u)
    | ub => rw [hr] at hadd; simp [Res.state?] at hadd
    | diverge => rw [hr] at hadd; simp [Res.state?] at hadd
    | throw x u =>
      rw [hr] at hadd
      simp only [Res.state?, Option.some.injEq] at hadd
      subst hadd
      have h1 : s.addMeasurement (cfg env o) m.t = .throw x u := add_throw hr
      rw [heq] at h1
      split_ifs at h1
      obtain ⟨_, h2, h3, h4⟩ := inner hf' hb' (show ((s.stamped m.t).addMeasurements (cfg env o)).state? = some u by rw [h1]; rfl)
      refine ⟨fun v hv => absurd hv (hnok v), ?_, by rw [h3, hst], h4⟩
      rw [h2]; exact hb

/-- **C74**: in particular a calibrator whose buffers were cleared by hand never recovers if the next measurement comes after
the end of the window. -/
theorem C74_clear_then_late_measurement {env : Env T E G P V} {o : Opt} {s : Cal T E G P} (hs : s.start ≠ -1) (m : Meas T)
    (ht : o.window ≤ env.sec (m.t - s.start)) (h64 : -9223372036854775808 ≤ m.t - s.start ∧ m.t - s.start ≤ 9223372036854775807) :
    s.clear.add (cfg env o) m = .throw .stdOutOfRange { s.clear with last := m.t } := by
  have hst : (s.clear.stamped m.t).start = s.start := by simp [stamped, Win.clear, hs]
  have hst2 : s.clear.stamped m.t = { s.clear with last := m.t } := by
    simp [stamped, Win.clear, hs]
  unfold Win.add
  have e1 : (cfg env o).time m = m.t := rfl
  rw [e1, addMeasurement_eq, hst, if_neg (by omega), if_pos (show (cfg env o).sec (m.t - s.start) ≥ (cfg env o).window from ht)]
  unfold addMeasurements
  rw [if_neg (by simp [cfg])]
  have hp : (cfg env o).prepare (s.clear.stamped m.t).est (s.clear.stamped m.t).buf =
      .throw .stdOutOfRange (s.clear.stamped m.t).est :=
    prepare_noref (env := env) (o := o) (show (s.clear.stamped m.t).buf o.ref = [] from rfl)
  rw [hp, hst2]
  rfl

/-! ### Witnesses -/

/-- motions are integers under addition. -/
abbrev Z := Multiplicative Int

/-- a collaborator that accepts everything: the information gain is the number of error terms, the parameters are the number
of batches; sensors 0 and 1 are configured, 0 is the reference. -/
def demoEnv : Env Z Nat Nat Nat Nat where
  sec := fun n => (n : ℚ) / 1000000000
  order := fun w => [0, 1, 2].filter fun k => !(w k).isEmpty
  known := fun k => decide (k < 2)
  delay := fun _ _ => 100000000
  lroundInf := -9223372036854775808
  fit := fun _ _ _ => none
  addBatch := fun e b => .ok b.terms.length (e + 1)
  params := fun e => e
  eval := fun _ _ t => (t.m.tag, [], 0)

/-- window of 10 s, delays bounded by 50 ms, reference sensor 0. -/
def demoOpt : Opt := ⟨10, 5, 0, 50000000⟩

/-- a measurement over one second ending at `t` seconds, with motion 1. -/
def dm (k : Nat) (t : Int) : Meas Z := ⟨k, t * 1000000000, Multiplicative.ofAdd 1, 1000000000, 0⟩

/-- the state of a fresh calibrator after a program. -/
abbrev after (ops : List (Op (Meas Z))) : Res (Cal Z Nat Nat Nat) Unit :=
  runOps (cfg demoEnv demoOpt) (init (cfg demoEnv demoOpt) ⟨0, 1⟩) ops

/-- concrete instance: a window with four reference measurements and three of the other sensor, submitted by a measurement
after its end: three terms of the reference, and two of the other sensor, whose first measurement with its delay would be
too early. -/
example : ∃ s, after [.add (dm 1 0), .add (dm 0 1), .add (dm 0 2), .add (dm 1 2), .add (dm 0 3), .add (dm 1 3), .add (dm 0 4),
      .add (dm 1 4), .add (dm 0 10)] = .ok () s ∧
    s.gains = [5] ∧ s.params = [0, 1] ∧ s.est.prev = Multiplicative.ofAdd 4 ∧ (s.buf 0).length = 1 := by
  obtain ⟨s, h1, h2⟩ := okTest_spec (r := after [.add (dm 1 0), .add (dm 0 1), .add (dm 0 2), .add (dm 1 2), .add (dm 0 3), .add (dm 1 3), .add (dm 0 4),
      .add (dm 1 4), .add (dm 0 10)])
    (p := fun s => decide (s.gains = [5] ∧ s.params = [0, 1] ∧ s.est.prev = Multiplicative.ofAdd 4 ∧ (s.buf 0).length = 1))
    (by decide +kernel)
  exact ⟨s, h1, of_decide_eq_true h2⟩

/-- **C74** (negation): a stream in which the reference sensor starts late gets stuck: reachable from a fresh calibrator, all
measurements from then on are refused. -/
theorem C74_reachable : ∃ s, after [.add (dm 1 0), .add (dm 1 5)] = .ok () s ∧ s.start ≠ -1 ∧ Blocked demoEnv demoOpt s.buf ∧
    ∀ n, 10 ≤ n → n ≤ 9000000000 → ∃ s', s.add (cfg demoEnv demoOpt) (dm 0 n) = .throw .stdOutOfRange s' := by
  obtain ⟨s, h1, h2⟩ := okTest_spec (r := after [.add (dm 1 0), .add (dm 1 5)])
    (p := fun s => decide (s.start = 0 ∧ s.buf 0 = [])) (by decide +kernel)
  obtain ⟨h3, h4⟩ := of_decide_eq_true h2
  refine ⟨s, h1, by rw [h3]; decide, Or.inl h4, fun n hn hn' => ?_⟩
  have hst : (s.stamped (dm 0 n).t).start = 0 := by simp [stamped, h3]
  refine ⟨s.stamped (n * 1000000000), ?_⟩
  · unfold Win.add
    have e1 : (cfg demoEnv demoOpt).time (dm 0 n) = n * 1000000000 := rfl
    have hst' : (s.stamped (n * 1000000000)).start = 0 := hst
    have hlate : (cfg demoEnv demoOpt).sec (n * 1000000000 - 0) ≥ (cfg demoEnv demoOpt).window := by
      show (10 : ℚ) ≤ ((n * 1000000000 - 0 : Int) : ℚ) / 1000000000
      have : (10 : ℚ) ≤ n := by exact_mod_cast hn
      push_cast
      rw [sub_zero, mul_div_assoc]
      norm_num
      exact this
    rw [e1, addMeasurement_eq, hst', if_neg (by omega), if_pos hlate]
    unfold addMeasurements
    rw [if_neg (by simp [cfg])]
    have hp : (cfg demoEnv demoOpt).prepare (s.stamped (n * 1000000000)).est (s.stamped (n * 1000000000)).buf =
        .throw .stdOutOfRange (s.stamped (n * 1000000000)).est := prepare_noref h4
    rw [hp]
    rfl

open Classical in
/-- the demonstration with an iteration order for any map with finitely many entries. -/
noncomputable def orderEnv : Env Z Nat Nat Nat Nat :=
  { demoEnv with
    order := fun w => if h : FinBuf w then (List.range h.choose).filter fun k => decide (w k ≠ []) else [] }

/-- the assumption on the iteration order can be met. -/
theorem orderEnv_ok : OrderOk orderEnv := by
  intro w h
  have he : orderEnv.order w = (List.range h.choose).filter fun k => decide (w k ≠ []) := dif_pos h
  rw [he]
  refine ⟨List.Nodup.sublist List.filter_sublist List.nodup_range, fun k => ?_⟩
  rw [List.mem_filter, List.mem_range, decide_eq_true_eq]
  refine ⟨fun h => h.2, fun hk => ⟨?_, hk⟩⟩
  by_contra hc
  exact hk (h.choose_spec k (by omega))

/-- concrete instance of the hypotheses of `C74_stuck_forever`. -/
example : ∃ s acc gone, Run (cfg orderEnv demoOpt) ⟨0, 1⟩ s acc gone ∧ OrderOk orderEnv ∧ s.start ≠ -1 ∧
    Blocked orderEnv demoOpt s.buf ∧ demoOpt.window ≤ orderEnv.sec ((dm 0 10).t - s.start) := by
  have h0 : Run (cfg orderEnv demoOpt) (⟨0, 1⟩ : St Z Nat) (init (cfg orderEnv demoOpt) ⟨0, 1⟩) [] [] := Run.init
  have h1 := Run.addOk (m := dm 1 0) h0 (s' :=
    { init (cfg orderEnv demoOpt) ⟨0, 1⟩ with
      start := 0, last := 0, buf := push (cfg orderEnv demoOpt) (fun _ => []) (dm 1 0) }) (by
    unfold Win.add
    rw [addMeasurement_eq]
    have e1 : (cfg orderEnv demoOpt).time (dm 1 0) = 0 := rfl
    have e2 : ((init (cfg orderEnv demoOpt) ⟨0, 1⟩).stamped 0).start = 0 := rfl
    rw [e1, e2, if_neg (by decide), if_neg (by
      show ¬ ((10 : ℚ) ≤ ((0 - 0 : Int) : ℚ) / 1000000000)
      norm_num)]
    rfl)
  refine ⟨_, _, _, h1, orderEnv_ok, by decide, Or.inl rfl, ?_⟩
  show (10 : ℚ) ≤ ((10 * 1000000000 - 0 : Int) : ℚ) / 1000000000
  norm_num

end Ego
end Verif
