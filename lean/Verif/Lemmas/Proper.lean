import Verif.Spec.Proper
import Verif.Lemmas.Window
import Verif.Props.CarBatch
import Verif.Props.TimeDelay
import Verif.Props.Egomotion
import Mathlib.Tactic.Linarith
import Mathlib.Tactic.NormNum
import Mathlib.Algebra.Order.Field.Rat
import Mathlib.Data.Rat.Floor

/-! Lemmas for property C126. -/

namespace Verif
namespace Proper

/-- strictly increasing integers: the last is at least as far from the first as there are steps. -/
theorem spread (a : Int) (l : List Int) (h : (a :: l).Pairwise (· < ·)) :
    (l.length : Int) ≤ (a :: l).getLast (by simp) - a := by
  induction l generalizing a with
  | nil => simp
  | cons b l ih =>
    have h2 := ih b (List.Pairwise.of_cons h)
    have hab : a < b := (List.pairwise_cons.1 h).1 b (by simp)
    rw [List.getLast_cons (by simp)]
    simp only [List.length_cons]
    push_cast
    omega

/-- the arithmetic of the number of segments. -/
theorem rate_fits {n : Nat} {d : Int} (hn : 2 ≤ n) (hd : (n : Int) - 1 ≤ d) :
    0 ≤ (n : ℚ) / ((d : ℚ) / 1000000000) ∧ ⌊(n : ℚ) / ((d : ℚ) / 1000000000) + 1 / 2⌋ ≤ 2147483647 := by
  have hn2 : (2 : ℚ) ≤ n := by exact_mod_cast hn
  have hdq : (n : ℚ) - 1 ≤ (d : ℚ) := by exact_mod_cast hd
  have hd0 : (0 : ℚ) < d := by linarith
  constructor
  · positivity
  · have : (n : ℚ) / ((d : ℚ) / 1000000000) ≤ 2000000000 := by
      rw [div_le_iff₀ (by positivity)]; nlinarith
    have h2 : ⌊(n : ℚ) / ((d : ℚ) / 1000000000) + 1 / 2⌋ ≤ ⌊(2000000001 : ℚ)⌋ := Int.floor_le_floor (by linarith)
    have h3 : ⌊(2000000001 : ℚ)⌋ = 2000000001 := by exact_mod_cast Int.floor_intCast (R := ℚ) 2000000001
    omega

/-- the number of knots in a part of the time range. -/
theorem knots_fit {knots lo hi d : Int} (hk : 0 ≤ knots) (h1 : -(hi - lo) ≤ d) (h2 : d ≤ hi - lo)
    (h : (knots : ℚ) * (((hi - lo : Int) : ℚ) / 10 ^ 9) ≤ 2147483647) :
    -2147483648 ≤ ⌈(knots : ℚ) * ((d : ℚ) / 1000000000)⌉ ∧ ⌈(knots : ℚ) * ((d : ℚ) / 1000000000)⌉ ≤ 2147483647 := by
  have hkq : (0 : ℚ) ≤ knots := by exact_mod_cast hk
  have h1q : -((hi - lo : Int) : ℚ) ≤ d := by exact_mod_cast h1
  have h2q : (d : ℚ) ≤ ((hi - lo : Int) : ℚ) := by exact_mod_cast h2
  have e : (10 : ℚ) ^ 9 = 1000000000 := by norm_num
  rw [e] at h
  have hu : (knots : ℚ) * ((d : ℚ) / 1000000000) ≤ 2147483647 :=
    le_trans (mul_le_mul_of_nonneg_left (by linarith) hkq) h
  have hl : (-2147483647 : ℚ) ≤ (knots : ℚ) * ((d : ℚ) / 1000000000) := by
    have : (knots : ℚ) * (-((hi - lo : Int) : ℚ) / 1000000000) ≤ (knots : ℚ) * ((d : ℚ) / 1000000000) :=
      mul_le_mul_of_nonneg_left (by linarith) hkq
    have e2 : (knots : ℚ) * (-((hi - lo : Int) : ℚ) / 1000000000) = -((knots : ℚ) * (((hi - lo : Int) : ℚ) / 1000000000)) := by ring
    linarith
  constructor
  · have : (-2147483648 : Int) < ⌈(knots : ℚ) * ((d : ℚ) / 1000000000)⌉ := by
      rw [Int.lt_ceil]; push_cast; linarith
    omega
  · rw [Int.ceil_le]; exact_mod_cast hu

/-- a proper list of pose times: at least two, strictly increasing, in the range. -/
theorem ends {α : Type} (time : α → Int) {l : List α} (h2 : 2 ≤ l.length) (hp : (l.map time).Pairwise (· < ·)) :
    ∃ a b, l.head? = some a ∧ l.getLast? = some b ∧ a ∈ l ∧ b ∈ l ∧ (l.length : Int) - 1 ≤ time b - time a := by
  match l, h2, hp with
  | a :: x :: l, _, hp =>
    refine ⟨a, (a :: x :: l).getLast (by simp), rfl, List.getLast?_eq_getLast_of_ne_nil (by simp), by simp, List.getLast_mem _, ?_⟩
    have h := spread (time a) ((x :: l).map time) (by simpa using hp)
    have e : (time a :: (x :: l).map time).getLast (by simp) = time ((a :: x :: l).getLast (by simp)) := by
      have := List.getLast_map (f := time) (l := a :: x :: l) (by simp)
      simpa only [List.map_cons] using this
    rw [e] at h
    simp only [List.length_map, List.length_cons] at h ⊢
    push_cast at h ⊢
    omega

theorem car_segments {knots lo hi : Int} (hk : 0 ≤ knots) {l : List Meas} (h2 : 2 ≤ l.length)
    (hp : (l.map Meas.t).Pairwise (· < ·)) (hr : ∀ m ∈ l, lo ≤ m.t ∧ m.t ≤ hi)
    (h : (knots : ℚ) * (((hi - lo : Int) : ℚ) / 10 ^ 9) ≤ 2147483647) : ∃ n, CarCal.numSegments knots l = some n := by
  obtain ⟨a, b, ha, hb, ma, mb, hd⟩ := ends Meas.t h2 hp
  have e : CarCal.elapsed l = ((b.t - a.t : Int) : ℚ) / 1000000000 := by
    simp only [CarCal.elapsed, CarCal.tMax, CarCal.tMin, ha, hb]
  obtain ⟨r0, r1⟩ := rate_fits h2 hd
  have hpos : (0 : Int) < b.t - a.t := by omega
  have hne : l ≠ [] := by rintro rfl; simp at h2
  have he : CarCal.elapsed l ≠ 0 := by
    rw [e]
    have : (0 : ℚ) < ((b.t - a.t : Int) : ℚ) := by exact_mod_cast hpos
    positivity
  have kf := knots_fit (lo := lo) (hi := hi) (d := b.t - a.t) hk (by have := hr a ma; have := hr b mb; omega)
    (by have := hr a ma; have := hr b mb; omega) h
  have hfl : 0 ≤ ⌊(l.length : ℚ) / (((b.t - a.t : Int) : ℚ) / 1000000000) + 1 / 2⌋ := Int.floor_nonneg.2 (by linarith)
  unfold CarCal.numSegments
  rw [if_neg hne, if_neg he, e, CarCal.roundQ, if_pos r0, CarCal.toInt32, if_pos ⟨by omega, r1⟩]
  simp only
  split_ifs
  · exact ⟨_, by rw [CarCal.toInt32, if_pos kf]⟩
  · exact ⟨_, rfl⟩

theorem td_segments {knots lo hi : Int} (hk : 0 ≤ knots) {l : List TD.Meas} (h2 : 2 ≤ l.length)
    (hp : (l.map TD.Meas.t).Pairwise (· < ·)) (hr : ∀ m ∈ l, lo ≤ m.t ∧ m.t ≤ hi)
    (h : (knots : ℚ) * (((hi - lo : Int) : ℚ) / 10 ^ 9) ≤ 2147483647) : ∃ n, TD.numSegments knots l = some n := by
  obtain ⟨a, b, ha, hb, ma, mb, hd⟩ := ends TD.Meas.t h2 hp
  have e : TD.elapsed l = ((b.t - a.t : Int) : ℚ) / 1000000000 := by
    simp only [TD.elapsed, TD.tMax, TD.tMin, ha, hb]
  obtain ⟨r0, r1⟩ := rate_fits h2 hd
  have hpos : (0 : Int) < b.t - a.t := by omega
  have hne : l ≠ [] := by rintro rfl; simp at h2
  have he : TD.elapsed l ≠ 0 := by
    rw [e]
    have : (0 : ℚ) < ((b.t - a.t : Int) : ℚ) := by exact_mod_cast hpos
    positivity
  have kf := knots_fit (lo := lo) (hi := hi) (d := b.t - a.t) hk (by have := hr a ma; have := hr b mb; omega)
    (by have := hr a ma; have := hr b mb; omega) h
  have hfl : 0 ≤ ⌊(l.length : ℚ) / (((b.t - a.t : Int) : ℚ) / 1000000000) + 1 / 2⌋ := Int.floor_nonneg.2 (by linarith)
  unfold TD.numSegments
  rw [if_neg hne, if_neg he, e, TD.roundQ, if_pos r0, TD.toInt32, if_pos ⟨by omega, r1⟩]
  simp only
  split_ifs
  · exact ⟨_, by rw [TD.toInt32, if_pos kf]⟩
  · exact ⟨_, rfl⟩

theorem ego_segments {T : Type} {inf knots lo hi : Int} {n : Nat} (hk : 0 ≤ knots) {l : List (Int × T)}
    (hr : ∀ m ∈ l, lo ≤ m.1 ∧ m.1 ≤ hi) (hl : l ≠ [])
    (h : (knots : ℚ) * (((hi - lo : Int) : ℚ) / 10 ^ 9) ≤ 2147483647) : ∃ q, Ego.numSegments inf knots n l = some q := by
  obtain ⟨a, ha⟩ : ∃ a, l.head? = some a := by cases l <;> simp at hl ⊢
  obtain ⟨b, hb⟩ : ∃ b, l.getLast? = some b := ⟨_, List.getLast?_eq_getLast_of_ne_nil hl⟩
  have e : Ego.elapsed l = ((b.1 - a.1 : Int) : ℚ) / 1000000000 := by
    simp only [Ego.elapsed, Ego.tMax, Ego.tMin, ha, hb]
  have h1 := hr a (List.mem_of_mem_head? ha)
  have h2 := hr b (List.mem_of_getLast? hb)
  have kf := knots_fit (lo := lo) (hi := hi) (d := b.1 - a.1) hk (by omega) (by omega) h
  unfold Ego.numSegments
  simp only
  split_ifs
  · rw [e]; exact ⟨_, by rw [Ego.toInt32, if_pos kf]⟩
  · exact ⟨_, rfl⟩
  · rw [e]; exact ⟨_, by rw [Ego.toInt32, if_pos kf]⟩
  · exact ⟨_, rfl⟩

/-! ### Programs that catch every exception -/

/-- if there is an invariant under which no call is undefined and all exceptions are of a kind, so is the program. -/
theorem runCaught_inv {S O : Type} {step : S → O → Res S Unit} (Inv : S → List O → Prop) (X : Exc → Prop)
    (h : ∀ s op ops, Inv s (op :: ops) → (∃ s', step s op = .ok () s' ∧ Inv s' ops) ∨
      ∃ x s', step s op = .throw x s' ∧ X x ∧ Inv s' ops) :
    ∀ ops s, Inv s ops → ∃ outs s', runCaught step s ops = .ok outs s' ∧ outs.length = ops.length ∧ ∀ x, some x ∈ outs → X x := by
  intro ops
  induction ops with
  | nil => intro s _; exact ⟨[], s, rfl, rfl, by simp⟩
  | cons op ops ih =>
    intro s hs
    rcases h s op ops hs with ⟨s1, h1, hi⟩ | ⟨x, s1, h1, hx, hi⟩
    · obtain ⟨outs, s2, h2, hl, hX⟩ := ih s1 hi
      refine ⟨none :: outs, s2, ?_, by simp [hl], ?_⟩
      · simp only [runCaught, h1, h2, Res.bind]
      · intro y hy
        rcases List.mem_cons.1 hy with hy | hy
        · cases hy
        · exact hX y hy
    · obtain ⟨outs, s2, h2, hl, hX⟩ := ih s1 hi
      refine ⟨some x :: outs, s2, ?_, by simp [hl], ?_⟩
      · simp only [runCaught, h1, h2, Res.bind]
      · intro y hy
        rcases List.mem_cons.1 hy with hy | hy
        · cases hy; exact hx
        · exact hX y hy

/-- without exception handler: the program returns or ends with an exception of the kind. -/
theorem runOps_inv {S O : Type} {step : S → O → Res S Unit} (Inv : S → List O → Prop) (X : Exc → Prop)
    (run : S → List O → Res S Unit) (hnil : ∀ s, run s [] = .ok () s)
    (hcons : ∀ s op ops, run s (op :: ops) = (step s op).bind fun _ s' => run s' ops)
    (h : ∀ s op ops, Inv s (op :: ops) → (∃ s', step s op = .ok () s' ∧ Inv s' ops) ∨
      ∃ x s', step s op = .throw x s' ∧ X x ∧ Inv s' ops) :
    ∀ ops s, Inv s ops → (∃ s', run s ops = .ok () s' ∧ Inv s' []) ∨ ∃ x s', run s ops = .throw x s' ∧ X x := by
  intro ops
  induction ops with
  | nil => intro s hs; exact Or.inl ⟨s, hnil s, hs⟩
  | cons op ops ih =>
    intro s hs
    rcases h s op ops hs with ⟨s1, h1, hi⟩ | ⟨x, s1, h1, hx, hi⟩
    · rcases ih s1 hi with ⟨s2, h2, hi2⟩ | ⟨x, s2, h2, hx⟩
      · exact Or.inl ⟨s2, by rw [hcons, h1]; exact h2, hi2⟩
      · exact Or.inr ⟨x, s2, by rw [hcons, h1]; exact h2, hx⟩
    · exact Or.inr ⟨x, s1, by rw [hcons, h1]; rfl, hx⟩

/-! ### The common window of the time delay and the egomotion calibrator -/

section win
variable {K M E B G P : Type} [DecidableEq K]
open Win

/-- what is kept by every call: `D` relates the buffers and the measurements still to come, `I n` the estimator if at most `n` batches
are still to come. -/
structure WinInv (c : WinCfg K M E B G P) (lo hi : Int) (D : (K → List M) → List M → Prop) (I : Nat → E → Prop)
    (s : Win K M E G P) (ops : List (Win.Op M)) : Prop where
  start : s.start = -1 ∨ lo ≤ s.start ∧ s.start ≤ hi
  last : s.last = -1 ∨ lo ≤ s.last ∧ s.last ≤ hi
  times : ∀ m ∈ Win.added ops, lo ≤ c.time m ∧ c.time m ≤ hi
  data : D s.buf (Win.added ops)
  est : I ops.length s.est

/-- what the two calibrators have to provide. -/
structure WProvides (c : WinCfg K M E B G P) (D : (K → List M) → List M → Prop) (I : Nat → E → Prop) (X : Exc → Prop) : Prop where
  push : ∀ w m ms, D w (m :: ms) → D (Win.push c w m) ms
  skip : ∀ w m ms, D w (m :: ms) → D w ms
  clear : ∀ w ms, D w ms → D (fun _ => []) ms
  less : ∀ n e, I (n + 1) e → I n e
  prepare : ∀ n e w ms, D w ms → I n e → c.ready w = true →
    (∃ b e', c.prepare e w = .ok b e' ∧ I n e') ∨ ∃ x e', c.prepare e w = .throw x e' ∧ X x ∧ I n e'
  addBatch : ∀ n e b, I (n + 1) e →
    (∃ g e', c.addBatch e b = .ok g e' ∧ I n e') ∨ ∃ x e', c.addBatch e b = .throw x e' ∧ X x ∧ I n e'

variable {c : WinCfg K M E B G P} {D : (K → List M) → List M → Prop} {I : Nat → E → Prop} {X : Exc → Prop}

omit [DecidableEq K] in
theorem win_submit [DecidableEq K] (hc : WProvides c D I X) {s : Win K M E G P} {ms : List M} {n : Nat} (hd : D s.buf ms) (hi : I (n + 1) s.est) :
    (∃ s', s.addMeasurements c = .ok () s' ∧ (s'.start = s.start ∨ s'.start = s.last) ∧ s'.last = s.last ∧ D s'.buf ms ∧ I n s'.est) ∨
    ∃ x s', s.addMeasurements c = .throw x s' ∧ X x ∧ (s'.start = s.start ∨ s'.start = s.last) ∧ s'.last = s.last ∧ D s'.buf ms ∧
      I n s'.est := by
  unfold addMeasurements
  split_ifs with hr
  · exact Or.inl ⟨s, rfl, Or.inl rfl, rfl, hd, hc.less _ _ hi⟩
  · rcases hc.prepare (n + 1) s.est s.buf ms hd hi (by simpa using hr) with ⟨b, e', h1, h2⟩ | ⟨x, e', h1, hx, h2⟩
    · rw [h1]
      simp only
      rcases hc.addBatch n e' b h2 with ⟨g, e2, h3, h4⟩ | ⟨x, e2, h3, hx, h4⟩
      · rw [h3]; exact Or.inl ⟨_, rfl, Or.inr rfl, rfl, hc.clear _ _ hd, h4⟩
      · rw [h3]; exact Or.inr ⟨x, _, rfl, hx, Or.inr rfl, rfl, hc.clear _ _ hd, h4⟩
    · rw [h1]; exact Or.inr ⟨x, _, rfl, hx, Or.inl rfl, rfl, hd, hc.less _ _ h2⟩

theorem win_step (hc : WProvides c D I X) {lo hi : Int} (hlh : hi - lo ≤ 9223372036854775807) (s : Win K M E G P) (op : Win.Op M)
    (ops : List (Win.Op M)) (h : WinInv c lo hi D I s (op :: ops)) :
    (∃ s', op.run c s = .ok () s' ∧ WinInv c lo hi D I s' ops) ∨ ∃ x s', op.run c s = .throw x s' ∧ X x ∧ WinInv c lo hi D I s' ops := by
  cases op with
  | clear => exact Or.inl ⟨_, rfl, ⟨h.start, h.last, h.times, hc.clear _ _ h.data, hc.less _ _ h.est⟩⟩
  | flush =>
    rcases win_submit hc (ms := Win.added ops) (n := ops.length) h.data h.est with ⟨s', e, h1, h2, h3, h4⟩ | ⟨x, s', e, hx, h1, h2, h3, h4⟩
    · refine Or.inl ⟨s', e, ⟨?_, by rw [h2]; exact h.last, h.times, h3, h4⟩⟩
      rcases h1 with h1 | h1 <;> rw [h1]
      · exact h.start
      · exact h.last
    · refine Or.inr ⟨x, s', e, hx, ⟨?_, by rw [h2]; exact h.last, h.times, h3, h4⟩⟩
      rcases h1 with h1 | h1 <;> rw [h1]
      · exact h.start
      · exact h.last
  | add m =>
    have hm : lo ≤ c.time m ∧ c.time m ≤ hi := h.times m (by simp [Win.added])
    have ht : ∀ x ∈ Win.added ops, lo ≤ c.time x ∧ c.time x ≤ hi := fun x hx => h.times x (by
      have : Win.added (.add m :: ops) = m :: Win.added ops := rfl
      rw [this]; exact List.mem_cons_of_mem _ hx)
    have hd : D s.buf (m :: Win.added ops) := h.data
    have hst : lo ≤ (if s.start = -1 then c.time m else s.start) ∧ (if s.start = -1 then c.time m else s.start) ≤ hi := by
      split_ifs with h1
      · exact hm
      · rcases h.start with h2 | h2
        · exact absurd h2 h1
        · exact h2
    simp only [Op.run, add, addMeasurement]
    generalize (if s.start = -1 then c.time m else s.start) = st at hst ⊢
    rw [if_neg (by omega)]
    split_ifs with hw
    · rcases win_submit hc (s := { s with last := c.time m, start := st }) (ms := m :: Win.added ops)
        (n := ops.length) hd h.est with ⟨s', e, h1, h2, h3, h4⟩ | ⟨x, s', e, hx, h1, h2, h3, h4⟩
      · rw [e]
        refine Or.inl ⟨_, rfl, ⟨?_, ?_, ht, hc.push _ _ _ h3, h4⟩⟩
        · rcases h1 with h1 | h1 <;> simp only [h1]
          · exact Or.inr hst
          · exact Or.inr hm
        · simp only [h2]; exact Or.inr hm
      · rw [e]
        refine Or.inr ⟨x, _, rfl, hx, ⟨?_, ?_, ht, hc.skip _ _ _ h3, h4⟩⟩
        · rcases h1 with h1 | h1 <;> simp only [h1]
          · exact Or.inr hst
          · exact Or.inr hm
        · simp only [h2]; exact Or.inr hm
    · exact Or.inl ⟨_, rfl, ⟨Or.inr hst, Or.inr hm, ht, hc.push _ _ _ hd, hc.less _ _ h.est⟩⟩

end win

/-! ### The car calibrator -/

section car
variable {E G P : Type}
open CarCal

/-- as `WinInv`, for the car calibrator. -/
structure CarInv (lo hi : Int) (I : Nat → E → Prop) (s : CarCal E G P) (ops : List CarCal.Op) : Prop where
  start : s.start = -1 ∨ lo ≤ s.start ∧ s.start ≤ hi
  last : s.last = -1 ∨ lo ≤ s.last ∧ s.last ≤ hi
  times : ∀ m ∈ CarCal.added ops, lo ≤ m.t ∧ m.t ≤ hi
  range : ∀ m ∈ s.buf .pose, lo ≤ m.t ∧ m.t ≤ hi
  poses : ((s.buf .pose ++ (CarCal.added ops).filter fun m => m.kind = .pose).map Meas.t).Pairwise (· < ·)
  est : I ops.length s.est

variable {env : CarEnv E G P} {o : CarOpt} {I : Nat → E → Prop} {X : Exc → Prop}

/-- what the estimator has to provide. -/
structure CProvides (env : CarEnv E G P) (I : Nat → E → Prop) (X : Exc → Prop) : Prop where
  less : ∀ n e, I (n + 1) e → I n e
  fit : ∀ e l n x, env.fit e l n = some x → X x
  addBatch : ∀ n e b, I (n + 1) e →
    (∃ g e', env.addBatch e b = .ok g e' ∧ I n e') ∨ ∃ x e', env.addBatch e b = .throw x e' ∧ X x ∧ I n e'

theorem car_submit (hc : CProvides env I X) {lo hi : Int} (hk : 0 ≤ o.knots)
    (hkt : (o.knots : ℚ) * (((hi - lo : Int) : ℚ) / 10 ^ 9) ≤ 2147483647) {s : CarCal E G P} {n : Nat}
    (hr : ∀ m ∈ s.buf .pose, lo ≤ m.t ∧ m.t ≤ hi) (hp : ((s.buf .pose).map Meas.t).Pairwise (· < ·)) (hi : I (n + 1) s.est) :
    (∃ s', s.addMeasurements env o = .ok () s' ∧ (s'.start = s.start ∨ s'.start = s.last) ∧ s'.last = s.last ∧
      (s'.buf = s.buf ∨ s'.buf = fun _ => []) ∧ I n s'.est) ∨
    ∃ x s', s.addMeasurements env o = .throw x s' ∧ X x ∧ (s'.start = s.start ∨ s'.start = s.last) ∧ s'.last = s.last ∧
      (s'.buf = s.buf ∨ s'.buf = fun _ => []) ∧ I n s'.est := by
  unfold addMeasurements
  split_ifs with h2
  · exact Or.inl ⟨s, rfl, Or.inl rfl, rfl, Or.inl rfl, hc.less _ _ hi⟩
  · obtain ⟨k, hseg⟩ := car_segments hk (not_lt.1 h2) hp hr hkt
    rw [hseg]
    simp only
    cases hf : env.fit s.est (s.buf .pose) k with
    | some x => exact Or.inr ⟨x, s, rfl, hc.fit _ _ _ _ hf, Or.inl rfl, rfl, Or.inl rfl, hc.less _ _ hi⟩
    | none =>
      simp only
      rcases hc.addBatch n s.est ⟨s.buf .pose, k, buildTerms env o s.est s.buf⟩ hi with ⟨g, e2, h3, h4⟩ | ⟨x, e2, h3, hx, h4⟩
      · rw [h3]; exact Or.inl ⟨_, rfl, Or.inr rfl, rfl, Or.inr rfl, h4⟩
      · rw [h3]; exact Or.inr ⟨x, _, rfl, hx, Or.inr rfl, rfl, Or.inr rfl, h4⟩

theorem car_step (hc : CProvides env I X) {lo hi : Int} (hlh : hi - lo ≤ 9223372036854775807) (hk : 0 ≤ o.knots)
    (hkt : (o.knots : ℚ) * (((hi - lo : Int) : ℚ) / 10 ^ 9) ≤ 2147483647) (s : CarCal E G P) (op : CarCal.Op)
    (ops : List CarCal.Op) (h : CarInv lo hi I s (op :: ops)) :
    (∃ s', op.run env o s = .ok () s' ∧ CarInv lo hi I s' ops) ∨
    ∃ x s', op.run env o s = .throw x s' ∧ X x ∧ CarInv lo hi I s' ops := by
  have hsub : ∀ {a b l : List Meas}, ((a ++ b ++ l).map Meas.t).Pairwise (· < ·) → ((a ++ l).map Meas.t).Pairwise (· < ·) := by
    intro a b l hp
    refine hp.sublist (List.Sublist.map _ ?_)
    exact List.Sublist.append (List.sublist_append_left a b) (List.Sublist.refl l)
  have hpre : ((s.buf .pose).map Meas.t).Pairwise (· < ·) :=
    h.poses.sublist (List.Sublist.map _ (List.sublist_append_left _ _))
  cases op with
  | clear =>
    refine Or.inl ⟨_, rfl, ⟨h.start, h.last, h.times, by simp [CarCal.clear], ?_, hc.less _ _ h.est⟩⟩
    exact h.poses.sublist (List.Sublist.map _ (by simp [CarCal.clear, CarCal.added]))
  | flush =>
    have key : ∀ s' : CarCal E G P, (s'.start = s.start ∨ s'.start = s.last) → s'.last = s.last →
        (s'.buf = s.buf ∨ s'.buf = fun _ => []) → I ops.length s'.est → CarInv lo hi I s' ops := by
      intro s' h1 h2 h3 h4
      refine ⟨?_, by rw [h2]; exact h.last, h.times, ?_, ?_, h4⟩
      · rcases h1 with h1 | h1 <;> rw [h1]
        · exact h.start
        · exact h.last
      · rcases h3 with h3 | h3 <;> rw [h3]
        · exact h.range
        · simp
      · rcases h3 with h3 | h3 <;> rw [h3]
        · exact h.poses
        · exact h.poses.sublist (List.Sublist.map _ (by simp [CarCal.added]))
    rcases car_submit hc hk hkt (n := ops.length) h.range hpre h.est with ⟨s', e, h1, h2, h3, h4⟩ | ⟨x, s', e, hx, h1, h2, h3, h4⟩
    · exact Or.inl ⟨s', e, key s' h1 h2 h3 h4⟩
    · exact Or.inr ⟨x, s', e, hx, key s' h1 h2 h3 h4⟩
  | add m =>
    have hadd : CarCal.added (.add m :: ops) = m :: CarCal.added ops := rfl
    have hm : lo ≤ m.t ∧ m.t ≤ hi := h.times m (by rw [hadd]; simp)
    have ht : ∀ x ∈ CarCal.added ops, lo ≤ x.t ∧ x.t ≤ hi := fun x hx => h.times x (by rw [hadd]; exact List.mem_cons_of_mem _ hx)
    have hp := h.poses
    rw [hadd] at hp
    have hst : lo ≤ (if s.start = -1 then m.t else s.start) ∧ (if s.start = -1 then m.t else s.start) ≤ hi := by
      split_ifs with h1
      · exact hm
      · rcases h.start with h2 | h2
        · exact absurd h2 h1
        · exact h2
    -- the buffers `w` are those of before or empty: pushing or dropping `m` keeps everything
    have key : ∀ (s' : CarCal E G P) (w : Window), (w = s.buf ∨ w = fun _ => []) → (s'.buf = push w m ∨ s'.buf = w) →
        (lo ≤ s'.start ∧ s'.start ≤ hi) → (lo ≤ s'.last ∧ s'.last ≤ hi) → I ops.length s'.est → CarInv lo hi I s' ops := by
      intro s' w hw hb h1 h2 h4
      have hwr : ∀ x ∈ w .pose, lo ≤ x.t ∧ x.t ≤ hi := by
        rcases hw with rfl | rfl
        · exact h.range
        · simp
      have hwp : ((w .pose ++ (m :: CarCal.added ops).filter fun m => m.kind = .pose).map Meas.t).Pairwise (· < ·) := by
        rcases hw with rfl | rfl
        · exact hp
        · exact hp.sublist (List.Sublist.map _ (by simp))
      refine ⟨Or.inr h1, Or.inr h2, ht, ?_, ?_, h4⟩
      · rcases hb with hb | hb <;> rw [hb]
        · intro x hx
          unfold push at hx
          split_ifs at hx
          · rcases List.mem_append.1 hx with hx | hx
            · exact hwr x hx
            · rw [List.mem_singleton.1 hx]; exact hm
          · exact hwr x hx
        · exact hwr
      · rcases hb with hb | hb <;> rw [hb]
        · unfold push
          by_cases hkind : m.kind = .pose
          · rw [if_pos hkind.symm, List.append_assoc]
            simpa [List.filter_cons, hkind] using hwp
          · rw [if_neg (fun e => hkind e.symm)]
            simpa [List.filter_cons, hkind] using hwp
        · refine hwp.sublist (List.Sublist.map _ (List.Sublist.append (List.Sublist.refl _) ?_))
          exact (List.sublist_cons_self m _).filter _
    simp only [Op.run, add, addMeasurement]
    generalize (if s.start = -1 then m.t else s.start) = st at hst ⊢
    rw [if_neg (by omega)]
    split_ifs with hw
    · rcases car_submit hc hk hkt (s := { s with last := m.t, start := st })
        (n := ops.length) h.range hpre h.est with ⟨s', e, h1, h2, h3, h4⟩ | ⟨x, s', e, hx, h1, h2, h3, h4⟩
      · rw [e]
        refine Or.inl ⟨_, rfl, key _ s'.buf h3 (Or.inl rfl) ?_ ?_ h4⟩
        · rcases h1 with h1 | h1 <;> simp only [h1]
          · exact hst
          · exact hm
        · simp only [h2]; exact hm
      · rw [e]
        refine Or.inr ⟨x, _, rfl, hx, key _ s'.buf h3 (Or.inr rfl) ?_ ?_ h4⟩
        · rcases h1 with h1 | h1 <;> simp only [h1]
          · exact hst
          · exact hm
        · simp only [h2]; exact hm
    · exact Or.inl ⟨_, rfl, key _ s.buf (Or.inl rfl) (Or.inl rfl) hst hm (hc.less _ _ h.est)⟩

end car

end Proper
end Verif
