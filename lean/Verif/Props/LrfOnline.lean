import Verif.Model.Lrf
import Mathlib.Analysis.SpecialFunctions.Pow.Real
import Mathlib.Tactic.Linarith
import Mathlib.Tactic.FieldSimp

/-! C97: the decision loop of `simulate-online`. -/

namespace Verif
namespace Lrf
variable {W C S : Type}

/-- the batches kept so far: the last batch of every round that was kept. -/
def keptStarts (h : List (Round W S)) : List Nat := (h.filter (·.kept)).filterMap (·.batches.getLast?)

/-- the last round whose batch was kept. -/
def lastKept (h : List (Round W S)) : Option (Round W S) := (h.filter (·.kept)).getLast?

/-- the values of the design variables after the rounds `h`. -/
def valuesAfter (w0 : W) (h : List (Round W S)) : W := (h.getLast?.map (·.after)).getD w0

/-- what round `k` does after the rounds `prev`: the problem has the batches kept so far and the new one; it starts from the
values left by the round before, kept or not; the batch is kept if it is the first or if the gain over the last kept round is
above the threshold. -/
structure RoundSpec (env : OptEnv W C S) (tol : ℝ) (bs : Nat) (w0 : W) (prev : List (Round W S)) (k : Nat) (r : Round W S) :
    Prop where
  batches : r.batches = keptStarts prev ++ [k * bs]
  result : (r.after, r.cov, r.det) = env.opt (valuesAfter w0 prev) r.batches
  decision : r.kept = true ↔ prev = [] ∨ ∃ q, lastKept prev = some q ∧ Keep tol q.det r.det

/-- what the variables of the loop are after the rounds `hist`. -/
structure OnlineSpec (env : OptEnv W C S) (tol : ℝ) (bs : Nat) (w0 : W) (n : Nat) (s : OnlineSt W C S) : Prop where
  rounds : s.hist.length = n
  each : ∀ k r, s.hist[k]? = some r → RoundSpec env tol bs w0 (s.hist.take k) k r
  kept : s.batchIdx = keptStarts s.hist
  values : s.w = valuesAfter w0 s.hist
  reported : n = 0 ∧ s.calib = env.theta w0 ∧ s.cov = none ∨
    ∃ q, lastKept s.hist = some q ∧ s.calib = env.theta q.after ∧ s.cov = some q.cov ∧ s.detRec = q.det

theorem keptStarts_append (h : List (Round W S)) (r : Round W S) (b : List Nat) (i : Nat) (hb : r.batches = b ++ [i]) :
    keptStarts (h ++ [r]) = keptStarts h ++ if r.kept then [i] else [] := by
  unfold keptStarts
  rw [List.filter_append, List.filterMap_append]
  congr 1
  cases hk : r.kept
  · simp [hk]
  · simp [hk, hb]

theorem lastKept_append (h : List (Round W S)) (r : Round W S) :
    lastKept (h ++ [r]) = if r.kept then some r else lastKept h := by
  unfold lastKept
  rw [List.filter_append]
  cases hk : r.kept <;> simp [hk]

theorem each_append {env : OptEnv W C S} {tol : ℝ} {bs : Nat} {w0 : W} {h : List (Round W S)} {r : Round W S}
    (he : ∀ k r, h[k]? = some r → RoundSpec env tol bs w0 (h.take k) k r) (hr : RoundSpec env tol bs w0 h h.length r) :
    ∀ k r', (h ++ [r])[k]? = some r' → RoundSpec env tol bs w0 ((h ++ [r]).take k) k r' := by
  intro k r' hk
  rcases Nat.lt_trichotomy k h.length with h1 | h1 | h1
  · rw [List.getElem?_append_left h1] at hk
    rw [List.take_append_of_le_length h1.le]
    exact he k r' hk
  · subst h1
    simp only [List.getElem?_append_right le_rfl, Nat.sub_self, List.getElem?_cons_zero, Option.some.injEq] at hk
    subst hk
    rw [List.take_left']
    · exact hr
    · rfl
  · rw [List.getElem?_eq_none (by simp; omega)] at hk
    exact absurd hk (by simp)

theorem round_ok {env : OptEnv W C S} {tol : ℝ} {n bs m : Nat} {w0 : W} {s : OnlineSt W C S} (hs : OnlineSpec env tol bs w0 m s)
    (hidx : ∀ j ∈ s.batchIdx, j + bs ≤ n) (hm : m * bs + bs ≤ n) :
    ∃ s', onlineRound env tol n bs (m * bs) s = .ok () s' ∧ OnlineSpec env tol bs w0 (m + 1) s' ∧
      ∀ j ∈ s'.batchIdx, j + bs ≤ n := by
  classical
  have hok : ¬ ∃ j ∈ s.batchIdx ++ [m * bs], n < j + bs := by
    rintro ⟨j, hj, hlt⟩
    rcases List.mem_append.1 hj with h | h
    · have := hidx j h; omega
    · simp at h; omega
  -- the new round, whatever is decided
  have hempty : s.batchIdx = [] ↔ s.hist = [] := by
    rcases hs.reported with ⟨h0, _⟩ | ⟨q, hq, _⟩
    · have := hs.rounds
      rw [h0] at this
      have h1 := List.length_eq_zero_iff.1 this
      rw [hs.kept, h1]
      simp [keptStarts]
    · have hqm : q ∈ s.hist.filter (·.kept) := List.mem_of_getLast? hq
      have hqh : q ∈ s.hist := (List.mem_filter.1 hqm).1
      constructor
      · intro h
        exfalso
        obtain ⟨k, hk⟩ := List.getElem?_of_mem hqh
        have hb := (hs.each k q hk).batches
        have : k * bs ∈ s.batchIdx := by
          rw [hs.kept]
          unfold keptStarts
          rw [List.mem_filterMap]
          exact ⟨q, hqm, by rw [hb]; simp⟩
        rw [h] at this
        simp at this
      · intro h
        rw [h] at hqh
        simp at hqh
  rcases hres : env.opt s.w (s.batchIdx ++ [m * bs]) with ⟨w, cov, det⟩
  have hlen : (s.batchIdx ++ [m * bs]).length = 1 ↔ s.hist = [] := by
    rw [← hempty]
    simp
  have spec : ∀ kept : Bool, (kept = true ↔ s.hist = [] ∨ ∃ q, lastKept s.hist = some q ∧ Keep tol q.det det) →
      RoundSpec env tol bs w0 s.hist s.hist.length ⟨s.batchIdx ++ [m * bs], w, cov, det, kept⟩ := by
    intro kept hk
    refine ⟨?_, ?_, hk⟩
    · show s.batchIdx ++ [m * bs] = _
      rw [hs.kept, hs.rounds]
    · show (w, cov, det) = env.opt _ (s.batchIdx ++ [m * bs])
      rw [← hs.values, hres]
  have keptCase : ∀ s', s' = (⟨w, s.batchIdx ++ [m * bs], env.theta w, some cov, det,
      s.hist ++ [⟨s.batchIdx ++ [m * bs], w, cov, det, true⟩]⟩ : OnlineSt W C S) →
      (s.hist = [] ∨ ∃ q, lastKept s.hist = some q ∧ Keep tol q.det det) →
      OnlineSpec env tol bs w0 (m + 1) s' ∧ ∀ j ∈ s'.batchIdx, j + bs ≤ n := by
    rintro s' rfl hd
    refine ⟨⟨by simp [hs.rounds], each_append hs.each (spec true (by simpa using hd)), ?_, ?_,
      Or.inr ⟨⟨s.batchIdx ++ [m * bs], w, cov, det, true⟩, ?_, rfl, rfl, rfl⟩⟩,
      ?_⟩
    · rw [keptStarts_append _ _ s.batchIdx (m * bs) rfl, ← hs.kept]; rfl
    · simp [valuesAfter]
    · rw [lastKept_append]; rfl
    · intro j hj
      by_contra h
      exact hok ⟨j, hj, by omega⟩
  unfold onlineRound
  simp only [hok, if_false, hres]
  by_cases h1 : (s.batchIdx ++ [m * bs]).length = 1
  · simp only [h1, if_true]
    exact ⟨_, rfl, keptCase _ rfl (Or.inl (hlen.1 h1))⟩
  · simp only [h1, if_false]
    have hne : s.hist ≠ [] := fun h => h1 (hlen.2 h)
    obtain ⟨q, hq, hcal, hcov, hdet⟩ : ∃ q, lastKept s.hist = some q ∧ s.calib = env.theta q.after ∧ s.cov = some q.cov ∧
        s.detRec = q.det := by
      rcases hs.reported with ⟨h0, _⟩ | h
      · exact absurd (List.length_eq_zero_iff.1 (hs.rounds.trans h0)) hne
      · exact h
    by_cases h2 : Keep tol s.detRec det
    · rw [if_pos h2]
      exact ⟨_, rfl, keptCase _ rfl (Or.inr ⟨q, hq, hdet ▸ h2⟩)⟩
    · rw [if_neg h2]
      have hdrop : (s.batchIdx ++ [m * bs]).dropLast = s.batchIdx := by simp
      refine ⟨_, rfl, ⟨by simp [hs.rounds], each_append hs.each (spec false ?_), ?_, ?_, Or.inr ⟨q, ?_, hcal, hcov, hdet⟩⟩, ?_⟩
      · constructor
        · intro h; exact absurd h (by simp)
        · rintro (h | ⟨q', hq', hk⟩)
          · exact absurd h hne
          · rw [hq] at hq'
            simp only [Option.some.injEq] at hq'
            subst hq'
            rw [← hdet] at hk
            exact absurd hk h2
      · show (s.batchIdx ++ [m * bs]).dropLast = _
        rw [hdrop, keptStarts_append _ _ s.batchIdx (m * bs) rfl, ← hs.kept]
        simp
      · simp [valuesAfter]
      · rw [lastKept_append]; exact hq
      · show ∀ j ∈ (s.batchIdx ++ [m * bs]).dropLast, j + bs ≤ n
        rw [hdrop]
        exact hidx

theorem rounds_ok {env : OptEnv W C S} {tol : ℝ} {n bs : Nat} {w0 : W} (k m : Nat) (s : OnlineSt W C S)
    (hs : OnlineSpec env tol bs w0 m s) (hidx : ∀ j ∈ s.batchIdx, j + bs ≤ n) (hk : (m + k) * bs ≤ n) :
    ∃ s', OnlineSpec env tol bs w0 (m + k) s' ∧ ∀ e, onlineRounds env tol n bs (k + e) (m * bs) s =
      onlineRounds env tol n bs e ((m + k) * bs) s' := by
  induction k generalizing m s with
  | zero => exact ⟨s, hs, fun e => by simp⟩
  | succ k ih =>
    obtain ⟨s1, h1, h2, h3⟩ := round_ok hs hidx
      (by
        have : (m + 1) * bs ≤ (m + (k + 1)) * bs := Nat.mul_le_mul_right _ (by omega)
        rw [Nat.add_mul, one_mul] at this
        omega)
    obtain ⟨s', h4, h5⟩ := ih (m + 1) s1 h2 h3 (by rw [show m + 1 + k = m + (k + 1) by omega]; exact hk)
    refine ⟨s', by rw [show m + (k + 1) = m + 1 + k by omega]; exact h4, fun e => ?_⟩
    rw [show k + 1 + e = (k + e) + 1 by omega, onlineRounds, h1]
    simp only [Res.bind]
    rw [show m * bs + bs = (m + 1) * bs by ring, h5 e, show m + (k + 1) = m + 1 + k by omega]

theorem spec_init (env : OptEnv W C S) (tol : ℝ) (bs : Nat) (w0 : W) :
    OnlineSpec env tol bs w0 0 ⟨w0, [], env.theta w0, none, 0, []⟩ :=
  ⟨rfl, by simp, rfl, rfl, Or.inl ⟨rfl, rfl, rfl⟩⟩

/-- C97 (partial: the batch size divides the number of steps, as in the program).  The loop returns after one round per batch; round `k` optimizes the batches kept so far
together with batch `k`; a batch is kept exactly if it is the first or its information gain over the last kept round exceeds the threshold;
the reported calibration and covariance are those of the last kept round. -/
theorem C97_decisions_partial {env : OptEnv W C S} {tol : ℝ} {n bs : Nat} {w0 : W} (hbs : 0 < bs) :
    ∃ s, online env tol (n * bs) bs w0 = .ok () s ∧ OnlineSpec env tol bs w0 n s := by
  obtain ⟨s', h1, h2⟩ := rounds_ok (n := n * bs) n 0 _ (spec_init env tol bs w0) (by simp) (by rw [Nat.zero_add])
  refine ⟨s', ?_, by simpa using h1⟩
  have hdiv : (n * bs + bs - 1) / bs = n := by
    rw [Nat.add_sub_assoc hbs, Nat.mul_comm, Nat.mul_add_div hbs, Nat.div_eq_of_lt (by omega), Nat.add_zero]
  have := h2 0
  rw [Nat.add_zero, Nat.zero_mul] at this
  unfold online
  rw [hdiv, this]
  rfl

/-- C97: if the batch size does not divide the number of steps, the last round reads states that do not exist. -/
theorem C97_ragged_undefined {env : OptEnv W C S} {tol : ℝ} {steps bs : Nat} {w0 : W} (hbs : 0 < bs) (h : ¬ bs ∣ steps) :
    online env tol steps bs w0 = .ub := by
  have hmod : 0 < steps % bs := Nat.pos_of_ne_zero fun h0 => h (Nat.dvd_of_mod_eq_zero h0)
  have hlt := Nat.mod_lt steps hbs
  have hda := Nat.div_add_mod steps bs
  have hdiv : (steps + bs - 1) / bs = steps / bs + 1 := by
    have : steps + bs - 1 = bs * (steps / bs + 1) + (steps % bs - 1) := by
      have e : bs * (steps / bs + 1) = bs * (steps / bs) + bs := by ring
      omega
    rw [this, Nat.mul_add_div hbs, Nat.div_eq_of_lt (show steps % bs - 1 < bs by omega), Nat.add_zero]
  obtain ⟨s', _, h2⟩ := rounds_ok (n := steps) (steps / bs) 0 _ (spec_init env tol bs w0) (by simp)
    (by rw [Nat.zero_add, Nat.mul_comm]; omega)
  have := h2 1
  rw [Nat.zero_mul, Nat.zero_add] at this
  unfold online
  rw [hdiv, this]
  have hub : onlineRound env tol steps bs (steps / bs * bs) s' = .ub := by
    unfold onlineRound
    rw [if_pos ⟨steps / bs * bs, by simp, by rw [Nat.mul_comm]; omega⟩]
  simp only [onlineRounds, hub, Res.bind]

/-- an optimizer for the examples: the values are a number; every optimization adds one to it; the determinant is large for the
second batch. -/
noncomputable def demoOpt : OptEnv Nat Nat Unit :=
  { opt := fun w l => (w + 1, (), if l = [0] then 4 else if l.getLast? = some 200 then 4 else 1)
    theta := fun w => w }

example : ∃ s, online demoOpt (1 / 2) (25 * 200) 200 0 = .ok () s ∧ s.hist.length = 25 := by
  obtain ⟨s, h1, h2⟩ := C97_decisions_partial (env := demoOpt) (tol := 1 / 2) (n := 25) (bs := 200) (w0 := 0) (by norm_num)
  exact ⟨s, h1, h2.rounds⟩

example : online demoOpt (1 / 2) 5000 300 0 = .ub := C97_ragged_undefined (by norm_num) (by norm_num)

/-- C97, the threshold: for positive determinants a batch is kept exactly if it shrinks the determinant of the covariance by
more than the factor 4 to the power of the threshold. -/
theorem C97_keep_iff {tol rec det : ℝ} (hr : 0 < rec) (hd : 0 < det) : Keep tol rec det ↔ det * 4 ^ tol < rec := by
  unfold Keep
  rw [if_neg hd.ne']
  have hq : 0 < rec / det := div_pos hr hd
  have h4 : (4 : ℝ) ^ tol = 2 ^ (2 * tol) := by
    rw [Real.rpow_mul (by norm_num)]; norm_num
  constructor
  · rintro ⟨_, h⟩
    have : 2 * tol < Real.logb 2 (rec / det) := by linarith
    rw [Real.lt_logb_iff_rpow_lt (by norm_num) hq, lt_div_iff₀ hd] at this
    rw [h4]; linarith
  · intro h
    refine ⟨hq, ?_⟩
    have : 2 * tol < Real.logb 2 (rec / det) := by
      rw [Real.lt_logb_iff_rpow_lt (by norm_num) hq, lt_div_iff₀ hd, ← h4]
      linarith
    linarith

example : Keep (1 / 2) 4 1 ∧ ¬ Keep (1 / 2) 4 4 := by
  have h2 : (4 : ℝ) ^ (1 / 2 : ℝ) = 2 := by
    rw [show (4 : ℝ) = 2 ^ (2 : ℝ) by norm_num, ← Real.rpow_mul (by norm_num)]; norm_num
  rw [C97_keep_iff (by norm_num) (by norm_num), C97_keep_iff (by norm_num) (by norm_num), h2]
  norm_num

/-- C97, a covariance with determinant zero is always kept after one with a positive determinant, and nothing is kept after it. -/
theorem C97_zero_determinant {tol rec det : ℝ} : (0 < rec → Keep tol rec 0) ∧ (¬ Keep tol 0 det) := by
  constructor
  · intro h; simp [Keep, h]
  · unfold Keep
    split_ifs
    · simp
    · simp

/-- C97 is false beyond that: a rejected batch leaves its traces.  The values of the design variables written to the result files at the
end are those of the last optimization, which included the rejected batch, while the reported calibration is that of the last kept round. -/
theorem C97_rejection_not_undone : ∃ (env : OptEnv Nat Nat Unit) (s : OnlineSt Nat Nat Unit),
    online env (1 / 2) 400 200 0 = .ok () s ∧ s.batchIdx = [0] ∧ s.calib = 1 ∧ env.theta s.w = 2 ∧
      env.theta s.w ≠ s.calib := by
  have hk : ¬ Keep (1 / 2) 4 4 := by
    rw [C97_keep_iff (by norm_num) (by norm_num)]
    have h2 : (4 : ℝ) ^ (1 / 2 : ℝ) = 2 := by
      rw [show (4 : ℝ) = 2 ^ (2 : ℝ) by norm_num, ← Real.rpow_mul (by norm_num)]; norm_num
    rw [h2]; norm_num
  refine ⟨demoOpt, ⟨2, [0], 1, some (), 4, [⟨[0], 1, (), 4, true⟩, ⟨[0, 200], 2, (), 4, false⟩]⟩, ?_, rfl, rfl, rfl,
    by simp [demoOpt]⟩
  rw [one_div] at hk
  simp [online, onlineRounds, onlineRound, demoOpt, Res.bind, hk]

end Lrf
end Verif
