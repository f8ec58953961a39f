import Verif.Lemmas.Lrf
import Mathlib.Algebra.BigOperators.Group.Finset.Basic
import Mathlib.Tactic.IntervalCases

/-! C94 (path generator) and C95 (landmark initialisation) of the 2D laser example. -/

namespace Verif
namespace Lrf
open ErrorTerms LrfSpec

/-! ## C94 -/

/-- C94 (partial: exact arithmetic, positive frequency).  For a positive time step the generator returns exactly `steps` inputs,
at least one.  The first is zero.  Every other input has as speed the mean of the speeds of the path at the two ends of the step, no sideways
speed, and the turns add up to the direction of travel at the end of the step. -/
theorem C94_inputs_partial {u0 : List V3} {steps : Nat} {A f T : ℝ} (hT : 0 < T) (hf : 0 < f) :
    ∃ u, genSineWavePath (· + ·) (· * ·) u0 steps A f T = .ok () u ∧ u.length = max 1 steps ∧ u[0]? = some 0 ∧
      ∃ om : Nat → ℝ, (∀ k, k + 1 < steps → u[k + 1]? =
          some ![(speed A f (k * T) + speed A f ((k + 1 : ℕ) * T)) / 2, 0, om (k + 1)]) ∧
        ∀ k, k + 1 < steps → ∑ i ∈ Finset.range (k + 1), om (i + 1) * T = heading A f ((k + 1 : ℕ) * T) := by
  obtain ⟨u, hu, hlen, h0, hget⟩ := genSineWavePath_ok (add := (· + ·)) (mul := (· * ·)) (u0 := u0) (steps := steps)
    (A := A) (f := f) (T := T) (n := steps)
    (fun k hk => by rw [timeAt_exact]; exact mul_lt_mul_of_pos_right (by exact_mod_cast hk) hT)
    (by rw [timeAt_exact])
  simp only [timeAt_exact] at hget
  refine ⟨u, hu, hlen, h0, fun k => (heading A f (k * T) - (if k = 1 then 0 else heading A f ((k - 1 : ℕ) * T))) / T,
    ?_, ?_⟩
  · intro k hk
    rw [hget k hk, speed_eq hf.le, speed_eq hf.le]
    congr 1
    ext i
    fin_cases i
    · simp; ring
    · simp
    · simp only [Nat.add_eq_right, Nat.add_sub_cancel, heading_eq hf.ne']
      rfl
  · intro k _
    induction k with
    | zero =>
      simp only [zero_add, Finset.sum_range_one, if_true, sub_zero]
      rw [div_mul_cancel₀ _ hT.ne']
    | succ k ih =>
      rw [Finset.sum_range_succ, ih (by omega)]
      simp only [Nat.add_eq_right, Nat.add_sub_cancel, Nat.succ_ne_zero, if_false]
      rw [div_mul_cancel₀ _ hT.ne']
      ring

example : ∃ u, genSineWavePath (· + ·) (· * ·) [] 5000 1 (1 / 100) (1 / 10) = .ok () u ∧ u.length = max 1 5000 := by
  obtain ⟨u, h1, h2, _⟩ := C94_inputs_partial (u0 := []) (steps := 5000) (A := 1) (f := 1 / 100) (T := 1 / 10)
    (by norm_num) (by norm_num)
  exact ⟨u, h1, h2⟩

/-- C94, the turn of the first step is not that of the path: it contains the whole direction of travel at time zero, so that the
first turn differs from the turn of the path whenever the amplitude is not zero. -/
theorem C94_first_turn {u0 : List V3} {steps : Nat} {A f T : ℝ} (hT : 0 < T) (hf : 0 < f) (hs : 2 ≤ steps) (hA : A ≠ 0) :
    ∃ u u1, genSineWavePath (· + ·) (· * ·) u0 steps A f T = .ok () u ∧ u[1]? = some u1 ∧
      u1 2 * T = heading A f T ∧ heading A f 0 = Real.arctan A ∧ u1 2 * T ≠ heading A f T - heading A f 0 := by
  obtain ⟨u, hu, _, _, om, h1, h2⟩ := C94_inputs_partial (u0 := u0) (steps := steps) (A := A) hT hf
  have e := h2 0 (by omega)
  simp only [zero_add, Finset.sum_range_one, Nat.cast_one, one_mul] at e
  have h0 : heading A f 0 = Real.arctan A := by
    rw [heading_eq hf.ne']; simp
  refine ⟨u, _, hu, h1 0 (by omega), ?_, h0, ?_⟩
  · simpa using e
  · have hne : Real.arctan A ≠ 0 := by
      intro h
      exact hA (Real.arctan_eq_zero_iff.1 h)
    rw [h0]
    simp only [zero_add, Matrix.cons_val]
    rw [e]
    intro h
    apply hne
    linarith

example : ∃ u u1, genSineWavePath (· + ·) (· * ·) [] 5000 1 (1 / 100) (1 / 10) = .ok () u ∧ u[1]? = some u1 ∧
    u1 2 * (1 / 10) ≠ heading 1 (1 / 100) (1 / 10) - heading 1 (1 / 100) 0 := by
  obtain ⟨u, u1, h1, h2, _, _, h3⟩ := C94_first_turn (u0 := []) (steps := 5000) (A := 1) (f := 1 / 100) (T := 1 / 10)
    (by norm_num) (by norm_num) (by norm_num) one_ne_zero
  exact ⟨u, u1, h1, h2, h3⟩

/-- C94, a time step that is not positive gives a single zero input whatever the number of steps asked for. -/
theorem C94_step_not_positive {u0 : List V3} {steps : Nat} {A f T : ℝ} (hT : T ≤ 0) :
    genSineWavePath (· + ·) (· * ·) u0 steps A f T = .ok () [0] := by
  obtain ⟨u, hu, hlen, h0, _⟩ := genSineWavePath_ok (add := (· + ·)) (mul := (· * ·)) (u0 := u0) (steps := steps)
    (A := A) (f := f) (T := T) (n := 0) (fun k hk => absurd hk (by omega))
    (by simpa [timeAt] using mul_nonpos_of_nonneg_of_nonpos (Nat.cast_nonneg steps) hT)
  rw [hu]
  match u, hlen, h0 with
  | [a], _, h0 => simp at h0; rw [h0]

example : genSineWavePath (· + ·) (· * ·) [] 5000 1 (1 / 100) 0 = .ok () [0] := C94_step_not_positive le_rfl

/-- C94 with rounded arithmetic: as long as the accumulated times and the end time are off by less than half a step in total,
the generator returns at least the number of inputs asked for, and at most one more. -/
theorem C94_count_rounded {add mul : ℝ → ℝ → ℝ} {u0 : List V3} {steps : Nat} {A f T δ : ℝ} (hs : 1 ≤ steps)
    (hδ : 2 * δ < T) (hstop : |mul steps T - steps * T| ≤ δ) (htime : ∀ k ≤ steps + 1, |timeAt add T k - k * T| ≤ δ) :
    ∃ u, genSineWavePath add mul u0 steps A f T = .ok () u ∧ (u.length = steps ∨ u.length = steps + 1) := by
  have hs' := abs_le.1 hstop
  have hδ0 : 0 ≤ δ := (abs_nonneg _).trans hstop
  have hlt : ∀ k < steps, timeAt add T k < mul steps T := by
    intro k hk
    have := abs_le.1 (htime k (by omega))
    have h1 : ((k : ℝ) + 1) * T ≤ steps * T := by
      apply mul_le_mul_of_nonneg_right _ (by linarith)
      exact_mod_cast hk
    linarith [this.1, this.2, hs'.1, hs'.2]
  have hge : mul steps T ≤ timeAt add T (steps + 1) := by
    have := abs_le.1 (htime (steps + 1) le_rfl)
    push_cast at this
    linarith [this.1, this.2, hs'.1, hs'.2]
  by_cases h : mul steps T ≤ timeAt add T steps
  · obtain ⟨u, hu, hlen, _⟩ := genSineWavePath_ok (u0 := u0) (A := A) (f := f) hlt h
    exact ⟨u, hu, Or.inl (by rw [hlen]; omega)⟩
  · push Not at h
    obtain ⟨u, hu, hlen, _⟩ := genSineWavePath_ok (u0 := u0) (A := A) (f := f) (n := steps + 1)
      (fun k hk => by
        rcases Nat.lt_succ_iff_lt_or_eq.1 hk with h1 | h1
        · exact hlt k h1
        · rw [h1]; exact h) hge
    exact ⟨u, hu, Or.inr (by rw [hlen]; omega)⟩

/-- C94, the additional input does occur: with every sum rounded down a little, one more input than asked for. -/
theorem C94_one_more : ∃ (add : ℝ → ℝ → ℝ) (u : List V3),
    (∀ k ≤ 4, |timeAt add 1 k - k * 1| ≤ 1 / 8) ∧
    genSineWavePath add (· * ·) [] 3 1 1 1 = .ok () u ∧ u.length = 4 := by
  have ht : ∀ k : Nat, timeAt (fun a b => a + b - 1 / 64) 1 k = k * (63 / 64) := by
    intro k
    induction k with
    | zero => simp [timeAt]
    | succ k ih => simp only [timeAt, ih]; push_cast; ring
  obtain ⟨u, hu, hlen, _⟩ := genSineWavePath_ok (add := fun a b => a + b - 1 / 64) (mul := (· * ·)) (u0 := []) (steps := 3)
    (A := 1) (f := 1) (T := 1) (n := 4)
    (fun k hk => by
      rw [ht]
      have : (k : ℝ) ≤ 3 := by exact_mod_cast Nat.le_of_lt_succ hk
      push_cast
      linarith)
    (by rw [ht]; norm_num)
  refine ⟨_, u, ?_, hu, by rw [hlen]; rfl⟩
  intro k hk
  rw [ht, abs_le]
  have : (k : ℝ) ≤ 4 := by exact_mod_cast hk
  constructor <;> linarith [(Nat.cast_nonneg k : (0 : ℝ) ≤ k)]

/-- C94, if the accumulated time stops growing before the end time (a step smaller than the spacing of the numbers there), the
generator does not return. -/
theorem C94_stalls {add mul : ℝ → ℝ → ℝ} {u0 : List V3} {steps k : Nat} {A f T : ℝ}
    (hb : ∀ k' ≤ k, timeAt add T k' < mul steps T) (hst : add (timeAt add T k) T = timeAt add T k) :
    genSineWavePath add mul u0 steps A f T = .diverge := by
  have hc : ∀ n, timeAt add T (k + n) = timeAt add T k := by
    intro n
    induction n with
    | zero => rfl
    | succ n ih => rw [← Nat.add_assoc]; simp only [timeAt, ih, hst]
  rw [genSineWavePath, costLoop_diverge]
  · rfl
  · intro n
    rcases Nat.le_total n k with h | h
    · exact hb n h
    · obtain ⟨m, rfl⟩ := Nat.exists_eq_add_of_le h
      rw [hc]; exact hb k le_rfl

example : genSineWavePath (fun a b => if a < 2 then a + b else a) (· * ·) [] 3 1 1 1 = .diverge :=
  C94_stalls (k := 2) (by
    intro k' hk'
    interval_cases k' <;> norm_num [timeAt]) (by norm_num [timeAt])

/-! ## C95 -/

/-- the record has an entry for every landmark at every pose. -/
def Complete (m : List (List ℝ)) (n nl : Nat) : Prop := ∀ i < n, ∃ row, m[i]? = some row ∧ nl ≤ row.length

/-- C95.  With a complete record of ranges and bearings the initialisation returns one guess per landmark (as many as the first
row of ranges has entries): a landmark with a positive range is placed at the back projection of the measurement of the first such pose,
which makes that measurement's error zero; a landmark without is placed at the origin. -/
theorem C95_initial_landmarks {old : List V2} {xOdom : List V3} {Th : V3} {r b : List (List ℝ)} {r0 : List ℝ}
    (h0 : r[0]? = some r0) (hr : Complete r xOdom.length r0.length) (hb : Complete b xOdom.length r0.length) :
    ∃ l, initLandmarks old xOdom Th r b = .ok () l ∧ l.length = r0.length ∧
      ∀ j < r0.length, ∃ lj, l[j]? = some lj ∧
        ((∀ i, ¬ FirstSeen r xOdom.length j i) → lj = 0) ∧
        ∀ i, FirstSeen r xOdom.length j i → ∃ x rij bij, xOdom[i]? = some x ∧ at2 r i j = some rij ∧ at2 b i j = some bij ∧
          0 < rij ∧ obsErr rij bij x lj Th = 0 := by
  classical
  have hat : ∀ {m : List (List ℝ)}, Complete m xOdom.length r0.length → ∀ i < xOdom.length, ∀ j < r0.length,
      ∃ c, at2 m i j = some c := by
    intro m hm i hi j hj
    obtain ⟨row, h1, h2⟩ := hm i hi
    exact ⟨row[j], by simp [at2, h1, List.getElem?_eq_getElem (show j < row.length by omega)]⟩
  -- what happens to landmark `j`
  have key : ∀ j < r0.length, ∃ s, visitSeq Th r b j 0 xOdom (false, 0) = some s ∧
      ((∀ i, ¬ FirstSeen r xOdom.length j i) → s.2 = 0) ∧
      ∀ i, FirstSeen r xOdom.length j i → ∃ x rij bij, xOdom[i]? = some x ∧ at2 r i j = some rij ∧ at2 b i j = some bij ∧
          0 < rij ∧ s.2 = backproject x Th rij bij := by
    intro j hj
    by_cases hex : ∃ i, i < xOdom.length ∧ ∃ c, at2 r i j = some c ∧ 0 < c
    · let i := Nat.find hex
      obtain ⟨hi, c, hc, hpos⟩ : i < xOdom.length ∧ ∃ c, at2 r i j = some c ∧ 0 < c := Nat.find_spec hex
      have hmin : ∀ i' < i, ∃ c, at2 r i' j = some c ∧ c ≤ 0 := by
        intro i' hi'
        obtain ⟨c, hc⟩ := hat hr i' (by omega) j hj
        refine ⟨c, hc, ?_⟩
        by_contra h
        exact Nat.find_min hex hi' ⟨by omega, c, hc, by linarith [not_le.1 h]⟩
      obtain ⟨d, hd⟩ := hat hb i hi j hj
      have hx : xOdom[i]? = some xOdom[i] := List.getElem?_eq_getElem hi
      have hfs : ∀ i', FirstSeen r xOdom.length j i' → i' = i := by
        rintro i' ⟨hi', ⟨row, hrow, v, hv, hv0⟩, hlt⟩
        have hv' : at2 r i' j = some v := by
          simp only [Option.mem_def] at hrow hv
          simp [at2, hrow, hv]
        apply le_antisymm
        · by_contra h
          push Not at h
          have hc' := hc
          simp only [at2, Option.bind_eq_some_iff] at hc'
          obtain ⟨row', hrow', hv''⟩ := hc'
          have := hlt i h row' hrow' c hv''
          linarith
        · exact Nat.find_min' hex ⟨hi', v, hv', hv0⟩
      have hfirst : FirstSeen r xOdom.length j i := by
        have hc' := hc
        simp only [at2, Option.bind_eq_some_iff] at hc'
        obtain ⟨row', hrow', hv''⟩ := hc'
        refine ⟨hi, ⟨row', hrow', c, hv'', hpos⟩, ?_⟩
        intro i' hi' row hrow v hv
        obtain ⟨c', hc', hc0⟩ := hmin i' hi'
        simp only [Option.mem_def] at hrow hv
        simp only [at2, hrow, Option.bind_some, hv, Option.some.injEq] at hc'
        linarith
      refine ⟨_, visitSeq_seen Th r b j 0 xOdom 0 i xOdom[i] c d hx (by simpa using hmin) (by simpa using hc) hpos
        (by simpa using hd), ?_, ?_⟩
      · intro h; exact absurd hfirst (h i)
      · intro i' h'
        rw [hfs i' h']
        exact ⟨_, c, d, hx, hc, hd, hpos, rfl⟩
    · push Not at hex
      refine ⟨_, visitSeq_unseen Th r b j 0 xOdom 0 ?_, fun _ => rfl, ?_⟩
      · intro k hk
        obtain ⟨c, hc⟩ := hat hr k hk j hj
        exact ⟨c, by simpa using hc, hex k hk c hc⟩
      · rintro i ⟨hi, ⟨row, hrow, v, hv, hv0⟩, _⟩
        simp only [Option.mem_def] at hrow hv
        have := hex i hi v (by simp [at2, hrow, hv])
        linarith
  choose s hs using key
  let l' := List.ofFn fun j : Fin r0.length => s j j.2
  have hl' : initLoop Th r b 0 xOdom (List.replicate r0.length (false, 0)) = some l' := by
    rw [initLoop_some]
    refine ⟨by simp [l'], ?_⟩
    intro k hk hk'
    simp only [List.length_replicate] at hk
    simp only [List.getElem_replicate, l', List.getElem_ofFn]
    exact (hs k hk).1
  refine ⟨l'.map Prod.snd, ?_, by simp [l'], ?_⟩
  · cases r with
    | nil => simp at h0
    | cons a r =>
      simp only [List.getElem?_cons_zero, Option.some.injEq] at h0
      subst h0
      simp only [initLandmarks, hl']
  · intro j hj
    refine ⟨(s j hj).2, by simp [l', hj], (hs j hj).2.1, ?_⟩
    intro i hi
    obtain ⟨x, rij, bij, h1, h2, h3, h4, h5⟩ := (hs j hj).2.2 i hi
    exact ⟨x, rij, bij, h1, h2, h3, h4, by rw [h5]; exact obsErr_backproject x Th bij h4⟩

/-- A record for two poses and two landmarks; the first landmark is first seen from the second pose, the second never. -/
example : ∃ l, initLandmarks [] [0, 0] 0 [[0, 0], [2, 0]] [[0, 0], [0, 0]] = .ok () l ∧ l.length = 2 ∧
    ∃ l0, l[0]? = some l0 ∧ obsErr 2 0 0 l0 0 = 0 := by
  obtain ⟨l, h1, h2, h3⟩ := C95_initial_landmarks (old := []) (xOdom := [0, 0]) (Th := 0) (r := [[0, 0], [2, 0]])
    (b := [[0, 0], [0, 0]]) (r0 := [0, 0]) rfl
    (by intro i hi; simp only [List.length_cons, List.length_nil] at hi; interval_cases i <;> simp)
    (by intro i hi; simp only [List.length_cons, List.length_nil] at hi; interval_cases i <;> simp)
  refine ⟨l, h1, h2, ?_⟩
  obtain ⟨lj, h4, _, h5⟩ := h3 0 (by simp)
  obtain ⟨x, rij, bij, hx, hr, hb, _, he⟩ := h5 1 ⟨by simp, ⟨[2, 0], by simp, 2, by simp, by norm_num⟩, by
    intro i' hi' row hrow v hv
    interval_cases i'
    simp at hrow
    subst hrow
    simp at hv
    rw [← hv]⟩
  refine ⟨lj, h4, ?_⟩
  simp [at2] at hx hr hb
  subst hx; subst hr; subst hb
  exact he

/-- a position that makes the error of an exact measurement zero is the true one. -/
theorem obsErr_zero_unique {x Th : V3} {l lj : V2}
    (h : obsErr (simRange Th x l 0) (simBearing Th x l 0) x lj Th = 0) : lj = l := by
  -- the measured polar coordinates of `lj` and of `l` agree
  have hr := congrFun h 0
  have hb := congrFun h 1
  simp only [obsErr, Matrix.cons_val_zero, Matrix.cons_val_one, Pi.zero_apply] at hr hb
  have hk : ∃ k : ℤ, simBearing Th x l 0 = simBearing Th x lj 0 + 2 * Real.pi * k := by
    generalize simBearing Th x l 0 = β at hb ⊢
    unfold angleMod at hb
    refine ⟨roundAway ((β - (atan2 (obsB x lj Th) (obsA x lj Th) - x 2 - Th 2)) / (2 * Real.pi)) +
      roundAway ((atan2 (obsB x lj Th) (obsA x lj Th) - x 2 - Th 2 + 0) / (2 * Real.pi)), ?_⟩
    unfold simBearing angleMod
    push_cast
    linarith
  obtain ⟨k, hk⟩ := hk
  have hr' : simRange Th x l 0 = simRange Th x lj 0 := by
    have : simRange Th x lj 0 = Real.sqrt (obsD x lj Th) := by simp [simRange, obsD]
    linarith
  rw [← backproject_true x Th lj, ← backproject_true x Th l, hr', hk]
  unfold backproject
  rw [show simBearing Th x lj 0 + 2 * Real.pi * k + Th 2 + x 2 = simBearing Th x lj 0 + Th 2 + x 2 + k * (2 * Real.pi) by
    ring, Real.cos_add_int_mul_two_pi, Real.sin_add_int_mul_two_pi]

/-- C95, exact data.  If the poses, the calibration and every positive range with its bearing are exact, every landmark that is
seen is placed at its true position. -/
theorem C95_exact_data {old lm : List V2} {xOdom : List V3} {Th : V3} {r b : List (List ℝ)} {r0 : List ℝ}
    (h0 : r[0]? = some r0) (hr : Complete r xOdom.length r0.length) (hb : Complete b xOdom.length r0.length)
    (hlm : lm.length = r0.length)
    (hex : ∀ i j x l c d, xOdom[i]? = some x → lm[j]? = some l → at2 r i j = some c → 0 < c → at2 b i j = some d →
      c = simRange Th x l 0 ∧ d = simBearing Th x l 0) :
    ∃ l, initLandmarks old xOdom Th r b = .ok () l ∧
      ∀ j, (∃ i, FirstSeen r xOdom.length j i) → j < r0.length → l[j]? = lm[j]? := by
  obtain ⟨l, hl, _, h⟩ := C95_initial_landmarks (old := old) (Th := Th) h0 hr hb
  refine ⟨l, hl, ?_⟩
  rintro j ⟨i, hi⟩ hj
  obtain ⟨lj, h1, _, h2⟩ := h j hj
  obtain ⟨x, c, d, hx, hc, hd, hpos, he⟩ := h2 i hi
  have hl' : lm[j]? = some lm[j] := List.getElem?_eq_getElem (by omega)
  obtain ⟨rfl, rfl⟩ := hex i j x lm[j] c d hx hl' hc hpos hd
  rw [h1, hl', obsErr_zero_unique he]

/-- one pose at the origin, one landmark one unit ahead. -/
example : ∃ l, initLandmarks [] [0] 0 [[1]] [[0]] = .ok () l ∧ l[0]? = some ![1, 0] := by
  have hs : simRange 0 0 ![1, 0] 0 = 1 ∧ simBearing 0 0 ![1, 0] 0 = 0 := by
    have ha : atan2 (obsB 0 ![1, 0] 0) (obsA 0 ![1, 0] 0) = 0 := by
      have : (⟨1, 0⟩ : ℂ) = 1 := rfl
      simp [atan2, obsA, obsB, this]
    refine ⟨by simp [simRange, obsA, obsB], ?_⟩
    unfold simBearing
    rw [ha]
    simpa using angleMod_int 0
  obtain ⟨l, h1, h2⟩ := C95_exact_data (old := []) (lm := [![1, 0]]) (xOdom := [0]) (Th := 0) (r := [[1]]) (b := [[0]])
    (r0 := [1]) rfl
    (by intro i hi; simp only [List.length_cons, List.length_nil] at hi; interval_cases i; simp)
    (by intro i hi; simp only [List.length_cons, List.length_nil] at hi; interval_cases i; simp) rfl
    (by
      intro i j x l c d hx hl hc _ hd
      rcases i with _ | i
      · rcases j with _ | j
        · simp [at2] at hx hl hc hd
          subst hx; subst hl; subst hc; subst hd
          exact ⟨hs.1.symm, hs.2.symm⟩
        · simp at hl
      · simp at hx)
  exact ⟨l, h1, h2 0 ⟨0, by simp, ⟨[1], by simp, 1, by simp, one_pos⟩, by intro i' hi'; omega⟩ (by simp)⟩

/-- C95, without any ranges the guesses are left unchanged (they are not cleared). -/
theorem C95_no_ranges {old : List V2} {xOdom : List V3} {Th : V3} {b : List (List ℝ)} :
    initLandmarks old xOdom Th [] b = .ok () old := rfl

example : initLandmarks [![1, 2]] [0] 0 [] [] = .ok () [![1, 2]] := C95_no_ranges

/-- C95, more poses than rows of ranges: undefined behaviour if some landmark has not been seen in the recorded rows. -/
theorem C95_short_record_undefined {old : List V2} {xOdom : List V3} {Th : V3} {r b : List (List ℝ)} {r0 : List ℝ} {j : Nat}
    (h0 : r[0]? = some r0) (hj : j < r0.length) (hlen : r.length < xOdom.length)
    (hun : ∀ i < r.length, ∃ c, at2 r i j = some c ∧ c ≤ 0) :
    initLandmarks old xOdom Th r b = .ub := by
  cases r with
  | nil => simp at h0
  | cons a r =>
    simp only [List.getElem?_cons_zero, Option.some.injEq] at h0
    subst h0
    simp only [initLandmarks]
    cases hl : initLoop Th (a :: r) b 0 xOdom (List.replicate a.length (false, 0)) with
    | none => rfl
    | some l =>
      exfalso
      rw [initLoop_some] at hl
      obtain ⟨h1, h2⟩ := hl
      have := h2 j (by simpa using hj) (by rw [h1]; simpa using hj)
      rw [List.getElem_replicate, visitSeq_ub Th (a :: r) b j 0 xOdom 0 (a :: r).length hlen
        (by simpa using hun) (by simp [at2])] at this
      exact absurd this (by simp)

example : initLandmarks [] [0, 0] 0 [[0]] [[0]] = .ub :=
  C95_short_record_undefined (r0 := [0]) (j := 0) rfl (by simp) (by simp)
    (fun i hi => ⟨0, by simp at hi; subst hi; simp [at2], le_rfl⟩)

end Lrf
end Verif
