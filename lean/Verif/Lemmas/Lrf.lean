import Verif.Model.Lrf
import Verif.Spec.Lrf
import Verif.Lemmas.Loop
import Verif.Lemmas.Angle

/-! Lemmas about the 2D laser example: the path generator and the landmark initialisation. -/

namespace Verif
namespace Lrf
open ErrorTerms

/-- the times at which the loop of `genSineWavePath` stops by. -/
def timeAt (add : ℝ → ℝ → ℝ) (T : ℝ) : Nat → ℝ
  | 0 => 0
  | k + 1 => add (timeAt add T k) T

theorem timeAt_exact (T : ℝ) (k : Nat) : timeAt (· + ·) T k = k * T := by
  induction k with
  | zero => simp [timeAt]
  | succ k ih => simp only [timeAt, ih]; push_cast; ring

/-- the vector `cost` after `k` rounds. -/
noncomputable def costs (add : ℝ → ℝ → ℝ) (A f T : ℝ) (k : Nat) : List ℝ :=
  (List.range k).map fun i => A * Real.cos (2 * Real.pi * f * timeAt add T i)

theorem costLoop_ok {add : ℝ → ℝ → ℝ} {stop A f T : ℝ} {n : Nat} (h : ∀ k < n, timeAt add T k < stop)
    (hn : stop ≤ timeAt add T n) :
    costLoop add stop A f T = .ok () ⟨timeAt add T n, costs add A f T n⟩ := by
  classical
  unfold costLoop
  have := Loop.run_ok (fun s : CostSt => s.t < stop)
    (fun s => .ok () ⟨add s.t T, s.cost ++ [A * Real.cos (2 * Real.pi * f * s.t)]⟩)
    (fun k => ⟨timeAt add T k, costs add A f T k⟩) n
    (fun k hk => ⟨h k hk, by simp [costs, timeAt, List.range_succ]⟩) (by simpa using hn)
  convert this using 2 <;> simp [timeAt, costs]

theorem costLoop_diverge {add : ℝ → ℝ → ℝ} {stop A f T : ℝ} (h : ∀ k, timeAt add T k < stop) :
    costLoop add stop A f T = .diverge := by
  classical
  unfold costLoop
  have := Loop.run_diverge (fun s : CostSt => s.t < stop)
    (fun s => .ok () ⟨add s.t T, s.cost ++ [A * Real.cos (2 * Real.pi * f * s.t)]⟩)
    (fun k => ⟨timeAt add T k, costs add A f T k⟩)
    (fun k => ⟨h k, by simp [costs, timeAt, List.range_succ]⟩)
  convert this using 2 <;> simp [timeAt, costs]

theorem controls_length (f T c0 th : ℝ) (l : List ℝ) : (controls f T c0 th l).length = l.length := by
  induction l generalizing c0 th with
  | nil => rfl
  | cons c l ih => simp [controls, ih]

theorem controls_get (f T : ℝ) (l : List ℝ) (c0 th : ℝ) (k : Nat) (c : ℝ) (hc : l[k]? = some c) :
    (controls f T c0 th l)[k]? =
      some ![2 * Real.pi * f * (Real.sqrt (1 + c * c) +
          Real.sqrt (1 + (((c0 :: l)[k]?).getD 0) * (((c0 :: l)[k]?).getD 0))) / 2, 0,
        (Real.arctan c - (if k = 0 then th else Real.arctan (((c0 :: l)[k]?).getD 0))) / T] := by
  induction l generalizing c0 th k with
  | nil => simp at hc
  | cons a l ih =>
    cases k with
    | zero =>
      simp at hc
      subst hc
      simp [controls]
    | succ k =>
      simp only [List.getElem?_cons_succ] at hc
      simp only [controls, List.getElem?_cons_succ]
      rw [ih a (Real.arctan a) k hc]
      cases k <;> simp

theorem genSineWavePath_ok {add mul : ℝ → ℝ → ℝ} {u0 : List V3} {steps : Nat} {A f T : ℝ} {n : Nat}
    (h : ∀ k < n, timeAt add T k < mul steps T) (hn : mul steps T ≤ timeAt add T n) :
    ∃ u, genSineWavePath add mul u0 steps A f T = .ok () u ∧ u.length = max 1 n ∧ u[0]? = some 0 ∧
      ∀ k, k + 1 < n → u[k + 1]? = some ![2 * Real.pi * f *
        (Real.sqrt (1 + (A * Real.cos (2 * Real.pi * f * timeAt add T (k + 1))) ^ 2) +
          Real.sqrt (1 + (A * Real.cos (2 * Real.pi * f * timeAt add T k)) ^ 2)) / 2, 0,
        (Real.arctan (A * Real.cos (2 * Real.pi * f * timeAt add T (k + 1))) -
          (if k = 0 then 0 else Real.arctan (A * Real.cos (2 * Real.pi * f * timeAt add T k)))) / T] := by
  refine ⟨_, by rw [genSineWavePath, costLoop_ok h hn]; rfl, ?_, by simp, ?_⟩
  · have : (costs add A f T n).length = n := by simp [costs]
    cases hcs : costs add A f T n with
    | nil =>
      rw [hcs] at this
      simp at this
      simp [← this]
    | cons c cs =>
      rw [hcs] at this
      simp only [List.length_cons, controls_length] at this ⊢
      omega
  · intro k hk
    have hget : ∀ i < n, (costs add A f T n)[i]? = some (A * Real.cos (2 * Real.pi * f * timeAt add T i)) := by
      intro i hi
      simp [costs, hi]
    cases hcs : costs add A f T n with
    | nil =>
      have := hget 0 (by omega)
      rw [hcs] at this
      simp at this
    | cons c cs =>
      rw [hcs] at hget
      simp only [List.getElem?_cons_succ]
      have h1 := hget (k + 1) hk
      simp only [List.getElem?_cons_succ] at h1
      rw [controls_get f T cs c 0 k _ h1, hget k (by omega)]
      simp only [Option.getD_some, pow_two]

theorem deriv_pathX (f t : ℝ) : deriv (LrfSpec.pathX f) t = 2 * Real.pi * f := by
  have : HasDerivAt (LrfSpec.pathX f) (2 * Real.pi * f) t := by
    have h := (hasDerivAt_id t).const_mul (2 * Real.pi * f)
    rw [mul_one] at h
    exact h
  exact this.deriv

theorem deriv_pathY (A f t : ℝ) :
    deriv (LrfSpec.pathY A f) t = A * Real.cos (2 * Real.pi * f * t) * (2 * Real.pi * f) := by
  have h1 : HasDerivAt (fun t => 2 * Real.pi * f * t) (2 * Real.pi * f) t := by
    simpa using (hasDerivAt_id t).const_mul (2 * Real.pi * f)
  have := (h1.sin).const_mul A
  have h2 : HasDerivAt (LrfSpec.pathY A f) (A * (Real.cos (2 * Real.pi * f * t) * (2 * Real.pi * f))) t := this
  rw [h2.deriv]; ring

theorem speed_eq {A f t : ℝ} (hf : 0 ≤ f) :
    LrfSpec.speed A f t = 2 * Real.pi * f * Real.sqrt (1 + (A * Real.cos (2 * Real.pi * f * t)) ^ 2) := by
  unfold LrfSpec.speed
  rw [deriv_pathX, deriv_pathY]
  have h0 : 0 ≤ 2 * Real.pi * f := by positivity
  rw [show (2 * Real.pi * f) ^ 2 + (A * Real.cos (2 * Real.pi * f * t) * (2 * Real.pi * f)) ^ 2 =
    (2 * Real.pi * f) ^ 2 * (1 + (A * Real.cos (2 * Real.pi * f * t)) ^ 2) by ring,
    Real.sqrt_mul (by positivity), Real.sqrt_sq h0]

theorem heading_eq {A f t : ℝ} (hf : f ≠ 0) :
    LrfSpec.heading A f t = Real.arctan (A * Real.cos (2 * Real.pi * f * t)) := by
  unfold LrfSpec.heading
  rw [deriv_pathX, deriv_pathY, mul_div_cancel_right₀]
  have := Real.pi_ne_zero
  positivity

/-! ## landmarks -/

theorem angleMod_int (k : ℤ) : angleMod (2 * Real.pi * k) = 0 := by
  have hp : (2 * Real.pi) ≠ 0 := by positivity
  have h0 : ¬ Cut 0 := by
    rintro ⟨j, hj⟩
    have : ((2 * j + 1 : ℤ) : ℝ) * Real.pi = 0 := by push_cast; linarith
    rcases mul_eq_zero.1 this with h | h
    · have : (2 * j + 1 : ℤ) = 0 := by exact_mod_cast h
      omega
    · exact Real.pi_ne_zero h
  have := angleMod_add h0 k
  rw [zero_add] at this
  rw [this, angleMod_eq h0]
  simp
  norm_num

/-- an angle with the cosine and sine of `φ` is `φ` up to full turns. -/
theorem arg_polar {r φ : ℝ} (hr : 0 < r) : ∃ k : ℤ, atan2 (r * Real.sin φ) (r * Real.cos φ) = φ + 2 * Real.pi * k := by
  unfold atan2
  have e : (⟨r * Real.cos φ, r * Real.sin φ⟩ : ℂ) = (r : ℂ) * ((Real.cos φ : ℂ) + (Real.sin φ : ℂ) * Complex.I) := by
    apply Complex.ext <;>
      simp only [Complex.re_ofReal_mul, Complex.im_ofReal_mul, Complex.add_re, Complex.add_im, Complex.mul_re, Complex.mul_im,
        Complex.ofReal_re, Complex.ofReal_im, Complex.I_re, Complex.I_im] <;> ring
  have h := Complex.arg_mul_cos_add_sin_mul_I_coe_angle hr (φ : Real.Angle)
  rw [Real.Angle.cos_coe, Real.Angle.sin_coe, ← e] at h
  obtain ⟨k, hk⟩ := Real.Angle.angle_eq_iff_two_pi_dvd_sub.1 h
  exact ⟨k, by linarith⟩

theorem obsA_backproject (x Th : V3) (r b : ℝ) : obsA x (backproject x Th r b) Th = r * Real.cos (b + Th 2 + x 2) := by
  simp [obsA, backproject]; ring

theorem obsB_backproject (x Th : V3) (r b : ℝ) : obsB x (backproject x Th r b) Th = r * Real.sin (b + Th 2 + x 2) := by
  simp [obsB, backproject]; ring

theorem obsErr_backproject (x Th : V3) {r : ℝ} (b : ℝ) (hr : 0 < r) : obsErr r b x (backproject x Th r b) Th = 0 := by
  have hd : obsD x (backproject x Th r b) Th = r ^ 2 := by
    unfold obsD
    rw [obsA_backproject, obsB_backproject]
    have := Real.sin_sq_add_cos_sq (b + Th 2 + x 2)
    linear_combination r ^ 2 * this
  obtain ⟨k, hk⟩ := arg_polar (φ := b + Th 2 + x 2) hr
  have hb : angleMod (b - (atan2 (obsB x (backproject x Th r b) Th) (obsA x (backproject x Th r b) Th) - x 2 - Th 2)) = 0 := by
    rw [obsA_backproject, obsB_backproject, hk,
      show b - (b + Th 2 + x 2 + 2 * Real.pi * k - x 2 - Th 2) = 2 * Real.pi * ((-k : ℤ) : ℝ) by push_cast; ring]
    exact angleMod_int _
  unfold obsErr
  rw [hb, hd, Real.sqrt_sq hr.le]
  ext i
  fin_cases i <;> simp

/-- the back projection of what the sensor sees is the landmark. -/
theorem backproject_true (x Th : V3) (l : V2) :
    backproject x Th (simRange Th x l 0) (simBearing Th x l 0) = l := by
  obtain ⟨k, hk⟩ : ∃ k : ℤ, simBearing Th x l 0 + Th 2 + x 2 = atan2 (obsB x l Th) (obsA x l Th) + 2 * Real.pi * k := by
    refine ⟨-roundAway ((atan2 (obsB x l Th) (obsA x l Th) - x 2 - Th 2 + 0) / (2 * Real.pi)), ?_⟩
    unfold simBearing angleMod
    push_cast; ring
  have habs : simRange Th x l 0 = ‖(⟨obsA x l Th, obsB x l Th⟩ : ℂ)‖ := by
    rw [Complex.norm_eq_sqrt_sq_add_sq]
    simp [simRange, pow_two]
  have hc : simRange Th x l 0 * Real.cos (simBearing Th x l 0 + Th 2 + x 2) = obsA x l Th := by
    rw [hk, mul_comm (2 * Real.pi), Real.cos_add_int_mul_two_pi, habs]
    simp [atan2]
  have hs : simRange Th x l 0 * Real.sin (simBearing Th x l 0 + Th 2 + x 2) = obsB x l Th := by
    rw [hk, mul_comm (2 * Real.pi), Real.sin_add_int_mul_two_pi, habs]
    simp [atan2]
  have e0 := hc
  have e1 := hs
  unfold obsA at e0
  unfold obsB at e1
  funext i
  fin_cases i
  · simp [backproject]; linarith
  · simp [backproject]; linarith

/-- entry of landmark `j` after all poses. -/
noncomputable def visitSeq (Th : V3) (r b : List (List ℝ)) (j : Nat) :
    Nat → List V3 → Bool × V2 → Option (Bool × V2)
  | _, [], s => some s
  | i, x :: xs, s => (visit x Th r b i j s).bind (visitSeq Th r b j (i + 1) xs)

theorem visitAll_some (x Th : V3) (r b : List (List ℝ)) (i : Nat) (l : List (Bool × V2)) (j : Nat) (l' : List (Bool × V2)) :
    visitAll x Th r b i j l = some l' ↔
      l'.length = l.length ∧ ∀ k (h : k < l.length) (h' : k < l'.length), visit x Th r b i (j + k) l[k] = some l'[k] := by
  induction l generalizing j l' with
  | nil =>
    simp only [visitAll, Option.some.injEq, List.length_nil]
    constructor
    · rintro rfl; simp
    · rintro ⟨h, _⟩; exact (List.length_eq_zero_iff.1 h).symm
  | cons s l ih =>
    simp only [visitAll, Option.bind_eq_some_iff, Option.map_eq_some_iff]
    constructor
    · rintro ⟨s', hs', t, ht, rfl⟩
      obtain ⟨h1, h2⟩ := (ih (j + 1) t).1 ht
      refine ⟨by simp [h1], ?_⟩
      intro k hk hk'
      cases k with
      | zero => simpa using hs'
      | succ k =>
        have := h2 k (by simpa using hk) (by simpa using hk')
        simpa [Nat.add_assoc, Nat.add_comm 1] using this
    · rintro ⟨h1, h2⟩
      cases l' with
      | nil => simp at h1
      | cons s' t =>
        refine ⟨s', h2 0 (by simp) (by simp), t, ?_, rfl⟩
        rw [ih]
        refine ⟨by simpa using h1, ?_⟩
        intro k hk hk'
        have := h2 (k + 1) (by simpa using hk) (by simpa using hk')
        simpa [Nat.add_assoc, Nat.add_comm 1] using this

theorem initLoop_some (Th : V3) (r b : List (List ℝ)) (xs : List V3) (i : Nat) (l l' : List (Bool × V2)) :
    initLoop Th r b i xs l = some l' ↔
      l'.length = l.length ∧ ∀ k (h : k < l.length) (h' : k < l'.length), visitSeq Th r b k i xs l[k] = some l'[k] := by
  induction xs generalizing i l with
  | nil =>
    simp only [initLoop, visitSeq, Option.some.injEq]
    constructor
    · rintro rfl; simp
    · rintro ⟨h, h2⟩; exact List.ext_getElem h.symm fun k h1 h3 => h2 k h1 h3
  | cons x xs ih =>
    simp only [initLoop, Option.bind_eq_some_iff]
    constructor
    · rintro ⟨m, hm, h⟩
      obtain ⟨m1, m2⟩ := (visitAll_some x Th r b i l 0 m).1 hm
      obtain ⟨h1, h2⟩ := (ih (i + 1) m).1 h
      refine ⟨h1.trans m1, ?_⟩
      intro k hk hk'
      have hm := m2 k hk (by omega)
      rw [Nat.zero_add] at hm
      simp only [visitSeq, hm, Option.bind_some]
      exact h2 k (by omega) hk'
    · rintro ⟨h1, h2⟩
      have hex : ∀ k (h : k < l.length), ∃ s, visit x Th r b i k l[k] = some s := by
        intro k hk
        have := h2 k hk (by omega)
        simp only [visitSeq, Option.bind_eq_some_iff] at this
        obtain ⟨s, hs, _⟩ := this
        exact ⟨s, hs⟩
      let m := List.ofFn fun k : Fin l.length => (hex k k.2).choose
      have hm : ∀ k (h : k < l.length) (h' : k < m.length), visit x Th r b i (0 + k) l[k] = some m[k] := by
        intro k hk hk'
        rw [Nat.zero_add]
        simp only [m, List.getElem_ofFn]
        exact (hex k hk).choose_spec
      refine ⟨m, (visitAll_some x Th r b i l 0 m).2 ⟨by simp [m], hm⟩, (ih (i + 1) m).2 ⟨by simp [m, h1], ?_⟩⟩
      intro k hk hk'
      have hk1 : k < l.length := by simpa [m] using hk
      have := h2 k hk1 hk'
      have e := hm k hk1 hk
      rw [Nat.zero_add] at e
      simp only [visitSeq, e, Option.bind_some] at this
      exact this

theorem visitSeq_found (Th : V3) (r b : List (List ℝ)) (j i : Nat) (xs : List V3) (v : V2) :
    visitSeq Th r b j i xs (true, v) = some (true, v) := by
  induction xs generalizing i with
  | nil => rfl
  | cons x xs ih => simp [visitSeq, visit, ih]

/-- a landmark never seen stays where it is. -/
theorem visitSeq_unseen (Th : V3) (r b : List (List ℝ)) (j : Nat) (v : V2) (xs : List V3) (i : Nat)
    (h : ∀ k < xs.length, ∃ c, at2 r (i + k) j = some c ∧ c ≤ 0) :
    visitSeq Th r b j i xs (false, v) = some (false, v) := by
  classical
  induction xs generalizing i with
  | nil => rfl
  | cons x xs ih =>
    obtain ⟨c, hc, hc0⟩ := h 0 (by simp)
    rw [Nat.add_zero] at hc
    have hv : visit x Th r b i j (false, v) = some (false, v) := by
      simp [visit, hc, not_lt.2 hc0]
    simp only [visitSeq, hv, Option.bind_some]
    apply ih
    intro k hk
    obtain ⟨c, hc, hc0⟩ := h (k + 1) (by simpa using hk)
    exact ⟨c, by rw [← hc]; congr 1; omega, hc0⟩

theorem visitSeq_seen (Th : V3) (r b : List (List ℝ)) (j : Nat) (v : V2) (xs : List V3) (i k : Nat) (x : V3) (c d : ℝ)
    (hx : xs[k]? = some x) (h : ∀ k' < k, ∃ c, at2 r (i + k') j = some c ∧ c ≤ 0)
    (hc : at2 r (i + k) j = some c) (hpos : 0 < c) (hd : at2 b (i + k) j = some d) :
    visitSeq Th r b j i xs (false, v) = some (true, backproject x Th c d) := by
  classical
  induction xs generalizing i k with
  | nil => simp at hx
  | cons y xs ih =>
    cases k with
    | zero =>
      simp only [List.getElem?_cons_zero, Option.some.injEq] at hx
      subst hx
      rw [Nat.add_zero] at hc hd
      have hv : visit y Th r b i j (false, v) = some (true, backproject y Th c d) := by
        simp [visit, hc, hpos, hd]
      simp only [visitSeq, hv, Option.bind_some]
      exact visitSeq_found ..
    | succ k =>
      simp only [List.getElem?_cons_succ] at hx
      obtain ⟨c', hc', hc0⟩ := h 0 (by omega)
      rw [Nat.add_zero] at hc'
      have hv : visit y Th r b i j (false, v) = some (false, v) := by
        simp [visit, hc', not_lt.2 hc0]
      simp only [visitSeq, hv, Option.bind_some]
      apply ih (i + 1) k hx
      · intro k' hk'
        obtain ⟨c, hc, hc0⟩ := h (k' + 1) (by omega)
        exact ⟨c, by rw [← hc]; congr 1; omega, hc0⟩
      · rw [← hc]; congr 1; omega
      · rw [← hd]; congr 1; omega

/-- reading a range outside the record. -/
theorem visitSeq_ub (Th : V3) (r b : List (List ℝ)) (j : Nat) (v : V2) (xs : List V3) (i k : Nat)
    (hk : k < xs.length) (h : ∀ k' < k, ∃ c, at2 r (i + k') j = some c ∧ c ≤ 0)
    (hc : at2 r (i + k) j = none) : visitSeq Th r b j i xs (false, v) = none := by
  classical
  induction xs generalizing i k with
  | nil => simp at hk
  | cons y xs ih =>
    cases k with
    | zero =>
      rw [Nat.add_zero] at hc
      simp [visitSeq, visit, hc]
    | succ k =>
      obtain ⟨c', hc', hc0⟩ := h 0 (by omega)
      rw [Nat.add_zero] at hc'
      have hv : visit y Th r b i j (false, v) = some (false, v) := by
        simp [visit, hc', not_lt.2 hc0]
      simp only [visitSeq, hv, Option.bind_some]
      apply ih (i + 1) k (by simpa using hk)
      · intro k' hk'
        obtain ⟨c, hc, hc0⟩ := h (k' + 1) (by omega)
        exact ⟨c, by rw [← hc]; congr 1; omega, hc0⟩
      · rw [← hc]; congr 1; omega

end Lrf
end Verif
