import Verif.Lemmas.Lrf

/-! Lemmas about the simulation of the 2D laser example. -/

namespace Verif
namespace Lrf
open ErrorTerms

/-- true input of step `i`. -/
def inp (u : List V3) (i : Nat) : V3 := (u[i]?).getD 0

/-- true pose of step `i`. -/
noncomputable def poseT (p : SimPar) (u : List V3) : Nat → V3
  | 0 => p.x0
  | i + 1 => motionStep p.dt (poseT p u i) (inp u (i + 1))

/-- measured input of step `i`. -/
noncomputable def inpN (p : SimPar) (u : List V3) (i : Nat) : V3 := if i = 0 then 0 else inp u i + p.nu i

/-- odometry pose of step `i`. -/
noncomputable def poseO (p : SimPar) (u : List V3) : Nat → V3
  | 0 => p.x0
  | i + 1 => motionStep p.dt (poseO p u i) (inpN p u (i + 1))

noncomputable def rangeRow (p : SimPar) (u : List V3) (i : Nat) : List ℝ :=
  if i = 0 then List.replicate p.lm.length 0 else p.lm.mapIdx fun j l => simRange p.Th (poseT p u i) l (p.nr i j)

noncomputable def bearingRow (p : SimPar) (u : List V3) (i : Nat) : List ℝ :=
  if i = 0 then List.replicate p.lm.length 0 else p.lm.mapIdx fun j l => simBearing p.Th (poseT p u i) l (p.nb i j)

/-- the record after step `k`. -/
noncomputable def dataAt (p : SimPar) (u : List V3) (k : Nat) : Data :=
  ⟨(List.range (k + 1)).map (poseT p u), (List.range (k + 1)).map (poseO p u), (List.range (k + 1)).map (inpN p u),
    (List.range (k + 1)).map (rangeRow p u), (List.range (k + 1)).map (bearingRow p u)⟩

theorem simInit_eq (p : SimPar) (u : List V3) : simInit p = dataAt p u 0 := by
  simp [simInit, dataAt, poseT, poseO, inpN, rangeRow, bearingRow]

theorem simBody_eq {p : SimPar} {u : List V3} {k : Nat} (hu : k + 1 < u.length) (hQ : p.okQ = true)
    (hR : p.lm = [] ∨ p.okR0 = true ∧ p.okR1 = true) :
    simBody p u (k + 1) (dataAt p u k) = .ok () (dataAt p u (k + 1)) := by
  have h1 : (dataAt p u k).xTrue[k]? = some (poseT p u k) := by simp [dataAt]
  have h2 : (dataAt p u k).xOdom[k]? = some (poseO p u k) := by simp [dataAt]
  have h3 : u[k + 1]? = some (inp u (k + 1)) := by
    simp [inp, List.getElem?_eq_getElem hu]
  unfold simBody
  simp only [Nat.add_sub_cancel, h1, h2, h3]
  have hn : ¬ (p.lm ≠ [] ∧ (!(p.okR0 && p.okR1)) = true) := by
    rintro ⟨h4, h5⟩
    rcases hR with h | ⟨h, h'⟩
    · exact h4 h
    · simp [h, h'] at h5
  rw [if_neg hn]
  simp only [hQ, Bool.not_true, Bool.false_eq_true, if_false]
  congr 1
  ext1
  · simp [dataAt, List.range_succ (n := k + 1), poseT]
  · simp [dataAt, List.range_succ (n := k + 1), poseO, inpN]
  · simp [dataAt, List.range_succ (n := k + 1), inpN]
  · simp [dataAt, List.range_succ (n := k + 1), rangeRow, poseT]
  · simp [dataAt, List.range_succ (n := k + 1), bearingRow, poseT]

theorem simLoop_eq {p : SimPar} {u : List V3} (hQ : p.okQ = true) (hR : p.lm = [] ∨ p.okR0 = true ∧ p.okR1 = true)
    (n k : Nat) (hu : n = 0 ∨ n + k < u.length) :
    simLoop p u n (k + 1) (dataAt p u k) = .ok () (dataAt p u (k + n)) := by
  induction n generalizing k with
  | zero => rfl
  | succ n ih =>
    simp only [simLoop, simBody_eq (show k + 1 < u.length by omega) hQ hR, Res.bind]
    rw [ih (k + 1) (by omega)]
    congr 2; omega

theorem simulate_eq {p : SimPar} {u : List V3} {steps : Nat} (hQ : p.okQ = true)
    (hR : p.lm = [] ∨ p.okR0 = true ∧ p.okR1 = true) (hu : steps ≤ 1 ∨ steps ≤ u.length) :
    simulate p u steps = .ok () (dataAt p u (steps - 1)) := by
  unfold simulate
  rw [simInit_eq p u, simLoop_eq hQ hR _ 0 (by omega), Nat.zero_add]

theorem simLoop_short {p : SimPar} {u : List V3} (hQ : p.okQ = true) (hR : p.lm = [] ∨ p.okR0 = true ∧ p.okR1 = true)
    (n k : Nat) (hk : k < u.length) (hu : u.length ≤ n + k) : simLoop p u n (k + 1) (dataAt p u k) = .ub := by
  induction n generalizing k with
  | zero => omega
  | succ n ih =>
    by_cases h : k + 1 < u.length
    · simp only [simLoop, simBody_eq h hQ hR, Res.bind]
      exact ih (k + 1) h (by omega)
    · have h3 : u[k + 1]? = none := List.getElem?_eq_none (by omega)
      have : simBody p u (k + 1) (dataAt p u k) = .ub := by
        unfold simBody
        rw [h3]
        split
        · rename_i h _; exact absurd h (by simp)
        · rfl
      simp only [simLoop, this, Res.bind]

/-- the error of a motion step: zero up to full turns of the heading. -/
theorem motionErr_step {T : ℝ} (hT : T ≠ 0) (x u e : V3) :
    motionErr T (u + e) x (motionStep T x u) =
      e + ![0, 0, 2 * Real.pi * roundAway ((x 2 + T * u 2) / (2 * Real.pi)) / T] := by
  have hcs := Real.sin_sq_add_cos_sq (x 2)
  have e2 : motionStep T x u - x = ![T * (Real.cos (x 2) * u 0 + -Real.sin (x 2) * u 1),
      T * (Real.sin (x 2) * u 0 + Real.cos (x 2) * u 1),
      T * u 2 - 2 * Real.pi * roundAway ((x 2 + T * u 2) / (2 * Real.pi))] := by
    funext i
    fin_cases i
    · simp [motionStep]
    · simp [motionStep]
    · simp only [motionStep, angleMod]
      simp
      ring
  unfold motionErr
  rw [e2]
  funext i
  fin_cases i
  · simp [motionB]
    field_simp
    linear_combination -(u 0) * hcs
  · simp [motionB]
    field_simp
    linear_combination -(u 1) * hcs
  · simp [motionB]
    field_simp
    ring

theorem roundAway_zero {y : ℝ} (h : |y| < 1 / 2) : roundAway y = 0 := by
  obtain ⟨h1, h2⟩ := abs_lt.1 h
  unfold roundAway
  split_ifs
  · rw [Int.floor_eq_zero_iff]; constructor <;> linarith
  · rw [neg_eq_zero, Int.floor_eq_zero_iff]; constructor <;> linarith

theorem roundAway_turn {x : ℝ} (h : |x| < Real.pi) : roundAway (x / (2 * Real.pi)) = 0 := by
  apply roundAway_zero
  rw [abs_div, abs_of_pos (show 0 < 2 * Real.pi by positivity), div_lt_iff₀ (by positivity)]
  linarith

theorem angleMod_small {x : ℝ} (h : |x| < Real.pi) : angleMod x = x := by
  unfold angleMod
  rw [roundAway_turn h]; simp

/-- error of a simulated observation at the truth. -/
theorem obsErr_sim (Th x : V3) (l : V2) (nr nb : ℝ) (hn : |nb| < Real.pi) :
    obsErr (simRange Th x l nr) (simBearing Th x l nb) x l Th = ![nr, nb] := by
  have h1 : simRange Th x l nr - Real.sqrt (obsD x l Th) = nr := by
    simp [simRange, obsD]
  have hcut : ¬ Cut nb := by
    rintro ⟨k, hk⟩
    rw [hk, abs_mul, abs_of_pos Real.pi_pos] at hn
    have h2 : |(2 * (k : ℝ) + 1)| < 1 := by
      by_contra h
      push Not at h
      have := mul_le_mul_of_nonneg_right h Real.pi_pos.le
      linarith
    have h3 : |(2 * k + 1 : ℤ)| < 1 := by
      have : ((|(2 * k + 1 : ℤ)| : ℤ) : ℝ) < 1 := by push_cast; exact h2
      exact_mod_cast this
    rw [Int.abs_lt_one_iff] at h3
    omega
  have h2 : angleMod (simBearing Th x l nb - (atan2 (obsB x l Th) (obsA x l Th) - x 2 - Th 2)) = nb := by
    have : simBearing Th x l nb - (atan2 (obsB x l Th) (obsA x l Th) - x 2 - Th 2) =
        nb + 2 * Real.pi * ((-roundAway ((atan2 (obsB x l Th) (obsA x l Th) - x 2 - Th 2 + nb) / (2 * Real.pi)) : ℤ) : ℝ) := by
      unfold simBearing angleMod
      push_cast; ring
    rw [this, angleMod_add hcut, angleMod_small hn]
  unfold obsErr
  rw [h1, h2]

end Lrf
end Verif
