import Verif.Lemmas.SimEgo

/-! Lemmas about the positions of the simulated trajectory and about the alignment of quaternion signs. -/

namespace Verif
namespace SimEgo
open SimTD (Vec3 Quat Pose Path)
variable {T : Type}

theorem genNext_poses (env : Env T) (p : Params T) (rand : Bool) (A : ℝ) (s : Gen) :
    ∃ x, (genNext env p rand A s).poses = s.poses ++ [x] := ⟨_, rfl⟩

theorem genSeq_prefix (env : Env T) (p : Params T) (rand : Bool) (A : ℝ) (s : Gen) (m n : ℕ) :
    ∃ l, (genSeq env p rand A s (m + n)).poses = (genSeq env p rand A s m).poses ++ l := by
  induction n with
  | zero => exact ⟨[], by simp⟩
  | succ n ih =>
    obtain ⟨l, hl⟩ := ih
    obtain ⟨x, hx⟩ := genNext_poses env p rand A (genSeq env p rand A s (m + n))
    refine ⟨l ++ [x], ?_⟩
    rw [← Nat.add_assoc, genSeq, hx, hl, List.append_assoc]

theorem genSeq_getElem (env : Env T) (p : Params T) (rand : Bool) (A : ℝ) (s : Gen) {m n i : ℕ} (h : m ≤ n) {x : ℤ × Pose}
    (hi : (genSeq env p rand A s m).poses[i]? = some x) : (genSeq env p rand A s n).poses[i]? = some x := by
  obtain ⟨k, rfl⟩ := Nat.exists_eq_add_of_le h
  obtain ⟨l, hl⟩ := genSeq_prefix env p rand A s m k
  rw [hl, List.getElem?_append_left]
  · exact hi
  · by_contra hc
    rw [List.getElem?_eq_none (by omega)] at hi
    cases hi

/-- The path variables after a round. -/
theorem genSeq_path (env : Env T) (p : Params T) (rand : Bool) (A : ℝ) (s : Gen) (j : ℕ) (ht : s.t = ((j : ℝ) + 1) * p.dt) (m : ℕ) :
    (genSeq env p rand A s (m + 1)).path.x = (pathPoint p A (j + m + 1)).x ∧
    (genSeq env p rand A s (m + 1)).path.y = (pathPoint p A (j + m + 1)).y := by
  rw [genSeq]
  simp only [genNext, genBody, SimTD.genSineBodyVel2d, genSeq_t, ht, pathPoint]
  constructor
  · push_cast; ring
  · congr 3; push_cast; ring

/-- How far a round of a planar phase moves. -/
theorem genNext_dist {env : Env T} {p : Params T} (hd : 0 < p.dt) {j : ℕ} {s : Gen} (h : GInv env p j s)
    (hu : p.w_T_v_0.q.norm2 = 1) (A : ℝ) :
    ∃ a b : ℤ × Pose, (genNext env p false A s).poses[j]? = some a ∧ (genNext env p false A s).poses[j + 1]? = some b ∧
      dist b.2.r a.2.r = |Real.cos (heading p A s.t) * (s.t - s.path.x) +
        Real.sin (heading p A s.t) * (A * Real.sin (2 * Real.pi * p.f * s.t) - s.path.y)| := by
  have hlen := h.length
  have hne : s.poses ≠ [] := by intro e; rw [e] at hlen; simp at hlen
  have hb : ∃ b, (genNext env p false A s).poses = s.poses ++ [b] ∧ b.2.r = (SimTD.integrateMotionModel
      (s.poses.getLastD (0, p.w_T_v_0)).2 ⟨(SimTD.genSineBodyVel2d s.path s.t p.dt A p.f).1, 0, 0⟩
      ⟨0, 0, (SimTD.genSineBodyVel2d s.path s.t p.dt A p.f).2.1⟩ p.dt).r := ⟨_, rfl, rfl⟩
  obtain ⟨b, hb1, hb2⟩ := hb
  refine ⟨s.poses.getLastD (0, p.w_T_v_0), b, ?_, ?_, ?_⟩
  rotate_left
  · rw [hb1, List.getElem?_append_right (by omega), hlen, Nat.sub_self]
    rfl
  · rw [hb2, integrate_dist _ (h.unit hu _ (getLastD_mem _ _ hne)) _ _ _ hd.le]
    have hn : ∀ x : ℝ, Vec3.norm ⟨x, 0, 0⟩ = |x| := by
      intro x; simp [Vec3.norm, Real.sqrt_mul_self_eq_abs]
    rw [hn]
    have e : ∀ x : ℝ, p.dt * |x| = |p.dt * x| := by intro x; rw [abs_mul, abs_of_pos hd]
    rw [e]
    simp only [SimTD.genSineBodyVel2d, heading]
    congr 1
    field_simp
  · simp only [genNext, genBody]
    rw [List.getElem?_append_left (by omega), getLastD_getElem _ _ _ hlen]
    simp

/-- The steps of a planar phase that starts after `j` steps. -/
theorem phase_dist {env : Env T} {p : Params T} (hd : 0 < p.dt) {j : ℕ} {s : Gen} (h : GInv env p j s)
    (hu : p.w_T_v_0.q.norm2 = 1) (A : ℝ) (ht : s.t = ((j : ℝ) + 1) * p.dt) (n i : ℕ) (hi : i < n) :
    ∃ a b : ℤ × Pose, (genSeq env p false A s n).poses[j + i]? = some a ∧
      (genSeq env p false A s n).poses[j + i + 1]? = some b ∧
      dist b.2.r a.2.r =
        |Real.cos (heading p A ((j + i + 1 : ℕ) * p.dt)) *
            ((pathPoint p A (j + i + 1)).x - if i = 0 then s.path.x else (pathPoint p A (j + i)).x) +
          Real.sin (heading p A ((j + i + 1 : ℕ) * p.dt)) *
            ((pathPoint p A (j + i + 1)).y - if i = 0 then s.path.y else (pathPoint p A (j + i)).y)| := by
  obtain ⟨a, b, ha, hb, hab⟩ := genNext_dist hd (h.seq false A i) hu A
  have hnext : genNext env p false A (genSeq env p false A s i) = genSeq env p false A s (i + 1) := rfl
  rw [hnext] at ha hb
  refine ⟨a, b, genSeq_getElem env p false A s (by omega) ha, genSeq_getElem env p false A s (by omega) hb, ?_⟩
  rw [hab]
  have htt : (genSeq env p false A s i).t = (j + i + 1 : ℕ) * p.dt := by
    rw [genSeq_t, ht]; push_cast; ring
  rw [htt]
  cases i with
  | zero => simp only [genSeq, if_true, pathPoint]
  | succ i =>
    obtain ⟨h1, h2⟩ := genSeq_path env p false A s j ht i
    rw [h1, h2]
    simp only [Nat.add_eq_zero_iff, one_ne_zero, and_false, if_false, pathPoint]
    rfl

/-- Cauchy–Schwarz for a direction. -/
theorem advance_le (φ a b : ℝ) : |Real.cos φ * a + Real.sin φ * b| ≤ Real.sqrt (a * a + b * b + 0 * 0) := by
  apply Real.abs_le_sqrt
  have := Real.sin_sq_add_cos_sq φ
  nlinarith [sq_nonneg (Real.cos φ * b - Real.sin φ * a), sq_nonneg a, sq_nonneg b]

/-- The loops that align the signs: what they append. -/
theorem alignSigns_spec (qs : List Quat) : ∀ acc : List Quat, ∃ l, alignSigns acc qs = acc ++ l ∧ l.length = qs.length ∧
    (∀ (i : ℕ) (h : i < l.length) (h' : i < qs.length), l[i] = qs[i] ∨ l[i] = qneg qs[i]) ∧
    (∀ (p : Quat), acc.getLast? = some p → ∀ (h : 0 < l.length), (0 : ℝ) ≤ dot p l[0]) ∧
    (∀ (i : ℕ) (h : i + 1 < l.length), 0 ≤ dot l[i] l[i + 1]) ∧
    (acc = [] → l.head? = qs.head?) := by
  induction qs with
  | nil => intro acc; exact ⟨[], by simp [alignSigns], rfl, by simp, by simp, by simp, by simp⟩
  | cons q qs ih =>
    intro acc
    obtain ⟨x, hx0, hx⟩ : ∃ x, alignSigns acc (q :: qs) = alignSigns (acc ++ [x]) qs ∧
        x = (match acc.getLast? with | none => q | some p => bestQuat p q) := by
      rw [alignSigns]
      cases acc.getLast? with
      | none => exact ⟨_, rfl, rfl⟩
      | some p => exact ⟨_, rfl, rfl⟩
    obtain ⟨l, h1, h2, h3, h4, h5, _⟩ := ih (acc ++ [x])
    have hxq : x = q ∨ x = qneg q := by
      rw [hx]
      cases acc.getLast? with
      | none => exact Or.inl rfl
      | some p => exact (bestQuat_cases p q).imp And.left And.left
    refine ⟨x :: l, by rw [hx0, h1]; simp, by simp [h2], ?_, ?_, ?_, ?_⟩
    · intro i hi hi'
      cases i with
      | zero => exact hxq
      | succ i => simpa using h3 i (by simpa using hi) (by simpa using hi')
    · intro p hp _
      have : x = bestQuat p q := by rw [hx, hp]
      simp only [List.getElem_cons_zero]
      rw [this, bestQuat_dot]
      exact abs_nonneg _
    · intro i hi
      cases i with
      | zero =>
        simp only [List.getElem_cons_zero, Nat.zero_add, List.getElem_cons_succ]
        exact h4 x (by simp) (by simpa using hi)
      | succ i =>
        simp only [List.getElem_cons_succ]
        exact h5 i (by simpa using hi)
    · rintro rfl
      simp [hx]

end SimEgo
end Verif
