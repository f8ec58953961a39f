import Verif.Spec.SimEgo
import Verif.Lemmas.SimMotion
import Mathlib.Tactic.Group

/-! Lemmas about the egomotion simulator. -/

namespace Verif
namespace SimEgo
open SimTD (Vec3 Quat Pose Path)
variable {T : Type}

/-! ### `bestQuat` -/

theorem bestQuat_cases (p c : Quat) :
    (bestQuat p c = c ∧ 0 ≤ dot p c) ∨ (bestQuat p c = qneg c ∧ dot p c < 0) := by
  have hlt : qnorm (qadd p c) < qnorm (qsub p c) ↔ dot p c < 0 := by
    unfold qnorm
    have h0 : 0 ≤ (qadd p c).norm2 := by
      simp only [Quat.norm2]
      nlinarith [mul_self_nonneg (qadd p c).x, mul_self_nonneg (qadd p c).y, mul_self_nonneg (qadd p c).z,
        mul_self_nonneg (qadd p c).w]
    rw [Real.sqrt_lt_sqrt_iff h0]
    simp only [Quat.norm2, qadd, qsub, dot]
    constructor <;> intro h <;> nlinarith
  unfold bestQuat
  by_cases h : qnorm (qadd p c) < qnorm (qsub p c)
  · rw [if_pos h]; exact Or.inr ⟨rfl, hlt.mp h⟩
  · rw [if_neg h]; exact Or.inl ⟨rfl, not_lt.mp fun h' => h (hlt.mpr h')⟩

theorem qneg_norm2 (c : Quat) : (qneg c).norm2 = c.norm2 := by simp only [Quat.norm2, qneg]; ring

theorem qneg_rotate (c : Quat) (v : Vec3) : (qneg c).rotate v = c.rotate v := by
  ext <;> simp only [qneg, Quat.rotate, Quat.vec, Vec3.add, Vec3.sub, Vec3.smul, Vec3.cross] <;> ring

theorem bestQuat_norm2 (p c : Quat) : (bestQuat p c).norm2 = c.norm2 := by
  rcases bestQuat_cases p c with ⟨h, _⟩ | ⟨h, _⟩ <;> rw [h]
  exact qneg_norm2 c

theorem bestQuat_rotate (p c : Quat) (v : Vec3) : (bestQuat p c).rotate v = c.rotate v := by
  rcases bestQuat_cases p c with ⟨h, _⟩ | ⟨h, _⟩ <;> rw [h]
  exact qneg_rotate c v

theorem bestQuat_dot (p c : Quat) : dot p (bestQuat p c) = |dot p c| := by
  rcases bestQuat_cases p c with ⟨h, h'⟩ | ⟨h, h'⟩ <;> rw [h]
  · rw [abs_of_nonneg h']
  · rw [abs_of_neg h']; simp only [dot, qneg]; ring

/-! ### the motion model keeps lengths -/

theorem rotate_norm (q : Quat) (h : q.norm2 = 1) (v : Vec3) : (q.rotate v).norm = v.norm := by
  rw [SimTD.rotate_eq_hrot q h]
  unfold Vec3.norm
  congr 1
  obtain ⟨x, y, z, w⟩ := q
  simp only [Quat.norm2] at h
  simp only [SimTD.hrot]
  have e : ((w * w - (x * x + y * y + z * z)) * v.x + 2 * x * (x * v.x + y * v.y + z * v.z) - 2 * w * (y * v.z - z * v.y)) *
      ((w * w - (x * x + y * y + z * z)) * v.x + 2 * x * (x * v.x + y * v.y + z * v.z) - 2 * w * (y * v.z - z * v.y)) +
      ((w * w - (x * x + y * y + z * z)) * v.y + 2 * y * (x * v.x + y * v.y + z * v.z) - 2 * w * (z * v.x - x * v.z)) *
      ((w * w - (x * x + y * y + z * z)) * v.y + 2 * y * (x * v.x + y * v.y + z * v.z) - 2 * w * (z * v.x - x * v.z)) +
      ((w * w - (x * x + y * y + z * z)) * v.z + 2 * z * (x * v.x + y * v.y + z * v.z) - 2 * w * (x * v.y - y * v.x)) *
      ((w * w - (x * x + y * y + z * z)) * v.z + 2 * z * (x * v.x + y * v.y + z * v.z) - 2 * w * (x * v.y - y * v.x))
      = (x * x + y * y + z * z + w * w) * (x * x + y * y + z * z + w * w) * (v.x * v.x + v.y * v.y + v.z * v.z) := by ring
  rw [e, h]; ring

theorem smul_norm (c : ℝ) (hc : 0 ≤ c) (v : Vec3) : (Vec3.smul c v).norm = c * v.norm := by
  unfold Vec3.norm Vec3.smul
  simp only
  rw [show c * v.x * (c * v.x) + c * v.y * (c * v.y) + c * v.z * (c * v.z)
    = c * c * (v.x * v.x + v.y * v.y + v.z * v.z) by ring,
    Real.sqrt_mul (mul_self_nonneg c), Real.sqrt_mul_self hc]

theorem integrate_norm (P : Pose) (h : P.q.norm2 = 1) (v om : Vec3) (dt : ℝ) :
    (SimTD.integrateMotionModel P v om dt).q.norm2 = 1 := by
  unfold SimTD.integrateMotionModel
  simp only
  rw [SimTD.norm2_inv]
  split
  · rename_i hn
    rw [SimTD.norm2_qplus, SimTD.norm2_inv, h, mul_one]
    have hpos : (0 : ℝ) < SimTD.eps := by unfold SimTD.eps; norm_num
    have hn0 : om.norm ≠ 0 := by intro e; rw [e] at hn; linarith
    have hsq : om.norm * om.norm = om.x * om.x + om.y * om.y + om.z * om.z := by
      unfold Vec3.norm
      exact Real.mul_self_sqrt (by nlinarith [mul_self_nonneg om.x, mul_self_nonneg om.y, mul_self_nonneg om.z])
    simp only [Quat.norm2]
    have : om.x / om.norm * (om.x / om.norm) + om.y / om.norm * (om.y / om.norm) + om.z / om.norm * (om.z / om.norm) = 1 := by
      rw [div_mul_div_comm, div_mul_div_comm, div_mul_div_comm, ← add_div, ← add_div, ← hsq]
      exact div_self (mul_ne_zero hn0 hn0)
    have ht := Real.sin_sq_add_cos_sq (om.norm / 2 * dt)
    linear_combination (Real.sin (om.norm / 2 * dt)) ^ 2 * this + ht
  · rw [SimTD.norm2_inv, h]

theorem integrate_dist (P : Pose) (h : P.q.norm2 = 1) (v om : Vec3) (dt : ℝ) (hd : 0 ≤ dt) :
    dist (SimTD.integrateMotionModel P v om dt).r P.r = dt * v.norm := by
  unfold dist
  have : Vec3.sub (SimTD.integrateMotionModel P v om dt).r P.r = Vec3.smul dt (P.q.rotate v) := by
    unfold SimTD.integrateMotionModel
    ext <;> simp [Vec3.sub, Vec3.add]
  rw [this, smul_norm dt hd, rotate_norm _ h]

/-! ### one round of a generating loop -/

/-- The state after a round. -/
noncomputable def genNext (env : Env T) (p : Params T) (rand : Bool) (A : ℝ) (s : Gen) : Gen :=
  match genBody env p rand A s with
  | .ok _ s' => s'
  | _ => s

theorem genBody_ok (env : Env T) (p : Params T) (rand : Bool) (A : ℝ) (s : Gen) :
    genBody env p rand A s = .ok () (genNext env p rand A s) := rfl

noncomputable def genSeq (env : Env T) (p : Params T) (rand : Bool) (A : ℝ) (s : Gen) : ℕ → Gen
  | 0 => s
  | n + 1 => genNext env p rand A (genSeq env p rand A s n)

/-- The loop variables after `j` steps: time stamps, unit quaternions, signs. -/
structure GInv (env : Env T) (p : Params T) (j : ℕ) (s : Gen) : Prop where
  stamps : s.poses.map Prod.fst = (List.range (j + 1)).map fun (i : ℕ) => (i : ℤ) * env.ns p.dt
  stamp : s.stamp = (j : ℤ) * env.ns p.dt
  start : s.poses.head? = some (0, p.w_T_v_0)
  unit : p.w_T_v_0.q.norm2 = 1 → ∀ q ∈ s.poses, q.2.q.norm2 = 1
  signs : ∀ i (h : i + 1 < s.poses.length), 0 ≤ dot (s.poses[i]).2.q (s.poses[i + 1]).2.q

theorem GInv.length {env : Env T} {p : Params T} {j : ℕ} {s : Gen} (h : GInv env p j s) : s.poses.length = j + 1 := by
  have := congrArg List.length h.stamps
  simpa using this

theorem getLastD_mem {α : Type} (l : List α) (a : α) (h : l ≠ []) : l.getLastD a ∈ l := by
  rw [List.getLastD_eq_getLast?, List.getLast?_eq_some_getLast h]
  exact List.getLast_mem h

theorem getLastD_getElem {α : Type} (l : List α) (a : α) (n : ℕ) (h : l.length = n + 1) :
    l.getLastD a = l[n] := by
  have hne : l ≠ [] := by intro e; rw [e] at h; simp at h
  rw [List.getLastD_eq_getLast?, List.getLast?_eq_some_getLast hne, Option.getD_some, List.getLast_eq_getElem]
  simp [h]

theorem GInv.next {env : Env T} {p : Params T} {j : ℕ} {s : Gen} (h : GInv env p j s) (rand : Bool) (A : ℝ) :
    GInv env p (j + 1) (genNext env p rand A s) := by
  have hlen := h.length
  have hne : s.poses ≠ [] := by intro e; rw [e] at hlen; simp at hlen
  refine ⟨?_, ?_, ?_, ?_, ?_⟩
  · simp only [genNext, genBody, List.map_append, h.stamps, List.map_cons, List.map_nil, h.stamp]
    rw [List.range_succ (n := j + 1), List.map_append]
    congr 1
    simp only [List.map_cons, List.map_nil, Nat.cast_add, Nat.cast_one]
    congr 1; ring
  · simp only [genNext, genBody, h.stamp]; push_cast; ring
  · simp only [genNext, genBody, List.head?_append, h.start, Option.some_or]
  · intro h0 q hq
    simp only [genNext, genBody, List.mem_append, List.mem_singleton] at hq
    rcases hq with hq | hq
    · exact h.unit h0 q hq
    · rw [hq]
      simp only
      rw [bestQuat_norm2]
      exact integrate_norm _ (h.unit h0 _ (getLastD_mem _ _ hne)) _ _ _
  · intro i hi
    simp only [genNext, genBody, List.length_append, List.length_cons, List.length_nil, hlen] at hi
    by_cases hij : i + 1 < s.poses.length
    · simp only [genNext, genBody]
      rw [List.getElem_append_left hij, List.getElem_append_left (by omega)]
      exact h.signs i hij
    · have hij' : i = j := by omega
      subst hij'
      simp only [genNext, genBody]
      rw [List.getElem_append_left (by omega), List.getElem_append_right (by omega)]
      simp only [hlen, Nat.sub_self, List.getElem_cons_zero]
      rw [getLastD_getElem _ _ _ hlen, bestQuat_dot]
      exact abs_nonneg _

theorem GInv.seq {env : Env T} {p : Params T} {j : ℕ} {s : Gen} (h : GInv env p j s) (rand : Bool) (A : ℝ) (n : ℕ) :
    GInv env p (j + n) (genSeq env p rand A s n) := by
  induction n with
  | zero => exact h
  | succ n ih => exact ih.next rand A

theorem genInit_inv (env : Env T) (p : Params T) (path : Path) : GInv env p 0 (genInit p path) := by
  refine ⟨by simp [genInit], by simp [genInit], rfl, ?_, ?_⟩
  · intro h q hq
    simp only [genInit, List.mem_singleton] at hq
    rw [hq]; exact h
  · intro i hi; simp [genInit] at hi

theorem GInv.reset {env : Env T} {p : Params T} {j : ℕ} {s : Gen} (h : GInv env p j s) (path : Path) :
    GInv env p j { s with path := path, t := env.sec s.stamp + p.dt } := ⟨h.stamps, h.stamp, h.start, h.unit, h.signs⟩

theorem genSeq_t (env : Env T) (p : Params T) (rand : Bool) (A : ℝ) (s : Gen) (n : ℕ) :
    (genSeq env p rand A s n).t = s.t + n * p.dt := by
  induction n with
  | zero => simp [genSeq]
  | succ n ih =>
    rw [genSeq]
    simp only [genNext, genBody, ih]
    push_cast; ring

/-- number of rounds of a phase. -/
theorem rounds_exist (dt B t : ℝ) (hd : 0 < dt) :
    ∃ m : ℕ, (∀ k < m, t + (k : ℕ) * dt < B) ∧ ¬ (t + (m : ℕ) * dt < B) := by
  obtain ⟨N, hN⟩ := Archimedean.arch (B - t) hd
  have hex : ∃ n : ℕ, ¬ (t + (n : ℕ) * dt < B) := by
    refine ⟨N, ?_⟩
    rw [nsmul_eq_mul] at hN
    linarith
  classical
  exact ⟨Nat.find hex, fun k hk => not_not.mp (Nat.find_min hex hk), Nat.find_spec hex⟩

theorem phase_ok {env : Env T} {p : Params T} (hd : 0 < p.dt) {j : ℕ} {s : Gen} (h : GInv env p j s) (rand : Bool) (A B : ℝ) :
    ∃ m, genPhase env p rand A B s = .ok () (genSeq env p rand A s m) ∧ GInv env p (j + m) (genSeq env p rand A s m) ∧
      (∀ k < m, s.t + (k : ℕ) * p.dt < B) ∧ ¬ (s.t + (m : ℕ) * p.dt < B) := by
  obtain ⟨m, h1, h2⟩ := rounds_exist p.dt B s.t hd
  refine ⟨m, ?_, h.seq rand A m, h1, h2⟩
  classical
  refine Loop.run_ok (fun s : Gen => s.t < B) (genBody env p rand A) (genSeq env p rand A s) m ?_ ?_
  · intro k hk
    refine ⟨?_, genBody_ok env p rand A _⟩
    show (genSeq env p rand A s k).t < B
    rw [genSeq_t]
    exact h1 k hk
  · show ¬ (genSeq env p rand A s m).t < B
    rw [genSeq_t]
    exact h2

theorem generate_returns (env : Env T) (p : Params T) (hd : 0 < p.dt) :
    ∃ n g, generate env p = .ok () g ∧ GInv env p n g := by
  unfold generate
  cases hk : p.kind with
  | combined =>
    obtain ⟨m1, r1, i1, a1, b1⟩ := phase_ok hd (genInit_inv env p ⟨0, 0, 0⟩) false 0 (p.dur / 3)
    obtain ⟨m2, r2, i2, a2, b2⟩ := phase_ok hd (i1.reset (curvedStart p)) false p.A (2 / 3 * p.dur)
    obtain ⟨m3, r3, i3, a3, b3⟩ := phase_ok hd (i2.reset (curvedStart p)) true p.A p.dur
    simp only [r1, Res.bind, r2, r3]
    exact ⟨_, _, rfl, i3⟩
  | straight =>
    obtain ⟨m1, r1, i1, a1, b1⟩ := phase_ok hd (genInit_inv env p ⟨0, 0, 0⟩) false 0 p.dur
    exact ⟨_, _, r1, i1⟩
  | random =>
    obtain ⟨m1, r1, i1, a1, b1⟩ := phase_ok hd (genInit_inv env p (curvedStart p)) true p.A p.dur
    exact ⟨_, _, r1, i1⟩
  | other =>
    obtain ⟨m1, r1, i1, a1, b1⟩ := phase_ok hd (genInit_inv env p (curvedStart p)) false p.A p.dur
    exact ⟨_, _, r1, i1⟩

theorem steps_of_phase (dt B t : ℝ) (hd : 0 < dt) (j m : ℕ) (ht : t = ((j : ℝ) + 1) * dt)
    (h1 : ∀ k < m, t + (k : ℕ) * dt < B) (h2 : ¬ (t + (m : ℕ) * dt < B))
    (h3 : ∀ k : ℕ, 1 ≤ k → k ≤ j → (k : ℝ) * dt < B) :
    ∀ k : ℕ, 1 ≤ k → ((k : ℝ) * dt < B ↔ k ≤ j + m) := by
  intro k hk
  constructor
  · intro hlt
    by_contra hc
    push Not at hc
    apply h2
    have : ((j + m : ℕ) : ℝ) + 1 ≤ k := by exact_mod_cast hc
    push_cast at this
    rw [ht]
    nlinarith
  · intro hle
    by_cases hj : k ≤ j
    · exact h3 k hk hj
    · have := h1 (k - 1 - j) (by omega)
      have e : ((k - 1 - j : ℕ) : ℝ) = (k : ℝ) - 1 - j := by
        rw [Nat.cast_sub (by omega), Nat.cast_sub hk]; simp
      rw [e, ht] at this
      linarith

theorem generate_ok (env : Env T) (p : Params T) (hd : 0 < p.dt) (he : Exact env p) (hT : 0 ≤ p.dur) :
    ∃ n g, p.Steps n ∧ generate env p = .ok () g ∧ GInv env p n g := by
  have h0 : ∀ path, (genInit p path).t = ((0 : ℕ) + 1 : ℝ) * p.dt := by intro path; simp [genInit]
  unfold generate
  cases hk : p.kind with
  | combined =>
    obtain ⟨m1, r1, i1, a1, b1⟩ := phase_ok hd (genInit_inv env p ⟨0, 0, 0⟩) false 0 (p.dur / 3)
    obtain ⟨m2, r2, i2, a2, b2⟩ := phase_ok hd (i1.reset (curvedStart p)) false p.A (2 / 3 * p.dur)
    obtain ⟨m3, r3, i3, a3, b3⟩ := phase_ok hd (i2.reset (curvedStart p)) true p.A p.dur
    simp only [r1, Res.bind, r2, r3]
    refine ⟨_, _, ?_, rfl, i3⟩
    have s1 := steps_of_phase p.dt _ _ hd 0 m1 (h0 _) a1 b1 (by intro k h1 h2; omega)
    have s2 := steps_of_phase p.dt _ _ hd (0 + m1) m2 (by simp only; rw [i1.stamp, he]; push_cast; ring) a2 b2 (by
      intro k h1 h2
      have := (s1 k h1).mpr h2
      linarith)
    exact steps_of_phase p.dt _ _ hd (0 + m1 + m2) m3 (by simp only; rw [i2.stamp, he]; push_cast; ring) a3 b3 (by
      intro k h1 h2
      have := (s2 k h1).mpr h2
      linarith)
  | straight =>
    obtain ⟨m1, r1, i1, a1, b1⟩ := phase_ok hd (genInit_inv env p ⟨0, 0, 0⟩) false 0 p.dur
    exact ⟨_, _, steps_of_phase p.dt _ _ hd 0 m1 (h0 _) a1 b1 (by intro k h1 h2; omega), r1, i1⟩
  | random =>
    obtain ⟨m1, r1, i1, a1, b1⟩ := phase_ok hd (genInit_inv env p (curvedStart p)) true p.A p.dur
    exact ⟨_, _, steps_of_phase p.dt _ _ hd 0 m1 (h0 _) a1 b1 (by intro k h1 h2; omega), r1, i1⟩
  | other =>
    obtain ⟨m1, r1, i1, a1, b1⟩ := phase_ok hd (genInit_inv env p (curvedStart p)) false p.A p.dur
    exact ⟨_, _, steps_of_phase p.dt _ _ hd 0 m1 (h0 _) a1 b1 (by intro k h1 h2; omega), r1, i1⟩

theorem GInv.times {env : Env T} {p : Params T} {j : ℕ} {s : Gen} (h : GInv env p j s) :
    Ego.tMin s.poses = 0 ∧ Ego.tMax s.poses = (j : ℤ) * env.ns p.dt := by
  have hlen := h.length
  constructor
  · unfold Ego.tMin; rw [h.start]
  · unfold Ego.tMax
    have hne : s.poses ≠ [] := by intro e; rw [e] at hlen; simp at hlen
    rw [List.getLast?_eq_some_getLast hne]
    simp only
    have := congrArg List.getLast? h.stamps
    rw [List.getLast?_map, List.getLast?_map, List.getLast?_eq_some_getLast hne, List.getLast?_range] at this
    simpa using this

end SimEgo
end Verif
