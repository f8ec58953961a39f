import Verif.Spec.SimTD
import Verif.Lemmas.Loop
import Mathlib.Algebra.Order.Floor.Ring
import Mathlib.Algebra.Order.Archimedean.Basic
import Mathlib.Tactic.Ring
import Mathlib.Tactic.Linarith
import Mathlib.Tactic.LinearCombination
import Mathlib.Tactic.FieldSimp

/-! Closed form of the loop of the time delay simulator. -/

namespace Verif
namespace SimTD

/-- The round of the loop when no exception occurs. -/
noncomputable def next (env : Env) (p : Params) (s : St) : St :=
  match body env p s with
  | .ok _ s' => s'
  | _ => s

theorem body_ok (env : Env) (p : Params) (h : p.Valid) (s : St) : body env p s = .ok () (next env p s) := by
  obtain ⟨h1, h2, h3, h4⟩ := h
  unfold next body
  simp only [not_le.mpr h1, not_le.mpr h2, h3, h4, if_false, or_self, Bool.true_eq_false]

noncomputable def seq (env : Env) (p : Params) (d : Data) : ℕ → St
  | 0 => init p d
  | k + 1 => next env p (seq env p d k)

/-- The trajectory. -/
noncomputable def poseAt (p : Params) : ℕ → Pose
  | 0 => p.w_T_v_0
  | k + 1 => integrateMotionModel (poseAt p k) ⟨stepSpeed p (k + 1), 0, 0⟩ ⟨0, 0, stepTurn p (k + 1)⟩ p.dt

theorem genSine_eq (p : Params) (k : ℕ) (path : Path)
    (hphi : path.phi = pathHeading p ((if k = 0 then 1 else (k : ℝ)) * p.dt))
    (hx : path.x = k * p.dt) (hy : path.y = pathY p (k * p.dt)) :
    genSineBodyVel2d path (((k : ℝ) + 1) * p.dt) p.dt p.A p.f
      = (stepSpeed p (k + 1), stepTurn p (k + 1),
          ⟨pathHeading p (((k : ℝ) + 1) * p.dt), ((k : ℝ) + 1) * p.dt, pathY p (((k : ℝ) + 1) * p.dt)⟩) := by
  unfold genSineBodyVel2d stepSpeed stepTurn
  simp only [Nat.cast_add, Nat.cast_one, add_sub_cancel_right]
  rw [hx, hy, hphi]
  refine Prod.ext ?_ (Prod.ext ?_ ?_)
  · simp only [pathHeading, pathY]; ring
  · by_cases hk : k = 0
    · subst hk
      simp [pathHeading]
    · have : ¬ (k + 1 ≤ 1) := by omega
      simp only [this, if_false, hk]
      rfl
  · simp only [pathHeading, pathY]

theorem seq_facts (env : Env) (p : Params) (hv : p.Valid) (d : Data) (k : ℕ) :
    seq env p d k =
      { data :=
          { w_T_v := d.w_T_v ++ (List.range (k + 1)).map (poseAt p)
            v_v_wv := d.v_v_wv ++ Vec3.zero :: (List.range k).map fun j => ⟨stepSpeed p (j + 1), 0, 0⟩
            v_om_wv := d.v_om_wv ++ Vec3.zero :: (List.range k).map fun j => ⟨0, 0, stepTurn p (j + 1)⟩
            w_v_wwl := d.w_v_wwl ++ (List.range k).map fun j => ⟨stepSpeed p (j + 1) - stepTurn p (j + 1) * p.b, 0, 0⟩
            w_v_wwr := d.w_v_wwr ++ (List.range k).map fun j => ⟨stepSpeed p (j + 1) + stepTurn p (j + 1) * p.b, 0, 0⟩
            lwData := d.lwData ++ (List.range k).map fun (j : ℕ) =>
              ((j : ℤ) * env.ns p.dt + env.ns p.t_l, p.k_l * (stepSpeed p (j + 1) - stepTurn p (j + 1) * p.b))
            lwData_n := d.lwData_n ++ (List.range k).map fun (j : ℕ) =>
              ((j : ℤ) * env.ns p.dt + env.ns p.t_l,
                p.k_l * (stepSpeed p (j + 1) - stepTurn p (j + 1) * p.b + env.noiseL j))
            rwData := d.rwData ++ (List.range k).map fun (j : ℕ) =>
              ((j : ℤ) * env.ns p.dt + env.ns p.t_r, p.k_r * (stepSpeed p (j + 1) + stepTurn p (j + 1) * p.b))
            rwData_n := d.rwData_n ++ (List.range k).map fun (j : ℕ) =>
              ((j : ℤ) * env.ns p.dt + env.ns p.t_r,
                p.k_r * (stepSpeed p (j + 1) + stepTurn p (j + 1) * p.b + env.noiseR j))
            poseData := d.poseData ++ (List.range k).map fun (j : ℕ) =>
              ((j : ℤ) * env.ns p.dt + env.ns (p.dt * 0.5),
                ⟨Vec3.add (poseAt p (j + 1)).r ((poseAt p (j + 1)).q.rotate p.v_T_p.r),
                  env.euler (poseAt p (j + 1)).q p.v_T_p.q⟩)
            poseData_n := d.poseData_n ++ (List.range k).map fun (j : ℕ) =>
              ((j : ℤ) * env.ns p.dt + env.ns (p.dt * 0.5),
                ⟨Vec3.add (Vec3.add (poseAt p (j + 1)).r ((poseAt p (j + 1)).q.rotate p.v_T_p.r)) (env.noisePos j),
                  Vec3.add (env.euler (poseAt p (j + 1)).q p.v_T_p.q) (env.noiseRot j)⟩) }
        path := ⟨pathHeading p ((if k = 0 then 1 else (k : ℝ)) * p.dt), k * p.dt, pathY p (k * p.dt)⟩
        t := ((k : ℝ) + 1) * p.dt
        stamp := (k : ℤ) * env.ns p.dt
        k := k } := by
  induction k with
  | zero =>
    simp [seq, init, pathHeading, pathY, poseAt]
  | succ k ih =>
    have hl : ∀ (x y : ℝ), genWheelVelocity ⟨x, 0, 0⟩ ⟨0, 0, y⟩ ⟨0, p.b, 0⟩ = ⟨x - y * p.b, 0, 0⟩ := by
      intro x y
      ext <;> simp [genWheelVelocity, Vec3.add, Vec3.cross]; ring
    have hr : ∀ (x y : ℝ), genWheelVelocity ⟨x, 0, 0⟩ ⟨0, 0, y⟩ ⟨0, -p.b, 0⟩ = ⟨x + y * p.b, 0, 0⟩ := by
      intro x y
      ext <;> simp [genWheelVelocity, Vec3.add, Vec3.cross]
    obtain ⟨h1, h2, h3, h4⟩ := hv
    rw [seq, ih]
    unfold next body
    simp only [not_le.mpr h1, not_le.mpr h2, h3, h4, if_false, or_self, Bool.true_eq_false]
    rw [genSine_eq p k _ rfl rfl rfl]
    simp only [hl, hr]
    have hback : ∀ D : Data, D.w_T_v = d.w_T_v ++ (List.range (k + 1)).map (poseAt p) → back p D = poseAt p k := by
      intro D hD
      unfold back
      rw [hD, List.range_succ, List.map_append, ← List.append_assoc]
      simp
    rw [hback _ rfl]
    have e1 : integrateMotionModel (poseAt p k) ⟨stepSpeed p (k + 1), 0, 0⟩ ⟨0, 0, stepTurn p (k + 1)⟩ p.dt
        = poseAt p (k + 1) := rfl
    rw [e1]
    simp only [List.range_succ, List.map_append, List.map_cons, List.map_nil, List.append_assoc, List.cons_append,
      Nat.cast_add, Nat.cast_one, Nat.add_eq_zero_iff, one_ne_zero, and_false, if_false]
    simp only [St.mk.injEq, true_and, and_true]
    constructor <;> ring

theorem steps_exist (p : Params) (hd : 0 < p.dt) : ∃ n, p.Steps n := by
  obtain ⟨m, hm⟩ := Archimedean.arch p.T hd
  have hex : ∃ n : ℕ, p.T ≤ ((n : ℝ) + 1) * p.dt := by
    refine ⟨m, ?_⟩
    rw [nsmul_eq_mul] at hm
    nlinarith
  classical
  refine ⟨Nat.find hex, ?_⟩
  intro k hk
  constructor
  · intro h
    by_contra hc
    push Not at hc
    have h1 := Nat.find_spec hex
    have h2 : ((Nat.find hex : ℝ) + 1) ≤ k := by exact_mod_cast hc
    nlinarith
  · intro h
    by_contra hc
    push Not at hc
    obtain ⟨j, rfl⟩ : ∃ j, k = j + 1 := ⟨k - 1, by omega⟩
    have : p.T ≤ ((j : ℝ) + 1) * p.dt := by
      rw [Nat.cast_add, Nat.cast_one] at hc; exact hc
    have := Nat.find_min' hex this
    omega

end SimTD
end Verif
