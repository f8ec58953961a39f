import Verif.Model.SimTD
import Mathlib.Algebra.BigOperators.Group.Finset.Basic

/-! Vocabulary for the statements about the time delay simulator: the sine path and the motion along it. -/

namespace Verif
namespace SimTD

/-- Height of the sine path above its axis at time `t` (the vehicle is to move along the axis with speed 1). -/
noncomputable def pathY (p : Params) (t : ℝ) : ℝ := p.A * Real.sin (2 * Real.pi * p.f * t)

/-- Direction of the tangent of the sine path at time `t`. -/
noncomputable def pathHeading (p : Params) (t : ℝ) : ℝ :=
  Real.arctan (2 * Real.pi * p.f * p.A * Real.cos (2 * Real.pi * p.f * t))

/-- Mean velocity along the path in step `k` (from `(k-1) dt` to `k dt`), projected on the tangent at the end of the step. -/
noncomputable def stepSpeed (p : Params) (k : ℕ) : ℝ :=
  (Real.cos (pathHeading p (k * p.dt)) * (k * p.dt - ((k : ℝ) - 1) * p.dt)
    + Real.sin (pathHeading p (k * p.dt)) * (pathY p (k * p.dt) - pathY p (((k : ℝ) - 1) * p.dt))) / p.dt

/-- Turn rate in step `k`: none in the first step. -/
noncomputable def stepTurn (p : Params) (k : ℕ) : ℝ :=
  if k ≤ 1 then 0 else (pathHeading p (k * p.dt) - pathHeading p (((k : ℝ) - 1) * p.dt)) / p.dt

/-- Rotation about the third axis. -/
noncomputable def rotZ (a : ℝ) (v : Vec3) : Vec3 :=
  ⟨Real.cos a * v.x - Real.sin a * v.y, Real.sin a * v.x + Real.cos a * v.y, v.z⟩

/-- The angle turned in the first `k` steps, leaving out those whose turn rate is at most the machine epsilon. -/
noncomputable def turned (p : Params) (k : ℕ) : ℝ :=
  ∑ j ∈ Finset.range k, if eps < |stepTurn p (j + 1)| then stepTurn p (j + 1) * p.dt else 0

/-- The configuration passes the checks of the random generators. -/
def Params.Valid (p : Params) : Prop := 0 < p.sigma2_l ∧ 0 < p.sigma2_r ∧ p.covPosOk = true ∧ p.covRotOk = true

/-- `n` is the number of time steps `k dt < T`, `k = 1, 2, …`. -/
def Params.Steps (p : Params) (n : ℕ) : Prop := ∀ k : ℕ, 1 ≤ k → ((k : ℝ) * p.dt < p.T ↔ k ≤ n)

end SimTD
end Verif
