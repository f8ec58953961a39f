import Verif.Model.SimEgo
import Verif.Spec.Rounding

/-! Vocabulary for the statements about the egomotion simulator. -/

namespace Verif
namespace SimEgo
open SimTD (Vec3 Quat Pose Path)
variable {T : Type}

/-- `n` is the number of time steps `k dt < T`, `k = 1, 2, …`. -/
def Params.Steps (p : Params T) (n : ℕ) : Prop := ∀ k : ℕ, 1 ≤ k → ((k : ℝ) * p.dt < p.dur ↔ k ≤ n)

/-- Converting multiples of the step to nanoseconds and back loses nothing. -/
def Exact (env : Env T) (p : Params T) : Prop := ∀ k : ℕ, env.sec ((k : ℤ) * env.ns p.dt) = k * p.dt

/-- The delay of a sensor: none for the reference. -/
def Params.delay (p : Params T) (k : ℕ) : ℤ := if k = p.ref then 0 else match p.calib k with | some c => c.1 | none => 0

/-- Where a sensor is mounted, relative to the reference. -/
def Params.mount [Group T] (p : Params T) (k : ℕ) : T := if k = p.ref then 1 else match p.calib k with | some c => c.2 | none => 1

/-- Every sensor has a calibration, except that the reference needs none. -/
def Params.Calibrated (p : Params T) : Prop := ∀ k ∈ p.sensors, k = p.ref ∨ (p.calib k).isSome = true

/-- The number of segments of the splines fits an `int`, whatever the number of poses. -/
def Params.SegmentsFit (env : Env T) (p : Params T) : Prop :=
  ∀ n : ℕ, p.Steps n → FitsInt32 ⌈(p.knots : ℚ) * ((((n : ℤ) * env.ns p.dt : ℤ) : ℚ) / 1000000000)⌉

/-- A complete configuration: steps of at least a nanosecond that convert exactly, a duration, noise and calibration of every
sensor, splines that can be fitted. -/
structure Good (env : Env T) (p : Params T) : Prop where
  dt : 0 < p.dt
  ns : 0 < env.ns p.dt
  exact : Exact env p
  dur : 0 ≤ p.dur
  nodup : p.sensors.Nodup
  cal : p.Calibrated
  cov : ∀ k ∈ p.sensors, p.covOk k = true
  seg : p.SegmentsFit env
  fit : ∀ l n, (env.fit l n).isSome = true

/-- Inner product of quaternions as vectors. -/
def dot (a b : Quat) : ℝ := a.x * b.x + a.y * b.y + a.z * b.z + a.w * b.w

/-- Distance of two positions. -/
noncomputable def dist (a b : Vec3) : ℝ := Vec3.norm (Vec3.sub a b)

/-- The points of the path with amplitude `A`, `k` steps after the start. -/
noncomputable def pathPoint (p : Params T) (A : ℝ) (k : ℕ) : Vec3 :=
  ⟨k * p.dt, A * Real.sin (2 * Real.pi * p.f * (k * p.dt)), 0⟩

/-- Direction of the path with amplitude `A` at time `t`. -/
noncomputable def heading (p : Params T) (A t : ℝ) : ℝ :=
  Real.arctan (2 * Real.pi * p.f * A * Real.cos (2 * Real.pi * p.f * t))

/-- What the noise-free sensor `k` measures in step `j` (counted from 0) when the reference moves along `S`. -/
def reading [Group T] (env : Env T) (p : Params T) (S : ℤ → T) (k j : ℕ) : Ego.Meas T :=
  { sensor := k
    t := ((j : ℤ) + 1) * env.ns p.dt + p.delay k
    motion := (S ((j : ℤ) * env.ns p.dt) * p.mount k)⁻¹ * (S (((j : ℤ) + 1) * env.ns p.dt) * p.mount k)
    duration := env.ns p.dt
    tag := p.cov k }

/-- The same with noise. -/
def noisyReading [Group T] (env : Env T) (p : Params T) (S : ℤ → T) (k j : ℕ) : Ego.Meas T :=
  { reading env p S k j with motion := (reading env p S k j).motion * env.noise (j + 1) k }

end SimEgo
end Verif
