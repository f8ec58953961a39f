import Verif.Model.PoseTerm
import Mathlib.Analysis.SpecialFunctions.Trigonometric.Deriv

/-! Yaw, pitch and roll: what the pose error term needs from the external library. -/

namespace Verif
namespace ErrorTerms
open Real

/-- The rotation `Rz(yaw) Ry(pitch) Rx(roll)`. -/
noncomputable def ypr (a : Fin 3 → ℝ) : Matrix (Fin 3) (Fin 3) ℝ :=
  !![cos (a 0), -sin (a 0), 0; sin (a 0), cos (a 0), 0; 0, 0, 1] *
  !![cos (a 1), 0, sin (a 1); 0, 1, 0; -sin (a 1), 0, cos (a 1)] *
  !![1, 0, 0; 0, cos (a 2), -sin (a 2); 0, sin (a 2), cos (a 2)]

/-- A rotation matrix. -/
def IsRotation (C : Matrix (Fin 3) (Fin 3) ℝ) : Prop := C.transpose * C = 1 ∧ C.det = 1

/-- A matrix valued curve passes with entrywise velocity `C'`. -/
def Turns (C : ℝ → Matrix (Fin 3) (Fin 3) ℝ) (C' : Matrix (Fin 3) (Fin 3) ℝ) (t : ℝ) : Prop :=
  ∀ i j, HasDerivAt (fun s => C s i j) (C' i j) t

/-- The library is correct: away from gimbal lock the parameters of a rotation are angles that give it back, with the pitch
between ±π/2, and the S matrix turns angle rates into the rotation increment `w` of the convention `C ↦ (1 - ε [w]ₓ) C`. -/
structure YprLib.Correct (lib : YprLib) : Prop where
  params : ∀ C, IsRotation C → |C 2 0| < 1 → ypr (lib.params C) = C ∧ |lib.params C 1| ≤ π / 2
  sMatrix : ∀ (a : ℝ → Fin 3 → ℝ) (a' : Fin 3 → ℝ) (t : ℝ), (∀ i, HasDerivAt (fun s => a s i) (a' i) t) →
    Turns (fun s => ypr (a s)) (-crossMx ((lib.sMatrix (a t)).mulVec a') * ypr (a t)) t

end ErrorTerms
end Verif
