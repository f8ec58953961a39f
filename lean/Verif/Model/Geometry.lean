import Verif.Model.Prelude
import Mathlib.LinearAlgebra.Matrix.Notation
import Mathlib.Analysis.SpecialFunctions.Trigonometric.Basic

/-!
# Model of the rigid transformations

`/repo/incremental_calibration/include/aslam/calibration/geometry/Transformation2d.tpp` and `Transformation3d.tpp`.
Arithmetic is exact (real numbers); rounding is not modelled.
-/

namespace Verif

/-- The three matrices of a transformation, `Transformation2d.h` 88-95 (`n = 3`), `Transformation3d.h` (`n = 4`).
`none` is an uninitialised (indeterminate) matrix. -/
structure Transf (n : Nat) where
  T : Option (Matrix (Fin n) (Fin n) ℝ)
  R : Option (Matrix (Fin n) (Fin n) ℝ)
  L : Option (Matrix (Fin n) (Fin n) ℝ)

namespace Transf

/-- constructor from a matrix, `Transformation2d.tpp` 19-23, `Transformation3d.tpp` 18-22: only the transformation matrix
is initialised. -/
def ofMatrix {n : Nat} (M : Matrix (Fin n) (Fin n) ℝ) : Transf n := ⟨some M, none, none⟩

/-- `setTransformationMatrix`, `Transformation2d.tpp` 78-82, `Transformation3d.tpp` 77-81. -/
def setMatrix {n : Nat} (s : Transf n) (M : Matrix (Fin n) (Fin n) ℝ) : Transf n := { s with T := some M }

/-- the entries written to the rotation matrix in `Transformation2d.tpp` 91-101. -/
noncomputable def rot2 (yaw : ℝ) : Matrix (Fin 3) (Fin 3) ℝ :=
  !![Real.cos yaw, -Real.sin yaw, 0; Real.sin yaw, Real.cos yaw, 0; 0, 0, 1]

/-- the entries written to the translation matrix in `Transformation2d.tpp` 102-110. -/
def trans2 (x y : ℝ) : Matrix (Fin 3) (Fin 3) ℝ := !![1, 0, x; 0, 1, y; 0, 0, 1]

/-- `setTransformation(x, y, yaw)`, `Transformation2d.tpp` 90-112; also the constructor 26-28. -/
noncomputable def set2 (_s : Transf 3) (x y yaw : ℝ) : Transf 3 :=
  ⟨some (trans2 x y * rot2 yaw), some (rot2 yaw), some (trans2 x y)⟩

/-- the entries written to the rotation matrix in `Transformation3d.tpp` 91-112. -/
noncomputable def rot3 (roll pitch yaw : ℝ) : Matrix (Fin 4) (Fin 4) ℝ :=
  let sr := Real.sin roll
  let cr := Real.cos roll
  let sp := Real.sin pitch
  let cp := Real.cos pitch
  let sy := Real.sin yaw
  let cy := Real.cos yaw
  !![cy * cp, cy * sp * sr - sy * cr, cy * sp * cr + sy * sr, 0;
     sy * cp, sy * sp * sr + cy * cr, sy * sp * cr - cy * sr, 0;
     -sp, cp * sr, cp * cr, 0;
     0, 0, 0, 1]

/-- the entries written to the translation matrix in `Transformation3d.tpp` 113-128. -/
def trans3 (x y z : ℝ) : Matrix (Fin 4) (Fin 4) ℝ := !![1, 0, 0, x; 0, 1, 0, y; 0, 0, 1, z; 0, 0, 0, 1]

/-- `setTransformation(x, y, z, roll, pitch, yaw)`, `Transformation3d.tpp` 89-130; also the constructor 25-28. -/
noncomputable def set3 (_s : Transf 4) (x y z roll pitch yaw : ℝ) : Transf 4 :=
  ⟨some (trans3 x y z * rot3 roll pitch yaw), some (rot3 roll pitch yaw), some (trans3 x y z)⟩

/-- negation of the first entries of the last column, `Transformation2d.tpp` 140-141, `Transformation3d.tpp` 144-146. -/
def negLast {n : Nat} (L : Matrix (Fin n) (Fin n) ℝ) : Matrix (Fin n) (Fin n) ℝ :=
  Matrix.of fun i j => if i.val + 1 < n ∧ j.val + 1 = n then - L i j else L i j

/-- `inverse()`, `Transformation2d.tpp` 137-144, `Transformation3d.tpp` 141-149.  Reading an indeterminate matrix is
undefined behaviour. -/
def inverse {n : Nat} (s : Transf n) : Res (Transf n) Unit :=
  match s.R, s.L with
  | some R, some L =>
    let R' := R.transpose
    let L' := negLast L
    .ok () ⟨some (R' * L'), some R', some L'⟩
  | _, _ => .ub

/-- `getInverse()`, `Transformation2d.tpp` 114-117, `Transformation3d.tpp` 132-135: a copy is inverted, the object itself
is unchanged.  Simplification: the copy of an indeterminate matrix is taken to be indeterminate (strictly it is already
undefined behaviour; `inverse` on the copy is undefined behaviour anyway). -/
def getInverse {n : Nat} (s : Transf n) : Res (Transf n) (Transf n) :=
  match inverse s with
  | .ok _ t => .ok t s
  | .throw e _ => .throw e s
  | .ub => .ub
  | .diverge => .diverge

/-- `getTransformationMatrix()`, `Transformation2d.tpp` 84-87, `Transformation3d.tpp` 83-86; reading an indeterminate
matrix is undefined behaviour. -/
def getMatrix {n : Nat} (s : Transf n) : Res (Transf n) (Matrix (Fin n) (Fin n) ℝ) :=
  match s.T with
  | some T => .ok T s
  | none => .ub

/-- `transform` / `operator ()`, `Transformation2d.tpp` 123-135. -/
def apply2 (s : Transf 3) (p : Fin 2 → ℝ) : Res (Transf 3) (Fin 2 → ℝ) :=
  match s.T with
  | some T => let q := T.mulVec ![p 0, p 1, 1]; .ok ![q 0, q 1] s
  | none => .ub

/-- `transform` / `operator ()`, `Transformation3d.tpp` 151-163. -/
def apply3 (s : Transf 4) (p : Fin 3 → ℝ) : Res (Transf 4) (Fin 3 → ℝ) :=
  match s.T with
  | some T => let q := T.mulVec ![p 0, p 1, p 2, 1]; .ok ![q 0, q 1, q 2] s
  | none => .ub

end Transf
end Verif
