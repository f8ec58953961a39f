import Verif.Model.Prelude

/-!
# Specification: successive draws
-/

namespace Verif

/-- `Successive draw n xs m`: calling `draw` once per element of `xs`, each call from the state the one before left, first
from `n`, returns the elements of `xs` in order and leaves `m`. -/
inductive Successive {X : Type} (draw : Nat → Res Nat X) : Nat → List X → Nat → Prop
  | nil (n) : Successive draw n [] n
  | cons {n x n' xs m} : draw n = .ok x n' → Successive draw n' xs m → Successive draw n (x :: xs) m

end Verif
