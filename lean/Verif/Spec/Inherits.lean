import Verif.Model.Prelude

/-! Undefined behaviour and divergence passed on. -/

namespace Verif

/-- `y` inherits undefined behaviour and divergence from `x`. -/
def Inherits {σ τ α β : Type} (x : Res σ α) (y : Res τ β) : Prop := (x = .ub → y = .ub) ∧ (x = .diverge → y = .diverge)

end Verif
