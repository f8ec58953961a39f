import Mathlib.Data.List.Forall2
import Mathlib.Data.Int.Order.Basic

/-! Specification vocabulary for grids, independent of the model. -/

namespace Verif
namespace Grid

/-- `idx` lies in `[0, num)` in every dimension (and has as many dimensions). -/
abbrev Valid (num idx : List Int) : Prop := List.Forall₂ (fun i n => 0 ≤ i ∧ i < n) idx num

/-- `p` lies between `mn` and `mx` in every dimension. -/
abbrev InBox {T : Type} [LE T] (mn mx p : List T) : Prop :=
  List.Forall₂ (· ≤ ·) mn p ∧ List.Forall₂ (· ≤ ·) p mx

end Grid
end Verif
