import Verif.Model.Prelude
import Mathlib.Algebra.Order.Ring.Rat

/-! Vocabulary of property C126: programs that catch every exception, and data with representable times. -/

namespace Verif

/-- a program that makes the calls `os` one after the other and catches every exception: the outcome of each call (`none`: it
returned) and the state at the end.  If a call is undefined or does not return, so is the program or it does not return. -/
def runCaught {S O : Type} (step : S → O → Res S Unit) : S → List O → Res S (List (Option Exc))
  | s, [] => .ok [] s
  | s, op :: ops =>
    match step s op with
    | .ok _ s' => (runCaught step s' ops).bind fun l s'' => .ok (none :: l) s''
    | .throw x s' => (runCaught step s' ops).bind fun l s'' => .ok (some x :: l) s''
    | .ub => .ub
    | .diverge => .diverge

/-- the times (nanoseconds) lie in an interval whose length fits 64 bits, and so short that the knots of a spline over all of it
can be counted with an `int`. -/
def TimesFit (knots : Int) (times : List Int) : Prop :=
  ∃ lo hi : Int, (∀ t ∈ times, lo ≤ t ∧ t ≤ hi) ∧ hi - lo ≤ 9223372036854775807 ∧
    (knots : ℚ) * (((hi - lo : Int) : ℚ) / 10 ^ 9) ≤ 2147483647

/-- the estimator in state `e` answers the next `n` batches, whatever they are: each call returns or throws an exception of kind
`X`. -/
def Answers {E B G : Type} (addBatch : E → B → Res E G) (X : Exc → Prop) : Nat → E → Prop
  | 0, _ => True
  | n + 1, e => ∀ b, (∃ g e', addBatch e b = .ok g e' ∧ Answers addBatch X n e') ∨
      ∃ x e', addBatch e b = .throw x e' ∧ X x ∧ Answers addBatch X n e'

end Verif
