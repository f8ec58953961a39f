import Verif.Model.Prelude
import Mathlib.Data.Nat.Find

/-!
# Loops without a static bound

`while (cond) body` of C++.  `iter n` runs at most `n` rounds; the loop stops with the first number of rounds after which it
is over, and does not terminate if there is none.
-/

namespace Verif
namespace Loop
variable {σ : Type _}

/-- At most `n` rounds of `while (cond) body`.  (Model glue, not in the code: no lines.) -/
def iter (cond : σ → Prop) [DecidablePred cond] (body : σ → Res σ Unit) : Nat → σ → Res σ Unit
  | 0, s => .ok () s
  | n + 1, s => if cond s then (body s).bind fun _ s' => iter cond body n s' else .ok () s

/-- The loop is over: by an exception, undefined behaviour or a round that never ends, or because the condition is false.
(Model glue, not in the code: no lines.) -/
def over (cond : σ → Prop) : Res σ Unit → Prop
  | .ok _ s => ¬ cond s
  | _ => True

open Classical in
/-- `while (cond) body`.  (The C++ statement; no lines of its own.) -/
noncomputable def run (cond : σ → Prop) [DecidablePred cond] (body : σ → Res σ Unit) (s : σ) : Res σ Unit :=
  if h : ∃ n, over cond (iter cond body n s) then iter cond body (Nat.find h) s else .diverge

end Loop
end Verif
