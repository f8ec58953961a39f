/-!
# Outcomes, pointers and hash maps

Shared vocabulary of all models.  A C++ call ends in a normal return, in an exception (with the object state
left behind at the throw point), in undefined behaviour, or never.
-/

namespace Verif

/-- Exception classes, `/repo/incremental_calibration/include/aslam/calibration/exceptions/*.h`
(`NullPointerException`, `InvalidOperationException`, `OutOfBoundException`, `BadArgumentException`) plus the
`std::out_of_range` thrown by the standard library's `at`, and an exception thrown by a collaborator
(`external`).  Simplification: the message, file and line carried by the exception objects are dropped.
Classes: `BadArgumentException.h` 30-50, `OutOfBoundException.h` 30-64, `InvalidOperationException.h` 30-49, `NullPointerException.h` 30-48. -/
inductive Exc where
  | nullPointer
  | invalidOperation
  | outOfBound
  | badArgument
  | stdOutOfRange
  | external
  deriving DecidableEq, Repr

/-- Outcome of a C++ call on an object of state `σ` returning `α`: normal return, exception (with the state
left behind), undefined behaviour, non-termination.  (C++ semantics; no lines of its own.) -/
inductive Res (σ : Type _) (α : Type _) where
  | ok (a : α) (s : σ)
  | throw (e : Exc) (s : σ)
  | ub
  | diverge
  deriving DecidableEq, Repr

namespace Res
variable {σ α β : Type _}

/-- State left behind, if the call comes back at all.  (Model glue, not in the code: no lines.) -/
def state? : Res σ α → Option σ
  | ok _ s => some s
  | throw _ s => some s
  | ub => none
  | diverge => none

/-- Sequencing: exceptions, UB and divergence propagate.  (C++ sequencing; no lines of its own.) -/
def bind (r : Res σ α) (f : α → σ → Res σ β) : Res σ β :=
  match r with
  | ok a s => f a s
  | throw e s => throw e s
  | ub => ub
  | diverge => diverge

/-- Map the state component.  (Model glue, not in the code: no lines.) -/
def mapState {τ : Type _} (g : σ → τ) : Res σ α → Res τ α
  | ok a s => ok a (g s)
  | throw e s => throw e (g s)
  | ub => ub
  | diverge => diverge

/-- the call returned normally (auxiliary, no C++ counterpart). -/
def isOk : Res σ α → Bool
  | ok _ _ => true
  | _ => false

end Res

/-- Pointers to design variables, error terms, batches (shared pointers compare by address).
`OptimizationProblem.h` 185-191. -/
abbrev DVId := Nat
/-- pointer to an error term, `OptimizationProblem.h` 185-191. -/
abbrev ETId := Nat
/-- pointer to a batch (an `OptimizationProblem`), `IncrementalOptimizationProblem.h` 46-48. -/
abbrev BatchId := Nat
/-- group identifier (`size_t`), `OptimizationProblem.h` 64-65. -/
abbrev GroupId := Nat

/-! ## Association lists standing for `std::unordered_map` / `std::unordered_set`

Simplification: the iteration order of the hash map is the order of the list; theorems about loops over a hash
map are pointwise and therefore do not depend on it. -/
namespace AL
variable {K V : Type _} [DecidableEq K]

/-- `map.find(k)` / `map.at(k)` (`none`: absent).  (Standard library; used at `OptimizationProblem.cpp` 40-46.) -/
def get (k : K) : List (K × V) → Option V
  | [] => none
  | (k', v) :: l => if k' = k then some v else get k l

/-- `map.count(k)`.  (Standard library; used at `OptimizationProblem.cpp` 102-104.) -/
def has (k : K) (l : List (K × V)) : Bool := (get k l).isSome

/-- `map[k] = v`.  (Standard library; used at `OptimizationProblem.cpp` 110-124.) -/
def set (k : K) (v : V) : List (K × V) → List (K × V)
  | [] => [(k, v)]
  | (k', v') :: l => if k' = k then (k, v) :: l else (k', v') :: set k v l

/-- `map.erase(k)`.  (Standard library; used at `IncrementalOptimizationProblem.cpp` 212-249.) -/
def del (k : K) : List (K × V) → List (K × V)
  | [] => []
  | (k', v') :: l => if k' = k then l else (k', v') :: del k l

/-- keys in iteration order.  (Standard library; used at `OptimizationProblem.cpp` 227-247.) -/
def keys (l : List (K × V)) : List K := l.map Prod.fst

end AL
end Verif
