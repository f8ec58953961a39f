import Verif.Model.Prelude

/-! Model of `/repo/incremental_calibration/include/aslam/calibration/algorithms/permute.tpp`. -/

namespace Verif

/-- Result of the inner loop `while (k < i) k = permutation[k];`.  `permute.tpp` 28-30. -/
inductive Chase where
  | found (k : Nat)
  | loops
  | oob
  deriving DecidableEq, Repr

/-- `permute.tpp:29-30`, the `while` loop, run for at most `fuel` iterations.
`oob` is an access outside the vector `permutation` (undefined behaviour).  Running out of fuel is reported as
`loops`; `permuteLoop` uses `fuel = i`, and `Verif.chase_loops_iff` proves that then `loops` is returned
exactly when the C++ loop never ends. -/
def chase (perm : List Nat) (i : Nat) : Nat → Nat → Chase
  | fuel, k =>
    if k < i then
      match fuel with
      | 0 => .loops
      | fuel + 1 =>
        match perm[k]? with
        | none => .oob
        | some k' => chase perm i fuel k'
    else .found k

/-- `std::swap(container[i], container[k])`, `permute.tpp:32`; `none`: out of range access. -/
def swapAt {α : Type _} (l : List α) (i k : Nat) : Option (List α) :=
  match l[i]?, l[k]? with
  | some a, some b => some ((l.set i b).set k a)
  | _, _ => none

/-- `permute.tpp:23-33`, the `for` loop from index `i` on, `n` iterations left. -/
def permuteLoop {α : Type _} (perm : List Nat) : (n i : Nat) → List α → Res (List α) Unit
  | 0, _, c => .ok () c
  | n + 1, i, c =>
    match perm[i]? with
    | none => .ub
    | some pi =>
      if pi ≥ c.length then .throw .outOfBound c                    -- lines 24-27
      else
        match chase perm i i pi with                                -- lines 28-30
        | .oob => .ub
        | .loops => .diverge
        | .found k =>
          if k > i then                                             -- lines 31-32
            match swapAt c i k with
            | none => .ub
            | some c' => permuteLoop perm n (i + 1) c'
          else permuteLoop perm n (i + 1) c

/-- `permute(container, permutation)`, `permute.tpp:17-34`. Simplification: the index type `I` is `size_t`
(as in all callers), modelled by `Nat`. -/
def permute {α : Type _} (c : List α) (perm : List Nat) : Res (List α) Unit :=
  if c.length ≠ perm.length then .throw .outOfBound c               -- lines 19-22
  else permuteLoop perm c.length 0 c

end Verif
