import Verif.Model.IncProblem

/-! Specification vocabulary for C129: two incremental problems a caller can tell apart only by orders. -/

namespace Verif
variable {V : Type _}

/-- The calls that show what a problem consists of give the same answers on `q1` and `q2`, up to the order of groups,
of the variables of a group, and of batches. -/
structure SameProblem (B : BatchId → OptProblem V) (h : Heap V) (q1 q2 : IncProblem V) : Prop where
  batches : q1.problems.Perm q2.problems
  isVariable : ∀ d, q1.isDVInProblem d = q2.isDVInProblem d
  groupOf : ∀ d, q1.getGroupId d = q2.getGroupId d
  numVariables : q1.numDesignVariables = q2.numDesignVariables
  ordering : q1.ordering.Perm q2.ordering
  numGroups : q1.getNumGroups = q2.getNumGroups
  groups : ∀ g, (∃ l1 l2, q1.getGroup g = .ok l1 () ∧ q2.getGroup g = .ok l2 () ∧ l1.Perm l2) ∨
    q1.getGroup g = .throw .outOfBound () ∧ q2.getGroup g = .throw .outOfBound ()
  dims : ∀ g, q1.getGroupDim h g = q2.getGroupDim h g
  isErrorTerm : ∀ e, q1.isETInProblem B e = q2.isETInProblem B e
  numErrorTerms : q1.numErrorTerms B = q2.numErrorTerms B

/-- Add the batches one after the other; `none` if a call does not return normally. -/
def offerAll (B : BatchId → OptProblem V) : List BatchId → IncProblem V → Option (IncProblem V)
  | [], q => some q
  | b :: bs, q =>
    match q.add B (some b) with
    | .ok _ q' => offerAll B bs q'
    | _ => none

end Verif
