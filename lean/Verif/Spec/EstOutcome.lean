import Verif.Model.Estimator

/-! Specification vocabulary for C127: when a call on the estimator is refused, told by what the batches hold. -/

namespace Verif
variable {V F M : Type _}

/-- None of the batches `bs` holds a variable of group `g`. -/
def EWorld.Lack (w : EWorld V F M) (g : GroupId) (bs : List BatchId) : Prop :=
  ∀ b ∈ bs, ∀ d, (w.B b).getGroupId d ≠ .ok g ()

/-- Batch `b` cannot join the batches of the estimator: one of them has one of its variables under another group
or one of its error terms. -/
def EWorld.Clash (w : EWorld V F M) (b : BatchId) : Prop :=
  (∃ b' ∈ w.est.inc.problems, ∃ d g g', (w.B b).getGroupId d = .ok g () ∧ (w.B b').getGroupId d = .ok g' () ∧
    g' ≠ g) ∨
  ∃ b' ∈ w.est.inc.problems, ∃ e, (w.B b).isETInProblem e = true ∧ (w.B b').isETInProblem e = true

/-- `Refused w op e`: in `w` the call `op` breaks a rule the documentation answers with the exception `e`. -/
inductive Refused (w : EWorld V F M) : EOp V F M → Exc → Prop where
  /-- a null batch -/
  | null (force oracle buildOk) : Refused w (.addBatch none force oracle buildOk) .nullPointer
  /-- a batch contradicting a batch already in -/
  | clash (b force oracle buildOk) (h : w.Clash b) :
      Refused w (.addBatch (some b) force oracle buildOk) .invalidOperation
  /-- nothing to marginalise with the new batch in -/
  | addLack (b force oracle buildOk) (h : w.Lack w.est.margGroup (w.est.inc.problems ++ [b])) :
      Refused w (.addBatch (some b) force oracle buildOk) .invalidOperation
  /-- nothing to marginalise -/
  | lack (oracle) (h : w.Lack w.est.margGroup w.est.inc.problems) : Refused w (.reoptimize oracle) .invalidOperation
  /-- no such batch -/
  | index (i oracle) (h : w.est.inc.problems.length ≤ i) : Refused w (.removeBatchIdx i oracle) .outOfBound
  /-- nothing to marginalise once the batch is out -/
  | idxLack (i oracle) (hi : i < w.est.inc.problems.length)
      (h : w.Lack w.est.margGroup (w.est.inc.problems.eraseIdx i)) :
      Refused w (.removeBatchIdx i oracle) .invalidOperation
  /-- nothing to marginalise once the batch is out -/
  | remLack (b oracle) (hb : b ∈ w.est.inc.problems)
      (h : w.Lack w.est.margGroup (w.est.inc.problems.erase b)) :
      Refused w (.removeBatch (some b) oracle) .invalidOperation

/-- The optimizer or the linear solver used by this call throws on some input. -/
def EOp.Unreliable : EOp V F M → Prop
  | .addBatch _ _ oracle buildOk => (∃ i, (oracle i).report = none ∨ (oracle i).marginal = none) ∨ buildOk = false
  | .reoptimize oracle | .removeBatchIdx _ oracle | .removeBatch _ oracle =>
    ∃ i, (oracle i).report = none ∨ (oracle i).marginal = none
  | _ => False

end Verif
