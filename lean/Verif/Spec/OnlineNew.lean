import Verif.Model.OnlineNew

/-! Vocabulary for the results of the incremental 2D laser calibration program. -/

namespace Verif
namespace OnlineNew
open Lrf
variable {V F M : Type}

/-- the steps that belong to the batch starting at `i`. -/
def stepsOf (c : Cfg V F M) (i : Nat) : List Nat := List.range' i (min c.bs (c.steps - i))

/-- the measurements in the batch starting at `i`: for each of its steps but the first, the motion and all observations. -/
def termsOf (c : Cfg V F M) (i : Nat) : List Term := (stepsOf c i).tail.flatMap (stepTerms c.nl)

/-- the starts of the batches reported as accepted, in order. -/
def accepted (out : List (Block V F M)) : List Nat := (out.filter fun b => b.ret.batchAccepted).map Block.start

/-- the last batch reported as accepted. -/
def lastAccepted (out : List (Block V F M)) : Option (Block V F M) := (out.filter fun b => b.ret.batchAccepted).getLast?

/-- the contents of the groups if the batches `acc` are in the problem. -/
def groupOf (c : Cfg V F M) (acc : List Nat) (g : GroupId) : List Var :=
  if g = 0 then (acc.flatMap (stepsOf c)).map .state
  else if acc = [] then []
  else if g = 1 then (List.range c.nl).map .lm
  else if g = 2 then [.theta]
  else []

/-- the order of the groups when group `g` is to be eliminated last. -/
def orderOf (nl : Nat) (g : GroupId) : List GroupId :=
  if nl = 0 then (if g = 0 then [2, 0] else [0, 2])
  else if g = 0 then [1, 2, 0] else if g = 1 then [0, 2, 1] else [0, 1, 2]

/-- the statistics a return value carries. -/
def statsOf (r : RetVal F M) : Stats F M := ⟨r.informationGain, r.marginal, r.scaled, r.srv.JStart, r.srv.JFinal⟩

/-- the program can work with `g` as the group to be eliminated last. -/
def GroupOk (nl : Nat) (g : GroupId) : Prop := g = 0 ∨ g = 2 ∨ (g = 1 ∧ 0 < nl)

/-- why a round can fail after `n` rounds: no room for a further batch in the container, the optimizer or the analysis of its
result fails, or the linear solver cannot rebuild its matrices. -/
def Cause (c : Cfg V F M) (n i : Nat) : Prop :=
  IncProblem.maxBatches ≤ n ∨ (∃ inp, (c.oracle i inp).report = none ∨ (c.oracle i inp).marginal = none) ∨ c.buildOk i = false

/-- the statistics before a round. -/
def prevStats (st0 : Stats F M) (pre : List (Block V F M)) : Stats F M := ((lastAccepted pre).map fun b => statsOf b.ret).getD st0

/-- the calibration before a round. -/
def prevTheta (v0 : V) (pre : List (Block V F M)) : V := ((lastAccepted pre).map Block.after).getD v0

/-- what one round decides and prints, given what was printed before. -/
structure Decided (c : Cfg V F M) (g : GroupId) (o : EstOptions F) (st0 : Stats F M) (v0 : V) (pre : List (Block V F M))
    (b : Block V F M) : Prop where
  /-- what is returned is the result of optimizing the accepted batches and the new one, from the calibration printed before. -/
  source : ∃ inp sc, inp.inc.problems = accepted pre ++ [b.start] ∧ inp.heap.params (c.ad.var .theta) = b.before ∧
    (c.oracle b.start inp).report = some (b.ret.srv, sc) ∧ (c.oracle b.start inp).marginal = some b.ret.marginal ∧
    b.ret.scaled = EWorld.scaledOf c.m0 o sc ∧
    (b.ret.batchAccepted = true → b.after = (c.oracle b.start inp).params (c.ad.var .theta))
  /-- the information gain is measured against the last accepted batch. -/
  gain : b.ret.informationGain = c.D.halfDiff b.ret.marginal.svLog2Sum (prevStats st0 pre).marginal.svLog2Sum
  /-- accepted exactly if the gain exceeds the threshold or the rank grows, and the solution counts as valid. -/
  rule : b.ret.batchAccepted = true ↔
    (c.D.gt b.ret.informationGain o.infoGainDelta = true ∨ b.ret.marginal.rankTheta > (prevStats st0 pre).marginal.rankTheta) ∧
    (o.checkValidity = true → b.ret.srv.iterations ≠ o.maxIterations ∧ c.D.ge b.ret.srv.JFinal b.ret.srv.JStart = false)
  /-- a round starts from, and a rejected batch leaves, the calibration of the last accepted batch. -/
  before : b.before = prevTheta v0 pre
  after : b.after = prevTheta v0 (pre ++ [b])
  ordering : b.ordering = if accepted (pre ++ [b]) = [] then [] else orderOf c.nl g

end OnlineNew
end Verif
