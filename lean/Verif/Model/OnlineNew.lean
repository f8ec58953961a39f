import Verif.Model.Lrf
import Verif.Model.Estimator
import Mathlib.Algebra.Order.Round
import Mathlib.Algebra.Order.Archimedean.Basic
import Mathlib.Data.Rat.Floor

/-!
# Model of the incremental 2D laser calibration program

`E2/simulate-online-new.cpp`, `E2` being
`/repo/incremental_calibration_examples/incremental_calibration_examples_2dlrf/src/2dlrf`, from the creation of the estimator to
the end.  The batches are those of `Lrf.buildBatch`, the estimator that of `Model/Estimator`.  The batch that starts at state `i`
is the object `i`; the state variables and error terms of different batches are different objects, which is why they may be named
by the step they belong to.
-/

namespace Verif
namespace OnlineNew
open Lrf
variable {V F M : Type}

/-- the settings (`steps` 56, `nl` 82, `batchSize` 195) and the environment: the addresses of the objects, and for the call with the batch
starting at `i` the optimizer (`oracle i`) and whether the linear solver can rebuild its matrices (`buildOk i`).
`E2/simulate-online-new.cpp` 54-195. -/
structure Cfg (V F M : Type) where
  ad : Addr
  D : Dbl F
  m0 : M
  steps : Nat
  bs : Nat
  nl : Nat
  oracle : Nat → OptInput V → OptCall V F M
  buildOk : Nat → Bool

/-- what one round prints, `E2/simulate-online-new.cpp` 240-265: the calibration before and after (240, 242), the ordering (244-247),
and the return value (248-263). -/
structure Block (V F M : Type) where
  start : Nat
  before : V
  after : V
  ordering : List GroupId
  ret : RetVal F M

/-- the state of the program: the heap, the batches and the estimator, and what was printed.  `E2/simulate-online-new.cpp` 176-265. -/
structure St (V F M : Type) where
  w : EWorld V F M
  out : List (Block V F M)

/-- one round of the loop, `E2/simulate-online-new.cpp` 199-265. -/
def round (c : Cfg V F M) (i : Nat) (s : St V F M) : Res (St V F M) Unit :=
  match buildBatch c.ad s.w.heap c.steps c.bs c.nl i with
  | .ok _ p =>
    match ({ s.w with B := fun b => if b = i then p else s.w.B b } : EWorld V F M).addBatch c.D c.m0 (c.oracle i) (c.buildOk i) (some i)
        false with
    | .ok r w' => .ok () ⟨w', s.out ++ [⟨i, s.w.heap.params (c.ad.var .theta), w'.heap.params (c.ad.var .theta),
        w'.est.inc.ordering, r⟩]⟩
    | .throw e w' => .throw e ⟨w', s.out⟩
    | .ub => .ub
    | .diverge => .diverge
  | .throw e _ => .throw e s
  | .ub => .ub
  | .diverge => .diverge

/-- the rounds for a list of batch starts.  `E2/simulate-online-new.cpp` 198-266. -/
def rounds (c : Cfg V F M) : List Nat → St V F M → Res (St V F M) Unit
  | [], s => .ok () s
  | i :: l, s => (round c i s).bind fun _ s' => rounds c l s'

/-- the loop, `E2/simulate-online-new.cpp` 198-266.  Simplification: the loop variable does not depend on the body, so the
sequence of its values is computed first; with a batch size of zero the program may throw in a round instead of running for ever. -/
noncomputable def loop (c : Cfg V F M) (s : St V F M) : Res (St V F M) Unit :=
  match batchStarts c.steps c.bs with
  | .ok _ b => rounds c b.starts s
  | .throw e _ => .throw e s
  | .ub => .ub
  | .diverge => .diverge

/-- what the program prints and writes at the end, `E2/simulate-online-new.cpp` 268-362: the calibration and its covariance (268-270),
the information gain, ranks, tolerances and bases (277-298), the marginalised group (303-304), the number of batches `out of` a total
(305-306), the numbers of design variables and error terms (312-315), and the estimates of the landmarks (334-339) and the poses
(352-363), before they are transformed by `trans`. -/
structure Report (V F M : Type) where
  calibration : V
  stats : Stats F M
  margGroup : GroupId
  numBatches : Nat
  outOf : ℤ
  numDesignVariables : Nat
  numErrorTerms : Nat
  landmarks : List V
  poses : List V

/-- `E2/simulate-online-new.cpp` 268-365.  `getDesignVariablesGroup(0)` (352-353) throws if no batch was accepted.  The alignment of
landmarks and poses (331-362) is not modelled: the values to be aligned are reported. -/
def finish (c : Cfg V F M) (s : St V F M) : Res (St V F M) (Report V F M) :=
  match s.w.est.inc.getGroup 0 with
  | .ok dvsx _ => .ok
    { calibration := s.w.heap.params (c.ad.var .theta)
      stats := s.w.est.stats
      margGroup := s.w.est.margGroup
      numBatches := s.w.getNumBatches
      outOf := _root_.round ((c.steps : ℚ) / (c.bs : ℚ))
      numDesignVariables := s.w.est.inc.numDesignVariables
      numErrorTerms := s.w.est.inc.numErrorTerms s.w.B
      landmarks := (List.range c.nl).map fun l => s.w.heap.params (c.ad.var (.lm l))
      poses := dvsx.map s.w.heap.params } s
  | .throw e _ => .throw e s
  | .ub => .ub
  | .diverge => .diverge

/-- the program from line 191 on, started with the heap `h`, the estimator being constructed for group `g` (191-192). -/
noncomputable def program (c : Cfg V F M) (minusOne : F) (g : GroupId) (o : EstOptions F) (h : Heap V) :
    Res (St V F M) (Report V F M) :=
  (loop c ⟨⟨fun _ => OptProblem.empty, h, Estimator.construct c.D minusOne c.m0 g o⟩, []⟩).bind fun _ s => finish c s

end OnlineNew
end Verif
