import Verif.Spec.Camera

/-! Vocabulary of property C124. -/

namespace Verif
namespace Camera
variable {V F M : Type _}

/-- Every run of the optimizer the call makes is of the kind `R` (a relation between what a run is given and what it does). -/
def Op.Runs (R : OptInput V → OptCall V F M → Prop) : Op V F M → Prop
  | .addImage _ oracle _ => ∀ i, R i (oracle i)
  | .processBatch oracle _ => ∀ i, R i (oracle i)
  | _ => True

/-- The variables of the calibration: landmarks, camera, and the poses of the images of the accepted submissions. -/
def Cam.calibration (s : Cam V F M) : List DVId := s.lms ++ s.cal ++ s.acceptedImages.flatMap Entry.dvs

/-- Everything the calibrator offers is the result of the run `call` on `inp`. -/
structure Cam.IsResultOf (S : Setup V F M) (s : Cam V F M) (inp : OptInput V) (call : OptCall V F M) : Prop where
  run : inp ∈ s.w.est.calls
  batches : inp.inc.problems = (s.subs.filter Sub.accepted).map Sub.batch
  contents : ∀ b ∈ inp.inc.problems, inp.B b = s.w.B b
  values : ∀ d ∈ s.calibration, s.w.heap.params d = call.params d
  marginal : call.marginal = some s.w.est.stats.marginal
  report : ∃ srv sc, call.report = some (srv, sc) ∧ s.w.est.stats.scaled = EWorld.scaledOf S.m0 S.eopts sc ∧
    s.w.est.stats.initialCost = srv.JStart ∧ s.w.est.stats.finalCost = srv.JFinal

end Camera
end Verif
