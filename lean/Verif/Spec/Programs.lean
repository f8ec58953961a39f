import Verif.Spec.CalibLib

/-! Vocabulary of property C125: what a calibration program offers when it ends normally. -/

namespace Verif
namespace CalibLib
variable {X V F M W : Type}

/-- `made e w x`: the batch `x` is what has to be made of the measurements `w`, if the state of the estimator and of the
calibration is `e`.  The report of a program: -/
structure Reported (c : Env X V F M) (g : GroupId) (o : EstOptions F) (mo : F) (h : Heap V) (made : St X V F M → W → X → Prop)
    (e : St X V F M) (sent : List W) (gains : List F) (params : List (List V)) : Prop where
  /-- one information gain per window handed over, and one calibration more, the first being the initial one. -/
  lengths : e.log.length = sent.length ∧ gains.length = sent.length ∧ params.length = sent.length + 1 ∧
    params[0]? = some (c.cal.map h.params)
  /-- window `k`: the batch is made of the measurements collected for it, with the calibration that window `k - 1` left; the
  estimator decides on it as `Decided` says; the gain in the report is the one it returned, the calibration in the report the one
  after the call; a window that is not accepted repeats the calibration. -/
  window : ∀ k w, sent[k]? = some w → ∃ b r, e.log[k]? = some b ∧ b.ret = some r ∧
    (∃ e0, Reach c (c.start mo g o h) e0 ∧ e0.log = e.log.take k ∧ made e0 w b.win) ∧
    Decided c g o (Estimator.initStats c.D mo c.m0) (c.cal.map h.params) (e.log.take k) b ∧
    gains[k]? = some r.informationGain ∧ params[k]? = some b.before ∧ params[k + 1]? = some b.after ∧
    (r.batchAccepted = false → params[k + 1]? = params[k]?)
  /-- the end: no window was accepted, and the calibration and the uncertainties are the initial ones; or window `k` is the last
  accepted one, and the calibration, the uncertainties and the problem are those of the optimizer run in that window. -/
  last : ((∀ b ∈ e.log, ∀ r, b.ret = some r → r.batchAccepted = false) ∧ params.getLast? = some (c.cal.map h.params) ∧
      e.w.est.stats = Estimator.initStats c.D mo c.m0 ∧ e.w.est.inc.problems = []) ∨
    ∃ k b r inp sc, e.log[k]? = some b ∧ b.ret = some r ∧ r.batchAccepted = true ∧
      (∀ k' b' r', k < k' → e.log[k']? = some b' → b'.ret = some r' → r'.batchAccepted = false) ∧
      Sees c g (e.log.take k) b inp ∧ (c.oracle k inp).report = some (r.srv, sc) ∧ (c.oracle k inp).marginal = some r.marginal ∧
      params.getLast? = some (c.cal.map (c.oracle k inp).params) ∧
      e.w.est.stats = ⟨r.informationGain, r.marginal, EWorld.scaledOf c.m0 o sc, r.srv.JStart, r.srv.JFinal⟩ ∧
      e.w.est.inc.problems = inp.inc.problems

end CalibLib
end Verif
