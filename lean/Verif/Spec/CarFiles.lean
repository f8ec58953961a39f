import Verif.Model.CarFiles
import Verif.Spec.CarMain

/-! # Specification of the data files of the car programs -/

namespace Verif
namespace CarMain

/-- a line shows the measurement of a call: it is in the file of the sensor, and its numbers are those of the measurement. -/
def Shows (l : Line) : Call → Prop
  | .pose p _ => l.sensor = .pose ∧ l.values = [p.m_r_mr 0, p.m_r_mr 1, p.m_r_mr 2, p.m_R_r 0, p.m_R_r 1, p.m_R_r 2,
      p.sigma2_r 0 0, p.sigma2_r 1 1, p.sigma2_r 2 2, p.sigma2_R 0 0, p.sigma2_R 1 1, p.sigma2_R 2 2].map some
  | .vel v _ => l.sensor = .vel ∧ l.values = [v.r_v_mr 0, v.r_v_mr 1, v.r_v_mr 2, v.r_om_mr 0, v.r_om_mr 1, v.r_om_mr 2,
      v.sigma2_v 0 0, v.sigma2_v 1 1, v.sigma2_v 2 2, v.sigma2_om 0 0, v.sigma2_om 1 1, v.sigma2_om 2 2].map some
  | .front a b _ => l.sensor = .fw ∧ l.values = [some a, some b]
  | .rear a b _ => l.sensor = .rw ∧ l.values = [some a, some b]
  | .steer a _ => l.sensor = .st ∧ l.values = [some a]
  | .dmi v _ => l.sensor = .dmi ∧ l.values = [v]

/-- the time in the header of a message, in nanoseconds (the accuracy messages are not recorded in a file). -/
def Msg.stampOf : Msg → Option ℝ
  | .vnp _ => none
  | .vns s => some s.stamp
  | .fws _ _ _ t => some t
  | .rws _ _ _ t => some t
  | .st _ _ t => some t
  | .dmi _ _ t => some t

/-- the lines `w` record the calls `cs`, one line for each call and in their order; each line bears the time, in seconds, of the
message its call comes from. -/
def Record (ms : List Msg) (w : List Line) (cs : List Call) : Prop :=
  ∃ parts : List (Msg × List Line × List Call), parts.map (·.1) = ms ∧ w = (parts.map (·.2.1)).flatten ∧
    cs = (parts.map (·.2.2)).flatten ∧
    ∀ p ∈ parts, List.Forall₂ Shows p.2.1 p.2.2 ∧ ∀ l ∈ p.2.1, ∃ t, p.1.stampOf = some t ∧ l.sec = t / 1000000000

end CarMain
end Verif
