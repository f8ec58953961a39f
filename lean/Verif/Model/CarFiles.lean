import Verif.Model.CarMain

/-!
# The data files of the car programs

The body of the loop of `realworld/calibrator.cpp` (`RC`; `analyzer.cpp` is the same up to line 241) once more, now with the
lines it writes to its data files, in the order in which lines are written and the calibrator is called.  Every line ends with
`std::endl`, which flushes, so that a line is in the file as soon as it was written.  Numbers are values, not text.
-/

namespace Verif
namespace CarMain
open Matrix Geodetic
open CarKin (V3 M3)

/-- the six sensors, each with a data file, `RC` 78-89. -/
inductive Sensor where
  | rw | fw | st | dmi | pose | vel
  deriving DecidableEq

/-- a line: the file, the time in seconds and the numbers after it.  For example `RC` 155-158. -/
structure Line where
  sensor : Sensor
  sec : ℝ
  values : List (Option ℝ)

/-- what the program does: it writes a line, or calls the calibrator.  `RC` 119-239. -/
inductive Act where
  | write (l : Line)
  | call (c : Call)

variable {K : Type}

/-- `ros::Time::toSec`, external; called at `RC` 155, 177, 196, 209, 221, 234.  Simplification: exact. -/
noncomputable def toSec (stamp : ℝ) : ℝ := stamp / 1000000000

/-- `transpose()` of a vector on a line, for example `RC` 156. -/
def vecText (v : V3) : List (Option ℝ) := [some (v 0), some (v 1), some (v 2)]

/-- `diagonal().transpose()` of a covariance on a line, for example `RC` 157. -/
def diagText (m : M3) : List (Option ℝ) := [some (m 0 0), some (m 1 1), some (m 2 2)]

open Classical in
/-- the body of the loop, `RC` 119-239, with the lines: those of poses and velocities (155-158, 177-180) are written before the
two calls of the calibrator (183-184), those of the other sensors (196-197, 209-210, 221, 234-235) after the call. -/
noncomputable def stepIO (env : Env K) (use : Use) (st : St K) : Msg → St K × List Act
  | .vnp p => ({ st with lastVnp := some p }, [])
  | .vns s =>
    match st.lastVnp with
    | none => (st, [])
    | some p =>
      let m_T_e := if st.first then originOf s else st.m_T_e
      let pose := poseOf env m_T_e s p
      let vel := velOf env s p
      let l1 : Line := ⟨.pose, toSec s.stamp,
        vecText pose.m_r_mr ++ vecText pose.m_R_r ++ diagText pose.sigma2_r ++ diagText pose.sigma2_R⟩
      let l2 : Line := ⟨.vel, toSec s.stamp,
        vecText vel.r_v_mr ++ vecText vel.r_om_mr ++ diagText vel.sigma2_v ++ diagText vel.sigma2_om⟩
      let r := stampWith env st.kVns (nsec s.time1) s.stamp
      ({ st with m_T_e := m_T_e, first := false, kVns := r.1 },
        [.write l1, .write l2, .call (.pose pose r.2), .call (.vel vel r.2)])
  | .fws l r seq stamp =>
    if use.fws then
      let q := stampWith env st.kFw seq stamp
      ({ st with kFw := q.1 }, [.call (.front l r q.2), .write ⟨.fw, toSec stamp, [some l, some r]⟩])
    else (st, [])
  | .rws l r seq stamp =>
    if use.rws then
      let q := stampWith env st.kRw seq stamp
      ({ st with kRw := q.1 }, [.call (.rear l r q.2), .write ⟨.rw, toSec stamp, [some l, some r]⟩])
    else (st, [])
  | .st v seq stamp =>
    if use.st then
      let q := stampWith env st.kSt seq stamp
      ({ st with kSt := q.1 }, [.call (.steer v q.2), .write ⟨.st, toSec stamp, [some v]⟩])
    else (st, [])
  | .dmi dist time1 stamp =>
    if use.dmi then
      if st.lastTime ≠ -1 then
        let speed := if time1 - st.lastTime = 0 then none else some ((dist - st.lastDist) / (time1 - st.lastTime))
        let q := stampWith env st.kDmi (nsec time1) stamp
        ({ st with kDmi := q.1, lastTime := time1, lastDist := dist },
          [.call (.dmi speed q.2), .write ⟨.dmi, toSec stamp, [speed]⟩])
      else ({ st with lastTime := time1, lastDist := dist }, [])
    else (st, [])

/-- the actions one after the other; an exception of the calibrator ends the program, the lines written so far stay.
`RC` 119-239. -/
def exec {C : Type} (submit : C → Call → Res C Unit) (w : List Line) (c : C) : List Act → Res (List Line × C) Unit
  | [] => .ok () (w, c)
  | .write l :: as => exec submit (w ++ [l]) c as
  | .call x :: as =>
    match submit c x with
    | .ok _ c' => exec submit w c' as
    | .throw e c' => .throw e (w, c')
    | .ub => .ub
    | .diverge => .diverge

/-- the loop over the messages with the data files, `RC` 118-240. -/
noncomputable def loopIO {C : Type} (submit : C → Call → Res C Unit) (env : Env K) (use : Use) (st : St K) (w : List Line) (c : C) :
    List Msg → Res (List Line × C) Unit
  | [] => .ok () (w, c)
  | m :: ms => (exec submit w c (stepIO env use st m).2).bind fun _ s => loopIO submit env use (stepIO env use st m).1 s.1 s.2 ms

end CarMain
end Verif
