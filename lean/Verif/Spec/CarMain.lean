import Verif.Model.CarMain

/-! # Specification of the car programs: which calls the messages of a bag lead to -/

namespace Verif
namespace CarMain
open Geodetic
variable {K : Type}

/-- the accuracy message that is the latest one after the messages `ms`. -/
def latest (ms : List Msg) : Option Vnp :=
  (ms.filterMap fun m => match m with | .vnp p => some p | _ => none).getLast?

/-- the navigation messages that come after at least one accuracy message, each with the latest one before it. -/
def usable (ms : List Msg) : List (Vns × Vnp) :=
  (List.range ms.length).filterMap fun i =>
    match (ms[i]? : Option Msg) with
    | some (.vns s) => (latest (ms.take i)).map fun p => (s, p)
    | _ => none

/-- front wheel messages. -/
def frontMsgs (ms : List Msg) : List (ℝ × ℝ × ℝ × ℝ) :=
  ms.filterMap fun m => match m with | .fws l r seq stamp => some (l, r, seq, stamp) | _ => none

/-- rear wheel messages. -/
def rearMsgs (ms : List Msg) : List (ℝ × ℝ × ℝ × ℝ) :=
  ms.filterMap fun m => match m with | .rws l r seq stamp => some (l, r, seq, stamp) | _ => none

/-- steering messages. -/
def steerMsgs (ms : List Msg) : List (ℝ × ℝ × ℝ) :=
  ms.filterMap fun m => match m with | .st v seq stamp => some (v, seq, stamp) | _ => none

/-- odometer messages: distance, time, stamp. -/
def dmiMsgs (ms : List Msg) : List (ℝ × ℝ × ℝ) :=
  ms.filterMap fun m => match m with | .dmi d t stamp => some (d, t, stamp) | _ => none

/-- consecutive elements. -/
def consecutive {α : Type} : List α → List (α × α)
  | a :: b :: l => (a, b) :: consecutive (b :: l)
  | _ => []

/-- the time stamps a corrector gives to a stream of device and host times. -/
noncomputable def stampsFrom (env : Env K) : K → List (ℝ × ℝ) → List ℤ
  | _, [] => []
  | k, x :: xs => ErrorTerms.roundAway (env.correct k x.1 x.2).2 :: stampsFrom env (env.correct k x.1 x.2).1 xs

/-- the map frame: east, north and up at the first usable navigation message. -/
noncomputable def mapFrame (ms : List Msg) : Rigid :=
  match (usable ms).head? with
  | some x => originOf x.1
  | none => ⟨1, 0⟩

/-- the calls of one kind, in order. -/
def Call.pose? : Call → Option (PoseM × ℤ) | .pose p t => some (p, t) | _ => none
/-- see `Call.pose?`. -/
def Call.vel? : Call → Option (VelM × ℤ) | .vel p t => some (p, t) | _ => none
/-- see `Call.pose?`. -/
def Call.front? : Call → Option ((ℝ × ℝ) × ℤ) | .front l r t => some ((l, r), t) | _ => none
/-- see `Call.pose?`. -/
def Call.rear? : Call → Option ((ℝ × ℝ) × ℤ) | .rear l r t => some ((l, r), t) | _ => none
/-- see `Call.pose?`. -/
def Call.steer? : Call → Option (ℝ × ℤ) | .steer v t => some (v, t) | _ => none
/-- see `Call.pose?`. -/
def Call.dmi? : Call → Option (Option ℝ × ℤ) | .dmi v t => some (v, t) | _ => none

/-- consecutive odometer messages of which the earlier one does not carry the time -1. -/
noncomputable def dmiPairs (ms : List Msg) : List ((ℝ × ℝ × ℝ) × (ℝ × ℝ × ℝ)) :=
  open Classical in (consecutive (dmiMsgs ms)).filter fun x => x.1.2.1 ≠ -1

/-- speed between two odometer messages; not a finite number if they carry the same time. -/
noncomputable def dmiSpeed (a b : ℝ × ℝ × ℝ) : Option ℝ :=
  open Classical in if b.2.1 = a.2.1 then none else some ((b.1 - a.1) / (b.2.1 - a.2.1))

/-- all calls are those of the specification, kind by kind. -/
structure CallsAre (env : Env K) (use : Use) (ms : List Msg) (cs : List Call) : Prop where
  pose : cs.filterMap Call.pose? = List.zip ((usable ms).map fun x => poseOf env (mapFrame ms) x.1 x.2)
    (stampsFrom env env.corr0 ((usable ms).map fun x => (nsec x.1.time1, x.1.stamp)))
  vel : cs.filterMap Call.vel? = List.zip ((usable ms).map fun x => velOf env x.1 x.2)
    (stampsFrom env env.corr0 ((usable ms).map fun x => (nsec x.1.time1, x.1.stamp)))
  front : cs.filterMap Call.front? = if use.fws then List.zip ((frontMsgs ms).map fun x => (x.1, x.2.1))
    (stampsFrom env env.corr0 ((frontMsgs ms).map fun x => (x.2.2.1, x.2.2.2))) else []
  rear : cs.filterMap Call.rear? = if use.rws then List.zip ((rearMsgs ms).map fun x => (x.1, x.2.1))
    (stampsFrom env env.corr0 ((rearMsgs ms).map fun x => (x.2.2.1, x.2.2.2))) else []
  steer : cs.filterMap Call.steer? = if use.st then List.zip ((steerMsgs ms).map fun x => x.1)
    (stampsFrom env env.corr0 ((steerMsgs ms).map fun x => (x.2.1, x.2.2))) else []
  dmi : cs.filterMap Call.dmi? = if use.dmi then List.zip ((dmiPairs ms).map fun x => dmiSpeed x.1 x.2)
    (stampsFrom env env.corr0 ((dmiPairs ms).map fun x => (nsec x.2.2.1, x.2.2.2))) else []

end CarMain
end Verif
