import Verif.Model.Camera
import Verif.Lemmas.Batch

/-! Vocabulary for the properties of the camera calibrator. -/

namespace Verif
namespace Camera
variable {V F M : Type _}

/-- the two variables of an image, in the order in which they are added. -/
def Entry.dvs (e : Entry V) : List DVId := [e.qdv, e.tdv]

/-- the landmarks whose corner is visible. -/
def visLms (o : Obs V) (lms : List DVId) : List DVId := ((lms.zipIdx).filter fun x => o.visible x.2).map Prod.fst

/-- The detected image of a call. -/
def Op.detected (s : Cam V F M) : Op V F M → List (Obs V)
  | .addImage (some o) _ _ => if s.ready then [o] else []
  | _ => []

/-- The data a calibrator is constructed from. -/
structure Setup (V F M : Type _) where
  D : Dbl F
  m0 : M
  minusOne : F
  margGroup : GroupId
  eopts : EstOptions F
  heap : Heap V
  opt : Opt
  lms : List DVId
  cal : List DVId
  nd : Nat
  ne : Nat

/-- The calibrator constructed from it. -/
def Setup.start (S : Setup V F M) : Cam V F M :=
  init S.heap (Estimator.construct S.D S.minusOne S.m0 S.margGroup S.eopts) S.opt S.lms S.cal S.nd S.ne

/-- Landmarks and camera variables are different objects that exist. -/
structure Setup.Ok (S : Setup V F M) : Prop where
  nodup : (S.lms ++ S.cal).Nodup
  lt : ∀ d ∈ S.lms ++ S.cal, d < S.nd

/-- All histories of public calls, with whatever exceptions (caught by the caller); `seen` are the images in which the
target was detected. -/
inductive Reach (S : Setup V F M) : Cam V F M → List (Obs V) → Prop where
  | init : Reach S S.start []
  | step {s s' : Cam V F M} {seen : List (Obs V)} {ok : Bool} (op : Op V F M) : Reach S s seen →
      (op.step S.D S.m0 s).outcome = some (ok, s') → Reach S s' (seen ++ op.detected s)

/-- Histories in which no call threw. -/
inductive ReachOk (S : Setup V F M) : Cam V F M → List (Obs V) → Prop where
  | init : ReachOk S S.start []
  | step {s s' : Cam V F M} {seen : List (Obs V)} {r : Option Bool} (op : Op V F M) : ReachOk S s seen →
      op.step S.D S.m0 s = .ok r s' → ReachOk S s' (seen ++ op.detected s)

/-- What happens after `s`: further public calls of the kind `P` (which also sees whether the call returned). -/
inductive Later (D : Dbl F) (m0 : M) (P : Op V F M → Bool → Prop) : Cam V F M → Cam V F M → Prop where
  | refl (s : Cam V F M) : Later D m0 P s s
  | step {s s' s'' : Cam V F M} {ok : Bool} (op : Op V F M) : Later D m0 P s s' → P op ok →
      (op.step D m0 s').outcome = some (ok, s'') → Later D m0 P s s''

/-- Executable histories: run the calls one after the other, catching exceptions. -/
def run (D : Dbl F) (m0 : M) : List (Op V F M) → Cam V F M → Option (Cam V F M × List Bool)
  | [], s => some (s, [])
  | op :: ops, s =>
    match (op.step D m0 s).outcome with
    | none => none
    | some (ok, s') => (run D m0 ops s').map fun x => (x.1, ok :: x.2)

/-- The images of the accepted submissions, in the order in which they were taken. -/
def Cam.acceptedImages (s : Cam V F M) : List (Entry V) := (s.subs.filter Sub.accepted).flatMap Sub.images

/-- The variables every reprojection error of the given images depends on: rotation and translation of the camera, the corner
and the camera parameters; one error per visible corner. -/
def errorDeps (lms cal : List DVId) (es : List (Entry V)) : List (List DVId) :=
  es.flatMap fun e => (visLms e.obs lms).map fun l => [e.qdv, e.tdv, l] ++ cal

end Camera
end Verif
