import Verif.Model.ErrorTerms
import Verif.Model.Loop
import Verif.Model.OptProblem
import Mathlib.Analysis.SpecialFunctions.Trigonometric.Arctan
import Mathlib.Analysis.SpecialFunctions.Log.Base

/-!
# Model of the 2D laser example programs

`E2` is `/repo/incremental_calibration_examples/incremental_calibration_examples_2dlrf/src/2dlrf`.
`std::vector::operator[]` outside the vector is undefined behaviour.  Arithmetic is exact except where a rounding operation
is a parameter.
-/

namespace Verif
namespace Lrf
open ErrorTerms

/-- a position, `Eigen::Vector2d`, `E2/simulate-offline.cpp` 87-89, 114. -/
abbrev V2 := Fin 2 → ℝ
/-- a pose, or the calibration parameters, `Eigen::Vector3d`, `E2/simulate-offline.cpp` 64-72, 118-129. -/
abbrev V3 := Fin 3 → ℝ

/-! ## `genSineWavePath`, `E2/utils.cpp` 15-33 -/

/-- state of the loop of lines 21-22: the time and the vector `cost`. -/
structure CostSt where
  t : ℝ
  cost : List ℝ

/-- lines 20-22.  `add` is the floating point addition of `t += T`, `stop` the rounded product `steps * T`. -/
noncomputable def costLoop (add : ℝ → ℝ → ℝ) (stop A f T : ℝ) : Res CostSt Unit :=
  open Classical in
  Loop.run (fun s : CostSt => s.t < stop)
    (fun s => .ok () ⟨add s.t T, s.cost ++ [A * Real.cos (2 * Real.pi * f * s.t)]⟩) ⟨0, []⟩

/-- lines 23-32: `c0` is `cost[i - 1]`, `th` is `theta`. -/
noncomputable def controls (f T : ℝ) : (c0 th : ℝ) → List ℝ → List V3
  | _, _, [] => []
  | c0, th, c :: cs =>
    ![2 * Real.pi * f * (Real.sqrt (1 + c * c) + Real.sqrt (1 + c0 * c0)) / 2, 0, (Real.arctan c - th) / T] ::
      controls f T c (Real.arctan c) cs

/-- `genSineWavePath`, 15-33; the previous contents of `u` are dropped (17). -/
noncomputable def genSineWavePath (add mul : ℝ → ℝ → ℝ) (_u : List V3) (steps : Nat) (A f T : ℝ) : Res (List V3) Unit :=
  (costLoop add (mul steps T) A f T).mapState fun s =>
    0 :: match s.cost with
      | [] => []
      | c :: cs => controls f T c 0 cs

/-! ## `initLandmarks`, `E2/utils.cpp` 35-60 -/

/-- lines 48-53: the landmark seen at range `r` and bearing `b` from pose `x`. -/
noncomputable def backproject (x Th : V3) (r b : ℝ) : V2 :=
  ![x 0 + Th 0 * Real.cos (x 2) - Th 1 * Real.sin (x 2) + r * Real.cos (b + Th 2 + x 2),
    x 1 + Th 0 * Real.sin (x 2) + Th 1 * Real.cos (x 2) + r * Real.sin (b + Th 2 + x 2)]

/-- `m[i][j]` of a vector of vectors; `none` is an access outside.  Used at `utils.cpp` 48-55. -/
def at2 (m : List (List ℝ)) (i j : Nat) : Option ℝ := (m[i]?).bind (·[j]?)

/-- lines 46-55, the entry of landmark `j` (`l_found[j]`, `x_l_hat[j]`) at pose `i`; `none` is an access outside.
`r[i][j]` is not read once the landmark is found. -/
noncomputable def visit (x Th : V3) (r b : List (List ℝ)) (i j : Nat) (s : Bool × V2) : Option (Bool × V2) :=
  open Classical in
  if s.1 then some s else
    match at2 r i j with
    | none => none
    | some rij =>
      if 0 < rij then (at2 b i j).map fun bij => (true, backproject x Th rij bij) else some s

/-- the loop over the landmarks, 45-56, from landmark `j` on. -/
noncomputable def visitAll (x Th : V3) (r b : List (List ℝ)) (i : Nat) : Nat → List (Bool × V2) → Option (List (Bool × V2))
  | _, [] => some []
  | j, s :: l => (visit x Th r b i j s).bind fun s' => (visitAll x Th r b i (j + 1) l).map (s' :: ·)

/-- the loop over the poses, 44-57, from pose `i` on. -/
noncomputable def initLoop (Th : V3) (r b : List (List ℝ)) : Nat → List V3 → List (Bool × V2) → Option (List (Bool × V2))
  | _, [], l => some l
  | i, x :: xs, l => (visitAll x Th r b i 0 l).bind (initLoop Th r b (i + 1) xs)

/-- `initLandmarks`, 35-60; the state is `x_l_hat`. -/
noncomputable def initLandmarks (old : List V2) (xOdom : List V3) (Th : V3) (r b : List (List ℝ)) : Res (List V2) Unit :=
  match r with
  | [] => .ok () old
  | r0 :: _ =>
    match initLoop Th r b 0 xOdom (List.replicate r0.length (false, 0)) with
    | none => .ub
    | some l => .ok () (l.map Prod.snd)

/-! ## The simulation of the data, `E2/simulate-online.cpp` 61-155 (the same lines in `E2/simulate-online-new.cpp` 77-174 and
`E2/simulate-offline.cpp` 77-176) -/

/-- the settings and the random numbers.  `nu i` is the sample drawn for the motion noise of step `i`, `nr i j` and `nb i j`
those for the range and the bearing of landmark `j` in step `i`; `okQ`, `okR0`, `okR1` are the outcomes of the checks in the
constructors of `NormalDistribution<3>(0, Q)`, `NormalDistribution<1>(0, R(0, 0))` and `NormalDistribution<1>(0, R(1, 1))`. -/
structure SimPar where
  dt : ℝ
  Th : V3
  x0 : V3
  lm : List V2
  nu : Nat → V3
  nr : Nat → Nat → ℝ
  nb : Nat → Nat → ℝ
  okQ : Bool
  okR0 : Bool
  okR1 : Bool

/-- the recorded vectors.  `simulate-online.cpp` 50-82. -/
@[ext] structure Data where
  xTrue : List V3
  xOdom : List V3
  uNoise : List V3
  r : List (List ℝ)
  b : List (List ℝ)

/-- lines 75-82 and 109-113: the entries of step 0; no range and bearing is simulated for it. -/
noncomputable def simInit (p : SimPar) : Data :=
  ⟨[p.x0], [p.x0], [0], [List.replicate p.lm.length 0], [List.replicate p.lm.length 0]⟩

/-- lines 117-124 and 127-133: one step of the motion model, heading wrapped. -/
noncomputable def motionStep (T : ℝ) (x u : V3) : V3 :=
  ![x 0 + T * (Real.cos (x 2) * u 0 + -Real.sin (x 2) * u 1),
    x 1 + T * (Real.sin (x 2) * u 0 + Real.cos (x 2) * u 1),
    angleMod (x 2 + T * u 2)]

/-- lines 139-144: the simulated range. -/
noncomputable def simRange (Th x : V3) (l : V2) (nr : ℝ) : ℝ :=
  Real.sqrt (obsA x l Th * obsA x l Th + obsB x l Th * obsB x l Th) + nr

/-- lines 146-147: the simulated bearing. -/
noncomputable def simBearing (Th x : V3) (l : V2) (nb : ℝ) : ℝ :=
  angleMod (atan2 (obsB x l Th) (obsA x l Th) - x 2 - Th 2 + nb)

/-- body of the loop, 116-151. -/
noncomputable def simBody (p : SimPar) (u : List V3) (i : Nat) (d : Data) : Res Data Unit :=
  match d.xTrue[i - 1]?, u[i]?, d.xOdom[i - 1]? with
  | some xt, some ui, some xo =>
    let x := motionStep p.dt xt ui
    let d1 := { d with xTrue := d.xTrue ++ [x] }
    if !p.okQ then .throw .badArgument d1 else
    let un := ui + p.nu i
    let d2 := { d1 with uNoise := d1.uNoise ++ [un], xOdom := d1.xOdom ++ [motionStep p.dt xo un] }
    if p.lm ≠ [] ∧ !(p.okR0 && p.okR1) then .throw .badArgument d2 else
    .ok () { d2 with
      r := d2.r ++ [p.lm.mapIdx fun j l => simRange p.Th x l (p.nr i j)]
      b := d2.b ++ [p.lm.mapIdx fun j l => simBearing p.Th x l (p.nb i j)] }
  | _, _, _ => .ub

/-- `n` rounds of the loop from round `i` on.  `simulate-online.cpp` 116-151. -/
noncomputable def simLoop (p : SimPar) (u : List V3) : (n i : Nat) → Data → Res Data Unit
  | 0, _, d => .ok () d
  | n + 1, i, d => (simBody p u i d).bind fun _ d' => simLoop p u n (i + 1) d'

/-- lines 109-151: `i` runs from 1 to `steps - 1`. -/
noncomputable def simulate (p : SimPar) (u : List V3) (steps : Nat) : Res Data Unit :=
  simLoop p u (steps - 1) 1 (simInit p)

/-! ## The decision loop, `E2/simulate-online.cpp` 179-289 -/

/-- the optimizer and the covariance: `opt w batches` are the values of the design variables after `optimizer.optimize()` on
the problem built from `batches` starting from the values `w` (205-246), and the covariance of the calibration parameters with
its determinant (248-261).  `theta w` is `dv_Theta->getValue()`. -/
structure OptEnv (W C S : Type) where
  opt : W → List Nat → W × S × ℝ
  theta : W → C

/-- the variables of the loop.  `hist` is a history variable: one entry per round, the batches of the problem, the values
after the optimization, the covariance, its determinant and whether the batch was kept.
`simulate-online.cpp` 180-199. -/
structure Round (W S : Type) where
  batches : List Nat
  after : W
  cov : S
  det : ℝ
  kept : Bool

/-- the state of the loop of `E2/simulate-online.cpp` 180-295: the values of all design variables, the indices of the kept batches,
the calibration estimate, the covariance, the recorded determinant and the history. -/
structure OnlineSt (W C S : Type) where
  w : W
  batchIdx : List Nat
  calib : C
  cov : Option S
  detRec : ℝ
  hist : List (Round W S)

/-- line 274 and the comparison of 277: `0.5 * log2(rec / det) > tol` with floating point division and logarithm: a positive
number over zero is infinite, zero over zero, a negative number over zero and the logarithm of a negative number give a value
for which the comparison is false, and so does the logarithm of zero.  Simplification: no signed zeros, no overflow. -/
def Keep (tol rec det : ℝ) : Prop :=
  if det = 0 then 0 < rec else 0 < rec / det ∧ tol < 1 / 2 * Real.logb 2 (rec / det)

variable {W C S : Type}

/-- one round, 202-284.  Undefined if the batch reaches beyond the `n` states (`dv_x[k]`, 208-211). -/
noncomputable def onlineRound (env : OptEnv W C S) (tol : ℝ) (n bs i : Nat) (s : OnlineSt W C S) : Res (OnlineSt W C S) Unit :=
  open Classical in
  let idx := s.batchIdx ++ [i]
  if ∃ j ∈ idx, n < j + bs then .ub else
  let (w, cov, det) := env.opt s.w idx
  if idx.length = 1 then
    .ok () ⟨w, idx, env.theta w, some cov, det, s.hist ++ [⟨idx, w, cov, det, true⟩]⟩
  else if Keep tol s.detRec det then
    .ok () ⟨w, idx, env.theta w, some cov, det, s.hist ++ [⟨idx, w, cov, det, true⟩]⟩
  else .ok () ⟨w, idx.dropLast, s.calib, s.cov, s.detRec, s.hist ++ [⟨idx, w, cov, det, false⟩]⟩

/-- `m` rounds from batch `i` on.  `simulate-online.cpp` 199-292. -/
noncomputable def onlineRounds (env : OptEnv W C S) (tol : ℝ) (n bs : Nat) :
    (m i : Nat) → OnlineSt W C S → Res (OnlineSt W C S) Unit
  | 0, _, s => .ok () s
  | m + 1, i, s => (onlineRound env tol n bs i s).bind fun _ s' => onlineRounds env tol n bs m (i + bs) s'

/-- the loop of 199 `for (size_t i = 0; i < steps; i += batchSize)`: ⌈steps / batchSize⌉ rounds.  The batch size (200 in the
program) is assumed positive. -/
noncomputable def online (env : OptEnv W C S) (tol : ℝ) (steps bs : Nat) (w0 : W) : Res (OnlineSt W C S) Unit :=
  onlineRounds env tol steps bs ((steps + bs - 1) / bs) 0 ⟨w0, [], env.theta w0, none, 0, []⟩

/-! ## The batches of `E2/simulate-online-new.cpp` 197-237 and the problem of `E2/simulate-offline.cpp` 178-217 -/

/-- an error term by its kind and measurements.  `simulate-online-new.cpp` 225-233. -/
inductive Term where
  | motion (k : Nat)
  | obs (k l : Nat)
  deriving DecidableEq, Repr

/-- a design variable.  `simulate-online-new.cpp` 179-222. -/
inductive Var where
  | state (k : Nat)
  | lm (l : Nat)
  | theta
  deriving DecidableEq, Repr

/-- the addresses of the objects: all different.  Objects made at `simulate-online-new.cpp` 179-231. -/
structure Addr where
  var : Var → DVId
  term : Term → ETId
  var_inj : Function.Injective var
  term_inj : Function.Injective term

/-- the design variables of an error term, `ErrorTermMotion.cpp` 30, `ErrorTermObservation.cpp` 31. -/
def Term.vars : Term → List Var
  | .motion k => [.state (k - 1), .state k]
  | .obs k l => [.state k, .lm l, .theta]

/-- add a list of design variables with their groups.  `simulate-online-new.cpp` 206-222. -/
def addVars {V : Type} (ad : Addr) : List (Var × GroupId) → OptProblem V → Res (OptProblem V) Unit
  | [], p => .ok () p
  | (v, g) :: l, p => (p.addDesignVariable (some (ad.var v)) g).bind fun _ p' => addVars ad l p'

/-- add a list of error terms.  `simulate-online-new.cpp` 227-233. -/
def addTerms {V : Type} (ad : Addr) (h : Heap V) : List Term → OptProblem V → Res (OptProblem V) Unit
  | [], p => .ok () p
  | t :: l, p => (p.addErrorTerm h (some (ad.term t))).bind fun _ p' => addTerms ad h l p'

/-- the terms of one step, `simulate-online-new.cpp` 224-234, `simulate-offline.cpp` 209-216. -/
def stepTerms (nl k : Nat) : List Term := .motion k :: (List.range nl).map (.obs k)

/-- the inner loop of one batch, `simulate-online-new.cpp` 216-237, `m` rounds from state `j` on. -/
def batchLoop {V : Type} (ad : Addr) (h : Heap V) (nl : Nat) : (m j : Nat) → OptProblem V → Res (OptProblem V) Unit
  | 0, _, p => .ok () p
  | m + 1, j, p =>
    (addVars ad [(.state j, 0)] p).bind fun _ p1 => (addTerms ad h (stepTerms nl j) p1).bind fun _ p2 =>
      batchLoop ad h nl m (j + 1) p2

/-- the batch starting at state `i`, `simulate-online-new.cpp` 200-237. -/
def buildBatch {V : Type} (ad : Addr) (h : Heap V) (steps bs nl i : Nat) : Res (OptProblem V) Unit :=
  (addVars ad ([(.state i, 0), (.theta, 2)] ++ (List.range nl).map fun l => (.lm l, 1)) OptProblem.empty).bind fun _ p =>
    batchLoop ad h nl (min (i + bs) steps - (i + 1)) (i + 1) p

/-- the batch starts: `for (size_t i = 0; i < steps; i += batchSize)`, `simulate-online-new.cpp` 198. -/
structure StartSt where
  i : Nat
  starts : List Nat

/-- the sequence of batches created by the loop of 198; 64 bit wrap around of `i` is not modelled. -/
noncomputable def batchStarts (steps bs : Nat) : Res StartSt Unit :=
  Loop.run (fun s : StartSt => s.i < steps) (fun s => .ok () ⟨s.i + bs, s.starts ++ [s.i]⟩) ⟨0, []⟩

/-- `simulate-offline.cpp` 178-217: the whole problem; `setGroupsOrdering({0, 1, 2})` in line 205 throws if a group is missing. -/
def buildOffline {V : Type} (ad : Addr) (h : Heap V) (steps nl : Nat) : Res (OptProblem V) Unit :=
  (addVars ad ([(.theta, 2)] ++ ((List.range steps).map fun k => (.state k, 0)) ++ (List.range nl).map fun l => (.lm l, 1))
    OptProblem.empty).bind fun _ p =>
  (p.setGroupsOrdering [0, 1, 2]).bind fun _ p1 =>
    addTerms ad h ((List.range' 1 (steps - 1)).flatMap (stepTerms nl)) p1

end Lrf
end Verif
