import Verif.Model.Prelude
import Mathlib.Data.Real.Basic

/-!
# Model of the linear solver adapter

`/repo/aslam_tsvd_solver/src/aslam-tsvd-solver.cc` (line numbers without file name refer to it).  The truncated SVD solver, the
Jacobian builder and the property tree are external.
-/

namespace Verif
namespace Tsvd

/-- `TruncatedSvdSolverOptions` (external), the fields that are read from a property tree.
Read at `aslam-tsvd-solver.cc` 17-29. -/
structure Options where
  columnScaling : Bool
  epsNorm : ℝ
  epsSVD : ℝ
  epsQR : ℝ
  svdTol : ℝ
  qrTol : ℝ
  verbose : Bool

/-- `sm::PropertyTree` (external): the entries readable as a truth value and as a number.
Read at `aslam-tsvd-solver.cc` 17-29. -/
structure Tree where
  bool : String → Option Bool
  double : String → Option ℝ

/-- `createTsvdOptionsFromPropertyTree`, 17-30; `dflt` are the options of the default constructor (external). -/
def optionsOf (dflt : Options) (t : Tree) : Options where
  columnScaling := (t.bool "columnScaling").getD dflt.columnScaling
  epsNorm := (t.double "epsNorm").getD dflt.epsNorm
  epsSVD := (t.double "epsSVD").getD dflt.epsSVD
  epsQR := (t.double "epsQR").getD dflt.epsQR
  svdTol := (t.double "svdTol").getD dflt.svdTol
  qrTol := (t.double "qrTol").getD dflt.qrTol
  verbose := (t.bool "verbose").getD dflt.verbose

/-- The external parts.  `S` is the state of the truncated SVD solver, `J` that of the Jacobian builder, `M` a sparse matrix,
`V` a vector.  `transpose` fails if memory is exhausted; `solve` and `analyze` can throw.
Called at `aslam-tsvd-solver.cc` 39-100. -/
structure Lib (S J M V D : Type) where
  transpose : J → Option M
  solve : S → M → V → Nat → Res S V
  analyze : S → M → Nat → Res S Unit
  clear : S → S
  build : J → Nat → Bool → J × V
  init : J → D → J

/-- The members: base class, builder, right hand side `_e`, `margStartIndex_`, and the number of sparse matrices that have been
allocated and not freed.  `aslam-tsvd-solver.h` 70-80. -/
structure Solver (S J V : Type) where
  svd : S
  jac : J
  e : V
  marg : Nat
  live : Nat

variable {S J M V D : Type}

/-- What a call can do: return, throw, … or end the process (`CHECK`).  `CHECK`: `aslam-tsvd-solver.cc` 82. -/
inductive Out (σ α : Type) where
  | res (r : Res σ α)
  | abort

/-- `buildSystem`, 40-43. -/
def buildSystem (lib : Lib S J M V D) (s : Solver S J V) (threads : Nat) (mEst : Bool) : Solver S J V :=
  { s with jac := (lib.build s.jac threads mEst).1, e := (lib.build s.jac threads mEst).2 }

/-- `solveSystem`, 45-73: the returned status and the new value of the argument `dx`.  The temporary matrix is freed in line 71,
which an exception skips.  The printing of 56-70 is not modelled. -/
def solveSystem (lib : Lib S J M V D) (s : Solver S J V) (dx : V) : Res (Solver S J V) (Bool × V) :=
  match lib.transpose s.jac with
  | none => .ok (false, dx) s
  | some m =>
    let s1 := { s with live := s.live + 1 }
    match lib.solve s.svd m s.e s.marg with
    | .ok x t => .ok (true, x) { s1 with svd := t, live := s1.live - 1 }
    | .throw ex t => .throw ex { s1 with svd := t }
    | .ub => .ub
    | .diverge => .diverge

/-- `rhsJtJrhs`, 75-77. -/
def rhsJtJrhs (_s : Solver S J V) : ℝ := 0

/-- `initMatrixStructureImplementation`, 79-86. -/
def initMatrixStructure (lib : Lib S J M V D) (s : Solver S J V) (dvs : D) (cond : Bool) : Out (Solver S J V) Unit :=
  if cond then .abort
  else .res (.ok () { s with svd := lib.clear s.svd, jac := lib.init s.jac dvs })

/-- `analyzeMarginal`, 88-101: the temporary matrix is owned by a smart pointer. -/
def analyzeMarginal (lib : Lib S J M V D) (s : Solver S J V) : Res (Solver S J V) Bool :=
  match lib.transpose s.jac with
  | none => .ok false s
  | some m =>
    let s1 := { s with live := s.live + 1 }
    match lib.analyze s.svd m s.marg with
    | .ok _ t => .ok true { s1 with svd := t, live := s1.live - 1 }
    | .throw ex t => .throw ex { s1 with svd := t, live := s1.live - 1 }
    | .ub => .ub
    | .diverge => .diverge

/-- `setMargStartIndex` of the base class (external), and the calls above.  `aslam-tsvd-solver.h` 36-70. -/
inductive Call (V D : Type) where
  | setMarg (i : Nat)
  | build (threads : Nat) (mEst : Bool)
  | init (dvs : D) (cond : Bool)
  | solve (dx : V)
  | analyze

/-- effect of a call on the solver.  (Model glue: dispatches to the functions modelled above; no lines of its own.) -/
def Call.run (lib : Lib S J M V D) (s : Solver S J V) : Call V D → Out (Solver S J V) Unit
  | .setMarg i => .res (.ok () { s with marg := i })
  | .build n b => .res (.ok () (buildSystem lib s n b))
  | .init d c => initMatrixStructure lib s d c
  | .solve dx => .res ((solveSystem lib s dx).bind fun _ s' => .ok () s')
  | .analyze => .res ((analyzeMarginal lib s).bind fun _ s' => .ok () s')

end Tsvd
end Verif
