import Verif.Model.ExcText

/-!
# Printing objects to streams

Models `/repo/incremental_calibration/src/base/Serializable.cpp` and the `read`/`write` members of the classes that derive from
`Serializable`.  The text of a number and of a matrix (the standard library's and Eigen's) is a parameter; `std::endl` is a
newline.
-/

namespace Verif
namespace Serial

/-- how numbers, vectors (on one line) and matrices are written (external; called by all `write` members, for example
`GammaDistribution.tpp` 60). -/
structure Fmt (K : Type) where
  num : K → List Char
  row : List K → List Char
  mat : List (List K) → List Char

/-- the objects that can be printed, with the members that are printed; the classes are named at `write`.
A histogram is a grid; cells are given by their text.  `Serializable.h` 19-66. -/
inductive Obj (K : Type) where
  | timestamp (seconds : K)
  | normal1 (mean variance : K)
  | normalMv (mean cov : List (List K))
  | gamma (shape invScale : K)
  | chiSquare (degrees : K)
  | uniform1 (mn mx : K)
  | uniformMv (mn mx : List (List K)) (area : K)
  | ml1 (mean variance : K) (points : Nat) (valid : Bool)
  | mlMv (mean cov : List (List K)) (points : Nat) (valid : Bool)
  | randomizer (seed : K)
  | grid (mn mx rs : List K) (numCells : List K) (tot : Nat) (cells : List (List Char))
  | transformation (T : List (List K))
  | incompleteGamma (alpha : K)
  | logGamma (dim : Nat)
  | vectorDV (value : List K)
  | carDV (e_r e_f L : K) (a : List K) (k_rl k_rr k_fl k_fr k_dmi : K) (v_r_vr v_R_r : List K) (t_r t_f t_s t_dmi : K)
  | tdDV (b k_l t_l k_r t_r : K) (v_r_vp v_R_p : List K)
  | egoDV (vars : List (Nat × K × List K × List K))

variable {K : Type}

/-- `std::endl`. -/
def endl : List Char := ['\n']

/-- a `bool` on a stream, `EstimatorMLNormal1v.cpp` 57. -/
def boolText (b : Bool) : List Char := if b then ['1'] else ['0']

/-- `write(std::ostream&)` of: `Timestamp.cpp` 42-44, `NormalDistribution1v.cpp` 59-62, `NormalDistributionMv.tpp` 69-72,
`GammaDistribution.tpp` 59-62, `ChiSquareDistribution.cpp` 42-44, `UniformDistribution1v.tpp` 55-58,
`UniformDistributionMv.tpp` 56-60, `EstimatorMLNormal1v.cpp` 53-58, `EstimatorMLNormalMv.tpp` 57-62, `Randomizer.tpp` 47-49,
`Grid.tpp` 86-95, `Transformation2d.tpp` 61-63 and `Transformation3d.tpp` 60-62, `IncompleteGammaPFunction.cpp` and
`IncompleteGammaQFunction.cpp` 44-46, `LogGammaFunction.tpp` 49-51, `VectorDesignVariable.tpp` 53-55, the car's
`OdometryDesignVariables.cpp` 159-177, the time delay example's 117-127 and the egomotion example's `DesignVariables.cpp` 106-118. -/
def write (f : Fmt K) : Obj K → List Char
  | .timestamp s => "seconds: ".toList ++ f.num s
  | .normal1 m v => "mean: ".toList ++ f.num m ++ endl ++ "variance: ".toList ++ f.num v
  | .normalMv m c => "mean: ".toList ++ endl ++ f.mat m ++ endl ++ "covariance: ".toList ++ endl ++ f.mat c
  | .gamma a b => "shape: ".toList ++ f.num a ++ endl ++ "inverse scale: ".toList ++ f.num b
  | .chiSquare d => "degrees: ".toList ++ f.num d
  | .uniform1 a b => "minimum support: ".toList ++ f.num a ++ endl ++ "maximum support: ".toList ++ f.num b
  | .uniformMv a b s => "minimum support: ".toList ++ endl ++ f.mat a ++ endl ++ "maximum support: ".toList ++ endl ++ f.mat b ++
      endl ++ "support area: ".toList ++ f.num s
  | .ml1 m v n b => "distribution: ".toList ++ endl ++ write f (.normal1 m v) ++ endl ++ "number of points: ".toList ++
      ExcText.dec n ++ endl ++ "valid: ".toList ++ boolText b
  | .mlMv m c n b => "distribution: ".toList ++ endl ++ write f (.normalMv m c) ++ endl ++ "number of points: ".toList ++
      ExcText.dec n ++ endl ++ "valid: ".toList ++ boolText b
  | .randomizer s => "seed: ".toList ++ f.num s
  | .grid mn mx rs nc tot cells => "minimum: ".toList ++ f.row mn ++ endl ++ "maximum: ".toList ++ f.row mx ++ endl ++
      "resolution: ".toList ++ f.row rs ++ endl ++ "number of cells per dim: ".toList ++ f.row nc ++ endl ++
      "total number of cells: ".toList ++ ExcText.dec tot ++ endl ++ "cells: ".toList ++ endl ++
      (cells.map fun c => c ++ endl).flatten
  | .transformation T => "Transformation matrix: ".toList ++ endl ++ f.mat T
  | .incompleteGamma a => "alpha: ".toList ++ f.num a
  | .logGamma d => "dimension: ".toList ++ ExcText.dec d
  | .vectorDV v => f.row v
  | .carDV e_r e_f L a k_rl k_rr k_fl k_fr k_dmi v_r_vr v_R_r t_r t_f t_s t_dmi =>
      "e_r: ".toList ++ f.num e_r ++ endl ++ "e_f: ".toList ++ f.num e_f ++ endl ++ "L: ".toList ++ f.num L ++ endl ++
      "a: ".toList ++ f.row a ++ endl ++ "k_rl: ".toList ++ f.num k_rl ++ endl ++ "k_rr: ".toList ++ f.num k_rr ++ endl ++
      "k_fl: ".toList ++ f.num k_fl ++ endl ++ "k_fr: ".toList ++ f.num k_fr ++ endl ++ "k_dmi: ".toList ++ f.num k_dmi ++ endl ++
      "v_r_vr: ".toList ++ f.row v_r_vr ++ endl ++ "v_R_r: ".toList ++ f.row v_R_r ++ endl ++ "t_r: ".toList ++ f.num t_r ++ endl ++
      "t_f: ".toList ++ f.num t_f ++ endl ++ "t_s: ".toList ++ f.num t_s ++ endl ++ "t_dmi: ".toList ++ f.num t_dmi ++ endl
  | .tdDV b k_l t_l k_r t_r v_r_vp v_R_p =>
      "b: ".toList ++ f.num b ++ endl ++ "k_l: ".toList ++ f.num k_l ++ endl ++ "t_l: ".toList ++ f.num t_l ++ endl ++
      "k_r: ".toList ++ f.num k_r ++ endl ++ "t_r: ".toList ++ f.num t_r ++ endl ++ "v_r_vp: ".toList ++ f.row v_r_vp ++ endl ++
      "v_R_p: ".toList ++ f.row v_R_p ++ endl
  | .egoDV vars => (vars.map fun p => "t_".toList ++ ExcText.dec p.1 ++ ": ".toList ++ f.num p.2.1 ++ endl ++
      "r_".toList ++ ExcText.dec p.1 ++ ": ".toList ++ f.row p.2.2.1 ++ endl ++
      "R_".toList ++ ExcText.dec p.1 ++ ": ".toList ++ f.row p.2.2.2 ++ endl).flatten

/-- `write(std::ofstream&)`: nothing, for every class (for example `Timestamp.cpp` 49-50, `GammaDistribution.tpp` 69-70,
`Grid.tpp` 101-103) except `VectorDesignVariable.tpp` 62-64. -/
def writeFile (f : Fmt K) : Obj K → List Char
  | .vectorDV v => f.row v
  | _ => []

/-- the static type of a stream expression: it selects one of the overloads in `Serializable.cpp` 22-42. -/
inductive Static where
  | ostream
  | ofstream
  deriving DecidableEq

/-- what is inserted: an object of the library, or anything the standard library writes (text, numbers, `std::endl`,
manipulators), given by the text it produces. -/
inductive Item (K : Type) where
  | text (t : List Char)
  | obj (o : Obj K)

/-- one `<<`: the type and contents of the result.  The inserters of the standard library return `std::ostream&`; those of
`Serializable.cpp` 22-25 and 32-36 return the type they were given. -/
def put (f : Fmt K) (s : Static × List Char) : Item K → Static × List Char
  | .text t => (.ostream, s.2 ++ t)
  | .obj o => match s.1 with
    | .ostream => (.ostream, s.2 ++ write f o)
    | .ofstream => (.ofstream, s.2 ++ writeFile f o)

/-- a statement `stream << x1 << ... << xn;` with a stream variable of the given static type that has the given contents.
`Serializable.cpp` 22-25, 32-36. -/
def statement (f : Fmt K) (ty : Static) (contents : List Char) (items : List (Item K)) : List Char :=
  (items.foldl (put f) (ty, contents)).2

/-- `stream >> obj`, `Serializable.cpp` 27-30 and 38-41: every `read` member is empty (for example `Timestamp.cpp` 39-40 and 46-47),
so that neither the rest of the stream nor the object changes. -/
def extract (rest : List Char) (o : Obj K) : List Char × Obj K := (rest, o)

end Serial
end Verif
