import Verif.Model.Serial

/-!
# Specification: what a printed object looks like

An object is printed as a list of labelled values, one per line: `label: value`.  A matrix begins on the line after its label.
-/

namespace Verif
open Serial

/-- labelled values, one after the other, separated by newlines. -/
def labelled : List (String × List Char) → List Char
  | [] => []
  | [p] => p.1.toList ++ [':', ' '] ++ p.2
  | p :: q :: l => p.1.toList ++ [':', ' '] ++ p.2 ++ ['\n'] ++ labelled (q :: l)

/-- labelled values, each ended by a newline. -/
def rows (l : List (String × List Char)) : List Char := (l.map fun p => p.1.toList ++ [':', ' '] ++ p.2 ++ ['\n']).flatten

/-- the text an object should have. -/
def shown {K : Type} (f : Fmt K) : Obj K → List Char
  | .timestamp s => labelled [("seconds", f.num s)]
  | .normal1 m v => labelled [("mean", f.num m), ("variance", f.num v)]
  | .normalMv m c => labelled [("mean", '\n' :: f.mat m), ("covariance", '\n' :: f.mat c)]
  | .gamma a b => labelled [("shape", f.num a), ("inverse scale", f.num b)]
  | .chiSquare d => labelled [("degrees", f.num d)]
  | .uniform1 a b => labelled [("minimum support", f.num a), ("maximum support", f.num b)]
  | .uniformMv a b s => labelled [("minimum support", '\n' :: f.mat a), ("maximum support", '\n' :: f.mat b),
      ("support area", f.num s)]
  | .ml1 m v n b => labelled [("distribution", []), ("mean", f.num m), ("variance", f.num v),
      ("number of points", (toString n).toList), ("valid", if b then ['1'] else ['0'])]
  | .mlMv m c n b => labelled [("distribution", []), ("mean", '\n' :: f.mat m), ("covariance", '\n' :: f.mat c),
      ("number of points", (toString n).toList), ("valid", if b then ['1'] else ['0'])]
  | .randomizer s => labelled [("seed", f.num s)]
  | .grid mn mx rs nc tot cells => labelled [("minimum", f.row mn), ("maximum", f.row mx), ("resolution", f.row rs),
      ("number of cells per dim", f.row nc), ("total number of cells", (toString tot).toList),
      ("cells", '\n' :: (cells.map fun c => c ++ ['\n']).flatten)]
  | .transformation T => labelled [("Transformation matrix", '\n' :: f.mat T)]
  | .incompleteGamma a => labelled [("alpha", f.num a)]
  | .logGamma d => labelled [("dimension", (toString d).toList)]
  | .vectorDV v => f.row v
  | .carDV e_r e_f L a k_rl k_rr k_fl k_fr k_dmi v_r_vr v_R_r t_r t_f t_s t_dmi =>
      rows [("e_r", f.num e_r), ("e_f", f.num e_f), ("L", f.num L), ("a", f.row a), ("k_rl", f.num k_rl), ("k_rr", f.num k_rr),
        ("k_fl", f.num k_fl), ("k_fr", f.num k_fr), ("k_dmi", f.num k_dmi), ("v_r_vr", f.row v_r_vr), ("v_R_r", f.row v_R_r),
        ("t_r", f.num t_r), ("t_f", f.num t_f), ("t_s", f.num t_s), ("t_dmi", f.num t_dmi)]
  | .tdDV b k_l t_l k_r t_r v_r_vp v_R_p =>
      rows [("b", f.num b), ("k_l", f.num k_l), ("t_l", f.num t_l), ("k_r", f.num k_r), ("t_r", f.num t_r),
        ("v_r_vp", f.row v_r_vp), ("v_R_p", f.row v_R_p)]
  | .egoDV vars => (vars.map fun p => rows [("t_" ++ toString p.1, f.num p.2.1), ("r_" ++ toString p.1, f.row p.2.2.1),
      ("R_" ++ toString p.1, f.row p.2.2.2)]).flatten

/-- the text of one inserted item. -/
def shownItem {K : Type} (f : Fmt K) : Item K → List Char
  | .text t => t
  | .obj o => shown f o

/-- an object of another class than the vector design variable. -/
def Plain {K : Type} (i : Item K) : Prop := ∃ o, i = .obj o ∧ ∀ v, o ≠ .vectorDV v

/-- no text of a number, vector or matrix contains a colon. -/
structure NoColon {K : Type} (f : Fmt K) : Prop where
  num : ∀ x, ':' ∉ f.num x
  row : ∀ x, ':' ∉ f.row x
  mat : ∀ x, ':' ∉ f.mat x

end Verif
