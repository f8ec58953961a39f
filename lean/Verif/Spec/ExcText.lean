import Verif.Model.Prelude

/-!
# Specification: the text of an exception, written down by hand
-/

namespace Verif

/-- "function: message [file = F][line = N]" with the parts that were not given left out (a blank function or file, line
zero), followed by the labelled values. -/
def textSpec (msg : List Char) (file function : Option (List Char)) (line : Option Nat) (values : List (String × List Char)) :
    List Char :=
  (match function with | some f => f ++ ": ".toList | none => []) ++ msg ++
  (match file with | some f => " [file = ".toList ++ f ++ "]".toList | none => []) ++
  (match line with | some n => "[line = ".toList ++ (toString n).toList ++ "]".toList | none => []) ++
  (values.map fun v => "[".toList ++ v.1.toList ++ " = ".toList ++ v.2 ++ "]".toList).flatten

/-- no null character. -/
def NoNull (s : List Char) : Prop := '\x00' ∉ s

end Verif
