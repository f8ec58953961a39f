import Verif.Model.Prelude

/-!
# The text of the library's exceptions

Models `/repo/incremental_calibration/src/exceptions/*.cpp` and
`/repo/incremental_calibration/include/aslam/calibration/exceptions/*.h`.  A `std::string` is a list of characters; the way the
argument's type is written to a stream is a parameter.
-/

namespace Verif
namespace ExcText

/-- members, `Exception.h` 54-66. -/
structure Ex where
  msg : List Char
  filename : List Char
  function : List Char
  line : Nat
  out : List Char
  deriving DecidableEq

/-- a `size_t` on a stream, decimal.  `Exception.cpp` 29. -/
def dec (n : Nat) : List Char := (toString n).toList

/-- `Exception(msg, filename, line, function)`, `Exception.cpp` 17-32; the defaults of the last three are a blank, zero and
a blank (`Exception.h` 33-34). -/
def mk (msg filename : List Char) (line : Nat) (function : List Char) : Ex :=
  let s : List Char := []
  let s := if function ≠ [' '] then s ++ function ++ [':', ' '] else s
  let s := s ++ msg
  let s := if filename ≠ [' '] then s ++ " [file = ".toList ++ filename ++ "]".toList else s
  let s := if line ≠ 0 then s ++ "[line = ".toList ++ dec line ++ "]".toList else s
  ⟨msg, filename, function, line, s⟩

/-- `InvalidOperationException(msg, filename, line, function)`, `InvalidOperationException.cpp` 15-18. -/
def invalidOperation (msg filename : List Char) (line : Nat) (function : List Char) : Ex := mk msg filename line function

/-- `NullPointerException(name, filename, line, function)`, `NullPointerException.cpp` 18-22. -/
def nullPointer (name filename : List Char) (line : Nat) (function : List Char) : Ex :=
  mk (name ++ " is a null pointer".toList) filename line function

/-- `BadArgumentException<X>(argument, msg, filename, line, function)`, `BadArgumentException.h` 43-50. -/
def badArgument {X : Type} (shw : X → List Char) (arg : X) (msg filename : List Char) (line : Nat) (function : List Char) : Ex :=
  let e := mk msg filename line function
  { e with out := e.out ++ ("[argument = ".toList ++ shw arg ++ "]".toList) }

/-- `OutOfBoundException<X>(argument, msg, filename, line, function)`, `OutOfBoundException.h` 47-54. -/
def outOfBound1 {X : Type} (shw : X → List Char) (arg : X) (msg filename : List Char) (line : Nat) (function : List Char) : Ex :=
  let e := mk msg filename line function
  { e with out := e.out ++ ("[argument = ".toList ++ shw arg ++ "]".toList) }

/-- `OutOfBoundException<X>(argument, bound, msg, filename, line, function)`, `OutOfBoundException.h` 56-65. -/
def outOfBound2 {X : Type} (shw : X → List Char) (arg bound : X) (msg filename : List Char) (line : Nat)
    (function : List Char) : Ex :=
  let e := mk msg filename line function
  { e with out := e.out ++ ("[argument = ".toList ++ shw arg ++ "]".toList ++ "[bound = ".toList ++ shw bound ++ "]".toList) }

/-- copy construction, `Exception.cpp` 34-40 (and the derived classes, which forward). -/
def copy (e : Ex) : Ex := ⟨e.msg, e.filename, e.function, e.line, e.out⟩

/-- assignment, `Exception.cpp` 42-51 (and the derived classes, which forward); `same` says whether both are one object. -/
def assign (same : Bool) (self other : Ex) : Ex :=
  if same = false then ⟨other.msg, other.filename, other.function, other.line, other.out⟩ else self

/-- `what()`, `Exception.cpp` 60-62: a C string, which ends at the first null character. -/
def what (e : Ex) : List Char := e.out.takeWhile (· ≠ '\x00')

end ExcText
end Verif
