import Mathlib.Data.Rat.Defs

/-! The types of C++ as far as the type traits tell them apart, and which of them are arithmetic and floating point types
([basic.fundamental] of the C++ standard). -/

namespace Verif
namespace Traits

/-- the fundamental types, constant versions of types, and all other types. -/
inductive CType where
  | void | bool | char | schar | uchar | short | ushort | int | uint | long | ulong | llong | ullong
  | float | double | longDouble
  | const (t : CType)
  | other (name : String)
  deriving DecidableEq

/-- the three floating point types. -/
def CType.Floating (t : CType) : Prop := t = .float ∨ t = .double ∨ t = .longDouble

/-- the integer types. -/
def CType.Integral (t : CType) : Prop :=
  t = .bool ∨ t = .char ∨ t = .schar ∨ t = .uchar ∨ t = .short ∨ t = .ushort ∨ t = .int ∨ t = .uint ∨ t = .long ∨ t = .ulong ∨
    t = .llong ∨ t = .ullong

end Traits
end Verif
