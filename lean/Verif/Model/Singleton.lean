import Verif.Model.Prelude

/-!
# `Singleton`

Model of `/repo/incremental_calibration/include/aslam/calibration/base/Singleton.tpp`.  The header of the class is not in the repository; the class is read as
the usual one: `C` inherits from `Singleton<C>`, `instance` is a static pointer.  Objects are numbered in the order in which they are constructed.
-/

namespace Verif
namespace Singleton

/-- The static pointer (`Singleton.tpp` 15) and the objects of the class that exist: `alive` those whose base is constructed, `next` the number of the next object. -/
structure St where
  instance_ : Option Nat
  alive : List Nat
  next : Nat
  deriving DecidableEq, Repr

/-- Before the first call: the pointer is null (`Singleton.tpp` 15). -/
def fresh : St := ⟨none, [], 0⟩

/-- The constructor of the base, `Singleton.tpp` 21-27: returns the new object. -/
def baseCtor (s : St) : Res St Nat :=
  if s.instance_.isSome then .throw .invalidOperation s
  else .ok s.next { instance_ := some s.next, alive := s.alive ++ [s.next], next := s.next + 1 }

/-- The destructor of the base, `Singleton.tpp` 29-32. -/
def baseDtor (o : Nat) (s : St) : Res St Unit :=
  if o ∈ s.alive then .ok () { s with instance_ := none, alive := s.alive.erase o } else .ub

/-- Construction of an object of class `C`: the base, then the constructor of `C`, which may throw; then the base is destroyed again (C++ semantics,
for `Singleton.tpp` 21-32).  Simplification: the constructor of `C` does not construct another `C`. -/
def construct (ctorOk : Bool) (s : St) : Res St Nat :=
  (baseCtor s).bind fun o s1 => if ctorOk then .ok o s1 else (baseDtor o s1).bind fun _ s2 => .throw .external s2

/-- `getInstance`, `Singleton.tpp` 38-43. -/
def getInstance (ctorOk : Bool) (s : St) : Res St Nat :=
  match s.instance_ with
  | none => (construct ctorOk s).bind fun _ s1 => match s1.instance_ with
    | some o => .ok o s1
    | none => .ub
  | some o => .ok o s

/-- `exists`, `Singleton.tpp` 49-52. -/
def exists_ (s : St) : Bool := s.instance_.isSome

/-- The calls a client makes: `new C()`, `delete`, `getInstance`, `exists` (`Singleton.tpp` 21-52). -/
inductive Op where
  | construct (ctorOk : Bool)
  | destroy (o : Nat)
  | getInstance (ctorOk : Bool)
  | exists_

/-- One call (`Singleton.tpp` 21-52); the result is an object, if the call returns one. -/
def Op.run : Op → St → Res St (Option Nat)
  | .construct k, s => (Singleton.construct k s).bind fun o s => .ok (some o) s
  | .destroy o, s => (baseDtor o s).bind fun _ s => .ok none s
  | .getInstance k, s => (Singleton.getInstance k s).bind fun o s => .ok (some o) s
  | .exists_, s => .ok none s

/-! ### Threads that call `getInstance` -/

/-- Where a thread in `getInstance` is: before the test of line 40, before the test of line 23, before the assignment of line 26, before the dereference of line 42, done. -/
inductive PC where
  | test | ctor | assign | deref
  | done (r : Except Exc Nat)

/-- The shared state and the threads. -/
structure Threads where
  st : St
  pc : Nat → PC

/-- One step of thread `t` of `getInstance`, `Singleton.tpp` 38-43 with 21-27; accesses to the pointer are atomic and in program order (more than C++ promises for
a plain pointer).  Simplification: the constructor of `C` succeeds. -/
def Threads.step (t : Nat) (w : Threads) : Threads :=
  let go (p : PC) (s : St) : Threads := ⟨s, fun u => if u = t then p else w.pc u⟩
  match w.pc t with
  | .test => if w.st.instance_.isSome then go .deref w.st else go .ctor w.st
  | .ctor => if w.st.instance_.isSome then go (.done (.error .invalidOperation)) w.st else go .assign w.st
  | .assign => go .deref { instance_ := some w.st.next, alive := w.st.alive ++ [w.st.next], next := w.st.next + 1 }
  | .deref => match w.st.instance_ with
    | some o => go (.done (.ok o)) w.st
    | none => w
  | .done _ => w

/-- A schedule: the threads in the order of their steps (for `Singleton.tpp` 38-43). -/
def Threads.run (w : Threads) : List Nat → Threads
  | [] => w
  | t :: ts => (w.step t).run ts

end Singleton
end Verif
