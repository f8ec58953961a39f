import Verif.Model.Prelude
import Mathlib.Data.Rat.Floor
import Mathlib.Data.Int.Log
import Mathlib.Data.List.Zip

/-!
# Model of `Grid<T, C, M>` and of the histograms built on it

`/repo/incremental_calibration/include/aslam/calibration/data-structures/Grid.tpp` and
`/repo/incremental_calibration/include/aslam/calibration/statistics/Histogram1v.tpp`, `HistogramMv.tpp`.

The coordinate type `T` and its arithmetic are a parameter (`GridArith`), instantiated with integers, with exact
rationals and with rationals rounded to 53 bits after every operation.  Dimensions are lists of arbitrary length
(`M` arbitrary or dynamic); the Eigen assertion for vectors of different sizes is the outcome `ub`.
`int` overflow is the outcome `ub`; `size_t` arithmetic is modulo `2^64`.
-/

namespace Verif

/-- Arithmetic of the coordinate type as used by `Grid.tpp`: `maximum(i) - minimum(i)` (line 39), the division
(39, 181), `Traits::ceil` followed by the conversion to `int` (38, 283-293), the conversion to `int` in
`getIndex` (181) and the cell centre `mMinimum(i) + (idx(i) + 0.5) * mResolution(i)` (204). -/
structure GridArith (T : Type) where
  sub : T → T → T
  div : T → T → T
  ceil : T → Int
  trunc : T → Int
  centre : T → Int → T → T

/-- Conversion of a real to `int` (truncation towards zero).  At `Grid.tpp` 181, 284-294. -/
def truncQ (x : ℚ) : Int := if 0 ≤ x then ⌊x⌋ else ⌈x⌉

/-- `T` an integer type: integer subtraction and division, `Traits::ceil` adds one (`Grid.tpp` 289-293), the
centre is computed in double and truncated (`Grid.tpp` 204).  Simplification: overflow of `T` itself and
rounding of the centre are not modelled. -/
def intArith : GridArith Int where
  sub a b := a - b
  div a b := a.tdiv b
  ceil v := v + 1
  trunc v := v
  centre m i r := truncQ (m + (i + 1/2) * r)

/-- `T` a floating point type whose operations are the exact ones followed by the rounding `fl`
(`Grid.tpp` 38-39, 181, 204, 283-287).  `fl = id` is exact arithmetic.  Simplification: no NaN, no infinities. -/
def flArith (fl : ℚ → ℚ) : GridArith ℚ where
  sub a b := fl (a - b)
  div a b := fl (a / b)
  ceil v := ⌈v⌉
  trunc v := truncQ v
  centre m i r := fl (m + fl (fl (i + 1/2) * r))

/-- Exact real arithmetic.  The operations of `Grid.tpp` 36-46, 171-206. -/
def ratArith : GridArith ℚ := flArith id

/-- Round to the nearest integer, ties to even (IEEE 754 default mode). -/
def roundEven (x : ℚ) : Int :=
  if Int.fract x < 1/2 then ⌊x⌋
  else if 1/2 < Int.fract x then ⌊x⌋ + 1
  else if ⌊x⌋ % 2 = 0 then ⌊x⌋ else ⌊x⌋ + 1

/-- Rounding of a positive number to a 53 bit significand. -/
def fl53pos (x : ℚ) : ℚ :=
  (roundEven (x / (2:ℚ) ^ (Int.log 2 x - 52)) : ℚ) * (2:ℚ) ^ (Int.log 2 x - 52)

/-- IEEE 754 double precision rounding (round to nearest, ties to even).  Simplification: unbounded exponent, so
neither overflow nor subnormal numbers. -/
def fl53 (x : ℚ) : ℚ :=
  if 0 < x then fl53pos x else if x < 0 then -fl53pos (-x) else 0

/-- `T = double`.  The operations of `Grid.tpp` 36-46, 171-206. -/
def dblArith : GridArith ℚ := flArith fl53

/-- `Grid.h` 150-170: the members. -/
structure Grid (T C : Type) where
  cells : List C
  mn : List T
  mx : List T
  rs : List T
  num : List Int
  tot : Nat
  lin : List Int
  deriving DecidableEq

/-- does the value fit into an `int`?  At `Grid.tpp` 38-44, 181. -/
def fitsInt (x : Int) : Bool := decide (-2147483648 ≤ x) && decide (x ≤ 2147483647)

namespace Grid
variable {T C : Type} [LinearOrder T]

/-- One dimension of the first loop of the constructor, `Grid.tpp` 37-39. -/
def numCell (A : GridArith T) (mn mx rs : T) : Int := A.ceil (A.div (A.sub mx mn) rs)

/-- `mNumCells` for all dimensions, `Grid.tpp` 37-39. -/
def numCells (A : GridArith T) : List T → List T → List T → List Int
  | m :: mn, M :: mx, r :: rs => numCell A m M r :: numCells A mn mx rs
  | _, _, _ => []

/-- `mNumCellsTot *= mNumCells(i)` in `size_t`, `Grid.tpp` 40. -/
def totLoop : List Int → Nat → Nat
  | [], acc => acc
  | n :: ns, acc => totLoop ns (acc * (n % 18446744073709551616).toNat % 18446744073709551616)

/-- inner loop `mLinProd(i) *= mNumCells(j)`, `Grid.tpp` 43-44 (`none`: `int` overflow). -/
def prodFrom : List Int → Int → Option Int
  | [], acc => some acc
  | n :: ns, acc => if fitsInt (acc * n) then prodFrom ns (acc * n) else none

/-- outer loop over `mLinProd`, `Grid.tpp` 42-44. -/
def linProd : List Int → Option (List Int)
  | [] => some []
  | _ :: ns =>
    match prodFrom ns 1, linProd ns with
    | some p, some l => some (p :: l)
    | _, _ => none

/-- `Grid::Grid(minimum, maximum, resolution)`, `Grid.tpp` 17-46.  Simplification: memory is unlimited.
A number of cells that does not fit into `int` is undefined behaviour (conversion of a floating value). -/
def ctor (A : GridArith T) (zero : T) (dflt : C) (mn mx rs : List T) : Res Unit (Grid T C) :=
  if rs.any (fun r => decide (r ≤ zero)) then .throw .badArgument ()
  else if mn.length ≠ mx.length then .ub
  else if (List.zipWith (fun a b => decide (a ≥ b)) mn mx).any id then .throw .badArgument ()
  else if rs.length ≠ mn.length then .ub
  else if (List.zipWith (fun r d => decide (r > d)) rs (List.zipWith A.sub mx mn)).any id then
    .throw .badArgument ()
  else
    let num := numCells A mn mx rs
    if num.all fitsInt then
      match linProd num with
      | none => .ub
      | some lin => .ok ⟨List.replicate (totLoop num 1) dflt, mn, mx, rs, num, totLoop num 1, lin⟩ ()
    else .ub

/-- `isInRange`, `Grid.tpp` 208-212 (for vectors of the size of the grid). -/
def isInRange (g : Grid T C) (p : List T) : Bool :=
  (List.zipWith (fun a b => decide (a ≤ b)) p g.mx).all id &&
    (List.zipWith (fun a b => decide (a ≥ b)) p g.mn).all id

/-- `isValidIndex`, `Grid.tpp` 214-217: only the upper bound is tested. -/
def isValidIndex (g : Grid T C) (idx : List Int) : Bool :=
  (List.zipWith (fun a b => decide (a < b)) idx g.num).all id

/-- one dimension of the loop of `getIndex`, `Grid.tpp` 177-181. -/
def index1 (A : GridArith T) (p mn mx rs : T) (n : Int) : Int :=
  if p = mx then n - 1 else A.trunc (A.div (A.sub p mn) rs)

/-- loop of `getIndex`, `Grid.tpp` 177-181. -/
def indexLoop (A : GridArith T) : List T → List T → List T → List T → List Int → List Int
  | p :: ps, m :: mn, M :: mx, r :: rs, n :: ns => index1 A p m M r n :: indexLoop A ps mn mx rs ns
  | _, _, _, _, _ => []

/-- `getIndex`, `Grid.tpp` 169-183. -/
def getIndex (A : GridArith T) (g : Grid T C) (p : List T) : Res Unit (List Int) :=
  if p.length ≠ g.mx.length then .ub
  else if !g.isInRange p then .throw .outOfBound ()
  else .ok (indexLoop A p g.mn g.mx g.rs g.num) ()

/-- loop of `getCoordinates`, `Grid.tpp` 203-204. -/
def coordLoop (A : GridArith T) : List Int → List T → List T → List T
  | i :: is, m :: mn, r :: rs => A.centre m i r :: coordLoop A is mn rs
  | _, _, _ => []

/-- `getCoordinates`, `Grid.tpp` 194-206. -/
def getCoordinates (A : GridArith T) (g : Grid T C) (idx : List Int) : Res Unit (List T) :=
  if idx.length ≠ g.num.length then .ub
  else if !g.isValidIndex idx then .throw .outOfBound ()
  else .ok (coordLoop A idx g.mn g.rs) ()

/-- loop of `computeLinearIndex`, `Grid.tpp` 252-256: the product is an `int` product (`none` on overflow), the
sum is a `size_t` sum. -/
def linLoop : List Int → List Int → Nat → Option Nat
  | l :: ls, i :: is, acc =>
    if fitsInt (l * i) then
      linLoop ls is ((acc + (l * i % 18446744073709551616).toNat) % 18446744073709551616)
    else none
  | _, _, acc => some acc

/-- `computeLinearIndex`, `Grid.tpp` 250-257 (`none`: undefined behaviour). -/
def computeLinearIndex (g : Grid T C) (idx : List Int) : Option Nat :=
  if idx.length = g.lin.length then linLoop g.lin idx 0 else none

/-- The storage position designated by `getCell(idx)` / `operator[](idx)`, `Grid.tpp` 143-168; out of range
accesses to the `std::vector` are undefined behaviour. -/
def cellPos (g : Grid T C) (idx : List Int) : Res Unit Nat :=
  if idx.length ≠ g.num.length then .ub
  else if !g.isValidIndex idx then .throw .outOfBound ()
  else match g.computeLinearIndex idx with
    | none => .ub
    | some k => if k < g.cells.length then .ok k () else .ub

/-- reading through `getCell(idx)`, `Grid.tpp` 143-149. -/
def getCell (g : Grid T C) (idx : List Int) : Res Unit C :=
  match g.cellPos idx with
  | .ok k () =>
    match g.cells[k]? with
    | some c => .ok c ()
    | none => .ub
  | .throw e () => .throw e ()
  | .ub => .ub
  | .diverge => .diverge

/-- writing `f` of the old value through the reference returned by `getCell(idx)`, `Grid.tpp` 151-157. -/
def modifyCell (g : Grid T C) (idx : List Int) (f : C → C) : Res (Grid T C) Unit :=
  match g.cellPos idx with
  | .ok k () => .ok () { g with cells := g.cells.modify k f }
  | .throw e () => .throw e g
  | .ub => .ub
  | .diverge => .diverge

/-- `reset`, `Grid.tpp` 259-263. -/
def reset (g : Grid T C) (dflt : C) : Grid T C := { g with cells := g.cells.map fun _ => dflt }

/-- loop of `incrementIndex`, `Grid.tpp` 268-279 (`none`: the last dimension overflowed). -/
def incLoop : List Int → List Int → Option (List Int)
  | [], _ => some []
  | is, [] => some is
  | i :: is, n :: ns =>
    if i + 1 < n then some ((i + 1) :: is)
    else if is = [] then none
    else (incLoop is ns).map (0 :: ·)

/-- `incrementIndex`, `Grid.tpp` 265-281: the end sentinel is `mNumCells`.
Simplification: `idx(i) + 1` does not overflow. -/
def incrementIndex (g : Grid T C) (idx : List Int) : List Int := (incLoop idx g.num).getD g.num

/-- `for (Index i = Index::Zero(n); i != mNumCells; incrementIndex(i)) body`, the loop used by all histogram
statistics, e.g. `Histogram1v.tpp` 45-47; `fuel` bounds the number of iterations (`diverge` beyond). -/
def forIndices {S : Type} (g : Grid T C) (body : List Int → S → Res Unit S) : Nat → List Int → S → Res Unit S
  | 0, idx, s => if idx = g.num then .ok s () else .diverge
  | fuel + 1, idx, s =>
    if idx = g.num then .ok s ()
    else match body idx s with
      | .ok s' () => forIndices g body fuel (g.incrementIndex idx) s'
      | .throw e () => .throw e ()
      | .ub => .ub
      | .diverge => .diverge

end Grid

/-! ## Histograms: `Histogram<T, M>` is a `Grid<T, double, M>` -/
namespace Histogram
variable {T : Type} [LinearOrder T]

/-- `Histogram<T, M>`, `HistogramMv.h` / `Histogram1v.h`: the bins hold doubles.  Simplification: bin contents are
exact rationals (true of doubles for counts below `2^53`). -/
abbrev Hist (T : Type) := Grid T ℚ

/-- `addSample`, `HistogramMv.tpp` 88-92, `Histogram1v.tpp` 94-98. -/
def addSample (A : GridArith T) (h : Hist T) (x : List T) : Res (Hist T) Unit :=
  if x.length ≠ h.mx.length then .ub
  else if h.isInRange x then
    match h.getIndex A x with
    | .ok idx () => h.modifyCell idx (· + 1)
    | .throw e () => .throw e h
    | .ub => .ub
    | .diverge => .diverge
  else .ok () h

/-- `addSamples`, `HistogramMv.tpp` 94-98, `Histogram1v.tpp` 100-104. -/
def addSamples (A : GridArith T) : List (List T) → Hist T → Res (Hist T) Unit
  | [], h => .ok () h
  | x :: xs, h => (addSample A h x).bind fun _ h' => addSamples A xs h'

/-- loop of `getSum`, `HistogramMv.tpp` 80-86, `Histogram1v.tpp` 86-92. -/
def sumLoop : List ℚ → ℚ → ℚ
  | [], s => s
  | c :: cs, s => sumLoop cs (s + c)

/-- `getSum`, `HistogramMv.tpp` 79-86. -/
def getSum (h : Hist T) : ℚ := sumLoop h.cells 0

/-- `getNormalized`, `HistogramMv.tpp` 100-107, `Histogram1v.tpp` 106-113.  In this model `x / 0 = 0`, in C++ NaN:
theorems about it assume a non-zero sum. -/
def getNormalized (h : Hist T) : Hist T := { h with cells := h.cells.map (· / getSum h) }

/-- body of the loop of `getMean`, `Histogram1v.tpp` 47, in the one-dimensional histogram over exact reals. -/
def meanBody (A : GridArith ℚ) (h : Hist ℚ) (idx : List Int) (mean : ℚ) : Res Unit ℚ :=
  match h.getCoordinates A idx, h.getCell idx with
  | .ok (x :: _) (), .ok c () => .ok (mean + x * c) ()
  | .ok [] (), _ => .ub
  | .throw e (), _ => .throw e ()
  | .ok _ (), .throw e () => .throw e ()
  | _, _ => .ub

/-- floating point division: `none` is a result that is not finite.  At `Histogram1v.tpp` 44-51, 80-89, 111-117. -/
def fdiv (a b : ℚ) : Option ℚ := if b = 0 then none else some (a / b)

/-- `getMean`, `Histogram1v.tpp` 42-50.  Simplification: sums are exact. -/
def getMean (A : GridArith ℚ) (h : Hist ℚ) : Res Unit (Option ℚ) :=
  match h.forIndices (meanBody A h) (h.tot + 1) (List.replicate h.num.length 0) 0 with
  | .ok m () => .ok (fdiv m (getSum h)) ()
  | .throw e () => .throw e ()
  | .ub => .ub
  | .diverge => .diverge

/-- body of the loop of `getVariance`, `Histogram1v.tpp` 79-82. -/
def varBody (A : GridArith ℚ) (h : Hist ℚ) (mean : ℚ) (idx : List Int) (v : ℚ) : Res Unit ℚ :=
  match h.getCoordinates A idx, h.getCell idx with
  | .ok (x :: _) (), .ok c () => .ok (v + (x - mean) * (x - mean) * c) ()
  | .ok [] (), _ => .ub
  | .throw e (), _ => .throw e ()
  | .ok _ (), .throw e () => .throw e ()
  | _, _ => .ub

/-- `getVariance`, `Histogram1v.tpp` 75-84; with a mean that is not finite the result is not finite either. -/
def getVariance (A : GridArith ℚ) (h : Hist ℚ) : Res Unit (Option ℚ) :=
  match getMean A h with
  | .ok (some mean) () =>
    match h.forIndices (varBody A h mean) (h.tot + 1) (List.replicate h.num.length 0) 0 with
    | .ok v () => .ok (fdiv v (getSum h - 1)) ()
    | .throw e () => .throw e ()
    | .ub => .ub
    | .diverge => .diverge
  | .ok none () => .ok none ()
  | .throw e () => .throw e ()
  | .ub => .ub
  | .diverge => .diverge

/-- body of the loop of `getMode`, `HistogramMv.tpp` 52-57, `Histogram1v.tpp` 69-72; `none` stands for
`max = -infinity` together with the unset `modeIdx`. -/
def modeBody (h : Hist T) (idx : List Int) (s : Option (ℚ × List Int)) : Res Unit (Option (ℚ × List Int)) :=
  match h.getCell idx with
  | .ok c () =>
    match s with
    | none => .ok (some (c, idx)) ()
    | some (mx, mi) => if c > mx then .ok (some (c, idx)) () else .ok (some (mx, mi)) ()
  | .throw e () => .throw e ()
  | .ub => .ub
  | .diverge => .diverge

/-- the index found by `getMode` (its coordinates are returned), `HistogramMv.tpp` 48-59. -/
def getModeIdx (h : Hist T) : Res Unit (Option (ℚ × List Int)) :=
  h.forIndices (modeBody h) (h.tot + 1) (List.replicate h.num.length 0) none

/-- `getMode`, `HistogramMv.tpp` 47-59: coordinates of an uninitialised index are undefined behaviour. -/
def getMode (A : GridArith T) (h : Hist T) : Res Unit (List T) :=
  match getModeIdx h with
  | .ok (some (_, i)) () => h.getCoordinates A i
  | .ok none () => .ub
  | .throw e () => .throw e ()
  | .ub => .ub
  | .diverge => .diverge

/-- body of the loop of `getMedian`, `Histogram1v.tpp` 56-61; once found, the index stays (early return). -/
def medianBody (h : Hist T) (idx : List Int) (s : ℚ × Option (List Int)) : Res Unit (ℚ × Option (List Int)) :=
  match s.2 with
  | some _ => .ok s ()
  | none =>
    match h.getCell idx with
    | .ok c () => if s.1 + c ≥ getSum h * (1/2) then .ok (s.1 + c, some idx) () else .ok (s.1 + c, none) ()
    | .throw e () => .throw e ()
    | .ub => .ub
    | .diverge => .diverge

/-- `getMedian`, `Histogram1v.tpp` 52-63 (`none`: the final `return getMinimum()`). -/
def getMedianIdx (h : Hist T) : Res Unit (Option (List Int)) :=
  match h.forIndices (medianBody h) (h.tot + 1) (List.replicate h.num.length 0) (0, none) with
  | .ok s () => .ok s.2 ()
  | .throw e () => .throw e ()
  | .ub => .ub
  | .diverge => .diverge

/-- `getMedian`, `Histogram1v.tpp` 51-63. -/
def getMedian (A : GridArith T) (h : Hist T) : Res Unit (List T) :=
  match getMedianIdx h with
  | .ok (some i) () => h.getCoordinates A i
  | .ok none () => .ok h.mn ()
  | .throw e () => .throw e ()
  | .ub => .ub
  | .diverge => .diverge

end Histogram
end Verif
