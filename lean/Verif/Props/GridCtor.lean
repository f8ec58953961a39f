import Verif.Lemmas.Grid
import Mathlib.Algebra.Order.BigOperators.Group.List
import Mathlib.Tactic.Linarith
import Mathlib.Tactic.Positivity
import Mathlib.Tactic.FieldSimp

/-! Property C120: construction of a grid (and so of a histogram). -/

namespace Verif
namespace Grid
variable {T C : Type}

/-! ### specification -/

/-- The three numbers given for one dimension. -/
structure Dim (T : Type) where
  lo : T
  hi : T
  step : T
  deriving DecidableEq

/-- A proper dimension: a positive resolution that is at most the (positive) length of the interval. -/
def Dim.Good [Zero T] [LT T] [LE T] [Sub T] (d : Dim T) : Prop := 0 < d.step ∧ d.lo < d.hi ∧ d.step ≤ d.hi - d.lo

/-- The numbers of cells `N` of the dimensions can be represented: each of them, and the product of all but the first, in an
`int`. -/
def Representable (N : List Int) : Prop := (∀ n ∈ N, n ≤ 2147483647) ∧ N.tail.prod ≤ 2147483647

/-- The call of the constructor. -/
def make [LinearOrder T] [Zero T] (A : GridArith T) (dflt : C) (dims : List (Dim T)) : Res Unit (Grid T C) :=
  ctor A 0 dflt (dims.map Dim.lo) (dims.map Dim.hi) (dims.map Dim.step)

/-- What the constructor does, given the numbers of cells: a grid with these, all cells with the default value, exactly as
many as the product says; undefined behaviour if the numbers cannot be represented. -/
def Makes [LinearOrder T] [Zero T] (A : GridArith T) (dflt : C) (dims : List (Dim T)) (N : List Int) : Prop :=
  (Representable N → ∃ g, make A dflt dims = .ok g () ∧ g.mn = dims.map Dim.lo ∧ g.mx = dims.map Dim.hi ∧
    g.rs = dims.map Dim.step ∧ g.num = N ∧ (g.tot : Int) = N.prod ∧ (g.cells.length : Int) = N.prod ∧ ∀ c ∈ g.cells, c = dflt) ∧
  (¬ Representable N → make A dflt dims = .ub)

/-! ### proofs -/

theorem one_le_prod {l : List Int} (h : ∀ n ∈ l, 1 ≤ n) : 1 ≤ l.prod := by
  induction l with
  | nil => simp
  | cons a l ih =>
    rw [List.prod_cons]
    have h1 := h a (by simp)
    have h2 := ih fun n hn => h n (by simp [hn])
    nlinarith

theorem prodFrom_pos {l : List Int} (h : ∀ n ∈ l, 1 ≤ n) (acc : Int) (ha : 1 ≤ acc) (hm : acc ≤ 2147483647) :
    prodFrom l acc = if acc * l.prod ≤ 2147483647 then some (acc * l.prod) else none := by
  induction l generalizing acc with
  | nil => simp [prodFrom, hm]
  | cons n ns ih =>
    have h1 := h n (by simp)
    have h2 := one_le_prod fun x hx => h x (List.mem_cons_of_mem n hx)
    have hp : 1 ≤ acc * n := by nlinarith
    rw [prodFrom, List.prod_cons]
    by_cases hf : acc * n ≤ 2147483647
    · rw [if_pos (by simp [fitsInt, hf]; omega), ih (fun x hx => h x (by simp [hx])) _ hp hf]
      simp only [mul_assoc]
    · rw [if_neg (by simp [fitsInt]; omega), if_neg]
      have : acc * n ≤ acc * (n * ns.prod) := by rw [← mul_assoc]; nlinarith
      omega

theorem linProd_pos {l : List Int} (h : ∀ n ∈ l, 1 ≤ n) : (linProd l).isSome = decide (l.tail.prod ≤ 2147483647) := by
  induction l with
  | nil => simp [linProd]
  | cons n ns ih =>
    have hns : ∀ x ∈ ns, 1 ≤ x := fun x hx => h x (by simp [hx])
    have ih := ih hns
    rw [linProd, prodFrom_pos hns 1 (by omega) (by omega)]
    simp only [one_mul, List.tail_cons]
    by_cases hp : ns.prod ≤ 2147483647
    · simp only [if_pos hp, hp, decide_true]
      have : ns.tail.prod ≤ 2147483647 := by
        cases ns with
        | nil => simp
        | cons m ms =>
          have h1 := hns m (by simp)
          have h2 := one_le_prod fun x hx => hns x (List.mem_cons_of_mem m hx)
          rw [List.prod_cons] at hp
          simp only [List.tail_cons]
          nlinarith
      rw [decide_eq_true this, Option.isSome_iff_exists] at ih
      obtain ⟨l', hl'⟩ := ih
      rw [hl']; rfl
    · simp [if_neg hp, hp]

theorem totLoop_pos {l : List Int} (h : ∀ n ∈ l, 1 ≤ n) (acc : Nat) (ha : 1 ≤ acc)
    (hb : (acc : Int) * l.prod < 18446744073709551616) : (totLoop l acc : Int) = acc * l.prod := by
  induction l generalizing acc with
  | nil => simp [totLoop]
  | cons n ns ih =>
    have h1 := h n (by simp)
    have hns : ∀ x ∈ ns, 1 ≤ x := fun x hx => h x (by simp [hx])
    have h2 := one_le_prod hns
    rw [List.prod_cons, ← mul_assoc] at hb
    have hn : (acc : Int) * n < 18446744073709551616 := by
      have : (acc : Int) * n ≤ acc * n * ns.prod := by
        have : 0 ≤ (acc : Int) * n := by positivity
        nlinarith
      omega
    have hn1 : n < 18446744073709551616 := by
      have : n ≤ (acc : Int) * n := by nlinarith
      omega
    obtain ⟨k, rfl⟩ : ∃ k : Nat, n = k := ⟨n.toNat, by omega⟩
    have e1 : (((k : Int) % 18446744073709551616).toNat) = k := by omega
    have e2 : acc * k % 18446744073709551616 = acc * k := by
      apply Nat.mod_eq_of_lt
      exact_mod_cast hn
    rw [totLoop, e1, e2, ih hns _ (by have : 1 ≤ k := by omega
                                      nlinarith) (by push_cast; exact hb), List.prod_cons]
    push_cast; ring

theorem numCells_dims [LinearOrder T] (A : GridArith T) (dims : List (Dim T)) :
    numCells A (dims.map Dim.lo) (dims.map Dim.hi) (dims.map Dim.step) =
    dims.map fun d => numCell A d.lo d.hi d.step := by
  induction dims with
  | nil => rfl
  | cons d l ih => simp only [List.map_cons, numCells, ih]

/-- acceptance, in terms of the arithmetic. -/
def Dim.GoodA [LinearOrder T] [Zero T] (A : GridArith T) (d : Dim T) : Prop :=
  0 < d.step ∧ d.lo < d.hi ∧ d.step ≤ A.sub d.hi d.lo

theorem make_throws [LinearOrder T] [Zero T] (A : GridArith T) (dflt : C) (dims : List (Dim T))
    (h : ∃ d ∈ dims, ¬ d.GoodA A) : make A dflt dims = .throw .badArgument () := by
  obtain ⟨d, hd, hb⟩ := h
  unfold make ctor
  by_cases h1 : (dims.map Dim.step).any (fun r => decide (r ≤ 0)) = true
  · rw [if_pos h1]
  rw [if_neg h1, if_neg (by simp)]
  by_cases h2 : (List.zipWith (fun a b => decide (a ≥ b)) (dims.map Dim.lo) (dims.map Dim.hi)).any id = true
  · rw [if_pos h2]
  rw [if_neg h2, if_neg (by simp), if_pos]
  simp only [List.any_map, List.any_eq_true, Function.comp, decide_eq_true_eq, not_exists, not_and, not_le] at h1
  simp only [List.zipWith_map, List.zipWith_self, List.any_map, List.any_eq_true, Function.comp, id,
    decide_eq_true_eq, not_exists, not_and, not_le, ge_iff_le] at h2 ⊢
  refine ⟨d, hd, ?_⟩
  by_contra hc
  exact hb ⟨h1 d hd, h2 d hd, by simpa using hc⟩

theorem make_good [LinearOrder T] [Zero T] (A : GridArith T) (dflt : C) (dims : List (Dim T))
    (h : ∀ d ∈ dims, d.GoodA A) (hpos : ∀ d ∈ dims, 1 ≤ numCell A d.lo d.hi d.step) :
    Makes A dflt dims (dims.map fun d => numCell A d.lo d.hi d.step) := by
  have h1 : ¬ (dims.map Dim.step).any (fun r => decide (r ≤ 0)) = true := by
    simp only [List.any_map, List.any_eq_true, Function.comp, decide_eq_true_eq, not_exists, not_and, not_le]
    exact fun d hd => (h d hd).1
  have h2 : ¬ (List.zipWith (fun a b => decide (a ≥ b)) (dims.map Dim.lo) (dims.map Dim.hi)).any id = true := by
    simp only [List.zipWith_map, List.zipWith_self, List.any_map, List.any_eq_true, Function.comp, id,
      decide_eq_true_eq, not_exists, not_and, not_le, ge_iff_le]
    exact fun d hd => (h d hd).2.1
  have h3 : ¬ (List.zipWith (fun r d => decide (r > d)) (dims.map Dim.step)
      (List.zipWith A.sub (dims.map Dim.hi) (dims.map Dim.lo))).any id = true := by
    simp only [List.zipWith_map, List.zipWith_self, List.any_map, List.any_eq_true, Function.comp, id,
      decide_eq_true_eq, not_exists, not_and, not_lt, gt_iff_lt]
    exact fun d hd => (h d hd).2.2
  have hN : ∀ n ∈ dims.map (fun d => numCell A d.lo d.hi d.step), 1 ≤ n := by
    intro n hn
    obtain ⟨d, hd, rfl⟩ := List.mem_map.1 hn
    exact hpos d hd
  have hm : make A dflt dims = (if (dims.map fun d => numCell A d.lo d.hi d.step).all fitsInt then
      match linProd (dims.map fun d => numCell A d.lo d.hi d.step) with
      | none => .ub
      | some lin => .ok ⟨List.replicate (totLoop (dims.map fun d => numCell A d.lo d.hi d.step) 1) dflt, dims.map Dim.lo,
          dims.map Dim.hi, dims.map Dim.step, dims.map fun d => numCell A d.lo d.hi d.step,
          totLoop (dims.map fun d => numCell A d.lo d.hi d.step) 1, lin⟩ ()
    else .ub) := by
    unfold make ctor
    rw [if_neg h1, if_neg (by simp), if_neg h2, if_neg (by simp), if_neg h3]
    simp only [numCells_dims]
    split
    · cases linProd (dims.map fun d => numCell A d.lo d.hi d.step) <;> rfl
    · rfl
  generalize dims.map (fun d => numCell A d.lo d.hi d.step) = N at hm hN
  have hl := linProd_pos hN
  have hall : N.all fitsInt = true ↔ ∀ n ∈ N, n ≤ 2147483647 := by
    simp only [List.all_eq_true, fitsInt, Bool.and_eq_true, decide_eq_true_eq]
    exact ⟨fun h n hn => (h n hn).2, fun h n hn => ⟨by have := hN n hn; omega, h n hn⟩⟩
  constructor
  · rintro ⟨hr1, hr2⟩
    rw [if_pos (hall.2 hr1)] at hm
    rw [decide_eq_true hr2, Option.isSome_iff_exists] at hl
    obtain ⟨lin, hlin⟩ := hl
    rw [hlin] at hm
    have ht : (totLoop N 1 : Int) = N.prod := by
      have hb : N.prod < 18446744073709551616 := by
        cases N with
        | nil => simp
        | cons n ns =>
          have h1 := hr1 n (by simp)
          have h2 := hN n (by simp)
          have h3 := one_le_prod fun x hx => hN x (List.mem_cons_of_mem n hx)
          simp only [List.tail_cons] at hr2
          rw [List.prod_cons]
          nlinarith
      have := totLoop_pos hN 1 (by omega) (by simpa using hb)
      simpa using this
    exact ⟨_, hm, rfl, rfl, rfl, rfl, ht, by simpa using ht, fun c hc => List.eq_of_mem_replicate hc⟩
  · intro hn
    rw [hm]
    by_cases ha : N.all fitsInt = true
    · rw [if_pos ha]
      have : ¬ N.tail.prod ≤ 2147483647 := fun h => hn ⟨hall.1 ha, h⟩
      rw [decide_eq_false this] at hl
      rw [Option.isSome_eq_false_iff, Option.isNone_iff_eq_none] at hl
      rw [hl]
    · rw [if_neg ha]

/-- **C120 (real coordinates, exact arithmetic).** The constructor throws exactly if some dimension is not proper.  Otherwise
the numbers of cells are the smallest that cover the interval in each dimension; if they can be represented, the result is the
grid with these, the given bounds and resolutions, and exactly as many cells as their product, all with the default value; if
not, the behaviour is undefined. -/
theorem C120_real (dflt : C) (dims : List (Dim ℚ)) :
    (make ratArith dflt dims = .throw .badArgument () ↔ ∃ d ∈ dims, ¬ d.Good) ∧
    ((∀ d ∈ dims, d.Good) → ∃ n : Dim ℚ → Int,
      (∀ d ∈ dims, ((n d : ℚ) - 1) * d.step < d.hi - d.lo ∧ d.hi - d.lo ≤ n d * d.step) ∧
      Makes ratArith dflt dims (dims.map n)) := by
  have hgood : ∀ d : Dim ℚ, d.GoodA ratArith ↔ d.Good := fun d => Iff.rfl
  have hcov : ∀ d : Dim ℚ, d.Good → ((numCell ratArith d.lo d.hi d.step : ℚ) - 1) * d.step < d.hi - d.lo ∧
      d.hi - d.lo ≤ numCell ratArith d.lo d.hi d.step * d.step := by
    rintro d ⟨h1, h2, h3⟩
    have e : numCell ratArith d.lo d.hi d.step = ⌈(d.hi - d.lo) / d.step⌉ := rfl
    rw [e]
    have c1 := Int.le_ceil ((d.hi - d.lo) / d.step)
    have c2 := Int.ceil_lt_add_one ((d.hi - d.lo) / d.step)
    constructor
    · have : ((⌈(d.hi - d.lo) / d.step⌉ : ℚ) - 1) < (d.hi - d.lo) / d.step := by linarith
      rwa [lt_div_iff₀ h1] at this
    · rwa [div_le_iff₀ h1] at c1
  have hok : (∀ d ∈ dims, d.Good) → Makes ratArith dflt dims (dims.map fun d => numCell ratArith d.lo d.hi d.step) := by
    intro h
    apply make_good ratArith dflt dims h
    intro d hd
    have h1 := (hcov d (h d hd)).2
    obtain ⟨g1, g2, g3⟩ := h d hd
    by_contra hc
    have : (numCell ratArith d.lo d.hi d.step : ℚ) ≤ 0 := by
      have : numCell ratArith d.lo d.hi d.step ≤ 0 := by omega
      exact_mod_cast this
    nlinarith
  refine ⟨⟨?_, fun h => make_throws ratArith dflt dims h⟩, fun h => ⟨_, fun d hd => hcov d (h d hd), hok h⟩⟩
  intro h
  by_contra hn
  push Not at hn
  obtain ⟨m1, m2⟩ := hok hn
  by_cases hr : Representable (dims.map fun d => numCell ratArith d.lo d.hi d.step)
  · obtain ⟨g, hg, -⟩ := m1 hr; rw [hg] at h; simp at h
  · rw [m2 hr] at h; simp at h

/-- **C120 (integer coordinates).** The same, the numbers of cells being the smallest for which the cells, each of `step`
values, contain all the values from the minimum to the maximum included. -/
theorem C120_int (dflt : C) (dims : List (Dim Int)) :
    (make intArith dflt dims = .throw .badArgument () ↔ ∃ d ∈ dims, ¬ d.Good) ∧
    ((∀ d ∈ dims, d.Good) → ∃ n : Dim Int → Int,
      (∀ d ∈ dims, (n d - 1) * d.step ≤ d.hi - d.lo ∧ d.hi - d.lo < n d * d.step) ∧
      Makes intArith dflt dims (dims.map n)) := by
  have hcov : ∀ d : Dim Int, d.Good → (numCell intArith d.lo d.hi d.step - 1) * d.step ≤ d.hi - d.lo ∧
      d.hi - d.lo < numCell intArith d.lo d.hi d.step * d.step := by
    rintro d ⟨h1, h2, h3⟩
    have e : numCell intArith d.lo d.hi d.step = (d.hi - d.lo).tdiv d.step + 1 := rfl
    rw [e, Int.tdiv_eq_ediv_of_nonneg (by omega)]
    have c1 := Int.mul_ediv_add_emod (d.hi - d.lo) d.step
    have c2 := Int.emod_nonneg (d.hi - d.lo) (by omega : d.step ≠ 0)
    have c3 := Int.emod_lt_of_pos (d.hi - d.lo) h1
    constructor <;> nlinarith
  have hok : (∀ d ∈ dims, d.Good) → Makes intArith dflt dims (dims.map fun d => numCell intArith d.lo d.hi d.step) := by
    intro h
    apply make_good intArith dflt dims h
    intro d hd
    have h1 := (hcov d (h d hd)).2
    obtain ⟨g1, g2, g3⟩ := h d hd
    by_contra hc
    have : numCell intArith d.lo d.hi d.step ≤ 0 := by omega
    nlinarith
  refine ⟨⟨?_, fun h => make_throws intArith dflt dims h⟩, fun h => ⟨_, fun d hd => hcov d (h d hd), hok h⟩⟩
  intro h
  by_contra hn
  push Not at hn
  obtain ⟨m1, m2⟩ := hok hn
  by_cases hr : Representable (dims.map fun d => numCell intArith d.lo d.hi d.step)
  · obtain ⟨g, hg, -⟩ := m1 hr; rw [hg] at h; simp at h
  · rw [m2 hr] at h; simp at h

/-- **C120 (floating point).** With any monotone rounding that keeps 0 and 1, in particular that of `double`: the constructor
throws exactly if the resolution or the interval is not positive or the resolution is larger than the *rounded* length;
otherwise the number of cells in each dimension is the rounded quotient, rounded up. -/
theorem C120_rounded (fl : ℚ → ℚ) (hm : Monotone fl) (h0 : fl 0 = 0) (h1 : fl 1 = 1) (dflt : C) (dims : List (Dim ℚ)) :
    (make (flArith fl) dflt dims = .throw .badArgument () ↔
      ∃ d ∈ dims, ¬ (0 < d.step ∧ d.lo < d.hi ∧ d.step ≤ fl (d.hi - d.lo))) ∧
    ((∀ d ∈ dims, 0 < d.step ∧ d.lo < d.hi ∧ d.step ≤ fl (d.hi - d.lo)) →
      Makes (flArith fl) dflt dims (dims.map fun d => ⌈fl (fl (d.hi - d.lo) / d.step)⌉)) := by
  have hok : (∀ d ∈ dims, 0 < d.step ∧ d.lo < d.hi ∧ d.step ≤ fl (d.hi - d.lo)) →
      Makes (flArith fl) dflt dims (dims.map fun d => ⌈fl (fl (d.hi - d.lo) / d.step)⌉) := by
    intro h
    apply make_good (flArith fl) dflt dims h
    intro d hd
    obtain ⟨g1, g2, g3⟩ := h d hd
    show 1 ≤ ⌈fl (fl (d.hi - d.lo) / d.step)⌉
    have hq : 1 ≤ fl (d.hi - d.lo) / d.step := by rw [le_div_iff₀ g1]; linarith
    have := hm hq
    rw [h1] at this
    rw [Int.one_le_ceil_iff]; linarith
  refine ⟨⟨?_, fun h => make_throws (flArith fl) dflt dims h⟩, hok⟩
  intro h
  by_contra hn
  push Not at hn
  obtain ⟨m1, m2⟩ := hok hn
  by_cases hr : Representable (dims.map fun d => ⌈fl (fl (d.hi - d.lo) / d.step)⌉)
  · obtain ⟨g, hg, -⟩ := m1 hr; rw [hg] at h; simp at h
  · rw [m2 hr] at h; simp at h

/-! ### examples -/

/-- A proper grid, and one that is rejected. -/
example : (make intArith 7 [⟨0, 3, 2⟩, ⟨-1, 1, 1⟩] = .ok ⟨List.replicate 6 7, [0, -1], [3, 1], [2, 1], [2, 3], 6, [3, 1]⟩ ()) ∧
    make intArith 7 [⟨0, 3, 2⟩, ⟨-1, 1, 3⟩] = (.throw .badArgument () : Res Unit (Grid Int Nat)) := by decide

/-- An integer grid of 65536 times 65536 cells is proper and representable; with one more such dimension it is not, and
constructing it is undefined. -/
example : (∀ d ∈ [(⟨0, 65535, 1⟩ : Dim Int), ⟨0, 65535, 1⟩], d.Good) ∧ Representable [65536, 65536] ∧
    ¬ Representable [65536, 65536, 65536] := by
  refine ⟨?_, ?_, ?_⟩ <;> simp [Dim.Good, Representable]

/-- Double rounding meets the hypotheses of `C120_rounded`. -/
example : Monotone fl53 ∧ fl53 0 = 0 ∧ fl53 1 = 1 := ⟨fl53_mono, fl53_zero, fl53_one⟩

end Grid
end Verif
