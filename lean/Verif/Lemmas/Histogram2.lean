import Verif.Lemmas.Histogram
import Mathlib.Algebra.Order.BigOperators.Group.Finset
import Mathlib.Algebra.BigOperators.Intervals

/-! Statistics of one-dimensional histograms. -/

namespace Verif
namespace Histogram
open Grid

/-- facts about a one-dimensional grid over exact reals. -/
structure OneD (h : Hist ℚ) (m M r : ℚ) : Prop where
  wf : WF ratArith 0 h
  mn : h.mn = [m]
  mx : h.mx = [M]
  rs : h.rs = [r]
  small : h.tot ≤ 2147483648

namespace OneD
variable {h : Hist ℚ} {m M r : ℚ}

theorem num (o : OneD h m M r) : h.num = [(h.cells.length : Int)] ∧ 1 ≤ h.cells.length := by
  have hS := ratArith_exact.toSound
  have hl := o.wf.len hS
  have hp := o.wf.pos hS
  have ht := o.wf.tot hS
  rw [o.mn] at hl
  obtain ⟨n, hn⟩ := List.length_eq_one_iff.1 hl
  rw [hn] at hp ht ⊢
  have h1 := hp n (by simp)
  simp at ht
  have hc := o.wf.cells_len
  constructor
  · congr 1; omega
  · omega

theorem valid_iff (o : OneD h m M r) {idx : List Int} :
    Valid h.num idx ↔ ∃ k : Nat, k < h.cells.length ∧ idx = [(k : Int)] := by
  rw [o.num.1]
  constructor
  · intro hv
    cases hv with
    | @cons i _ _ _ hd tl => cases tl; exact ⟨i.toNat, by omega, by congr 1; omega⟩
  · rintro ⟨k, hk, rfl⟩
    exact .cons (by omega) .nil

theorem getCell (o : OneD h m M r) {k : Nat} (hk : k < h.cells.length) :
    h.getCell [(k : Int)] = .ok (h.cells.getD k 0) () := by
  have hv : Valid h.num [(k : Int)] := o.valid_iff.2 ⟨k, hk, rfl⟩
  rw [Grid.getCell, (o.wf.cellPos_valid ratArith_exact.toSound o.small hv).2, o.num.1]
  simp [val, hk]

theorem getCoordinates (o : OneD h m M r) {k : Nat} (hk : k < h.cells.length) :
    h.getCoordinates ratArith [(k : Int)] = .ok [m + (k + 1/2) * r] () := by
  have hv : Valid h.num [(k : Int)] := o.valid_iff.2 ⟨k, hk, rfl⟩
  rw [Grid.getCoordinates, if_neg (by simpa using hv.length_eq), hv.isValidIndex, o.mn, o.rs]
  simp [coordLoop, ratArith, flArith]

theorem visits (o : OneD h m M r) :
    Grid.visits h = (List.range h.cells.length).map fun (k : Nat) => [(k : Int)] := by
  rw [visits_1d o.num.1 (by have := o.num.2; omega)]
  simp

theorem loop (o : OneD h m M r) {S : Type} (body : List Int → S → Res Unit S) (f : S → Nat → S)
    (hb : ∀ k s, k < h.cells.length → body [(k : Int)] s = .ok (f s k) ()) (s : S) :
    h.forIndices body (h.tot + 1) (List.replicate h.num.length 0) s =
      .ok ((List.range h.cells.length).foldl f s) () := by
  have hS := ratArith_exact.toSound
  have hne : h.num ≠ [] := by rw [o.num.1]; simp
  have ht := o.wf.tot hS
  have := forIndices_eq h hne (o.wf.pos hS) body (fun s idx => f s (idx.headD 0).toNat) (by
    intro idx s hv
    obtain ⟨k, hk, rfl⟩ := o.valid_iff.1 hv
    rw [hb k s hk]; simp) s (h.tot + 1) (by omega)
  rw [this, o.visits, List.foldl_map]
  simp

end OneD

theorem foldl_add (F : Nat → ℚ) (n : Nat) (s : ℚ) :
    (List.range n).foldl (fun s k => s + F k) s = s + ∑ k ∈ Finset.range n, F k := by
  induction n with
  | zero => simp
  | succ n ih => rw [List.range_succ, List.foldl_append, ih, Finset.sum_range_succ]; simp; ring

theorem sum_eq_range (cs : List ℚ) : cs.sum = ∑ k ∈ Finset.range cs.length, cs.getD k 0 := by
  induction cs with
  | nil => simp
  | cons c cs ih =>
    rw [List.sum_cons, List.length_cons, Finset.sum_range_succ', ih]
    simp [add_comm]

/-! mode -/

/-- one step of the mode loop as a function of the bins. -/
def modeStep (F : Nat → ℚ) (s : Option (ℚ × List Int)) (j : Nat) : Option (ℚ × List Int) :=
  match s with
  | none => some (F j, [(j : Int)])
  | some (mx, mi) => if F j > mx then some (F j, [(j : Int)]) else some (mx, mi)

theorem mode_fold (F : Nat → ℚ) (n : Nat) (hn : 1 ≤ n) :
    ∃ k, k < n ∧ (List.range n).foldl (modeStep F) none
        = some (F k, [(k : Int)]) ∧ (∀ j, j < n → F j ≤ F k) ∧ ∀ j, j < k → F j < F k := by
  induction n, hn using Nat.le_induction with
  | base => exact ⟨0, by omega, by simp [modeStep], by intro j hj; rw [show j = 0 by omega], by intro j hj; omega⟩
  | succ n hn ih =>
    obtain ⟨k, hk, e, h1, h2⟩ := ih
    rw [List.range_succ, List.foldl_append, e]
    simp only [List.foldl_cons, List.foldl_nil, modeStep]
    by_cases hc : F n > F k
    · refine ⟨n, by omega, by rw [if_pos hc], ?_, ?_⟩
      · intro j hj
        rcases Nat.lt_succ_iff_lt_or_eq.1 hj with h | rfl
        · exact (h1 j h).trans hc.le
        · exact le_refl _
      · intro j hj; exact lt_of_le_of_lt (h1 j hj) hc
    · refine ⟨k, by omega, by rw [if_neg hc], ?_, h2⟩
      intro j hj
      rcases Nat.lt_succ_iff_lt_or_eq.1 hj with h | rfl
      · exact h1 j h
      · exact not_lt.1 hc

/-! median -/

/-- one step of the median loop as a function of the bins. -/
def medianStep (F : Nat → ℚ) (half : ℚ) (s : ℚ × Option (List Int)) (j : Nat) : ℚ × Option (List Int) :=
  match s.2 with
  | some _ => s
  | none => if s.1 + F j ≥ half then (s.1 + F j, some [(j : Int)]) else (s.1 + F j, none)

theorem median_fold (F : Nat → ℚ) (half : ℚ) (n : Nat) :
    let R := (List.range n).foldl (medianStep F half) (0, none)
    (R.2 = none ∧ R.1 = ∑ j ∈ Finset.range n, F j ∧
      ∀ k, k < n → ∑ j ∈ Finset.range (k + 1), F j < half) ∨
    ∃ k, k < n ∧ R.2 = some [(k : Int)] ∧ half ≤ ∑ j ∈ Finset.range (k + 1), F j ∧
      ∀ i, i < k → ∑ j ∈ Finset.range (i + 1), F j < half := by
  induction n with
  | zero => left; simp
  | succ n ih =>
    simp only [List.range_succ, List.foldl_append, List.foldl_cons, List.foldl_nil] at ih ⊢
    rcases ih with ⟨e1, e2, h⟩ | ⟨k, hk, e, h1, h2⟩
    · rw [medianStep, e1]
      simp only
      rw [e2, ← Finset.sum_range_succ]
      by_cases hc : ∑ j ∈ Finset.range (n + 1), F j ≥ half
      · right
        exact ⟨n, by omega, by rw [if_pos hc], hc, h⟩
      · left
        rw [if_neg hc]
        refine ⟨rfl, rfl, ?_⟩
        intro k hk
        rcases Nat.lt_succ_iff_lt_or_eq.1 hk with h' | rfl
        · exact h k h'
        · exact not_le.1 hc
    · right
      refine ⟨k, by omega, ?_, h1, h2⟩
      rw [medianStep, e]
      exact e

/-! the binned mean -/

theorem wsum_bump (G : Nat → ℚ) (cs : List ℚ) (k : Nat) (hk : k < cs.length) :
    ∑ j ∈ Finset.range (cs.modify k (· + 1)).length, G j * (cs.modify k (· + 1)).getD j 0 =
      (∑ j ∈ Finset.range cs.length, G j * cs.getD j 0) + G k := by
  rw [List.length_modify]
  have : ∀ j ∈ Finset.range cs.length, G j * (cs.modify k (· + 1)).getD j 0 =
      G j * cs.getD j 0 + if j = k then G k else 0 := by
    intro j hj
    rw [Finset.mem_range] at hj
    simp only [List.getD_eq_getElem?_getD, List.getElem?_modify]
    by_cases h : k = j
    · subst h; simp [hj]; ring
    · simp [h, Ne.symm h, hj]
  rw [Finset.sum_congr rfl this, Finset.sum_add_distrib, Finset.sum_ite_eq' ]
  simp [hk]

theorem wsum_foldl (G : Nat → ℚ) : ∀ (os : List (Option Nat)) (cs : List ℚ),
    (∀ k, some k ∈ os → k < cs.length) →
    ∑ j ∈ Finset.range (os.foldl bump cs).length, G j * (os.foldl bump cs).getD j 0 =
      (∑ j ∈ Finset.range cs.length, G j * cs.getD j 0) +
        (os.map fun o => o.elim 0 G).sum := by
  intro os
  induction os with
  | nil => intro cs _; simp
  | cons o os ih =>
    intro cs h
    rw [List.foldl_cons, ih _ (by intro k hk; rw [length_bump]; exact h k (by simp [hk])), List.map_cons,
      List.sum_cons]
    cases o with
    | none => simp [bump]
    | some j => simp only [bump, Option.elim]; rw [wsum_bump G cs j (h j (by simp))]; ring

end Histogram
end Verif
