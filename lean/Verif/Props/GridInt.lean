import Verif.Props.Grid

/-! Property C27 for integer coordinates, completely. -/

namespace Verif
namespace Grid
variable {C : Type}

theorem truncQ_half (s : Int) : truncQ ((s : ℚ) / 2) = s.tdiv 2 := by
  unfold truncQ
  split
  · rename_i h
    have hs : 0 ≤ s := by
      by_contra hc
      have : (s : ℚ) < 0 := by exact_mod_cast not_le.1 hc
      linarith
    rw [Int.tdiv_eq_ediv_of_nonneg hs]
    have h := Rat.floor_intCast_div_natCast s 2
    simpa using h
  · rename_i h
    have hs : s < 0 := by
      by_contra hc
      have : (0 : ℚ) ≤ s := by exact_mod_cast not_lt.1 hc
      apply h; positivity
    have e : s.tdiv 2 = -((-s) / 2) := by
      obtain ⟨t, rfl⟩ : ∃ t, s = -t := ⟨-s, by ring⟩
      rw [Int.neg_tdiv, Int.tdiv_eq_ediv_of_nonneg (by omega), neg_neg]
    rw [e]
    have h2 : ((s : ℚ) / 2) = -(((-s : Int) : ℚ) / 2) := by push_cast; ring
    have h := Rat.floor_intCast_div_natCast (-s) 2
    rw [h2, Int.ceil_neg]
    simpa using h

theorem int_centre_tdiv (m i r : Int) : intArith.centre m i r = (2 * m + (2 * i + 1) * r).tdiv 2 := by
  rw [← truncQ_half]
  simp only [intArith]
  congr 1
  push_cast; ring

/-- bounds of the truncated centre. -/
theorem int_centre_bd {m i r : Int} (h1 : 0 < r) (hi : 0 ≤ i) :
    m + i * r ≤ intArith.centre m i r ∧ intArith.centre m i r ≤ m + (i + 1) * r ∧
    (intArith.centre m i r < m + (i + 1) * r ↔ ¬ (r = 1 ∧ m + i < 0)) := by
  rw [int_centre_tdiv]
  have e : 2 * m + (2 * i + 1) * r = 2 * (m + i * r) + r := by ring
  have e2 : m + (i + 1) * r = (m + i * r) + r := by ring
  have e3 : r = 1 → m + i = m + i * r := by rintro rfl; ring
  rw [e, e2]
  generalize hb : m + i * r = b at *
  have ht : (2 * b + r).tdiv 2 = if 0 ≤ 2 * b + r then (2 * b + r) / 2 else -((-(2 * b + r)) / 2) := by
    split
    · rw [Int.tdiv_eq_ediv_of_nonneg (by omega)]
    · obtain ⟨t, ht⟩ : ∃ t, 2 * b + r = -t := ⟨-(2 * b + r), by ring⟩
      rw [ht, Int.neg_tdiv, Int.tdiv_eq_ediv_of_nonneg (by omega), neg_neg]
  rw [ht]
  refine ⟨?_, ?_, ?_⟩
  · split <;> omega
  · split <;> omega
  · constructor
    · rintro h ⟨hr, hneg⟩
      rw [e3 hr] at hneg
      split at h <;> omega
    · intro h
      by_cases hr : r = 1
      · have : 0 ≤ b := by
          by_contra hc
          exact h ⟨hr, by rw [e3 hr]; omega⟩
        split <;> omega
      · split <;> omega

theorem int_centre_index_iff {m M r i : Int} (h1 : 0 < r) (hi0 : 0 ≤ i) (hx : intArith.centre m i r ≤ M) :
    index1 intArith (intArith.centre m i r) m M r (numCell intArith m M r) = i ↔ ¬ (r = 1 ∧ m + i < 0) := by
  obtain ⟨b1, b2, b3⟩ := int_centre_bd (m := m) h1 hi0
  rw [← b3]
  have hir : 0 ≤ i * r := mul_nonneg hi0 h1.le
  generalize intArith.centre m i r = c at *
  have hidx : index1 intArith c m M r (numCell intArith m M r) = (c - m) / r := by
    simp only [index1, numCell, intArith]
    split
    · rename_i e; rw [Int.tdiv_eq_ediv_of_nonneg (by omega), e]; ring
    · rw [Int.tdiv_eq_ediv_of_nonneg (by omega)]
  rw [hidx]
  have c1 := Int.mul_ediv_add_emod (c - m) r
  have c2 := Int.emod_nonneg (c - m) (by omega : r ≠ 0)
  have c3 := Int.emod_lt_of_pos (c - m) h1
  constructor
  · intro h; rw [h] at c1; nlinarith
  · intro h
    have l1 : i < (c - m) / r + 1 := by
      have : i * r < ((c - m) / r + 1) * r := by nlinarith
      exact lt_of_mul_lt_mul_right this h1.le
    have l2 : (c - m) / r < i + 1 := by
      have : ((c - m) / r) * r < (i + 1) * r := by nlinarith
      exact lt_of_mul_lt_mul_right this h1.le
    omega

theorem int_centre_last {m M r i : Int} (h1 : 0 < r) (h2 : m < M) (hi0 : 0 ≤ i) (hi : i < numCell intArith m M r)
    (hx : M < intArith.centre m i r) : numCell intArith m M r = i + 1 := by
  obtain ⟨b1, b2, -⟩ := int_centre_bd (m := m) h1 hi0
  have e : numCell intArith m M r = (M - m) / r + 1 := by
    simp only [numCell, intArith]; rw [Int.tdiv_eq_ediv_of_nonneg (by omega)]
  rw [e] at hi ⊢
  have c1 := Int.mul_ediv_add_emod (M - m) r
  have c2 := Int.emod_nonneg (M - m) (by omega : r ≠ 0)
  have l2 : (M - m) / r < i + 1 := by
    have : ((M - m) / r) * r < (i + 1) * r := by nlinarith
    exact lt_of_mul_lt_mul_right this h1.le
  generalize (M - m) / r = q at *
  omega

/-- **C27** for integer coordinates, for every grid and every valid index: the coordinates are the cell centre truncated
towards zero.  If they are in the domain, looking them up gives the index back exactly if there is no dimension with
resolution one in which the cell is that of a negative number (there the truncated centre is the next cell's).  If not, some
cell is the last one of its dimension, its centre lies beyond the maximum, and the lookup is rejected. -/
theorem C27_roundtrip_int (dflt : C) (mn mx rs : List Int) (g : Grid Int C)
    (hg : ctor intArith 0 dflt mn mx rs = .ok g ()) (idx : List Int) (hv : Valid g.num idx) :
    ∃ x, g.getCoordinates intArith idx = .ok x () ∧ x.length = idx.length ∧
      (∀ (d : Nat) (c m r i : Int), x[d]? = some c → mn[d]? = some m → rs[d]? = some r → idx[d]? = some i →
        c = (2 * m + (2 * i + 1) * r).tdiv 2) ∧
      (InBox mn mx x → (g.getIndex intArith x = .ok idx () ↔
        ∀ (d : Nat) (m r i : Int), mn[d]? = some m → rs[d]? = some r → idx[d]? = some i → ¬ (r = 1 ∧ m + i < 0))) ∧
      (¬ InBox mn mx x → g.getIndex intArith x = .throw .outOfBound () ∧
        ∃ (d : Nat) (c M i : Int), x[d]? = some c ∧ mx[d]? = some M ∧ idx[d]? = some i ∧ M < c ∧ g.num[d]? = some (i + 1)) := by
  obtain ⟨wf, rfl, rfl, rfl, -⟩ := ctor_wf hg
  obtain ⟨x, e, hd⟩ := coord_dims wf hv
  have hlen : x.length = g.mn.length := hd.length_eq
  refine ⟨x, e, ?_, ?_, fun hb => ?_, fun hb => ⟨wf.getIndex_out hlen hb, ?_⟩⟩
  · rw [hlen, hv.length_eq]
    clear hg hv e wf hlen
    generalize g.mn = mn at *; generalize g.mx = mx at *; generalize g.rs = rs at *; generalize g.num = num at *
    induction hd with
    | nil => rfl
    | cons _ _ ih => simpa using ih
  · intro d c m r i hc hm hr hi
    obtain ⟨n, hn⟩ : ∃ n, g.num[d]? = some n := by
      have := (List.getElem?_eq_some_iff.1 hi).1
      rw [hv.length_eq] at this
      exact ⟨_, List.getElem?_eq_getElem this⟩
    obtain ⟨M, hM⟩ : ∃ M, g.mx[d]? = some M := by
      have := (List.getElem?_eq_some_iff.1 hm).1
      rw [← wf.lx] at this
      exact ⟨_, List.getElem?_eq_getElem this⟩
    obtain ⟨h1, h2, h3, rfl, h5, h6, rfl⟩ := hd.get d c m M r n i hc hm hM hr hn hi
    exact int_centre_tdiv m i r
  · obtain ⟨jdx, e', hd'⟩ := wf.getIndex_dims hb
    rw [e']
    simp only [Res.ok.injEq, and_true]
    clear hb e e' wf hv hg hlen
    generalize g.mn = mn at *; generalize g.mx = mx at *; generalize g.rs = rs at *; generalize g.num = num at *
    induction hd generalizing jdx with
    | nil => cases hd'; simp
    | @cons p m M r n i ps mn mx rs ns is h1 h2 ih =>
      cases hd' with
      | @cons _ _ _ _ _ j _ _ _ _ _ js g1 g2 =>
        obtain ⟨h1, h2, h3, rfl, h5, h6, rfl⟩ := h1
        obtain ⟨k1, k2, k3, k4, k5, k6, rfl⟩ := g1
        rw [List.cons.injEq, int_centre_index_iff h1 h5 k5, ih js g2]
        constructor
        · rintro ⟨a1, a2⟩ d m' r' i' hm hr hi
          rcases d with _ | d
          · simp only [List.getElem?_cons_zero, Option.some.injEq] at hm hr hi
            subst hm hr hi; exact a1
          · simp only [List.getElem?_cons_succ] at hm hr hi
            exact a2 d m' r' i' hm hr hi
        · intro h
          exact ⟨h 0 m r i rfl rfl rfl, fun d m' r' i' hm hr hi => h (d + 1) m' r' i' (by simpa using hm) (by simpa using hr)
            (by simpa using hi)⟩
  · clear e wf hv hg hlen
    generalize g.mn = mn at *; generalize g.mx = mx at *; generalize g.rs = rs at *; generalize g.num = num at *
    induction hd with
    | nil => exact absurd ⟨.nil, .nil⟩ hb
    | @cons p m M r n i ps mn mx rs ns is h1 h2 ih =>
      obtain ⟨k1, k2, k3, rfl, k5, k6, rfl⟩ := h1
      have c1 : m ≤ intArith.centre m i r := by
        have := (int_centre_bd (m := m) k1 k5).1
        have : 0 ≤ i * r := mul_nonneg k5 k1.le
        omega
      by_cases hM : M < intArith.centre m i r
      · exact ⟨0, intArith.centre m i r, M, i, rfl, rfl, rfl, hM, by
          simp only [List.getElem?_cons_zero]; congr 1; exact int_centre_last k1 k2 k5 k6 hM⟩
      · obtain ⟨d, c, M', i', h⟩ := ih (fun hb' => hb ⟨.cons c1 hb'.1, .cons (not_lt.1 hM) hb'.2⟩)
        exact ⟨d + 1, c, M', i', by simpa using h⟩

/-- Cells of width 3 on `-5..9`: the centre `-3.5` is truncated to `-3`, still in the first cell `-5, -4, -3`; with width one it
is not. -/
example : (∃ g : Grid Int Nat, ctor intArith 0 0 [-5] [9] [3] = .ok g () ∧ Valid g.num [0] ∧
      g.getCoordinates intArith [0] = .ok [-3] () ∧ g.getIndex intArith [-3] = .ok [0] ()) ∧
    ∃ g : Grid Int Nat, ctor intArith 0 0 [-5] [5] [1] = .ok g () ∧ Valid g.num [2] ∧
      g.getCoordinates intArith [2] = .ok [-2] () ∧ g.getIndex intArith [-2] = .ok [3] () := by
  refine ⟨⟨⟨List.replicate 5 0, [-5], [9], [3], [5], 5, [1]⟩, by decide, by decide, by decide +kernel, by decide⟩,
    ⟨⟨List.replicate 11 0, [-5], [5], [1], [11], 11, [1]⟩, by decide, by decide, by decide +kernel, by decide⟩⟩

end Grid
end Verif
