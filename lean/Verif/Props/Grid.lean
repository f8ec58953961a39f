import Verif.Lemmas.Grid3
import Mathlib.Tactic.NormNum

/-! Properties C26-C30: the grid. -/

namespace Verif
namespace Grid
variable {C : Type}

/-! ## C26 -/

/-- What C26 says of a successful lookup of `p` in one dimension: the cell `[m + i r, m + (i+1) r)` with the
returned number `i` contains the coordinate `x`; the maximum `M` of the grid belongs to the last cell. -/
def CellContains (m M r : ℚ) (i : Int) (x : ℚ) : Prop :=
  m + i * r ≤ x ∧ (x < m + (i + 1) * r ∨ x = M ∧ x ≤ m + (i + 1) * r)

/-- **C26** over exact reals: for every grid the constructor returns and every point, a point between minimum
and maximum gets a valid index whose cell contains it in every dimension; any other point is rejected. -/
theorem C26_lookup_exact_partial (dflt : C) (mn mx rs : List ℚ) (g : Grid ℚ C)
    (hg : ctor ratArith 0 dflt mn mx rs = .ok g ()) (p : List ℚ) (hl : p.length = mn.length) :
    (InBox mn mx p → ∃ idx, g.getIndex ratArith p = .ok idx () ∧ Valid g.num idx ∧
      (g.tot ≤ 2147483648 → ∃ k, k < g.cells.length ∧ g.cellPos idx = .ok k ()) ∧
      ∀ (d : Nat) (x m M r : ℚ) (i : Int), p[d]? = some x → mn[d]? = some m → mx[d]? = some M →
        rs[d]? = some r → idx[d]? = some i → CellContains m M r i x) ∧
    (¬ InBox mn mx p → g.getIndex ratArith p = .throw .outOfBound ()) := by
  obtain ⟨wf, rfl, rfl, rfl, -⟩ := ctor_wf hg
  refine ⟨fun hb => ?_, fun hb => wf.getIndex_out hl hb⟩
  obtain ⟨idx, e, hd⟩ := wf.getIndex_dims hb
  have hv : Valid g.num idx := hd.valid (by
    rintro p m M r n i ⟨h1, h2, h3, h4, h5, rfl, rfl⟩
    exact index1_bd ratArith_exact h1 h2 h3 h4 h5)
  refine ⟨idx, e, hv, fun ht => ⟨(val idx g.num).toNat, ?_,
    (wf.cellPos_valid ratArith_exact.toSound ht hv).2⟩, ?_⟩
  · have := val_bd hv; have := wf.tot ratArith_exact.toSound; rw [wf.cells_len]; omega
  intro d x m M r i hx hm hM hr hi
  obtain ⟨n, hn⟩ : ∃ n, g.num[d]? = some n := by
    have hlt := (List.getElem?_eq_some_iff.1 hi).1
    rw [hv.length_eq] at hlt
    exact ⟨_, List.getElem?_eq_getElem hlt⟩
  obtain ⟨h1, h2, h3, h4, h5, rfl, rfl⟩ := hd.get d x m M r n i hx hm hM hr hn hi
  exact rat_contains h1 h2 h4

/-- **C26** for integer coordinates. -/
theorem C26_lookup_int (dflt : C) (mn mx rs : List Int) (g : Grid Int C)
    (hg : ctor intArith 0 dflt mn mx rs = .ok g ()) (p : List Int) (hl : p.length = mn.length) :
    (InBox mn mx p → ∃ idx, g.getIndex intArith p = .ok idx () ∧ Valid g.num idx ∧
      ∀ (d : Nat) (x m r i : Int), p[d]? = some x → mn[d]? = some m → rs[d]? = some r → idx[d]? = some i →
        m + i * r ≤ x ∧ x < m + (i + 1) * r) ∧
    (¬ InBox mn mx p → g.getIndex intArith p = .throw .outOfBound ()) := by
  obtain ⟨wf, rfl, rfl, rfl, -⟩ := ctor_wf hg
  refine ⟨fun hb => ?_, fun hb => wf.getIndex_out hl hb⟩
  obtain ⟨idx, e, hd⟩ := wf.getIndex_dims hb
  have hv : Valid g.num idx := hd.valid (by
    rintro p m M r n i ⟨h1, h2, h3, h4, h5, rfl, rfl⟩
    exact index1_bd intArith_exact h1 h2 h3 h4 h5)
  refine ⟨idx, e, hv, ?_⟩
  intro d x m r i hx hm hr hi
  have hlt := (List.getElem?_eq_some_iff.1 hi).1
  obtain ⟨n, hn⟩ : ∃ n, g.num[d]? = some n := by
    rw [hv.length_eq] at hlt
    exact ⟨_, List.getElem?_eq_getElem hlt⟩
  obtain ⟨M, hM⟩ : ∃ M, g.mx[d]? = some M := by
    have := (List.getElem?_eq_some_iff.1 hm).1
    rw [← wf.lx] at this
    exact ⟨_, List.getElem?_eq_getElem this⟩
  obtain ⟨h1, h2, h3, h4, h5, rfl, rfl⟩ := hd.get d x m M r n i hx hm hM hr hn hi
  exact int_contains h1 h4

/-- **C26**, with any monotone rounding after each operation that keeps 0 and 1 (so with `double`): the returned
index never goes below zero and never beyond the number of cells; but it may be *equal* to it
(`C26_rounding_breaks_lookup`). -/
theorem C26_lookup_rounded_partial (fl : ℚ → ℚ) (hm : Monotone fl) (h0 : fl 0 = 0) (h1 : fl 1 = 1) (dflt : C)
    (mn mx rs : List ℚ) (g : Grid ℚ C) (hg : ctor (flArith fl) 0 dflt mn mx rs = .ok g ()) (p : List ℚ)
    (hl : p.length = mn.length) :
    (InBox mn mx p → ∃ idx, g.getIndex (flArith fl) p = .ok idx () ∧
      List.Forall₂ (fun i n => 0 ≤ i ∧ i ≤ n) idx g.num) ∧
    (¬ InBox mn mx p → g.getIndex (flArith fl) p = .throw .outOfBound ()) := by
  obtain ⟨wf, rfl, rfl, rfl, -⟩ := ctor_wf hg
  refine ⟨fun hb => ?_, fun hb => wf.getIndex_out hl hb⟩
  obtain ⟨idx, e, hd⟩ := wf.getIndex_dims hb
  refine ⟨idx, e, hd.le ?_⟩
  rintro p m M r n i ⟨h1', h2, h3, h4, h5, rfl, rfl⟩
  exact index1_bd' (flArith_sound fl hm h0 h1) h1' h2 h3 h4 h5

/-- non-vacuity of the preceding theorem: double rounding meets its hypotheses. -/
example : Monotone fl53 ∧ fl53 0 = 0 ∧ fl53 1 = 1 := ⟨fl53_mono, fl53_zero, fl53_one⟩

/-- the grid `[-1, 1]` with resolution 1. -/
def gridM1 : Grid ℚ ℚ := ⟨[0, 0], [-1], [1], [1], [2], 2, [1]⟩

theorem gridM1_ctor : ctor dblArith 0 (0 : ℚ) [-1] [1] [1] = .ok gridM1 () := by
  have h2 : fl53 (1 - -1) = 2 := by rw [show (1 - -1 : ℚ) = 2 by norm_num]; exact fl53_two
  have hnum : numCells dblArith [-1] [1] [1] = [2] := by
    simp only [numCells, numCell, dblArith, flArith, h2, div_one, fl53_two]
    norm_num
  have hsub : dblArith.sub 1 (-1) = 2 := h2
  simp only [ctor, hnum, List.zipWith_cons_cons, hsub]
  norm_num [linProd, prodFrom, totLoop, fitsInt, gridM1]
  exact ⟨rfl, rfl⟩

/-- The full C26 is **false** for `double`: on the grid `[-1, 1]` with resolution 1 the double `1 - 2^-53` is in
range, but `p - minimum` rounds up to 2 and the index returned is 2 with only two cells; reading the cell of the
point throws. -/
theorem C26_rounding_breaks_lookup :
    ctor dblArith 0 (0 : ℚ) [-1] [1] [1] = .ok gridM1 () ∧
    fl53 (1 - 1 / 2 ^ 53) = 1 - 1 / 2 ^ 53 ∧
    InBox [-1] [1] [(1 - 1 / 2 ^ 53 : ℚ)] ∧
    gridM1.getIndex dblArith [1 - 1 / 2 ^ 53] = .ok [2] () ∧ gridM1.num = [2] ∧
    gridM1.getCell [2] = .throw .outOfBound () := by
  have hbox : InBox [-1] [1] [(1 - 1 / 2 ^ 53 : ℚ)] :=
    ⟨.cons (by norm_num) .nil, .cons (by norm_num) .nil⟩
  refine ⟨gridM1_ctor, ?_, hbox, ?_, rfl, by decide⟩
  · have hl : Int.log 2 (1 - 1 / 2 ^ 53 : ℚ) = -1 := by
      have a1 : (-1:Int) ≤ Int.log 2 (1 - 1 / 2 ^ 53 : ℚ) := by
        rw [← Int.zpow_le_iff_le_log (b := 2) (by norm_num) (by norm_num)]; norm_num
      have a2 : Int.log 2 (1 - 1 / 2 ^ 53 : ℚ) < 0 := by
        rw [← Int.lt_zpow_iff_log_lt (b := 2) (by norm_num) (by norm_num)]; norm_num
      omega
    unfold fl53 fl53pos
    rw [if_pos (by norm_num), hl, roundEven_of_eq (n := 2 ^ 53 - 1) (by norm_num)]
    norm_num
  · have hr : gridM1.isInRange [(1 - 1 / 2 ^ 53 : ℚ)] = true :=
      (isInRange_iff gridM1 [(1 - 1 / 2 ^ 53 : ℚ)] rfl rfl).2 hbox
    rw [getIndex, if_neg (by decide), hr]
    have : indexLoop dblArith [(1 - 1 / 2 ^ 53 : ℚ)] gridM1.mn gridM1.mx gridM1.rs gridM1.num = [2] := by
      simp only [indexLoop, gridM1, index1]
      rw [if_neg (by norm_num)]
      simp only [dblArith, flArith, fl53_tie, div_one, fl53_two]
      rw [truncQ_of_nonneg (by norm_num)]
      norm_num
    rw [this]; rfl

/-- non-vacuity of C26 over exact reals: a 2-D grid whose last column of cells is cut by the maximum; the point
`(0, 5/2)` on the maximum. -/
example : ∃ g : Grid ℚ Nat, ctor ratArith 0 7 [0, 0] [2, 5/2] [1, 1] = .ok g () ∧ g.num = [2, 3] ∧
    g.tot = 6 ∧ InBox [0, 0] [2, 5/2] [(0 : ℚ), 5/2] ∧ g.getIndex ratArith [0, 5/2] = .ok [0, 2] () := by
  refine ⟨⟨List.replicate 6 7, [0, 0], [2, 5/2], [1, 1], [2, 3], 6, [3, 1]⟩, ?_, rfl, rfl,
    ⟨.cons (by norm_num) (.cons (by norm_num) .nil), .cons (by norm_num) (.cons (by norm_num) .nil)⟩, ?_⟩
  · decide +kernel
  · decide +kernel

/-- non-vacuity for integers. -/
example : ctor intArith 0 (0 : Nat) [-3, 0] [4, 10] [2, 5] =
    .ok ⟨List.replicate 12 0, [-3, 0], [4, 10], [2, 5], [4, 3], 12, [3, 1]⟩ () := by decide

/-! ## C27 -/

/-- **C27** over exact reals: for every valid index the coordinates are the cell centre; if the centre is in the
domain, looking it up gives the index back; if not, the cell is the last one of some dimension, its centre lies
beyond the maximum there, and the lookup is rejected. -/
theorem C27_roundtrip_exact_partial (dflt : C) (mn mx rs : List ℚ) (g : Grid ℚ C)
    (hg : ctor ratArith 0 dflt mn mx rs = .ok g ()) (idx : List Int) (hv : Valid g.num idx) :
    ∃ x, g.getCoordinates ratArith idx = .ok x () ∧
      (∀ (d : Nat) (c m r : ℚ) (i : Int), x[d]? = some c → mn[d]? = some m → rs[d]? = some r →
        idx[d]? = some i → c = m + (i + 1/2) * r) ∧
      (InBox mn mx x → g.getIndex ratArith x = .ok idx ()) ∧
      (¬ InBox mn mx x → g.getIndex ratArith x = .throw .outOfBound () ∧
        ∃ (d : Nat) (c M : ℚ) (i : Int), x[d]? = some c ∧ mx[d]? = some M ∧ idx[d]? = some i ∧
          M < c ∧ g.num[d]? = some (i + 1)) := by
  obtain ⟨wf, rfl, rfl, rfl, -⟩ := ctor_wf hg
  obtain ⟨x, e, hd⟩ := coord_dims wf hv
  refine ⟨x, e, ?_, fun hb => ?_, fun hb => ⟨?_, ?_⟩⟩
  · intro d c m r i hc hm hr hi
    obtain ⟨n, hn⟩ : ∃ n, g.num[d]? = some n := by
      have := (List.getElem?_eq_some_iff.1 hi).1
      rw [hv.length_eq] at this
      exact ⟨_, List.getElem?_eq_getElem this⟩
    obtain ⟨M, hM⟩ : ∃ M, g.mx[d]? = some M := by
      have := (List.getElem?_eq_some_iff.1 hm).1
      rw [← wf.lx] at this
      exact ⟨_, List.getElem?_eq_getElem this⟩
    obtain ⟨h1, h2, h3, rfl, h5, h6, rfl⟩ := hd.get d c m M r n i hc hm hM hr hn hi
    simp [ratArith, flArith]
  · obtain ⟨jdx, e', hd'⟩ := wf.getIndex_dims hb
    rw [e']
    congr 1
    symm
    refine hd.index_eq hd' ?_
    rintro p m M r n i j ⟨h1, h2, h3, rfl, h5, h6, rfl⟩ ⟨k1, k2, k3, k4, k5, k6, rfl⟩
    exact (rat_centre_index h1 h5 h6).symm
  · have hlen : x.length = g.mn.length := by
      exact hd.length_eq
    exact wf.getIndex_out hlen hb
  · clear e wf hv hg
    generalize g.mn = mn at *; generalize g.mx = mx at *; generalize g.rs = rs at *; generalize g.num = num at *
    induction hd with
    | nil => exact absurd ⟨.nil, .nil⟩ hb
    | @cons p m M r n i ps mn mx rs ns is h1 h2 ih =>
      obtain ⟨k1, k2, k3, rfl, k5, k6, rfl⟩ := h1
      obtain ⟨c1, c2⟩ := rat_centre_bd k1 k5 k6
      by_cases hM : M < ratArith.centre m i r
      · exact ⟨0, ratArith.centre m i r, M, i, rfl, rfl, rfl, hM, by
          have := c2 hM; simp only [List.getElem?_cons_zero]; congr 1; omega⟩
      · obtain ⟨d, c, M', i', h⟩ := ih (fun hb' => hb ⟨.cons c1 hb'.1, .cons (not_lt.1 hM) hb'.2⟩)
        exact ⟨d + 1, c, M', i', by simpa using h⟩

/-- non-vacuity: grid `[0, 5/2]` with resolution 1 (3 cells): centre 3/2 of cell 1 comes back, centre 5/2 of
cell 2 is the maximum and comes back, and on `[0, 9/4]` the centre of cell 2 is rejected. -/
example : (∃ g : Grid ℚ Nat, ctor ratArith 0 0 [0] [9/4] [1] = .ok g () ∧ Valid g.num [2] ∧
    g.getCoordinates ratArith [2] = .ok [5/2] () ∧ g.getIndex ratArith [5/2] = .throw .outOfBound () ∧
    g.getCoordinates ratArith [1] = .ok [3/2] () ∧ g.getIndex ratArith [3/2] = .ok [1] ()) := by
  refine ⟨⟨[0, 0, 0], [0], [9/4], [1], [3], 3, [1]⟩, by decide +kernel, by decide, by decide +kernel,
    by decide +kernel, by decide +kernel, by decide +kernel⟩

/-- **C27** for integer coordinates with a non-negative minimum. -/
theorem C27_roundtrip_int_partial (dflt : C) (mn mx rs : List Int) (g : Grid Int C)
    (hg : ctor intArith 0 dflt mn mx rs = .ok g ()) (h0 : ∀ m ∈ mn, 0 ≤ m) (idx : List Int)
    (hv : Valid g.num idx) :
    ∃ x, g.getCoordinates intArith idx = .ok x () ∧
      (InBox mn mx x → g.getIndex intArith x = .ok idx ()) := by
  obtain ⟨wf, rfl, rfl, rfl, -⟩ := ctor_wf hg
  obtain ⟨x, e, hd⟩ := coord_dims wf hv
  refine ⟨x, e, fun hb => ?_⟩
  obtain ⟨jdx, e', hd'⟩ := wf.getIndex_dims hb
  rw [e']
  congr 1
  symm
  clear hb e e' wf hv hg
  generalize g.mn = mn at *; generalize g.mx = mx at *; generalize g.rs = rs at *; generalize g.num = num at *
  induction hd generalizing jdx with
  | nil => cases hd'; rfl
  | @cons p m M r n i ps mn mx rs ns is h1 h2 ih =>
    cases hd' with
    | @cons _ _ _ _ _ j _ _ _ _ _ js g1 g2 =>
      obtain ⟨h1, h2, h3, rfl, h5, h6, rfl⟩ := h1
      obtain ⟨k1, k2, k3, k4, k5, k6, rfl⟩ := g1
      rw [int_centre_index (h0 m (by simp)) h1 h5 k5,
        ih js (fun m hm => h0 m (by simp [hm])) g2]

/-- non-vacuity: cells of width 2 on `3..12`. -/
example : ∃ g : Grid Int Nat, ctor intArith 0 0 [3] [12] [2] = .ok g () ∧ Valid g.num [4] ∧
    g.getCoordinates intArith [4] = .ok [12] () ∧ g.getIndex intArith [12] = .ok [4] () := by
  refine ⟨⟨List.replicate 5 0, [3], [12], [2], [5], 5, [1]⟩, by decide, by decide, by decide +kernel, by decide⟩

/-- The full C27 is **false** for integer grids with a negative minimum: the centre `-4.5` of the first cell of
`-5..5` is truncated to `-4`, which belongs to the second cell. -/
theorem C27_int_negative_minimum_breaks : ∃ g : Grid Int Nat, ctor intArith 0 0 [-5] [5] [1] = .ok g () ∧
    Valid g.num [0] ∧ g.getCoordinates intArith [0] = .ok [-4] () ∧ g.getIndex intArith [-4] = .ok [1] () := by
  refine ⟨⟨List.replicate 11 0, [-5], [5], [1], [11], 11, [1]⟩, by decide, by decide, by decide +kernel,
    by decide⟩

/-! ## C28 -/

section
variable {T : Type} [LinearOrder T]

/-- **C28** for grids of at most `2^31` cells (any of the arithmetics): the linear index maps the valid indices
one-to-one onto `0..tot-1`, where `tot` is the product of the numbers of cells. -/
theorem C28_linear_index_bijection_partial (A : GridArith T) (zero : T) (hA : A.Sound zero) (dflt : C)
    (mn mx rs : List T) (g : Grid T C) (hg : ctor A zero dflt mn mx rs = .ok g ())
    (ht : g.tot ≤ 2147483648) :
    (g.tot : Int) = g.num.prod ∧
    (∀ idx, Valid g.num idx → ∃ k, g.computeLinearIndex idx = some k ∧ k < g.tot ∧
      g.cellPos idx = .ok k ()) ∧
    (∀ i j, Valid g.num i → Valid g.num j → g.computeLinearIndex i = g.computeLinearIndex j → i = j) ∧
    (∀ k, k < g.tot → ∃ idx, Valid g.num idx ∧ g.computeLinearIndex idx = some k) := by
  obtain ⟨wf, -⟩ := ctor_wf hg
  have htot := wf.tot hA
  refine ⟨htot, ?_, ?_, ?_⟩
  · intro idx hv
    obtain ⟨e1, e2⟩ := wf.cellPos_valid hA ht hv
    have := val_bd hv
    exact ⟨_, e1, by omega, e2⟩
  · intro i j hi hj h
    rw [(wf.cellPos_valid hA ht hi).1, (wf.cellPos_valid hA ht hj).1] at h
    injection h with h
    have := val_bd hi; have := val_bd hj
    exact val_inj hi hj (by omega)
  · intro k hk
    obtain ⟨idx, hv, e⟩ := val_surj (wf.pos hA) (k := k) (by omega) (by omega)
    exact ⟨idx, hv, by rw [(wf.cellPos_valid hA ht hv).1, e]; simp⟩

end

/-- the three arithmetics meet the hypothesis of C28 and C29. -/
example : intArith.Sound 0 ∧ ratArith.Sound 0 ∧ dblArith.Sound 0 :=
  ⟨intArith_exact.toSound, ratArith_exact.toSound, dblArith_sound⟩

/-- non-vacuity: a 4 x 3 grid. -/
example : ∃ g : Grid Int Nat, ctor intArith 0 0 [-3, 0] [4, 10] [2, 5] = .ok g () ∧ g.tot = 12 ∧
    Valid g.num [3, 1] ∧ g.computeLinearIndex [3, 1] = some 10 := by
  refine ⟨⟨List.replicate 12 0, [-3, 0], [4, 10], [2, 5], [4, 3], 12, [3, 1]⟩, by decide, rfl, by decide, by decide⟩

/-- The full C28 is **false** beyond `2^31` cells: the grid of `2^16 x 2^16` unit cells is accepted, index
`(2^15, 0)` is valid, but `mLinProd(0) * idx(0)` overflows `int`. -/
theorem C28_large_grid_overflows : ∃ g : Grid Int Unit,
    ctor intArith 0 () [0, 0] [65535, 65535] [1, 1] = .ok g () ∧ Valid g.num [32768, 0] ∧
    g.computeLinearIndex [32768, 0] = none ∧ g.getCell [32768, 0] = .ub := by
  obtain ⟨cells, hc⟩ : ∃ c : Nat → List Unit, c = fun n => List.replicate n () := ⟨_, rfl⟩
  have hn : numCells intArith [0, 0] [65535, 65535] [1, 1] = [65536, 65536] := by decide
  have ht : totLoop [65536, 65536] 1 = 4294967296 := by decide
  have hp : linProd [65536, 65536] = some [65536, 1] := by decide
  have hf : [65536, 65536].all fitsInt = true := by decide
  have hc' : ∀ n, List.replicate n () = cells n := fun n => by rw [hc]
  refine ⟨⟨cells 4294967296, [0, 0], [65535, 65535], [1, 1], [65536, 65536], 4294967296,
    [65536, 1]⟩, ?_, ?_, ?_, ?_⟩
  · simp only [ctor, hn, hf, hp, ht, hc', if_true]
    simp [intArith]
  · exact .cons (by omega) (.cons (by omega) .nil)
  · simp [computeLinearIndex, linLoop, fitsInt]
  simp [getCell, cellPos, isValidIndex, computeLinearIndex, linLoop, fitsInt]

/-! ## C29 -/

section
variable {T : Type} [LinearOrder T]

/-- **C29**: on every grid with at least one dimension, starting at the zero index, the first `tot` indices
produced by repeated `incrementIndex` are all the valid indices, each exactly once, and the next one is the end
sentinel `getNumCells()` (which is not a valid index). -/
theorem C29_increment_visits_each_once (A : GridArith T) (zero : T) (hA : A.Sound zero) (dflt : C)
    (mn mx rs : List T) (g : Grid T C) (hg : ctor A zero dflt mn mx rs = .ok g ()) (hd : mn ≠ []) :
    (∀ k, k < g.tot → Valid g.num (g.incrementIndex^[k] (List.replicate mn.length 0))) ∧
    (∀ idx, Valid g.num idx →
      ∃! k, k < g.tot ∧ g.incrementIndex^[k] (List.replicate mn.length 0) = idx) ∧
    g.incrementIndex^[g.tot] (List.replicate mn.length 0) = g.num ∧ ¬ Valid g.num g.num := by
  obtain ⟨wf, rfl, -⟩ := ctor_wf hg
  have hp := wf.pos hA
  have htot := wf.tot hA
  have hlen := wf.len hA
  have hne : g.num ≠ [] := by
    intro e; rw [e] at hlen; exact hd (List.eq_nil_of_length_eq_zero hlen.symm)
  rw [← hlen]
  refine ⟨fun k hk => (iterate_inc g hne hp k (by omega)).1, ?_, ?_, fun h => valid_ne_num hne h rfl⟩
  · intro idx hv
    have hb := rk_bd hv
    refine ⟨(rk idx g.num).toNat, ⟨by omega, ?_⟩, ?_⟩
    · obtain ⟨hv', hr⟩ := iterate_inc g hne hp (rk idx g.num).toNat (by omega)
      exact rk_inj hv' hv (by rw [hr]; omega)
    · rintro k ⟨hk, rfl⟩
      have := (iterate_inc g hne hp k (by omega)).2
      omega
  · have : g.tot = g.num.prod.toNat := by omega
    rw [this]; exact iterate_inc_end g hne hp

end

/-- non-vacuity: a 2 x 3 grid. -/
example : ∃ g : Grid Int Nat, ctor intArith 0 0 [0, 0] [1, 2] [1, 1] = .ok g () ∧ g.tot = 6 ∧
    (List.range 7).map (fun k => g.incrementIndex^[k] [0, 0]) =
      [[0, 0], [1, 0], [0, 1], [1, 1], [0, 2], [1, 2], [2, 3]] := by
  refine ⟨⟨List.replicate 6 0, [0, 0], [1, 2], [1, 1], [2, 3], 6, [3, 1]⟩, by decide, rfl, by decide⟩

/-! ## C30 -/

section
variable {T : Type} [LinearOrder T]

/-- **C30**, the part that holds: an index that is too large in some dimension is rejected by every access; an
index with no negative component is accepted iff it is valid. -/
theorem C30_too_large_rejected_partial (A : GridArith T) (zero : T) (hA : A.Sound zero) (dflt : C)
    (mn mx rs : List T) (g : Grid T C) (hg : ctor A zero dflt mn mx rs = .ok g ()) (idx : List Int)
    (hl : idx.length = mn.length) :
    ((∃ (d : Nat) (i n : Int), idx[d]? = some i ∧ g.num[d]? = some n ∧ n ≤ i) →
      g.getCell idx = .throw .outOfBound () ∧ g.getCoordinates A idx = .throw .outOfBound () ∧
      ∀ f, g.modifyCell idx f = .throw .outOfBound g) ∧
    ((∀ i ∈ idx, 0 ≤ i) → g.tot ≤ 2147483648 →
      ((∃ c, g.getCell idx = .ok c ()) ↔ Valid g.num idx)) := by
  obtain ⟨wf, rfl, -⟩ := ctor_wf hg
  have hlen := wf.len hA
  have hl' : idx.length = g.num.length := by omega
  have key : g.isValidIndex idx = false →
      g.getCell idx = .throw .outOfBound () ∧ g.getCoordinates A idx = .throw .outOfBound () ∧
      ∀ f, g.modifyCell idx f = .throw .outOfBound g := by
    intro h
    have hc : g.cellPos idx = .throw .outOfBound () := by
      rw [cellPos, if_neg (by simpa using hl'), h]; rfl
    refine ⟨by rw [getCell, hc], ?_, fun f => by rw [modifyCell, hc]⟩
    rw [getCoordinates, if_neg (by simpa using hl'), h]; rfl
  constructor
  · rintro ⟨d, i, n, hi, hn, hle⟩
    apply key
    rw [← Bool.not_eq_true, isValidIndex_iff g idx hl']
    intro hf
    obtain ⟨hi1, rfl⟩ := List.getElem?_eq_some_iff.1 hi
    obtain ⟨hn1, rfl⟩ := List.getElem?_eq_some_iff.1 hn
    have := List.Forall₂.get hf hi1 hn1
    simp only [List.get_eq_getElem] at this
    omega
  · intro h0 ht
    constructor
    · rintro ⟨c, hc⟩
      by_cases hv : g.isValidIndex idx = true
      · rw [isValidIndex_iff g idx hl'] at hv
        clear key hc hl hl' hlen
        generalize g.num = num at hv
        induction hv with
        | nil => exact .nil
        | cons hd tl ih => exact .cons ⟨h0 _ (by simp), hd⟩ (ih fun i hi => h0 i (by simp [hi]))
      · rw [(key (by simpa using hv)).1] at hc; exact absurd hc (by simp)
    · intro hv
      have hb := val_bd hv
      have htot := wf.tot hA
      have hlt : (val idx g.num).toNat < g.cells.length := by rw [wf.cells_len]; omega
      refine ⟨g.cells[(val idx g.num).toNat], ?_⟩
      rw [getCell, (wf.cellPos_valid hA ht hv).2]
      simp [hlt]

end

/-- The full C30 is **false**: `isValidIndex` does not test the lower bound.  On a 2 x 3 grid, index `(1, -1)` is
accepted and designates the cell of the valid index `(0, 2)`; index `(0, -1)` reads outside the storage. -/
theorem C30_negative_index_accepted : ∃ g : Grid Int Nat,
    ctor intArith 0 0 [0, 0] [1, 2] [1, 1] = .ok g () ∧ ¬ Valid g.num [1, -1] ∧
    g.isValidIndex [1, -1] = true ∧ g.cellPos [1, -1] = .ok 2 () ∧ g.cellPos [0, 2] = .ok 2 () ∧
    g.isValidIndex [0, -1] = true ∧ g.getCell [0, -1] = .ub := by
  refine ⟨⟨List.replicate 6 0, [0, 0], [1, 2], [1, 1], [2, 3], 6, [3, 1]⟩, by decide, by decide, by decide,
    by decide, by decide, by decide, by decide⟩

/-- non-vacuity of `C30_too_large_rejected_partial`: rejected in the second dimension. -/
example : ∃ g : Grid Int Nat, ctor intArith 0 0 [0, 0] [1, 2] [1, 1] = .ok g () ∧
    g.getCell [1, 3] = .throw .outOfBound () ∧ g.getCell [1, 2] = .ok 0 () := by
  refine ⟨⟨List.replicate 6 0, [0, 0], [1, 2], [1, 1], [2, 3], 6, [3, 1]⟩, by decide, by decide, by decide⟩

end Grid
end Verif
