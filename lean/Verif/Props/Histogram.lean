import Verif.Lemmas.Histogram2
import Verif.Props.Grid
import Mathlib.Algebra.BigOperators.Ring.List

/-! Properties C31, C51, C52, C53: histograms. -/

namespace Verif
namespace Histogram
open Grid

section
variable {T : Type} [LinearOrder T]

/-- **C31** for integer and exact real samples (`Exact`; the two arithmetics meet it), any number of dimensions, at
most `2^31` bins.  After adding any list of samples of the right dimension to a fresh histogram:
`addSamples` comes back, every bin counts exactly the in-range samples looked up to it, the total is the number of
in-range samples, and the order of the samples does not matter. -/
theorem C31_histogram_counts_partial (A : GridArith T) (zero : T) (hA : A.Exact zero) (mn mx rs : List T)
    (h0 : Hist T) (hg : ctor A zero (0 : ℚ) mn mx rs = .ok h0 ()) (ht : h0.tot ≤ 2147483648)
    (xs : List (List T)) (hx : ∀ x ∈ xs, x.length = mn.length) [DecidablePred (InBox mn mx)] :
    ∃ h, addSamples A xs h0 = .ok () h ∧ h.num = h0.num ∧ h.mn = mn ∧ h.mx = mx ∧ h.rs = rs ∧
      (∀ idx, Valid h0.num idx →
        h.getCell idx = .ok (xs.countP fun x => decide (h0.getIndex A x = .ok idx ()) : ℚ) ()) ∧
      getSum h = (xs.countP fun x => decide (InBox mn mx x) : ℚ) ∧
      ∀ ys, ys.Perm xs → addSamples A ys h0 = .ok () h := by
  obtain ⟨wf, rfl, rfl, rfl, hc⟩ := ctor_wf hg
  have hself : h0 = withCells h0 h0.cells := rfl
  have hlen : h0.cells.length = h0.tot := wf.cells_len
  have hbin : ∀ k, some k ∈ xs.map (binOf A h0) → k < h0.cells.length := by
    intro k hk
    obtain ⟨x, -, hxk⟩ := List.mem_map.1 hk
    rw [hlen]; exact binOf_lt hA wf hxk
  set cs := (xs.map (binOf A h0)).foldl bump h0.cells with hcs
  have hcl : cs.length = h0.tot := by rw [hcs, length_foldl_bump, hlen]
  refine ⟨withCells h0 cs, ?_, rfl, rfl, rfl, rfl, ?_, ?_, ?_⟩
  · conv_lhs => rw [hself]
    rw [addSamples_eq hA wf ht xs hx _ hlen]
  · intro idx hv
    have hb := val_bd hv
    have htot := wf.tot hA.toSound
    have hlt : (val idx h0.num).toNat < h0.cells.length := by omega
    rw [getCell, ((WF_withCells wf hcl).cellPos_valid hA.toSound ht hv).2]
    simp only
    have hget : (withCells h0 cs).cells[(val idx (withCells h0 cs).num).toNat]? =
        some ((xs.map (binOf A h0)).count (some (val idx h0.num).toNat) : ℚ) := by
      show cs[(val idx h0.num).toNat]? = _
      rw [hcs, foldl_bump_get, hc, List.getElem?_replicate, if_pos (by rw [hc] at hlt; simpa using hlt)]
      simp
    rw [hget]
    simp only [Res.ok.injEq, Nat.cast_inj, and_true]
    rw [List.count, List.countP_map]
    refine List.countP_congr ?_
    intro x hxm
    simp only [Function.comp, beq_iff_eq, decide_eq_true_eq]
    unfold binOf
    by_cases hbx : InBox h0.mn h0.mx x
    · obtain ⟨i, e', hv'⟩ := wf.getIndex_valid hA hbx
      rw [e']
      simp only [Option.some.injEq, Res.ok.injEq, and_true]
      constructor
      · intro e
        have := val_bd hv'
        exact val_inj hv' hv (by omega)
      · rintro rfl; rfl
    · rw [wf.getIndex_out (hx x hxm) hbx]; simp
  · rw [getSum_eq]
    show cs.sum = _
    rw [hcs, sum_foldl_bump _ _ hbin, hc, List.sum_replicate, List.countP_map]
    simp only [nsmul_zero, zero_add, Nat.cast_inj]
    refine List.countP_congr ?_
    intro x hxm
    simp only [Function.comp, decide_eq_true_eq]
    exact binOf_inBox hA wf (hx x hxm)
  · intro ys hp
    conv_lhs => rw [hself]
    rw [addSamples_eq hA wf ht ys (fun y hy => hx y (hp.subset hy)) _ hlen]
    rw [foldl_bump_perm (hp.map _)]

/-- **C31**, out-of-range samples: on any histogram reached (any bin contents), an out-of-range sample changes
nothing. -/
theorem C31_out_of_range_ignored (A : GridArith T) (zero : T) (mn mx rs : List T) (h0 h : Hist T)
    (hg : ctor A zero (0 : ℚ) mn mx rs = .ok h0 ()) (hh : h.mn = h0.mn ∧ h.mx = h0.mx) (x : List T)
    (hx : x.length = mn.length) (hb : ¬ InBox mn mx x) : addSample A h x = .ok () h := by
  obtain ⟨wf, rfl, rfl, rfl, hc⟩ := ctor_wf hg
  have hl : x.length = h.mx.length := by rw [hh.2, wf.lx, hx]
  have : ¬ h.isInRange x = true := by
    rw [isInRange_iff h x hl (by rw [hh.1, hh.2, wf.lx]), hh.1, hh.2]; exact hb
  rw [addSample, if_neg (by simpa using hl), if_neg this]

/-- **C31**, normalisation: whatever the bins hold, if their sum is not zero the normalised histogram sums to one,
every bin is divided by the sum and the geometry is unchanged. -/
theorem C31_normalized (h : Hist T) (hs : getSum h ≠ 0) :
    getSum (getNormalized h) = 1 ∧
    (∀ (k : Nat) (c : ℚ), h.cells[k]? = some c → (getNormalized h).cells[k]? = some (c / getSum h)) ∧
    (getNormalized h).num = h.num ∧ (getNormalized h).mn = h.mn ∧ (getNormalized h).mx = h.mx ∧
    (getNormalized h).rs = h.rs := by
  refine ⟨?_, ?_, rfl, rfl, rfl, rfl⟩
  · rw [getSum_eq]
    have : (getNormalized h).cells = h.cells.map (· * (getSum h)⁻¹) := by
      simp [getNormalized, div_eq_mul_inv]
    rw [this, List.sum_map_mul_right, List.map_id', ← getSum_eq]
    exact mul_inv_cancel₀ hs
  · intro k c hk
    simp [getNormalized, hk]

end

/-- The full C31 is **false** for `double`: adding the in-range sample `1 - 2^-53` to the histogram of `[-1, 1]`
with bins of width 1 throws `OutOfBoundException` instead of counting it. -/
theorem C31_double_sample_throws :
    ctor dblArith 0 (0 : ℚ) [-1] [1] [1] = .ok gridM1 () ∧ InBox [-1] [1] [(1 - 1 / 2 ^ 53 : ℚ)] ∧
    addSample dblArith gridM1 [1 - 1 / 2 ^ 53] = .throw .outOfBound gridM1 := by
  obtain ⟨h1, -, h3, h4, -, h6⟩ := C26_rounding_breaks_lookup
  refine ⟨h1, h3, ?_⟩
  rw [addSample, if_neg (by decide), if_pos ((isInRange_iff gridM1 [(1 - 1 / 2 ^ 53 : ℚ)] rfl rfl).2 h3), h4]
  decide

/-- non-vacuity of C31: both exact arithmetics, and a two-dimensional run with an out-of-range sample and a sample
on the maximum. -/
example : intArith.Exact 0 ∧ ratArith.Exact 0 := ⟨intArith_exact, ratArith_exact⟩
example : ctor intArith 0 (0 : ℚ) [0, 0] [3, 1] [2, 1] =
      .ok ⟨[0, 0, 0, 0], [0, 0], [3, 1], [2, 1], [2, 2], 4, [2, 1]⟩ () ∧
    addSamples intArith [[3, 1], [1, 1], [7, 0], [0, 1]] ⟨[0, 0, 0, 0], [0, 0], [3, 1], [2, 1], [2, 2], 4, [2, 1]⟩ =
      .ok () ⟨[0, 2, 0, 1], [0, 0], [3, 1], [2, 1], [2, 2], 4, [2, 1]⟩ := by
  constructor <;> decide +kernel
example : getSum (⟨[0, 2, 0, 1], [0, 0], [3, 1], [2, 1], [2, 2], 4, [2, 1]⟩ : Hist Int) ≠ 0 := by
  decide +kernel

/-! ## C51: statistics of one-dimensional histograms over exact reals -/

/-- A one-dimensional histogram over `[m, M]` with bins of width `r` and any contents: constructed, then bins
overwritten at will. -/
def IsHist1 (h : Hist ℚ) (m M r : ℚ) : Prop :=
  ∃ h0, ctor ratArith 0 (0 : ℚ) [m] [M] [r] = .ok h0 () ∧ h0.tot ≤ 2147483648 ∧
    h = { h0 with cells := h.cells } ∧ h.cells.length = h0.tot

theorem IsHist1.oneD {h : Hist ℚ} {m M r : ℚ} (hh : IsHist1 h m M r) : OneD h m M r := by
  obtain ⟨h0, hg, ht, e, hl⟩ := hh
  obtain ⟨wf, e1, e2, e3, -⟩ := ctor_wf hg
  have e' : h = withCells h0 h.cells := e
  rw [e']
  exact ⟨WF_withCells wf hl, e1, e2, e3, ht⟩

/-- **C51** (mean, variance): the mean is the average of the bin centres weighted by the bins, the variance the
weighted squared deviation divided by the sum minus one; an empty histogram has neither, one with total one has no
variance (not a number). -/
theorem C51_mean_variance (h : Hist ℚ) (m M r : ℚ) (hh : IsHist1 h m M r) :
    let c := fun k : Nat => h.cells.getD k 0
    let x := fun k : Nat => m + ((k : ℚ) + 1/2) * r
    let n := h.cells.length
    let total := ∑ k ∈ Finset.range n, c k
    let mean := (∑ k ∈ Finset.range n, x k * c k) / total
    getMean ratArith h = .ok (if total = 0 then none else some mean) () ∧
    getVariance ratArith h = .ok (if total = 0 ∨ total = 1 then none else
      some ((∑ k ∈ Finset.range n, (x k - mean) ^ 2 * c k) / (total - 1))) () := by
  intro c x n total mean
  have o := hh.oneD
  have hsum : getSum h = total := by rw [getSum_eq, sum_eq_range]
  have hm : getMean ratArith h = .ok (if total = 0 then none else some mean) () := by
    rw [getMean, o.loop (meanBody ratArith h) (fun s k => s + x k * c k) (by
      intro k s hk
      rw [meanBody, o.getCoordinates hk, o.getCell hk]), foldl_add, hsum]
    simp only [zero_add, fdiv]
    rfl
  refine ⟨hm, ?_⟩
  rw [getVariance, hm]
  by_cases h0 : total = 0
  · simp [h0]
  rw [if_neg h0]
  simp only
  rw [o.loop (varBody ratArith h mean) (fun s k => s + (x k - mean) ^ 2 * c k) (by
    intro k s hk
    rw [varBody, o.getCoordinates hk, o.getCell hk]
    simp only [pow_two, x, c]), foldl_add, hsum]
  simp only [zero_add, fdiv]
  by_cases h1 : total = 1
  · simp [h1]
  · rw [if_neg (by intro h; exact h1 (by linarith)), if_neg (by tauto)]

/-- **C51** (mode): the centre of the first bin holding the largest value. -/
theorem C51_mode (h : Hist ℚ) (m M r : ℚ) (hh : IsHist1 h m M r) :
    let c := fun k : Nat => h.cells.getD k 0
    ∃ k, k < h.cells.length ∧ getMode ratArith h = .ok [m + (k + 1/2) * r] () ∧
      (∀ j, j < h.cells.length → c j ≤ c k) ∧ ∀ j, j < k → c j < c k := by
  intro c
  have o := hh.oneD
  obtain ⟨k, hk, e, h1, h2⟩ := mode_fold c h.cells.length o.num.2
  refine ⟨k, hk, ?_, h1, h2⟩
  have : getModeIdx h = .ok (some (c k, [(k : Int)])) () := by
    rw [getModeIdx, o.loop (modeBody h) (modeStep c) (by
      intro k s hk
      rw [modeBody, o.getCell hk]
      rcases s with _ | ⟨mx, mi⟩
      · rfl
      · simp only [c, modeStep]; split_ifs <;> rfl), e]
  rw [getMode, this]
  exact o.getCoordinates hk

/-- **C51** (median): if no bin is negative, the centre of the first bin at which the running sum reaches half of
the total. -/
theorem C51_median (h : Hist ℚ) (m M r : ℚ) (hh : IsHist1 h m M r) (hc : ∀ q ∈ h.cells, 0 ≤ q) :
    let cum := fun k : Nat => ∑ j ∈ Finset.range (k + 1), h.cells.getD j 0
    ∃ k, k < h.cells.length ∧ getMedian ratArith h = .ok [m + (k + 1/2) * r] () ∧
      h.cells.sum / 2 ≤ cum k ∧ ∀ j, j < k → cum j < h.cells.sum / 2 := by
  intro cum
  have o := hh.oneD
  have hi : getMedianIdx h = .ok ((List.range h.cells.length).foldl
      (medianStep (fun k => h.cells.getD k 0) (h.cells.sum / 2)) (0, none)).2 () := by
    rw [getMedianIdx, o.loop (medianBody h) (medianStep (fun k => h.cells.getD k 0) (h.cells.sum / 2)) (by
      intro k s hk
      rcases s with ⟨a, _ | b⟩
      · rw [medianBody]
        simp only
        rw [o.getCell hk, getSum_eq]
        simp only [mul_one_div, medianStep]
        split_ifs <;> rfl
      · rfl)]
  rcases median_fold (fun k => h.cells.getD k 0) (h.cells.sum / 2) h.cells.length with ⟨e1, e2, hlt⟩ | ⟨k, hk, e, h1, h2⟩
  · exfalso
    have hn := o.num.2
    have := hlt (h.cells.length - 1) (by omega)
    rw [show h.cells.length - 1 + 1 = h.cells.length by omega, ← sum_eq_range] at this
    have hs : 0 ≤ h.cells.sum := List.sum_nonneg hc
    linarith
  · refine ⟨k, hk, ?_, h1, h2⟩
    rw [getMedian, hi, e]
    exact o.getCoordinates hk

/-- non-vacuity of C51: contents 1, 3, 0 on `[0, 5/2]`. -/
example : IsHist1 ⟨[1, 3, 0], [0], [5/2], [1], [3], 3, [1]⟩ 0 (5/2) 1 ∧
    getMean ratArith ⟨[1, 3, 0], [0], [5/2], [1], [3], 3, [1]⟩ = .ok (some (5/4)) () ∧
    getMedian ratArith ⟨[1, 3, 0], [0], [5/2], [1], [3], 3, [1]⟩ = .ok [3/2] () ∧
    getMode ratArith ⟨[1, 3, 0], [0], [5/2], [1], [3], 3, [1]⟩ = .ok [3/2] () := by
  refine ⟨⟨⟨[0, 0, 0], [0], [5/2], [1], [3], 3, [1]⟩, by decide +kernel, by decide, rfl, rfl⟩,
    by decide +kernel, by decide +kernel, by decide +kernel⟩

/-! ## C52 -/

/-- in-range samples. -/
def inRange (m M : ℚ) (xs : List ℚ) : List ℚ := xs.filter fun x => decide (m ≤ x) && decide (x ≤ M)

/-- **C52**: adding samples to a fresh one-dimensional histogram over exact reals and asking for the mean gives the
mean of the in-range samples up to half a bin width, if there is at least one. -/
theorem C52_binned_mean_close (m M r : ℚ) (h0 : Hist ℚ)
    (hg : ctor ratArith 0 (0 : ℚ) [m] [M] [r] = .ok h0 ()) (ht : h0.tot ≤ 2147483648) (xs : List ℚ)
    (hne : inRange m M xs ≠ []) :
    ∃ h μ, addSamples ratArith (xs.map fun x => [x]) h0 = .ok () h ∧ getMean ratArith h = .ok (some μ) () ∧
      |μ - (inRange m M xs).sum / (inRange m M xs).length| ≤ r / 2 := by
  have hA := ratArith_exact
  obtain ⟨wf, e1, e2, e3, hc⟩ := ctor_wf hg
  have hlen : h0.cells.length = h0.tot := wf.cells_len
  set os := (xs.map fun x => [x]).map (binOf ratArith h0) with hos
  have hbin : ∀ k, some k ∈ os → k < h0.cells.length := by
    intro k hk
    obtain ⟨x, -, hxk⟩ := List.mem_map.1 hk
    rw [hlen]; exact binOf_lt hA wf hxk
  have hadd := addSamples_eq hA wf ht (xs.map fun x => [x]) (by
    intro x hx; obtain ⟨y, -, rfl⟩ := List.mem_map.1 hx; simp [e1]) h0.cells hlen
  have hr : 0 < r := wf.rs_pos r (by simp [e3])
  have o : OneD (withCells h0 (os.foldl bump h0.cells)) m M r :=
    ⟨WF_withCells wf (by rw [length_foldl_bump, hlen]), e1, e2, e3, ht⟩
  set h := withCells h0 (os.foldl bump h0.cells) with hh
  have hcells : h.cells = os.foldl bump h0.cells := rfl
  have hm := (C51_mean_variance h m M r ⟨h0, hg, ht, rfl, by rw [hcells, length_foldl_bump, hlen]⟩).1
  simp only at hm
  rw [← sum_eq_range, hcells, sum_foldl_bump _ _ hbin, wsum_foldl _ _ _ hbin, hc, List.sum_replicate] at hm
  have hz : ∑ j ∈ Finset.range (List.replicate h0.tot (0:ℚ)).length,
      (m + ((j:ℚ) + 1/2) * r) * (List.replicate h0.tot (0:ℚ)).getD j 0 = 0 := by
    apply Finset.sum_eq_zero
    intro j hj
    have : (List.replicate h0.tot (0:ℚ)).getD j 0 = 0 := by
      simp [List.getD_eq_getElem?_getD, List.getElem?_replicate]
      split_ifs <;> rfl
    rw [this, mul_zero]
  rw [hz] at hm
  simp only [nsmul_zero, zero_add] at hm
  -- relate bins and samples
  have hkey : ∀ x : ℚ, (m ≤ x ∧ x ≤ M → ∃ k, binOf ratArith h0 [x] = some k ∧
      |(m + ((k:ℚ) + 1/2) * r) - x| ≤ r / 2) ∧ (¬ (m ≤ x ∧ x ≤ M) → binOf ratArith h0 [x] = none) := by
    intro x
    have hbx : InBox h0.mn h0.mx [x] ↔ m ≤ x ∧ x ≤ M := by
      rw [e1, e2]; unfold InBox; simp
    constructor
    · intro hx
      obtain ⟨idx, e, hd⟩ := wf.getIndex_dims (hbx.2 hx)
      obtain ⟨_, e', hv⟩ := wf.getIndex_valid hA (hbx.2 hx)
      rw [e] at e'; injection e' with e'; subst e'
      have ho : OneD h0 m M r := ⟨wf, e1, e2, e3, ht⟩
      obtain ⟨k, hk, rfl⟩ := ho.valid_iff.1 hv
      refine ⟨k, by simp [binOf, e, ho.num.1, val], ?_⟩
      obtain ⟨k1, k2, k3, k4, k5, k6, k7⟩ := hd.get 0 x m M r h0.cells.length k rfl (by rw [e1]; rfl)
        (by rw [e2]; rfl) (by rw [e3]; rfl) (by rw [ho.num.1]; rfl) rfl
      have hcon := rat_contains k1 k2 k4 (M := M)
      simp only at hcon
      rw [← k6, ← k7] at hcon
      push_cast at hcon
      rw [abs_le]
      rcases hcon with ⟨c1, c2 | ⟨-, c2⟩⟩ <;> constructor <;> linarith
    · intro hx
      have := wf.getIndex_out (p := [x]) (by rw [e1]; rfl) (fun hb => hx (hbx.1 hb))
      simp [binOf, this]
  have hcnt : os.countP Option.isSome = (inRange m M xs).length ∧
      |(os.map fun o => o.elim 0 fun (k : Nat) => m + ((k:ℚ) + 1/2) * r).sum - (inRange m M xs).sum|
        ≤ (inRange m M xs).length * (r / 2) := by
    rw [hos]
    clear hne hbin hadd hcells hos hm o hh h os
    induction xs with
    | nil => simp [inRange]
    | cons x xs ih =>
      obtain ⟨i1, i2⟩ := ih
      by_cases hx : m ≤ x ∧ x ≤ M
      · obtain ⟨k, hk, hab⟩ := (hkey x).1 hx
        have hf : inRange m M (x :: xs) = x :: inRange m M xs := by
          simp [inRange, hx.1, hx.2]
        rw [hf]
        simp only [List.map_cons, hk, List.countP_cons, i1, List.length_cons, List.sum_cons, Option.elim_some]
        refine ⟨by simp, ?_⟩
        push_cast
        rw [abs_le] at *
        constructor <;> linarith [i2.1, i2.2, hab.1, hab.2]
      · have hf : inRange m M (x :: xs) = inRange m M xs := by
          simp only [inRange, List.filter_cons]
          rw [if_neg (by simpa using hx)]
        rw [hf]
        simp only [List.map_cons, (hkey x).2 hx, List.countP_cons, i1, List.sum_cons]
        refine ⟨by simp, by simpa using i2⟩
  rw [hcnt.1] at hm
  have hN : (0:ℚ) < (inRange m M xs).length := by
    have := List.length_pos_iff.2 hne; exact_mod_cast this
  rw [if_neg hN.ne'] at hm
  refine ⟨h, _, hadd, hm, ?_⟩
  rw [← sub_div, abs_div, abs_of_pos hN, div_le_iff₀ hN]
  linarith [hcnt.2]

/-- non-vacuity of C52. -/
example : ctor ratArith 0 (0 : ℚ) [0] [5/2] [1] = .ok ⟨[0, 0, 0], [0], [5/2], [1], [3], 3, [1]⟩ () ∧
    inRange 0 (5/2) [1/4, 9, 5/2] ≠ [] := by
  constructor <;> decide +kernel

/-! ## C53: mode of a histogram of any dimension -/

/-- **C53**: on a histogram with at least one dimension and any contents, `getMode` returns the coordinates of a
valid bin whose content no other bin exceeds. -/
theorem C53_mode_is_maximal {T : Type} [LinearOrder T] (A : GridArith T) (zero : T) (hA : A.Sound zero)
    (mn mx rs : List T) (hd : mn ≠ []) (h0 h : Hist T) (hg : ctor A zero (0 : ℚ) mn mx rs = .ok h0 ())
    (ht : h0.tot ≤ 2147483648) (hh : h = { h0 with cells := h.cells }) (hl : h.cells.length = h0.tot) :
    ∃ idx c, Valid h.num idx ∧ getMode A h = h.getCoordinates A idx ∧ h.getCell idx = .ok c () ∧
      ∀ jdx, Valid h.num jdx → ∃ c', h.getCell jdx = .ok c' () ∧ c' ≤ c := by
  obtain ⟨wf0, rfl, -⟩ := ctor_wf hg
  have hmn : h.mn = h0.mn := by rw [hh]
  have htot : h.tot = h0.tot := by rw [hh]
  have wf : WF A zero h := by
    have : h = withCells h0 h.cells := hh
    rw [this]; exact WF_withCells wf0 hl
  have hlen := wf.len hA
  have hne : h.num ≠ [] := by
    intro e; rw [e, hmn] at hlen; exact hd (List.eq_nil_of_length_eq_zero hlen.symm)
  have hp := wf.pos hA
  have htt := wf.tot hA
  have hcell : ∀ jdx, Valid h.num jdx → h.getCell jdx = .ok (h.cells.getD (val jdx h.num).toNat 0) () := by
    intro jdx hv
    have hb := val_bd hv
    have : (val jdx h.num).toNat < h.cells.length := by rw [wf.cells_len]; omega
    rw [getCell, (wf.cellPos_valid hA (by rw [htot]; exact ht) hv).2]
    simp [this]
  set F := fun jdx => h.cells.getD (val jdx h.num).toNat 0 with hF
  have hbody := forIndices_eq h hne hp (modeBody h) (fun s idx => match s with
      | none => some (F idx, idx)
      | some (mx, mi) => if F idx > mx then some (F idx, idx) else some (mx, mi)) (by
    intro idx s hv
    rw [modeBody, hcell idx hv]
    rcases s with _ | ⟨a, b⟩
    · rfl
    · simp only [hF]; split_ifs <;> rfl) none (h.tot + 1) (by omega)
  have hfold : ∀ L : List (List Int), L ≠ [] → ∃ idx ∈ L, L.foldl (fun (s : Option (ℚ × List Int)) idx => match s with
      | none => some (F idx, idx)
      | some (mx, mi) => if F idx > mx then some (F idx, idx) else some (mx, mi)) none = some (F idx, idx) ∧
      ∀ j ∈ L, F j ≤ F idx := by
    intro L
    induction L using List.reverseRecOn with
    | nil => intro h; exact absurd rfl h
    | append_singleton L x ih =>
      intro _
      by_cases hL : L = []
      · subst hL; exact ⟨x, by simp, by simp, by simp⟩
      · obtain ⟨i, hi, e, hmax⟩ := ih hL
        rw [List.foldl_append, e]
        simp only [List.foldl_cons, List.foldl_nil]
        by_cases hc : F x > F i
        · refine ⟨x, by simp, by rw [if_pos hc], ?_⟩
          intro j hj
          rcases List.mem_append.1 hj with hj | hj
          · exact (hmax j hj).trans hc.le
          · simp at hj; rw [hj]
        · refine ⟨i, by simp [hi], by rw [if_neg hc], ?_⟩
          intro j hj
          rcases List.mem_append.1 hj with hj | hj
          · exact hmax j hj
          · simp at hj; rw [hj]; exact not_lt.1 hc
  have hv0 : (visits h) ≠ [] := by
    intro e
    have := (mem_visits hne hp).2 (valid_zero hp)
    rw [e] at this; simp at this
  obtain ⟨idx, hi, e, hmax⟩ := hfold _ hv0
  have hvi := (mem_visits hne hp).1 hi
  refine ⟨idx, F idx, hvi, ?_, hcell idx hvi, fun jdx hj => ⟨F jdx, hcell jdx hj, hmax jdx ((mem_visits hne hp).2 hj)⟩⟩
  rw [getMode, getModeIdx, hbody, e]

/-- non-vacuity of C53: 2 x 2 bins. -/
example : ctor intArith 0 (0 : ℚ) [0, 0] [3, 1] [2, 1] =
      .ok ⟨[0, 0, 0, 0], [0, 0], [3, 1], [2, 1], [2, 2], 4, [2, 1]⟩ () ∧
    getMode intArith ⟨[0, 2, 5, 1], [0, 0], [3, 1], [2, 1], [2, 2], 4, [2, 1]⟩ = .ok [3, 0] () := by
  constructor <;> decide +kernel

end Histogram
end Verif
