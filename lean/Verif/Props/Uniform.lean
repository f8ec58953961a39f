import Verif.Lemmas.Stats
import Mathlib.MeasureTheory.Integral.IntervalIntegral.Basic
import Mathlib.MeasureTheory.Measure.Lebesgue.Basic
import Mathlib.Analysis.SpecialFunctions.Integrals.Basic
import Mathlib.Order.Interval.Finset.Basic
import Mathlib.Algebra.Order.Interval.Finset.SuccPred
import Mathlib.Data.Int.Interval

/-! Property C35: uniform distributions. -/

namespace Verif
namespace Uniform1
open MeasureTheory

/-- calls that change the distribution. -/
inductive Op where
  | support (a b : ℝ)
  | minSupport (a : ℝ)
  | maxSupport (b : ℝ)

/-- effect of a call. -/
noncomputable def Op.run (s : Uniform1 ℝ) : Op → Res (Uniform1 ℝ) Unit
  | .support a b => s.setSupport a b
  | .minSupport a => s.setMinSupport a
  | .maxSupport b => s.setMaxSupport b

/-- objects after a construction (whose `setSupport` succeeded) and any history of calls. -/
inductive Reach : Uniform1 ℝ → Prop
  | init {raw s : Uniform1 ℝ} {a b : ℝ} : raw.setSupport a b = .ok () s → Reach s
  | step {s s' : Uniform1 ℝ} (o : Op) : Reach s → (o.run s).state? = some s' → Reach s'

theorem setSupport_state {s s' : Uniform1 ℝ} {a b : ℝ} (hs : s.mn < s.mx ∧ s.area = s.mx - s.mn)
    (h : (s.setSupport a b).state? = some s') : s'.mn < s'.mx ∧ s'.area = s'.mx - s'.mn := by
  unfold setSupport at h
  split_ifs at h with hc
  · simp only [Res.state?, Option.some.injEq] at h; subst h; exact hs
  · simp only [Res.state?, Option.some.injEq] at h; subst h; exact ⟨not_le.1 hc, rfl⟩

theorem reach_cons {s : Uniform1 ℝ} (h : Reach s) : s.mn < s.mx ∧ s.area = s.mx - s.mn := by
  induction h with
  | @init raw s a b h =>
    unfold setSupport at h
    split_ifs at h with hc
    simp only [Res.ok.injEq, true_and] at h; subst h; exact ⟨not_le.1 hc, rfl⟩
  | @step s s' o _ hr ih =>
    cases o <;> exact setSupport_state ih hr

/-- **C35**: `setSupport` is rejected exactly for an empty or one-point support and then changes nothing. -/
theorem C35_set_support (s : Uniform1 ℝ) (a b : ℝ) :
    (b ≤ a → s.setSupport a b = .throw .badArgument s) ∧
    (a < b → ∃ s', s.setSupport a b = .ok () s' ∧ s'.mn = a ∧ s'.mx = b ∧ s'.area = b - a) := by
  refine ⟨fun h => by rw [setSupport, if_pos h], fun h => ⟨⟨a, b, b - a⟩, by rw [setSupport, if_neg (not_le.2 h)], rfl, rfl, rfl⟩⟩

/-- **C35**: `setMinSupport` and `setMaxSupport` move one end and keep the other, or are rejected without effect. -/
theorem C35_set_one_end (s : Uniform1 ℝ) (a : ℝ) :
    (s.mx ≤ a → s.setMinSupport a = .throw .badArgument s) ∧ (a ≤ s.mn → s.setMaxSupport a = .throw .badArgument s) ∧
    (a < s.mx → ∃ s', s.setMinSupport a = .ok () s' ∧ s'.mn = a ∧ s'.mx = s.mx) ∧
    (s.mn < a → ∃ s', s.setMaxSupport a = .ok () s' ∧ s'.mn = s.mn ∧ s'.mx = a) := by
  refine ⟨fun h => (C35_set_support s _ _).1 h, fun h => (C35_set_support s _ _).1 h, fun h => ?_, fun h => ?_⟩
  · obtain ⟨s', h1, h2, h3, -⟩ := (C35_set_support s _ _).2 h; exact ⟨s', h1, h2, h3⟩
  · obtain ⟨s', h1, h2, h3, -⟩ := (C35_set_support s _ _).2 h; exact ⟨s', h1, h2, h3⟩
theorem integral_pdf_mul {s : Uniform1 ℝ} (h : s.mn < s.mx ∧ s.area = s.mx - s.mn) (f : ℝ → ℝ) :
    (∫ x, f x * s.pdf x) = (∫ x in s.mn..s.mx, f x) / (s.mx - s.mn) := by
  have e : (fun x => f x * s.pdf x) = (Set.Icc s.mn s.mx).indicator (fun x => f x / (s.mx - s.mn)) := by
    funext x
    unfold pdf
    by_cases hx : x ∈ Set.Icc s.mn s.mx
    · rw [Set.indicator_of_mem hx, if_pos ⟨hx.1, hx.2⟩, h.2]; ring
    · rw [Set.indicator_of_notMem hx, if_neg (fun hh => hx ⟨hh.1, hh.2⟩), mul_zero]
  rw [e, integral_indicator measurableSet_Icc, integral_Icc_eq_integral_Ioc, ← intervalIntegral.integral_of_le h.1.le,
    intervalIntegral.integral_div]

/-- **C35**: `pdf` is non-negative, zero outside the support, constant on it, and integrates to one. -/
theorem C35_pdf {s : Uniform1 ℝ} (h : Reach s) :
    (∫ x, s.pdf x) = 1 ∧ (∀ x, 0 ≤ s.pdf x) ∧ (∀ x, x < s.mn ∨ s.mx < x → s.pdf x = 0) ∧
    (∀ x y, s.mn ≤ x → x ≤ s.mx → s.mn ≤ y → y ≤ s.mx → s.pdf x = s.pdf y ∧ 0 < s.pdf x) := by
  have hc := reach_cons h
  have hp : 0 < s.mx - s.mn := by linarith [hc.1]
  refine ⟨?_, ?_, ?_, ?_⟩
  · have := integral_pdf_mul hc (fun _ => 1)
    simp only [one_mul] at this
    rw [this]; simp; exact hp.ne'
  · intro x; unfold pdf; split_ifs
    · rw [hc.2]; positivity
    · exact le_rfl
  · intro x hx; unfold pdf; rw [if_neg]
    rintro ⟨a, b⟩; rcases hx with hx | hx <;> linarith
  · intro x y a b c d
    unfold pdf
    rw [if_pos ⟨a, b⟩, if_pos ⟨c, d⟩, hc.2]
    exact ⟨rfl, by positivity⟩

/-- mean of the density. -/
theorem true_mean {s : Uniform1 ℝ} (h : s.mn < s.mx ∧ s.area = s.mx - s.mn) :
    (∫ x, x * s.pdf x) = (s.mn + s.mx) / 2 := by
  have hp : s.mx - s.mn ≠ 0 := by linarith [h.1]
  rw [integral_pdf_mul h (fun x => x), integral_id]
  field_simp; ring

/-- **C35**: `getVariance` is the variance of the density. -/
theorem C35_variance {s : Uniform1 ℝ} (h : Reach s) :
    s.getVariance = ∫ x, (x - ∫ y, y * s.pdf y) ^ 2 * s.pdf x := by
  have hc := reach_cons h
  have hp : s.mx - s.mn ≠ 0 := by linarith [hc.1]
  rw [true_mean hc, integral_pdf_mul hc (fun x => (x - (s.mn + s.mx) / 2) ^ 2)]
  have : (∫ x in s.mn..s.mx, (x - (s.mn + s.mx) / 2) ^ 2) =
      ∫ x in (s.mn - (s.mn + s.mx) / 2)..(s.mx - (s.mn + s.mx) / 2), x ^ 2 :=
    intervalIntegral.integral_comp_sub_right (fun x => x ^ 2) _
  rw [this, integral_pow, getVariance]
  field_simp
  push_cast
  ring

/-- **C35**, partial: `getMean` (and `getMedian`) is the mean of the density only if the support starts at zero; in
general it is too small by the minimum. -/
theorem C35_mean_partial {s : Uniform1 ℝ} (h : Reach s) :
    s.getMean = (∫ x, x * s.pdf x) - s.mn ∧ (s.getMean = (∫ x, x * s.pdf x) ↔ s.mn = 0) := by
  have hc := reach_cons h
  have e : s.getMean = (∫ x, x * s.pdf x) - s.mn := by
    rw [true_mean hc, getMean]; ring
  refine ⟨e, ?_⟩
  rw [e]; constructor
  · intro h; linarith
  · intro h; rw [h, sub_zero]

/-- Full C35 is **false**: the mean reported for the support [1, 2] is 1/2, outside the support. -/
theorem C35_mean_wrong : ∃ s, Reach s ∧ s.mn = 1 ∧ s.mx = 2 ∧ s.getMean = 1 / 2 ∧ s.getMean < s.mn := by
  have h : (⟨0, 0, 0⟩ : Uniform1 ℝ).setSupport 1 2 = .ok () ⟨1, 2, 2 - 1⟩ := by
    rw [setSupport, if_neg (by norm_num)]
  refine ⟨_, .init h, rfl, rfl, ?_, ?_⟩ <;> norm_num [getMean]

/-- non-vacuity also after a rejected call. -/
example : ∃ s, Reach s ∧ s.mn = 1 ∧ s.mx = 2 := by
  have h : (⟨0, 0, 0⟩ : Uniform1 ℝ).setSupport 1 2 = .ok () ⟨1, 2, 2 - 1⟩ := by
    rw [setSupport, if_neg (by norm_num)]
  refine ⟨⟨1, 2, 2 - 1⟩, .step (.minSupport 5) (.init h) ?_, rfl, rfl⟩
  simp only [Op.run, setMinSupport]
  rw [setSupport, if_pos (by norm_num)]; rfl

/-! ### integer types -/

theorem sum_Icc (a b : Int) (f : Int → ℚ) :
    ∑ x ∈ Finset.Icc a b, f x = ∑ k ∈ Finset.range (b + 1 - a).toNat, f (a + k) := by
  rw [Int.Icc_eq_finset_map, Finset.sum_map]
  simp

theorem sum_range_id' (n : Nat) : ∑ k ∈ Finset.range n, (k : ℚ) = n * (n - 1) / 2 := by
  induction n with
  | zero => simp
  | succ n ih => rw [Finset.sum_range_succ, ih]; push_cast; ring

theorem sum_range_sq (n : Nat) : ∑ k ∈ Finset.range n, (k : ℚ) ^ 2 = n * (n - 1) * (2 * n - 1) / 6 := by
  induction n with
  | zero => simp
  | succ n ih => rw [Finset.sum_range_succ, ih]; push_cast; ring

/-- **C35** (integer types): for every support the mass function is zero outside and sums to one, and `getVariance`
is its variance; `getMean` is its mean only if the minimum is zero (it is too small by the minimum). -/
theorem C35_int_partial (s s' : Uniform1 Int) (a b : Int) (h : s.setSupportI a b = .ok () s') :
    s'.mn = a ∧ s'.mx = b ∧ a < b ∧ (∀ x, x < a ∨ b < x → s'.pmf x = 0) ∧
    (∑ x ∈ Finset.Icc a b, s'.pmf x) = 1 ∧
    (∑ x ∈ Finset.Icc a b, (x : ℚ) * s'.pmf x) = ((a : ℚ) + b) / 2 ∧
    s'.getVarianceI = (∑ x ∈ Finset.Icc a b, ((x : ℚ) - ((a : ℚ) + b) / 2) ^ 2 * s'.pmf x) ∧
    s'.getMeanI = (∑ x ∈ Finset.Icc a b, (x : ℚ) * s'.pmf x) - a := by
  unfold setSupportI at h
  split_ifs at h with h1 h2
  simp only [Res.ok.injEq, true_and] at h
  subst h
  have hab : a < b := not_le.1 h1
  obtain ⟨n, hn⟩ : ∃ n : Nat, b = a + n ∧ 0 < n := ⟨(b - a).toNat, by omega, by omega⟩
  obtain ⟨rfl, hn0⟩ := hn
  have hN : (a + (n:Int) + 1 - a).toNat = n + 1 := by omega
  have hq : ((a + (n:Int) - a + 1 : Int) : ℚ) = n + 1 := by push_cast; ring
  have hne : ((n:ℚ) + 1) ≠ 0 := by positivity
  have hpm : ∀ k ∈ Finset.range (n + 1), pmf ⟨a, a + n, a + n - a + 1⟩ (a + k) = 1 / ((n:ℚ) + 1) := by
    intro k hk
    have := Finset.mem_range.1 hk
    simp only [pmf]
    rw [if_pos ⟨by omega, by omega⟩, hq]
  have hS : ∀ f : Int → ℚ, (∑ x ∈ Finset.Icc a (a + n), f x * pmf ⟨a, a + n, a + n - a + 1⟩ x) =
      (∑ k ∈ Finset.range (n + 1), f (a + k)) / ((n:ℚ) + 1) := by
    intro f
    rw [sum_Icc, hN, Finset.sum_div]
    refine Finset.sum_congr rfl fun k hk => ?_
    rw [hpm k hk, mul_one_div]
  have m1 : (∑ x ∈ Finset.Icc a (a + n), (x : ℚ) * pmf ⟨a, a + n, a + n - a + 1⟩ x) = ((a : ℚ) + (a + n : Int)) / 2 := by
    rw [hS fun x => (x : ℚ)]
    have : (∑ k ∈ Finset.range (n + 1), ((a + (k:Int) : Int) : ℚ)) = (n + 1) * a + (n + 1) * n / 2 := by
      push_cast
      rw [Finset.sum_add_distrib, sum_range_id']
      simp
    rw [this]; push_cast; field_simp; ring
  refine ⟨rfl, rfl, hab, ?_, ?_, m1, ?_, ?_⟩
  · intro x hx
    unfold pmf
    rw [if_neg]
    rintro ⟨h1, h2⟩
    simp only at h1 h2
    omega
  · have := hS fun _ => 1
    simp only [one_mul] at this
    rw [this]; simp; exact hne
  · rw [hS fun x => ((x : ℚ) - ((a : ℚ) + (a + n : Int)) / 2) ^ 2]
    have : (∑ k ∈ Finset.range (n + 1), (((a + (k:Int) : Int) : ℚ) - ((a : ℚ) + (a + n : Int)) / 2) ^ 2) =
        ((n:ℚ) + 1) * n * (2 * n + 1) / 6 - n * ((n + 1) * n / 2) + (n + 1) * (n / 2) ^ 2 := by
      have e : ∀ k : Nat, (((a + (k:Int) : Int) : ℚ) - ((a : ℚ) + (a + n : Int)) / 2) ^ 2 =
          (k:ℚ) ^ 2 - n * k + (n / 2) ^ 2 := by
        intro k; push_cast; ring
      simp only [e]
      rw [Finset.sum_add_distrib, Finset.sum_sub_distrib, ← Finset.mul_sum, sum_range_sq, sum_range_id',
        Finset.sum_const, Finset.card_range, nsmul_eq_mul]
      push_cast; ring
    rw [this, getVarianceI]
    simp only
    push_cast
    field_simp
    ring
  · rw [m1, getMeanI]; push_cast; ring

example : (⟨0, 0, 0⟩ : Uniform1 Int).setSupportI 3 7 = .ok () ⟨3, 7, 5⟩ := rfl
example : (⟨3, 7, 5⟩ : Uniform1 Int).getMeanI = 2 := by decide +kernel

end Uniform1

namespace Uniformd
open MeasureTheory
variable {d : Nat}

theorem areaLoop_eq : ∀ (d : Nat) (a b : Fin d → ℝ) (acc : ℝ),
    areaLoop (List.ofFn a) (List.ofFn b) acc = acc * ∏ i, (b i - a i) := by
  intro d
  induction d with
  | zero => intro a b acc; simp [areaLoop]
  | succ d ih =>
    intro a b acc
    rw [List.ofFn_succ, List.ofFn_succ, areaLoop, ih, Fin.prod_univ_succ]
    ring

/-- **C35** (multivariate): a support is rejected, without effect, exactly if it is empty in some direction; otherwise
the density is non-negative, zero outside the box and integrates to one; `getMean` is too small by the minimum. -/
theorem C35_mv_partial (s : Uniformd d) (a b : Fin d → ℝ) :
    ((∃ i, b i ≤ a i) → s.setSupport a b = .throw .badArgument s) ∧
    ((∀ i, a i < b i) → ∃ s', s.setSupport a b = .ok () s' ∧ s'.mn = a ∧ s'.mx = b ∧
      s'.area = ∏ i, (b i - a i) ∧ (∫ x, s'.pdf x) = 1 ∧ (∀ x, 0 ≤ s'.pdf x) ∧
      (∀ x, (∃ i, x i < a i ∨ b i < x i) → s'.pdf x = 0) ∧
      (∀ i, s'.getMean i = (a i + b i) / 2 - a i)) := by
  constructor
  · intro h; rw [setSupport, if_pos h]
  · intro h
    have hn : ¬ ∃ i, a i ≥ b i := by rintro ⟨i, hi⟩; exact absurd (h i) (not_lt.2 hi)
    have ha : areaLoop (List.ofFn a) (List.ofFn b) 1 = ∏ i, (b i - a i) := by rw [areaLoop_eq, one_mul]
    have hpos : 0 < ∏ i, (b i - a i) := Finset.prod_pos fun i _ => sub_pos.2 (h i)
    refine ⟨⟨a, b, areaLoop (List.ofFn a) (List.ofFn b) 1⟩, by rw [setSupport, if_neg hn], rfl, rfl, ha, ?_, ?_, ?_, ?_⟩
    · rw [ha]
      have e : (pdf (⟨a, b, ∏ i, (b i - a i)⟩ : Uniformd d)) =
          (Set.Icc a b).indicator (fun _ => 1 / ∏ i, (b i - a i)) := by
        funext x
        unfold pdf
        by_cases hx : x ∈ Set.Icc a b
        · rw [Set.indicator_of_mem hx, if_pos ⟨hx.2, hx.1⟩]
        · rw [Set.indicator_of_notMem hx, if_neg fun hh => hx ⟨hh.2, hh.1⟩]
      rw [e, integral_indicator measurableSet_Icc, setIntegral_const, Measure.real,
        Real.volume_Icc_pi_toReal (fun i => (h i).le), smul_eq_mul, mul_one_div, div_self hpos.ne']
    · intro x; unfold pdf; rw [ha]; split_ifs
      · positivity
      · exact le_rfl
    · rintro x ⟨i, hi⟩
      unfold pdf
      rw [if_neg]
      rintro ⟨h1, h2⟩
      have := h1 i; have := h2 i
      simp only at *
      rcases hi with hi | hi <;> linarith
    · intro i; simp only [getMean]; ring

/-- The covariance reported by the multivariate distribution is **wrong**: for the box [0,1] x [0,2] the first
coordinate, uniform on [0,1], gets four times its variance.  In general the diagonal entry `i` is right exactly if the
product of the other side lengths is one. -/
theorem C35_mv_covariance_wrong (s s' : Uniformd d) (a b : Fin d → ℝ) (h : s.setSupport a b = .ok () s') (i : Fin d) :
    (s'.getCovariance i i = (⟨a i, b i, b i - a i⟩ : Uniform1 ℝ).getVariance ↔
      ∏ j ∈ Finset.univ.erase i, (b j - a j) = 1) ∧
    (∀ t : Uniformd 2, ∃ t', t.setSupport ![0, 0] ![1, 2] = .ok () t' ∧ t'.getCovariance 0 0 = 4 / 12 ∧
      (⟨0, 1, 1⟩ : Uniform1 ℝ).getVariance = 1 / 12) := by
  constructor
  · unfold setSupport at h
    split_ifs at h with hc
    simp only [Res.ok.injEq, true_and] at h
    subst h
    push Not at hc
    have hpos : ∀ j, 0 < b j - a j := fun j => sub_pos.2 (hc j)
    have hP : 0 < ∏ j ∈ Finset.univ.erase i, (b j - a j) := Finset.prod_pos fun j _ => hpos j
    have hi := hpos i
    simp only [getCovariance, Uniform1.getVariance, areaLoop_eq, one_mul, Matrix.smul_apply, Matrix.one_apply_eq,
      smul_eq_mul, mul_one]
    rw [← Finset.mul_prod_erase Finset.univ _ (Finset.mem_univ i)]
    set P := ∏ j ∈ Finset.univ.erase i, (b j - a j)
    constructor
    · intro e
      have e1 : (b i - a i) ^ 2 * (P ^ 2 - 1) = 0 := by linarith
      rcases mul_eq_zero.1 e1 with h | h
      · have := pow_eq_zero_iff (two_ne_zero) |>.1 h; linarith
      · nlinarith
    · intro e; rw [e]; ring
  · intro t
    refine ⟨⟨![0, 0], ![1, 2], areaLoop (List.ofFn ![0, 0]) (List.ofFn ![1, 2]) 1⟩, ?_, ?_, ?_⟩
    · rw [setSupport, if_neg]
      rintro ⟨i, hi⟩
      fin_cases i <;> norm_num at hi
    · simp only [getCovariance, areaLoop_eq, Fin.prod_univ_two, Matrix.smul_apply, Matrix.one_apply_eq]
      norm_num
    · norm_num [Uniform1.getVariance]

/-- non-vacuity -/
example (t : Uniformd 2) : ∃ t', t.setSupport ![0, 0] ![1, 2] = .ok () t' := by
  obtain ⟨t', h, -⟩ := (C35_mv_partial t ![0, 0] ![1, 2]).2 (by intro i; fin_cases i <;> norm_num)
  exact ⟨t', h⟩

end Uniformd
end Verif
