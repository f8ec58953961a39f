import Verif.Model.NormalDouble
import Verif.Props.DoubleGeometric
import Verif.Props.DoubleNormal
import Verif.Props.DoubleStats
import Mathlib.Analysis.Real.Pi.Bounds
import Mathlib.Probability.Distributions.Gaussian.Real

/-!
# The density of a normal distribution computed in doubles
-/

namespace Verif
namespace Dbl
open ProbabilityTheory

/-- `exp` of the C library: accurate to one unit in the last place where the result neither overflows nor underflows. -/
def ExpAccurate (expD : ℚ → ℚ) : Prop := ∀ x : ℚ, -708 ≤ x → x ≤ 709 → |(expD x : ℝ) - Real.exp x| ≤ Real.exp x / 2 ^ 52

theorem expAccurate_exists : ∃ expD, ExpAccurate expD := by
  have h : ∀ x : ℚ, ∃ y : ℚ, |(y : ℝ) - Real.exp x| ≤ Real.exp x / 2 ^ 52 := by
    intro x
    have hp : 0 < Real.exp x / 2 ^ 52 := by positivity
    obtain ⟨y, h1, h2⟩ := exists_rat_btwn (show Real.exp (x : ℝ) < Real.exp x + Real.exp x / 2 ^ 52 by linarith)
    exact ⟨y, by rw [abs_of_pos (by linarith)]; linarith⟩
  choose f hf using h
  exact ⟨f, fun x _ _ => hf x⟩

/-- the mean and the variance that a history of calls sets: those of the last accepted calls. -/
def lastSet : ℚ × ℚ → List Norm1Op → ℚ × ℚ
  | p, [] => p
  | p, .setMean m :: ops => lastSet (m, p.2) ops
  | p, .setVariance v :: ops => lastSet (if v ≤ 0 then p else (p.1, v)) ops

theorem run_eq (logD : ℚ → ℚ) (ops : List Norm1Op) : ∀ m v : ℚ, 0 < v →
    Norm1.run logD (Norm1.withVariance logD m v) ops = Norm1.withVariance logD (lastSet (m, v) ops).1 (lastSet (m, v) ops).2 ∧
      0 < (lastSet (m, v) ops).2 := by
  induction ops with
  | nil => intro m v h; exact ⟨rfl, h⟩
  | cons op ops ih =>
    intro m v h
    cases op with
    | setMean m' => exact ih m' v h
    | setVariance v' =>
      by_cases hv : v' ≤ 0
      · simp only [Norm1.run, Norm1.step, lastSet, if_pos hv]
        exact ih m v h
      · simp only [Norm1.run, Norm1.step, lastSet, if_neg hv]
        exact ih m v' (not_le.1 hv)

theorem piD_rel : RelErr (1 / 2 ^ 54) Real.pi (piD : ℝ) := by
  unfold RelErr
  rw [abs_of_pos Real.pi_pos]
  have h1 := Real.pi_gt_d20
  have h2 := Real.pi_lt_d20
  have e : (piD : ℝ) = 884279719003555 / 2 ^ 48 := by norm_num [piD]
  rw [e, abs_le]
  constructor <;> norm_num at * <;> linarith

theorem log_rel {a x y : ℝ} (hx : 0 < x) (ha : a ≤ 1 / 2 ^ 50) (h : RelErr a x y) :
    0 < y ∧ |Real.log y - Real.log x| ≤ a * (1 + 1 / 2 ^ 49) := by
  unfold RelErr at h
  rw [abs_of_pos hx] at h
  have ha0 : 0 ≤ a := by
    by_contra hc
    have := mul_neg_of_neg_of_pos (not_le.1 hc) hx
    linarith [abs_nonneg (y - x)]
  obtain ⟨h1, h2⟩ := abs_le.1 h
  have hax : a * x ≤ 1 / 2 ^ 50 * x := mul_le_mul_of_nonneg_right ha hx.le
  have hy : 0 < y := by linarith
  refine ⟨hy, ?_⟩
  have hq : y / x ≤ 1 + a := by rw [div_le_iff₀ hx]; linarith
  have hq' : x / y ≤ 1 + a * (1 + 1 / 2 ^ 49) := by
    rw [div_le_iff₀ hy]
    have h3 : a * y ≥ a * ((1 - 1 / 2 ^ 50) * x) := mul_le_mul_of_nonneg_left (by linarith) ha0
    have h4 : 0 ≤ a * x := by positivity
    linarith
  have l1 := Real.log_le_sub_one_of_pos (div_pos hy hx)
  have l2 := Real.log_le_sub_one_of_pos (div_pos hx hy)
  rw [Real.log_div hy.ne' hx.ne'] at l1
  rw [Real.log_div hx.ne' hy.ne'] at l2
  rw [abs_le]
  constructor <;> linarith

/-- the exact logarithm of the density. -/
theorem gaussian_log {v : ℝ} (hv : 0 < v) (m x : ℝ) :
    gaussianPDFReal m v.toNNReal x = Real.exp (-((x - m) * (x - m) / v / 2) - Real.log (2 * Real.pi * v) / 2) := by
  unfold gaussianPDFReal
  rw [Real.coe_toNNReal v hv.le, Real.exp_sub, ← Real.log_sqrt (by positivity), Real.exp_log (by positivity), inv_mul_eq_div]
  congr 2
  field_simp

theorem normalizer_error {logD : ℚ → ℚ} (hlog : LogAccurate logD) {v : ℚ} (hv : 0 < v) :
    |((fl53 (1 / 2 * logD (fl53 (fl53 (2 * piD) * v))) : ℚ) : ℝ) - Real.log (2 * Real.pi * v) / 2| ≤
      (|Real.log (2 * Real.pi * v) / 2| + 1) / 2 ^ 51 := by
  have hV : (0:ℝ) < v := by exact_mod_cast hv
  have e1 := piD_rel.const_mul 2
  have e2 : RelErr (1 / 2 ^ 53) (2 * (piD : ℝ)) (fl53 (2 * piD) : ℚ) := by
    have := relErr_fl (2 * piD); push_cast at this; exact this
  have e3 := ((e1.trans (by norm_num) e2).const_mul (v : ℝ))
  have e4 : RelErr (1 / 2 ^ 53) ((v : ℝ) * (fl53 (2 * piD) : ℚ)) (fl53 (fl53 (2 * piD) * v) : ℚ) := by
    have := relErr_fl (fl53 (2 * piD) * v); push_cast at this; rw [mul_comm] at this; exact this
  have e5 := (e3.trans (by norm_num) e4).weaken (show _ ≤ (3 / 2 ^ 53 : ℝ) by norm_num)
  rw [mul_comm] at e5
  obtain ⟨y0, e6⟩ := log_rel (by positivity) (by norm_num) e5
  have y0' : 0 < fl53 (fl53 (2 * piD) * v) := by exact_mod_cast y0
  have e7 := hlog _ y0'
  have e8 := relErr_fl (1 / 2 * logD (fl53 (fl53 (2 * piD) * v)))
  unfold RelErr at e8
  generalize Real.log ((fl53 (fl53 (2 * piD) * v) : ℚ) : ℝ) = l at *
  generalize logD (fl53 (fl53 (2 * piD) * v)) = L at *
  generalize Real.log (2 * Real.pi * v) = g at *
  push_cast at e8
  have t0 := abs_add_le (l - g) g
  rw [sub_add_cancel] at t0
  have t1 := abs_add_le ((L : ℝ) - l) l
  rw [sub_add_cancel] at t1
  have t2 := abs_sub_le (L : ℝ) l g
  rw [abs_mul, abs_of_pos (by norm_num : (0:ℝ) < 1 / 2)] at e8
  have t3 := abs_add_le (((fl53 (1 / 2 * L) : ℚ) : ℝ) - 1 / 2 * L) (1 / 2 * ((L : ℝ) - g))
  rw [abs_mul, abs_of_pos (by norm_num : (0:ℝ) < 1 / 2), show ((fl53 (1 / 2 * L) : ℚ) : ℝ) - 1 / 2 * L + 1 / 2 * ((L : ℝ) - g) =
    ((fl53 (1 / 2 * L) : ℚ) : ℝ) - g / 2 by ring] at t3
  rw [abs_div, abs_of_pos (by norm_num : (0:ℝ) < 2)]
  linarith [abs_nonneg g]

theorem maha_error {logD : ℚ → ℚ} (m v x : ℚ) :
    RelErr (6 / 2 ^ 53) (((x : ℝ) - m) * (x - m) / v) ((Norm1.withVariance logD m v).mahalanobis x : ℚ) := by
  have e1 : RelErr (1 / 2 ^ 53) ((x : ℝ) - m) (fl53 (x - m) : ℚ) := by
    have := relErr_fl (x - m); push_cast at this; exact this
  have e2 : RelErr (1 / 2 ^ 53) (1 / (v : ℝ)) (fl53 (1 / v) : ℚ) := by
    have := relErr_fl (1 / v); push_cast at this; exact this
  have e3 := e1.mul (by norm_num) (by norm_num) e2
  have e4 : RelErr (1 / 2 ^ 53) (((fl53 (x - m) : ℚ) : ℝ) * (fl53 (1 / v) : ℚ)) (fl53 (fl53 (x - m) * fl53 (1 / v)) : ℚ) := by
    have := relErr_fl (fl53 (x - m) * fl53 (1 / v)); push_cast at this; exact this
  have e5 := (e3.trans (by norm_num) e4).mul (by norm_num) (by norm_num) e1
  have e6 : RelErr (1 / 2 ^ 53) (((fl53 (fl53 (x - m) * fl53 (1 / v)) : ℚ) : ℝ) * (fl53 (x - m) : ℚ))
      (fl53 (fl53 (fl53 (x - m) * fl53 (1 / v)) * fl53 (x - m)) : ℚ) := by
    have := relErr_fl (fl53 (fl53 (x - m) * fl53 (1 / v)) * fl53 (x - m)); push_cast at this; exact this
  have e7 := (e5.trans (by norm_num) e6).weaken (show _ ≤ (6 / 2 ^ 53 : ℝ) by norm_num)
  rw [show ((x : ℝ) - m) * (x - m) / v = ((x : ℝ) - m) * (1 / v) * (x - m) by ring]
  exact e7

theorem logpdf_error {logD : ℚ → ℚ} (hlog : LogAccurate logD) {v : ℚ} (hv : 0 < v) (m x : ℚ) :
    |((Norm1.withVariance logD m v).logpdf x : ℝ) - (-(((x : ℝ) - m) * (x - m) / v / 2) - Real.log (2 * Real.pi * v) / 2)| ≤
      (((x : ℝ) - m) * (x - m) / v / 2 + |Real.log (2 * Real.pi * v) / 2| + 1) / 2 ^ 49 := by
  have hV : (0:ℝ) < v := by exact_mod_cast hv
  have hQ : 0 ≤ ((x : ℝ) - m) * (x - m) / v := div_nonneg (mul_self_nonneg _) hV.le
  have e1 := (maha_error (logD := logD) m v x).const_mul (-(1 / 2))
  have e2 : RelErr (1 / 2 ^ 53) (-(1 / 2) * ((Norm1.withVariance logD m v).mahalanobis x : ℝ))
      (fl53 (-(1 / 2) * (Norm1.withVariance logD m v).mahalanobis x) : ℚ) := by
    have := relErr_fl (-(1 / 2) * (Norm1.withVariance logD m v).mahalanobis x); push_cast at this; exact this
  have e3 := (e1.trans (by norm_num) e2).weaken (show _ ≤ (8 / 2 ^ 53 : ℝ) by norm_num)
  have e4 := normalizer_error hlog hv
  have e5 := relErr_fl (fl53 (-(1 / 2) * (Norm1.withVariance logD m v).mahalanobis x) - (Norm1.withVariance logD m v).normalizer)
  unfold Norm1.logpdf
  have hN : (Norm1.withVariance logD m v).normalizer = fl53 (1 / 2 * logD (fl53 (fl53 (2 * piD) * v))) := rfl
  rw [← hN] at e4
  unfold RelErr at e3 e5
  generalize (Norm1.withVariance logD m v).normalizer = N at *
  generalize fl53 (-(1 / 2) * (Norm1.withVariance logD m v).mahalanobis x) = A at *
  generalize ((x : ℝ) - m) * (x - m) / v = Q at *
  generalize Real.log (2 * Real.pi * v) / 2 = g at *
  push_cast at e5
  rw [abs_mul, abs_neg, abs_of_pos (by norm_num : (0:ℝ) < 1 / 2), abs_of_nonneg hQ] at e3
  have t1 := abs_add_le (((fl53 (A - N) : ℚ) : ℝ) - (A - N)) (((A : ℝ) - -(1 / 2) * Q) - (N - g))
  rw [show ((fl53 (A - N) : ℚ) : ℝ) - (A - N) + (((A : ℝ) - -(1 / 2) * Q) - (N - g)) = ((fl53 (A - N) : ℚ) : ℝ) - (-(Q / 2) - g) by ring] at t1
  have t2 := abs_sub ((A : ℝ) - -(1 / 2) * Q) (N - g)
  have t3 := abs_sub (A : ℝ) N
  have t4 := abs_add_le ((A : ℝ) - -(1 / 2) * Q) (-(1 / 2) * Q)
  rw [sub_add_cancel, abs_mul, abs_neg, abs_of_pos (by norm_num : (0:ℝ) < 1 / 2), abs_of_nonneg hQ] at t4
  have t5 := abs_add_le ((N : ℝ) - g) g
  rw [sub_add_cancel] at t5
  linarith [abs_nonneg g]

theorem pdf_error {logD expD : ℚ → ℚ} (hlog : LogAccurate logD) (hexp : ExpAccurate expD) {v : ℚ} (hv : 0 < v) (m x : ℚ)
    (h1 : |Real.log (gaussianPDFReal m (v : ℝ).toNNReal x)| ≤ 700)
    (h2 : ((x : ℝ) - m) * (x - m) / v / 2 + |Real.log (2 * Real.pi * v) / 2| + 1 ≤ 2 ^ 49) :
    |((Norm1.withVariance logD m v).pdf expD x : ℝ) - gaussianPDFReal m (v : ℝ).toNNReal x| ≤
      gaussianPDFReal m (v : ℝ).toNNReal x * ((((x : ℝ) - m) * (x - m) / v / 2 + |Real.log (2 * Real.pi * v) / 2| + 1) / 2 ^ 47) := by
  have hV : (0:ℝ) < v := by exact_mod_cast hv
  have hQ : 0 ≤ ((x : ℝ) - m) * (x - m) / v := div_nonneg (mul_self_nonneg _) hV.le
  have he := logpdf_error hlog hv m x
  rw [gaussian_log hV] at h1 ⊢
  rw [Real.log_exp] at h1
  unfold Norm1.pdf
  have hx := hexp ((Norm1.withVariance logD m v).logpdf x)
  have hD0 : 1 ≤ ((x : ℝ) - m) * (x - m) / v / 2 + |Real.log (2 * Real.pi * v) / 2| + 1 := by
    have hg := abs_nonneg (Real.log (2 * Real.pi * v) / 2)
    linarith
  generalize (Norm1.withVariance logD m v).logpdf x = l' at *
  generalize (-(((x : ℝ) - m) * (x - m) / v / 2) - Real.log (2 * Real.pi * v) / 2) = l at *
  generalize ((x : ℝ) - m) * (x - m) / v / 2 + |Real.log (2 * Real.pi * v) / 2| + 1 = D at *
  have hD1 : D / 2 ^ 49 ≤ 1 := by linarith
  obtain ⟨a1, a2⟩ := abs_le.1 h1
  obtain ⟨b1, b2⟩ := abs_le.1 he
  have hx := hx (by
    have : (-708 : ℝ) ≤ l' := by linarith
    exact_mod_cast this) (by
    have : (l' : ℝ) ≤ 709 := by linarith
    exact_mod_cast this)
  have hd := Real.abs_exp_sub_one_le (x := (l' : ℝ) - l) (he.trans hD1)
  have hp := Real.exp_pos l
  have e : Real.exp (l' : ℝ) = Real.exp l * Real.exp (l' - l) := by rw [← Real.exp_add]; congr 1; ring
  rw [e] at hx
  generalize Real.exp ((l' : ℝ) - l) = E at *
  generalize Real.exp l = p at *
  have hd' : |E - 1| ≤ 2 * (D / 2 ^ 49) := by linarith
  have t1 := abs_add_le ((expD l' : ℝ) - p * E) (p * (E - 1))
  rw [show (expD l' : ℝ) - p * E + p * (E - 1) = expD l' - p by ring, abs_mul, abs_of_pos hp] at t1
  have m1 := mul_le_mul_of_nonneg_left hd' hp.le
  have hE : E ≤ 3 := by have := (abs_le.1 hd').2; linarith
  have m2 := mul_le_mul_of_nonneg_left hE hp.le
  have m3 := mul_le_mul_of_nonneg_left hD0 hp.le
  linarith

/-- **C161** (accuracy): after any history of setter calls on a distribution constructed with a positive variance, mean and variance are those
of the last accepted calls, and the density computed at any point is that of the normal distribution with these up to a relative error of
`(maha / 2 + |normalizer| + 1) 2^-47`, where `maha` is the squared distance in standard deviations; the log density up to an absolute error of a
quarter of this.  The condition on the density says that it neither overflows nor underflows. -/
theorem C161_density (logD expD : ℚ → ℚ) (hlog : LogAccurate logD) (hexp : ExpAccurate expD) (m0 v0 : ℚ) :
    (v0 ≤ 0 → Norm1.ctor logD m0 v0 = .throw .badArgument ()) ∧
    (0 < v0 → ∃ s0, Norm1.ctor logD m0 v0 = .ok s0 () ∧ ∀ ops : List Norm1Op,
      let s := Norm1.run logD s0 ops
      let m := (lastSet (m0, v0) ops).1
      let v := (lastSet (m0, v0) ops).2
      s.mean = m ∧ s.variance = v ∧ 0 < v ∧ ∀ x : ℚ,
        let D : ℝ := ((x : ℝ) - m) * (x - m) / v / 2 + |Real.log (2 * Real.pi * v) / 2| + 1
        |(s.logpdf x : ℝ) - Real.log (gaussianPDFReal m (v : ℝ).toNNReal x)| ≤ D / 2 ^ 49 ∧
        (|Real.log (gaussianPDFReal m (v : ℝ).toNNReal x)| ≤ 700 → D ≤ 2 ^ 49 →
          |(s.pdf expD x : ℝ) - gaussianPDFReal m (v : ℝ).toNNReal x| ≤ gaussianPDFReal m (v : ℝ).toNNReal x * (D / 2 ^ 47))) := by
  refine ⟨fun h => by rw [Norm1.ctor, if_pos h], fun h => ⟨Norm1.withVariance logD m0 v0, by rw [Norm1.ctor, if_neg (not_le.2 h)], fun ops => ?_⟩⟩
  obtain ⟨e, hv⟩ := run_eq logD ops m0 v0 h
  intro s m v
  have hs : s = Norm1.withVariance logD m v := e
  rw [hs]
  refine ⟨rfl, rfl, hv, fun x => ⟨?_, fun h1 h2 => pdf_error hlog hexp hv m x h1 h2⟩⟩
  rw [gaussian_log (by exact_mod_cast hv), Real.log_exp]
  exact logpdf_error hlog hv m x

/-- **C161** (order): in doubles too the density falls with the distance from the mean: nearer points never get a smaller one, points at the
same distance the same, and the mean the largest. -/
theorem C161_unimodal (logD expD : ℚ → ℚ) (hmono : Monotone expD) (m0 v0 : ℚ) (h0 : 0 < v0) (s0 : Norm1)
    (hs : Norm1.ctor logD m0 v0 = .ok s0 ()) (ops : List Norm1Op) (x y : ℚ)
    (h : |x - (lastSet (m0, v0) ops).1| ≤ |y - (lastSet (m0, v0) ops).1|) :
    (Norm1.run logD s0 ops).logpdf y ≤ (Norm1.run logD s0 ops).logpdf x ∧
    (Norm1.run logD s0 ops).pdf expD y ≤ (Norm1.run logD s0 ops).pdf expD x := by
  rw [Norm1.ctor, if_neg (not_le.2 h0)] at hs
  injection hs with hs
  subst hs
  obtain ⟨e, hv⟩ := run_eq logD ops m0 v0 h0
  rw [e]
  suffices hl : (Norm1.withVariance logD (lastSet (m0, v0) ops).1 (lastSet (m0, v0) ops).2).logpdf y ≤
      (Norm1.withVariance logD (lastSet (m0, v0) ops).1 (lastSet (m0, v0) ops).2).logpdf x from ⟨hl, hmono hl⟩
  have habs : ∀ d p : ℚ, 0 ≤ p → fl53 (fl53 (fl53 d * p) * fl53 d) = fl53 (fl53 (fl53 |d| * p) * fl53 |d|) := by
    intro d p _
    rcases abs_choice d with hd | hd
    · rw [hd]
    · rw [hd, Verif.MLE1.fl53_neg d, neg_mul, Verif.MLE1.fl53_neg (fl53 d * p), neg_mul_neg]
  have hp : 0 ≤ fl53 (1 / (lastSet (m0, v0) ops).2) := fl53_nonneg (by positivity)
  have hm : (Norm1.withVariance logD (lastSet (m0, v0) ops).1 (lastSet (m0, v0) ops).2).mahalanobis x ≤
      (Norm1.withVariance logD (lastSet (m0, v0) ops).1 (lastSet (m0, v0) ops).2).mahalanobis y := by
    show fl53 (fl53 (fl53 (x - (lastSet (m0, v0) ops).1) * fl53 (1 / (lastSet (m0, v0) ops).2)) * fl53 (x - (lastSet (m0, v0) ops).1)) ≤
      fl53 (fl53 (fl53 (y - (lastSet (m0, v0) ops).1) * fl53 (1 / (lastSet (m0, v0) ops).2)) * fl53 (y - (lastSet (m0, v0) ops).1))
    rw [habs _ _ hp, habs (y - _) _ hp]
    have h1 := fl53_mono h
    have h2 := fl53_nonneg (abs_nonneg (x - (lastSet (m0, v0) ops).1))
    have h3 := fl53_mono (mul_le_mul_of_nonneg_right h1 hp)
    have h4 := fl53_nonneg (mul_nonneg h2 hp)
    exact fl53_mono (mul_le_mul h3 h1 h2 (h4.trans h3))
  unfold Norm1.logpdf
  exact fl53_mono (sub_le_sub_right (fl53_mono (by linarith)) _)

/-- a case: mean 3 and variance 1 after a refused and two accepted calls; the density at 4. -/
example (logD expD : ℚ → ℚ) (hlog : LogAccurate logD) (hexp : ExpAccurate expD) : ∃ s0, Norm1.ctor logD 1 2 = .ok s0 () ∧
    (Norm1.run logD s0 [.setVariance 0, .setMean 3, .setVariance 1]).mean = 3 ∧
    |((Norm1.run logD s0 [.setVariance 0, .setMean 3, .setVariance 1]).logpdf 4 : ℝ) - Real.log (gaussianPDFReal 3 1 4)| ≤ 1 / 2 ^ 46 := by
  obtain ⟨s0, h1, h2⟩ := (C161_density logD expD hlog hexp 1 2).2 (by norm_num)
  obtain ⟨e1, -, -, e2⟩ := h2 [.setVariance 0, .setMean 3, .setVariance 1]
  have e : lastSet (1, 2) [.setVariance 0, .setMean 3, .setVariance 1] = (3, 1) := by norm_num [lastSet]
  refine ⟨s0, h1, by rw [e1, e], ?_⟩
  have := (e2 4).1
  rw [e] at this
  have hl : |Real.log (2 * Real.pi * ((1 : ℚ) : ℝ)) / 2| ≤ 3 := by
    have hp := Real.pi_gt_three
    have hq := Real.pi_lt_d2
    have l1 : 0 ≤ Real.log (2 * Real.pi * ((1 : ℚ) : ℝ)) := Real.log_nonneg (by push_cast; linarith)
    have l2 := Real.log_le_sub_one_of_pos (show 0 < 2 * Real.pi * ((1 : ℚ) : ℝ) by push_cast; linarith)
    push_cast at *
    rw [abs_of_nonneg (by linarith)]
    linarith
  have h3 : ((1 : ℚ) : ℝ).toNNReal = 1 := by simp
  simp only [h3] at this
  norm_num at this hl ⊢
  linarith

end Dbl
end Verif
