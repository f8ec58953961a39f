import Verif.Model.DoubleWeighted
import Verif.Lemmas.RelativeError
import Verif.Props.DoubleStats

/-!
# C145: weighted estimation in double arithmetic
-/

namespace Verif
namespace MLE1
open RelErr Spec

theorem wsumD_id (ps : List ℚ) : ∀ (ws : List ℚ) (acc : ℚ), wsumD id ps ws acc = wsum ps ws acc := by
  induction ps with
  | nil => intro ws acc; cases ws <;> rfl
  | cons p ps ih => intro ws acc; cases ws with
    | nil => rfl
    | cons w ws => simp [wsumD, wsum, ih]

theorem wsqD_id (m : ℚ) (ps : List ℚ) : ∀ (ws : List ℚ) (acc : ℚ), wsqD id m ps ws acc = wsq m ps ws acc := by
  induction ps with
  | nil => intro ws acc; cases ws <;> rfl
  | cons p ps ih => intro ws acc; cases ws with
    | nil => rfl
    | cons w ws => simp [wsqD, wsq, ih]

/-- without rounding the function is that of `C34`. -/
theorem addPointsWD_id (s : MLE1 ℚ) (ps ws : List ℚ) : addPointsWD id ws.sum s ps ws = addPointsW s ps ws := by
  simp [addPointsWD, addPointsW, wsumD_id, wsqD_id]

/-- the error of the weighted sum. -/
theorem wsumD_near : ∀ (ps ws : List ℚ) (acc S A : ℚ) (k : ℕ), ws.length = ps.length → (∀ w ∈ ws, 0 ≤ w) → |S| ≤ A →
    |acc - S| ≤ 2 * k / 2 ^ 53 * A → 1 ≤ k → k + ps.length ≤ 2 ^ 52 →
    |wsumD fl53 ps ws acc - (S + ((ps.zip ws).map fun x => x.2 * x.1).sum)| ≤
      2 * (k + ps.length : ℕ) / 2 ^ 53 * (A + ((ps.zip ws).map fun x => x.2 * |x.1|).sum) := by
  intro ps
  induction ps with
  | nil => intro ws acc S A k _ _ _ h _ _; cases ws <;> simpa [wsumD] using h
  | cons p ps ih =>
    intro ws acc S A k hl hw hS h hk hk2
    cases ws with
    | nil => simp at hl
    | cons w ws =>
      simp only [List.length_cons, Nat.add_right_cancel_iff] at hl
      simp only [List.length_cons] at hk2
      have hw0 := hw w List.mem_cons_self
      have hkq : (k : ℚ) + 1 ≤ 2 ^ 52 := by exact_mod_cast (by omega : k + 1 ≤ 2 ^ 52)
      have hk1 : (1 : ℚ) ≤ k := by exact_mod_cast hk
      obtain ⟨b, hb⟩ : ∃ b, b = w * |p| := ⟨_, rfl⟩
      have hwp : |w * p| = b := by rw [abs_mul, abs_of_nonneg hw0, hb]
      have hb0 : 0 ≤ b := by rw [hb]; positivity
      have hA : 0 ≤ A := (abs_nonneg _).trans hS
      have e1 := fl53_rel (w * p)
      rw [hwp] at e1
      have e2 := fl53_rel (acc + fl53 (w * p))
      have e3 : |acc + fl53 (w * p) - (S + w * p)| ≤ |acc - S| + b / 2 ^ 53 := by
        have := abs_add_le (acc - S) (fl53 (w * p) - w * p)
        rw [show acc - S + (fl53 (w * p) - w * p) = acc + fl53 (w * p) - (S + w * p) by ring] at this
        linarith
      have e4 : |S + w * p| ≤ A + b := by
        have := abs_add_le S (w * p)
        rw [hwp] at this
        linarith
      have e5 : |acc + fl53 (w * p)| ≤ |acc + fl53 (w * p) - (S + w * p)| + |S + w * p| := by
        have := abs_add_le (acc + fl53 (w * p) - (S + w * p)) (S + w * p)
        rwa [sub_add_cancel] at this
      have e6 := abs_sub_le (fl53 (acc + fl53 (w * p))) (acc + fl53 (w * p)) (S + w * p)
      obtain ⟨t, ht⟩ : ∃ t, t = (k : ℚ) / 2 ^ 53 := ⟨_, rfl⟩
      have hd : |fl53 (acc + fl53 (w * p)) - (S + w * p)| ≤ 2 * ((k + 1 : ℕ) : ℚ) / 2 ^ 53 * (A + b) := by
        push_cast
        have h' : |acc - S| ≤ 2 * t * A := by rw [ht]; calc _ ≤ _ := h
          _ = _ := by ring
        have hg : 2 * ((k : ℚ) + 1) / 2 ^ 53 * (A + b) = 2 * t * (A + b) + 2 / 2 ^ 53 * (A + b) := by rw [ht]; ring
        have ht1 : t + 1 / 2 ^ 53 ≤ 1 / 2 := by
          rw [ht]
          have : (k : ℚ) / 2 ^ 53 + 1 / 2 ^ 53 = (k + 1) / 2 ^ 53 := by ring
          rw [this, div_le_iff₀ (by norm_num)]; linarith
        have ht2 : 1 / 2 ^ 53 ≤ t := by rw [ht]; gcongr
        obtain ⟨E, hE⟩ : ∃ E, E = |acc + fl53 (w * p) - (S + w * p)| := ⟨_, rfl⟩
        rw [← hE] at e3 e5 e6
        have hE1 : E ≤ 2 * t * A + b / 2 ^ 53 := by linarith
        have hb1 : b / 2 ^ 53 ≤ t * b := by
          calc b / 2 ^ 53 = 1 / 2 ^ 53 * b := by ring
            _ ≤ _ := mul_le_mul_of_nonneg_right ht2 hb0
        have hE2 : E ≤ A + b := by nlinarith
        have : |fl53 (acc + fl53 (w * p)) - (S + w * p)| ≤ (E + (A + b)) / 2 ^ 53 + E := by
          have : |acc + fl53 (w * p)| / 2 ^ 53 ≤ (E + (A + b)) / 2 ^ 53 := by gcongr; linarith
          linarith
        rw [hg]
        have h9 : (E + (A + b)) / 2 ^ 53 ≤ 2 / 2 ^ 53 * (A + b) := by
          rw [div_mul_eq_mul_div]; gcongr; linarith
        nlinarith
      have := ih ws (fl53 (acc + fl53 (w * p))) (S + w * p) (A + b) (k + 1) hl (fun x hx => hw x (List.mem_cons_of_mem _ hx)) e4 hd
        (by omega) (by omega)
      simp only [wsumD, List.zip_cons_cons, List.map_cons, List.sum_cons, List.length_cons]
      rw [hb] at this
      rw [show k + 1 + ps.length = k + (ps.length + 1) by omega] at this
      rw [add_assoc, add_assoc] at this
      exact this

/-- one summand of the variance. -/
theorem term_NN {w : ℚ} (hw : 0 ≤ w) (d : ℚ) : NN 4 (w * d ^ 2) (fl53 (fl53 (w * fl53 d) * fl53 d)) := by
  have key : ∀ d, 0 ≤ d → NN 4 (w * d ^ 2) (fl53 (fl53 (w * fl53 d) * fl53 d)) := by
    intro d hd
    have h1 := fl_NN hd
    have h2 := ((NN.refl hw).mul h1).fl
    have h3 := (h2.mul h1).fl
    rw [show w * d * d = w * d ^ 2 by ring] at h3
    exact h3
  rcases le_total 0 d with h | h
  · exact key d h
  · have := key (-d) (by linarith)
    rw [fl53_neg d, mul_neg, mul_neg, fl53_neg (w * fl53 d), neg_mul, neg_neg, neg_sq] at this
    exact this

theorem wsqD_NN (m : ℚ) : ∀ (ps ws : List ℚ) (acc S : ℚ) (k : ℕ), ws.length = ps.length → (∀ w ∈ ws, 0 ≤ w) → NN k S acc → 4 ≤ k →
    NN (k + ps.length) (S + ((ps.zip ws).map fun x => x.2 * (x.1 - m) ^ 2).sum) (wsqD fl53 m ps ws acc) := by
  intro ps
  induction ps with
  | nil => intro ws acc S k _ _ h _; cases ws <;> simpa [wsqD] using h
  | cons p ps ih =>
    intro ws acc S k hl hw h hk
    cases ws with
    | nil => simp at hl
    | cons w ws =>
      simp only [List.length_cons, Nat.add_right_cancel_iff] at hl
      have h1 := (h.add ((term_NN (hw w List.mem_cons_self) (p - m)).mono hk)).fl
      have := ih ws _ _ (k + 1) hl (fun x hx => hw x (List.mem_cons_of_mem _ hx)) h1 (by omega)
      simp only [wsqD, List.zip_cons_cons, List.map_cons, List.sum_cons, List.length_cons]
      rw [show k + 1 + ps.length = k + (ps.length + 1) by omega, add_assoc S] at this
      exact this

/-- the sum of squares about another number than the mean. -/
theorem wsum_shift (xs : List (ℚ × ℚ)) (m : ℚ) (hW : 0 < (xs.map Prod.snd).sum) :
    (xs.map fun x => x.2 * (x.1 - m) ^ 2).sum / (xs.map Prod.snd).sum = wvariance xs + (wmean xs - m) ^ 2 := by
  have e : ∀ (ys : List (ℚ × ℚ)) (a : ℚ), (ys.map fun x => x.2 * (x.1 - a) ^ 2).sum =
      (ys.map fun x => x.2 * x.1 ^ 2).sum - 2 * a * (ys.map fun x => x.2 * x.1).sum + a ^ 2 * (ys.map Prod.snd).sum := by
    intro ys a
    induction ys with
    | nil => simp
    | cons y ys ih => simp only [List.map_cons, List.sum_cons, ih]; ring
  unfold wvariance
  rw [e xs m, e xs (wmean xs)]
  have h2 : (xs.map fun x => x.2 * x.1).sum = wmean xs * (xs.map Prod.snd).sum := by
    unfold wmean; rw [div_mul_cancel₀ _ hW.ne']
  rw [h2]
  field_simp
  ring


theorem zip_sum_abs (ps : List ℚ) : ∀ (ws : List ℚ) (M : ℚ), ws.length = ps.length → (∀ w ∈ ws, 0 ≤ w) → (∀ x ∈ ps, |x| ≤ M) →
    ((ps.zip ws).map fun x => x.2 * |x.1|).sum ≤ ws.sum * M ∧ |((ps.zip ws).map fun x => x.2 * x.1).sum| ≤ ws.sum * M := by
  induction ps with
  | nil => intro ws M hl _ _; simp at hl; subst hl; simp
  | cons p ps ih =>
    intro ws M hl hw hx
    cases ws with
    | nil => simp at hl
    | cons w ws =>
      simp only [List.length_cons, Nat.add_right_cancel_iff] at hl
      obtain ⟨a, b⟩ := ih ws M hl (fun x h => hw x (List.mem_cons_of_mem _ h)) fun x h => hx x (List.mem_cons_of_mem _ h)
      have hw0 := hw w List.mem_cons_self
      have h1 : w * |p| ≤ w * M := mul_le_mul_of_nonneg_left (hx p List.mem_cons_self) hw0
      simp only [List.zip_cons_cons, List.map_cons, List.sum_cons, add_mul]
      refine ⟨by linarith, ?_⟩
      have := abs_add_le (w * p) ((ps.zip ws).map fun x => x.2 * x.1).sum
      rw [abs_mul, abs_of_nonneg hw0] at this
      linarith

theorem sumsq_pos (xs : List (ℚ × ℚ)) (m : ℚ) (hw : ∀ x ∈ xs, 0 ≤ x.2) :
    0 ≤ (xs.map fun x => x.2 * (x.1 - m) ^ 2).sum ∧
    (0 < (xs.map fun x => x.2 * (x.1 - m) ^ 2).sum ↔ ∃ x ∈ xs, 0 < x.2 ∧ x.1 ≠ m) := by
  induction xs with
  | nil => simp
  | cons y ys ih =>
    obtain ⟨h1, h2⟩ := ih fun x hx => hw x (List.mem_cons_of_mem _ hx)
    have hy : 0 ≤ y.2 * (y.1 - m) ^ 2 := mul_nonneg (hw y List.mem_cons_self) (sq_nonneg _)
    simp only [List.map_cons, List.sum_cons]
    refine ⟨by linarith, ?_⟩
    constructor
    · intro h
      rcases hy.eq_or_lt with h0 | h0
      · rw [← h0, zero_add] at h
        obtain ⟨x, hx, g⟩ := h2.1 h
        exact ⟨x, List.mem_cons_of_mem _ hx, g⟩
      · refine ⟨y, List.mem_cons_self, ?_, ?_⟩
        · rcases (hw y List.mem_cons_self).eq_or_lt with g | g
          · rw [← g, zero_mul] at h0; exact absurd h0 (lt_irrefl _)
          · exact g
        · rintro g; rw [g, sub_self] at h0; norm_num at h0
    · rintro ⟨x, hx, g1, g2⟩
      rcases List.mem_cons.1 hx with rfl | hx
      · have : 0 < x.2 * (x.1 - m) ^ 2 := mul_pos g1 (by positivity [sub_ne_zero.2 g2])
        linarith
      · have := h2.2 ⟨x, hx, g1, g2⟩
        linarith

/-- **C145** (partial): `n ≤ 2^26` points of magnitude at most `M` with weights that are not negative and not all zero, added up in any
order.  The mean is the weighted mean up to `8 n 2^-53 M`; the estimator is valid exactly if a point of positive weight differs from the
computed mean, in particular if the points of positive weight are not all equal; then the variance is positive and the weighted
variance up to the factor `1 + 14 n 2^-53` and twice the square of the error of the mean.  The streaming state is unchanged.  Missing: not
valid if they are all equal (`C145_equal_points`), and weights all zero (`C145_no_weight`). -/
theorem C145_error_partial (s : MLE1 ℚ) (ps ws : List ℚ) (total M : ℚ) (hl : ws.length = ps.length) (hn : ps.length ≤ 2 ^ 26)
    (hw : ∀ w ∈ ws, 0 ≤ w) (hW : 0 < ws.sum) (htot : IsSumOf fl53 ws total) (hx : ∀ x ∈ ps, |x| ≤ M) :
    let t := addPointsWD fl53 total s ps ws
    let xs := ps.zip ws
    t.n = s.n ∧ t.sum = s.sum ∧ t.sq = s.sq ∧
    ∃ m, t.mean = some m ∧ |m - wmean xs| ≤ 8 * ps.length / 2 ^ 53 * M ∧
      (t.valid = true ↔ ∃ x ∈ xs, 0 < x.2 ∧ x.1 ≠ m) ∧
      (0 < wvariance xs → t.valid = true) ∧
      (t.valid = true → ∃ v, t.var = some v ∧ 0 < v ∧
        |v - wvariance xs| ≤ 14 * ps.length / 2 ^ 53 * wvariance xs + 2 * (8 * ps.length / 2 ^ 53 * M) ^ 2) ∧
      (t.valid = false → t.var = s.var) := by
  intro t xs
  have hsnd : xs.map Prod.snd = ws := List.map_snd_zip (by omega)
  have hws : ∀ x ∈ xs, 0 ≤ x.2 := fun x h => hw _ (List.of_mem_zip (a := x.1) (b := x.2) h).2
  obtain ⟨n, hnn⟩ : ∃ n, n = ps.length := ⟨_, rfl⟩
  have hn1 : 1 ≤ n := by
    rcases Nat.eq_zero_or_pos n with h | h
    · rw [hnn, ← hl, List.length_eq_zero_iff] at h
      rw [h] at hW; simp at hW
    · exact h
  rw [← hnn] at hn
  have hnq : (n : ℚ) ≤ 2 ^ 26 := by exact_mod_cast hn
  have hnq1 : (1 : ℚ) ≤ n := by exact_mod_cast hn1
  have hM : 0 ≤ M := by
    have : 0 < ps.length := by omega
    exact (abs_nonneg _).trans (hx _ (List.getElem_mem this))
  have hT := sum_NN htot hw
  rw [hl, ← hnn] at hT
  have hT0 : 0 < total := hT.pos.2 hW
  have hTa := hT.abs (by omega)
  obtain ⟨W, hWd⟩ : ∃ W, W = ws.sum := ⟨_, rfl⟩
  rw [← hWd] at hW hTa hT
  obtain ⟨u, hu⟩ : ∃ u : ℚ, u = n / 2 ^ 53 := ⟨_, rfl⟩
  have hu0 : 0 < u := by rw [hu]; positivity
  have hu1 : u ≤ 1 / 2 ^ 27 := by rw [hu, div_le_iff₀ (by norm_num)]; linarith
  have hue : 1 / 2 ^ 53 ≤ u := by rw [hu]; gcongr
  -- the mean
  obtain ⟨z1, z2⟩ := zip_sum_abs ps ws M hl hw hx
  have hacc := wsumD_near ps ws 0 0 0 1 hl hw (by simp) (by simp) le_rfl (by omega)
  rw [zero_add, zero_add] at hacc
  obtain ⟨a, ha⟩ : ∃ a, a = wsumD fl53 ps ws 0 := ⟨_, rfl⟩
  obtain ⟨S, hS⟩ : ∃ S, S = ((ps.zip ws).map fun x => x.2 * x.1).sum := ⟨_, rfl⟩
  rw [← ha, ← hS] at hacc
  rw [← hS, ← hWd] at z2
  rw [← hWd] at z1
  have hacc' : |a - S| ≤ 4 * u * (W * M) := by
    refine hacc.trans ?_
    have e1 : 2 * ((1 + ps.length : ℕ) : ℚ) / 2 ^ 53 ≤ 4 * u := by
      rw [hu, ← hnn, mul_div_assoc', div_le_div_iff_of_pos_right (by norm_num)]
      push_cast; linarith
    exact mul_le_mul e1 z1 (List.sum_nonneg (by
      intro y hy
      obtain ⟨x, hx', rfl⟩ := List.mem_map.1 hy
      exact mul_nonneg (hws x hx') (abs_nonneg _))) (by positivity)
  have hTa' : |total - W| ≤ 2 * u * W := by
    refine hTa.trans (le_of_eq ?_); rw [hu]; ring
  have hTW : W ≤ 101 / 100 * total := by
    have := (abs_le.mp hTa').1
    nlinarith
  have hmu : wmean xs = S / W := by unfold wmean; rw [hsnd, ← hWd, hS]
  have hmuM : |wmean xs| ≤ M := by
    rw [hmu, abs_div, abs_of_pos hW, div_le_iff₀ hW]; linarith
  have hdiv : |a / total - wmean xs| ≤ 6 * u * M * (101 / 100) := by
    have e : a / total - wmean xs = ((a - S) - wmean xs * (total - W)) / total := by
      rw [hmu]; field_simp; ring
    rw [e, abs_div, abs_of_pos hT0, div_le_iff₀ hT0]
    have b1 := abs_sub (a - S) (wmean xs * (total - W))
    rw [abs_mul] at b1
    have b2 : |wmean xs| * |total - W| ≤ M * (2 * u * W) := mul_le_mul hmuM hTa' (abs_nonneg _) hM
    have b3 : 6 * u * M * W ≤ 6 * u * M * (101 / 100 * total) := mul_le_mul_of_nonneg_left hTW (by positivity)
    linarith
  obtain ⟨m, hm⟩ : ∃ m, m = fl53 (a / total) := ⟨_, rfl⟩
  have hmean : |m - wmean xs| ≤ 8 * u * M := by
    have b1 := fl53_rel (a / total)
    have b2 := abs_sub_le (fl53 (a / total)) (a / total) (wmean xs)
    have b3 : |a / total| ≤ 6 * u * M * (101 / 100) + M := by
      have := abs_add_le (a / total - wmean xs) (wmean xs)
      rw [sub_add_cancel] at this
      linarith
    have huM : 6 * u * M * (101 / 100) ≤ 1 / 10 * M := by nlinarith
    have b4 : |a / total| / 2 ^ 53 ≤ 11 / 10 * (u * M) := by
      have : |a / total| ≤ 11 / 10 * M := by linarith
      calc |a / total| / 2 ^ 53 ≤ 11 / 10 * M / 2 ^ 53 := by gcongr
        _ = 11 / 10 * (1 / 2 ^ 53 * M) := by ring
        _ ≤ _ := by gcongr
    rw [hm]
    have : 0 ≤ u * M := by positivity
    linarith
  -- the variance
  have hq := wsqD_NN m ps ws 0 0 4 hl hw ⟨le_rfl, by simp, by simp⟩ le_rfl
  rw [zero_add, ← hnn] at hq
  obtain ⟨q, hqd⟩ : ∃ q, q = wsqD fl53 m ps ws 0 := ⟨_, rfl⟩
  rw [← hqd] at hq
  have hv := (hq.div hT hW).fl
  have hshift := wsum_shift xs m (by rw [hsnd, ← hWd]; exact hW)
  rw [hsnd, ← hWd] at hshift
  obtain ⟨p0, p1⟩ := sumsq_pos xs m hws
  rw [show ((ps.zip ws).map fun x => x.2 * (x.1 - m) ^ 2).sum / W = wvariance xs + (wmean xs - m) ^ 2 from hshift] at hv
  obtain ⟨v, hvd⟩ : ∃ v, v = fl53 (q / total) := ⟨_, rfl⟩
  rw [← hvd] at hv
  have hvar0 : 0 ≤ wvariance xs := by
    unfold wvariance
    exact div_nonneg (sumsq_pos xs _ hws).1 (by rw [hsnd, ← hWd]; exact hW.le)
  have hvpos : 0 < v ↔ ∃ x ∈ xs, 0 < x.2 ∧ x.1 ≠ m := by
    rw [hv.pos, ← hshift, ← p1]
    exact ⟨fun h => by rwa [lt_div_iff₀ hW, zero_mul] at h, fun h => div_pos h hW⟩
  have hva := hv.abs (by omega)
  have ht : t = commit s m v := by
    show addPointsWD fl53 total s ps ws = _
    unfold addPointsWD
    rw [if_neg (by omega), if_neg hT0.ne']
    simp only [← ha, ← hm, ← hqd, ← hvd]
  have hu8 : 8 * (ps.length : ℚ) / 2 ^ 53 = 8 * u := by rw [← hnn, hu]; ring
  have hu14 : 14 * (ps.length : ℚ) / 2 ^ 53 = 14 * u := by rw [← hnn, hu]; ring
  rw [ht, hu8, hu14]
  have hbound : |v - wvariance xs| ≤ 14 * u * wvariance xs + 2 * (8 * u * M) ^ 2 := by
    have c1 : 2 * ((4 + n + n + 1 : ℕ) : ℚ) / 2 ^ 53 ≤ 14 * u := by
      rw [hu, mul_div_assoc', div_le_div_iff_of_pos_right (by norm_num)]
      push_cast; linarith
    have c2 : (wmean xs - m) ^ 2 ≤ (8 * u * M) ^ 2 := by
      rw [sq_le_sq, abs_of_nonneg (a := 8 * u * M) (by positivity), abs_sub_comm]
      exact hmean
    obtain ⟨D, hD⟩ : ∃ D, D = (wmean xs - m) ^ 2 := ⟨_, rfl⟩
    rw [← hD] at hva c2
    have hD0 : 0 ≤ D := by rw [hD]; positivity
    have c3 : |v - (wvariance xs + D)| ≤ 14 * u * (wvariance xs + D) :=
      hva.trans (mul_le_mul_of_nonneg_right c1 (by linarith))
    have c4 := abs_add_le (v - (wvariance xs + D)) D
    rw [abs_of_nonneg hD0, show v - (wvariance xs + D) + D = v - wvariance xs by ring] at c4
    have c5 : 14 * u * D ≤ D := by nlinarith
    linarith
  have hposvar : 0 < wvariance xs → 0 < v := fun h => hv.pos.2 (by positivity)
  unfold commit
  by_cases hv0 : v ≤ 0
  · rw [if_pos hv0]
    refine ⟨rfl, rfl, rfl, m, rfl, hmean, ?_, ?_, by simp, by simp⟩
    · rw [← hvpos]; simp [hv0]
    · intro h; exact absurd (hposvar h) (not_lt.2 hv0)
  · rw [if_neg hv0]
    refine ⟨rfl, rfl, rfl, m, rfl, hmean, ?_, by simp, fun _ => ⟨v, rfl, not_le.1 hv0, hbound⟩, by simp⟩
    rw [← hvpos]; simpa using hv0

/-- **C145** (negation): three points equal to the double nearest to one tenth, with weights one: the computed mean differs from all
points and the estimator is valid. -/
theorem C145_equal_points : IsSumOf fl53 [1, 1, 1] 3 ∧ wvariance [(tenth, 1), (tenth, 1), (tenth, 1)] = 0 ∧
    (addPointsWD fl53 3 init [tenth, tenth, tenth] [1, 1, 1]).valid = true := by
  have f1 : fl53 1 = 1 := fl53_one
  have f2 : fl53 2 = 2 := fl53_two
  have f3 : fl53 3 = 3 := by exact_mod_cast Dbl.fl53_int (m := 3) (by norm_num)
  have hs : IsSumOf fl53 [1, 1, 1] 3 := by
    refine Or.inr ⟨.node (.node (.leaf 1) (.leaf 1)) (.leaf 1), by simp [SumTree.terms], ?_⟩
    simp only [SumTree.eval]
    rw [show (1:ℚ) + 1 = 2 by norm_num, f2, show (2:ℚ) + 1 = 3 by norm_num, f3]
  refine ⟨hs, ?_, ?_⟩
  · unfold wvariance wmean
    norm_num
    ring
  obtain ⟨-, -, -, m, h1, -, h2, -⟩ := C145_error_partial init [tenth, tenth, tenth] [1, 1, 1] 3 tenth rfl (by norm_num)
    (by simp) (by norm_num) hs (by
      intro x hx; simp at hx; rw [hx, abs_of_pos (by norm_num [tenth])])
  rw [h2]
  refine ⟨(tenth, 1), by simp, by norm_num, ?_⟩
  obtain ⟨t1, t2, t3, -⟩ := tenth_sums
  have hT : fl53 (1 * tenth) = tenth := by rw [one_mul]; simpa using t1
  have hmean : (addPointsWD fl53 3 init [tenth, tenth, tenth] [1, 1, 1]).mean =
      some (fl53 (5404319552844596 * (2:ℚ) ^ (-54 : Int) / 3)) := by
    unfold addPointsWD
    rw [if_neg (by simp), if_neg (by norm_num)]
    simp only [wsumD, hT, t1, t2, t3, commit]
    split_ifs <;> rfl
  have hm : fl53 (5404319552844596 * (2:ℚ) ^ (-54 : Int) / 3) = 7205759403792795 * (2:ℚ) ^ (-56 : Int) := by
    exact_mod_cast Dbl.fl53_eval2 7205759403792795 (-1/3) (-56) (by norm_num) (by norm_num) (by norm_num)
      (by norm_num) (Or.inr (by norm_num)) (by norm_num)
  rw [hmean, hm] at h1
  simp only [Option.some.injEq] at h1
  rw [← h1]
  norm_num [tenth]

/-- **C145** (negation): without any weight neither the mean nor the variance is finite, and the estimator is valid. -/
theorem C145_no_weight (s : MLE1 ℚ) (p : ℚ) : (addPointsWD fl53 0 s [p] [0]).valid = true ∧
    (addPointsWD fl53 0 s [p] [0]).mean = none ∧ (addPointsWD fl53 0 s [p] [0]).var = none := by
  simp [addPointsWD]

/-- **C145**: with another number of weights than points nothing happens; without rounding the call is that of the exact model. -/
theorem C145_rejected (s : MLE1 ℚ) (total : ℚ) (ps ws : List ℚ) :
    (ws.length ≠ ps.length → addPointsWD fl53 total s ps ws = s) ∧ addPointsWD id ws.sum s ps ws = addPointsW s ps ws :=
  ⟨fun h => by unfold addPointsWD; rw [if_pos h], addPointsWD_id s ps ws⟩

example : addPointsWD fl53 1 init [1, 2] [1] = init := (C145_rejected init 1 [1, 2] [1]).1 (by simp)

/-- a case: two points, the second of weight two, are not equal: the estimator is valid. -/
example : (addPointsWD fl53 3 init [0, 1] [1, 2]).valid = true := by
  have f3 : fl53 3 = 3 := by exact_mod_cast Dbl.fl53_int (m := 3) (by norm_num)
  obtain ⟨-, -, -, m, -, -, -, h, -⟩ := C145_error_partial init [0, 1] [1, 2] 3 1 rfl (by norm_num) (by simp) (by norm_num)
    (Or.inr ⟨.node (.leaf 1) (.leaf 2), by simp [SumTree.terms], by
      simp only [SumTree.eval]; rw [show (1:ℚ) + 2 = 3 by norm_num, f3]⟩) (by simp)
  exact h (by norm_num [wvariance, wmean])

end MLE1
end Verif
