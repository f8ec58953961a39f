import Verif.Model.VisionDouble
import Verif.Props.Vision
import Verif.Props.DoubleNormal

/-!
# C158: the key frame decision in double arithmetic
-/

namespace Verif
namespace Vision
open Dbl

/-- specification: the distance of two points of the image. -/
noncomputable def pixDist (q : (ℚ × ℚ) × (ℚ × ℚ)) : ℝ := √(((q.1.1 : ℝ) - q.2.1) ^ 2 + ((q.1.2 : ℝ) - q.2.2) ^ 2)

open Classical in
/-- specification: the number of tracks that moved by at most `c`. -/
noncomputable def atMost (qs : List ((ℚ × ℚ) × (ℚ × ℚ))) (c : ℝ) : ℕ := (qs.filter fun q => pixDist q ≤ c).length

theorem RelErr_add {a x y x' y' : ℝ} (hx : 0 ≤ x) (hx' : 0 ≤ x') (h : RelErr a x y) (h' : RelErr a x' y') : RelErr a (x + x') (y + y') := by
  unfold RelErr at *
  rw [abs_of_nonneg hx] at h
  rw [abs_of_nonneg hx'] at h'
  rw [abs_of_nonneg (by linarith : 0 ≤ x + x'), add_sub_add_comm]
  have := abs_add_le (y - x) (y' - x')
  linarith

/-- the computed disparity. -/
theorem disparity_near {sqrtD : ℚ → ℚ} (hsqrt : SqrtAccurate sqrtD) (a b : ℚ × ℚ) :
    RelErr (7 / 2 ^ 53) (pixDist (a, b)) (disparityD sqrtD a b : ℚ) := by
  have sq : ∀ x y : ℚ, RelErr (4 / 2 ^ 53) (((x:ℝ) - y) ^ 2) (fl53 (fl53 (x - y) * fl53 (x - y)) : ℚ) := by
    intro x y
    have h := relErr_fl (x - y)
    have h1 := h.mul (by norm_num) (by norm_num) h
    rw [← Rat.cast_mul, ← Rat.cast_mul] at h1
    have h3 := (h1.trans (by norm_num) (relErr_fl (fl53 (x - y) * fl53 (x - y)))).weaken (show _ ≤ (4 / 2 ^ 53 : ℝ) by norm_num)
    rwa [Rat.cast_mul, Rat.cast_sub, ← pow_two] at h3
  have h1 := RelErr_add (sq_nonneg _) (sq_nonneg _) (sq a.1 b.1) (sq a.2 b.2)
  rw [← Rat.cast_add] at h1
  have h2 := (h1.trans (by norm_num) (relErr_fl _)).weaken (show _ ≤ (5.5 / 2 ^ 53 : ℝ) by norm_num)
  have n0 : 0 ≤ fl53 (fl53 (fl53 (a.1 - b.1) * fl53 (a.1 - b.1)) + fl53 (fl53 (a.2 - b.2) * fl53 (a.2 - b.2))) :=
    fl53_nonneg (add_nonneg (fl53_nonneg (mul_self_nonneg _)) (fl53_nonneg (mul_self_nonneg _)))
  have h3 := h2.sqrt (by positivity) (by exact_mod_cast n0)
  have h4 : RelErr (1 / 2 ^ 53) (√((fl53 (fl53 (fl53 (a.1 - b.1) * fl53 (a.1 - b.1)) + fl53 (fl53 (a.2 - b.2) * fl53 (a.2 - b.2))) : ℚ) : ℝ))
      (disparityD sqrtD a b : ℚ) := by
    have := hsqrt _ n0
    unfold RelErr
    rw [abs_of_nonneg (Real.sqrt_nonneg _)]
    unfold disparityD
    linarith
  exact (h3.trans (by norm_num) h4).weaken (by norm_num)

theorem disparities_eq (sqrtD : ℚ → ℚ) (s : State) (p : FramePtr) (im : PixImg) :
    (trackAll s p (im.toImg sqrtD)).map Prod.snd = (im.points p).map fun q => disparityD sqrtD q.1 q.2 := by
  simp only [trackAll, PixImg.toImg, PixImg.points, List.map_flatMap, List.map_map]
  rfl

theorem orderStat_gt {l : List ℚ} {k : Nat} {x t : ℚ} (h : OrderStat l k x) : x > t ↔ (l.filter fun y => y ≤ t).length ≤ k := by
  constructor
  · intro hx
    refine le_trans ?_ h.2.1
    exact (List.monotone_filter_right l (fun z hz => by simp at hz ⊢; linarith)).length_le
  · intro hc
    by_contra hx
    have : (l.filter fun z => z ≤ x).length ≤ (l.filter fun z => z ≤ t).length :=
      (List.monotone_filter_right l (fun z hz => by simp at hz ⊢; linarith)).length_le
    have := h.2.2
    omega

/-- **C158** (partial): the key frame decision with disparities in double arithmetic, for a threshold that is not negative.  Given a
previous frame, a completed frame and more tracks than required: if the median of the *exact* distances exceeds the threshold by more than one
part in `2^50` (at most half of the tracks moved less), the frame becomes a key frame; if it is below the threshold by one part in `2^50`
(more than half of the tracks moved at most that much), it does not, and nothing changes.  Missing: medians next to the threshold
(`C158_boundary`). -/
theorem C158_key_frame_partial {sqrtD : ℚ → ℚ} (hsqrt : SqrtAccurate sqrtD) {s s' : State} {im : PixImg} {f p : FramePtr}
    (hf : im.frame = some f) (hp : s.prev = some p) (ht : 0 ≤ s.disparityThreshold) (h : addImageD sqrtD s im = .ok () s')
    (he : ((im.points p).length : Int) > s.tracksThreshold) :
    (atMost (im.points p) (s.disparityThreshold * (1 + 1 / 2 ^ 50)) ≤ (im.points p).length / 2 →
      s'.issued = s.issued ++ [(s.next, f)] ∧ AL.get s.next s'.frames = some f ∧ s'.prev = some f) ∧
    ((im.points p).length / 2 < atMost (im.points p) (s.disparityThreshold * (1 - 1 / 2 ^ 50)) → s' = s) := by
  classical
  obtain ⟨c1, c2, -⟩ := C63_key_frame_decision (im := im.toImg sqrtD) hf hp h
  rw [disparities_eq] at c1 c2
  rw [List.length_map] at c1 c2
  have ht' : (0:ℝ) ≤ s.disparityThreshold := by exact_mod_cast ht
  obtain ⟨D, hD⟩ : ∃ D, D = (im.points p).map fun q => disparityD sqrtD q.1 q.2 := ⟨_, rfl⟩
  have hlen : D.length = (im.points p).length := by rw [hD, List.length_map]
  rw [← hD] at c1 c2
  have hcount : (D.filter fun y => y ≤ s.disparityThreshold).length =
      ((im.points p).filter fun q => disparityD sqrtD q.1 q.2 ≤ s.disparityThreshold).length := by
    rw [hD, List.filter_map, List.length_map]; rfl
  have hpos : ∀ q, 0 ≤ pixDist q := fun q => Real.sqrt_nonneg _
  have hup : (D.filter fun y => y ≤ s.disparityThreshold).length ≤ atMost (im.points p) (s.disparityThreshold * (1 + 1 / 2 ^ 50)) := by
    rw [hcount, atMost]
    refine (List.monotone_filter_right _ fun q hq => ?_).length_le
    simp only [decide_eq_true_eq] at hq ⊢
    have hq' : (disparityD sqrtD q.1 q.2 : ℝ) ≤ s.disparityThreshold := by exact_mod_cast hq
    have r := disparity_near hsqrt q.1 q.2
    unfold RelErr at r
    rw [abs_of_nonneg (hpos _)] at r
    have := (abs_le.1 r).1
    have e : pixDist (q.1, q.2) = pixDist q := rfl
    rw [e] at this
    have := hpos q
    nlinarith
  have hlo : atMost (im.points p) (s.disparityThreshold * (1 - 1 / 2 ^ 50)) ≤ (D.filter fun y => y ≤ s.disparityThreshold).length := by
    rw [hcount, atMost]
    refine (List.monotone_filter_right _ fun q hq => ?_).length_le
    simp only [decide_eq_true_eq] at hq ⊢
    have r := disparity_near hsqrt q.1 q.2
    unfold RelErr at r
    rw [abs_of_nonneg (hpos _)] at r
    have := (abs_le.1 r).2
    have e : pixDist (q.1, q.2) = pixDist q := rfl
    rw [e] at this
    have hq' : (disparityD sqrtD q.1 q.2 : ℝ) ≤ s.disparityThreshold := by
      have := hpos q
      nlinarith
    exact_mod_cast hq'
  constructor
  · intro hc
    have hne : D.length / 2 < D.length := by
      rcases Nat.eq_zero_or_pos D.length with h0 | h0
      · -- no track: undefined
        exfalso
        have hz : trackAll s p (im.toImg sqrtD) = [] := by
          have := disparities_eq sqrtD s p im
          rw [← hD, List.length_eq_zero_iff.1 h0] at this
          simpa using this
        have hp' : (im.toImg sqrtD).frame = some f := hf
        rw [addImageD, addImage] at h
        simp only [hp', hp] at h
        rw [hz] at h
        rw [if_pos (by rw [← hlen, h0] at he; simpa using he)] at h
        simp [kthSmallest] at h
      · omega
    obtain ⟨x, hx⟩ : ∃ x, kthSmallest D (D.length / 2) = some x := by
      unfold kthSmallest
      exact ⟨_, List.getElem?_eq_getElem (by rw [List.length_insertionSort]; exact hne)⟩
    have hs := orderStat_kth hx
    have := c1 he ⟨x, by rw [← hlen]; exact hs, (orderStat_gt hs).2 (by rw [hlen]; exact hup.trans hc)⟩
    exact ⟨this.1, this.2.1, this.2.2.1⟩
  · intro hc
    refine c2 he ?_
    rintro ⟨x, hs, hgt⟩
    have := (orderStat_gt hs).1 hgt
    omega

/-- **C158** (negation): a single track that moved by one pixel to the right and `2^-27` of a pixel down, further than the threshold of one
pixel, does not make a key frame. -/
theorem C158_boundary {sqrtD : ℚ → ℚ} (h1 : sqrtD 1 = 1) : ∃ (s : State) (im : PixImg), im.frame = some 8 ∧ s.prev = some 7 ∧
    s.tracksThreshold = 0 ∧ s.disparityThreshold = 1 ∧ (∃ q, im.points 7 = [q] ∧ (s.disparityThreshold : ℝ) < pixDist q) ∧
    addImageD sqrtD s im = .ok () s := by
  refine ⟨⟨0, some 7, [], [], fun _ => none, 1, 0, []⟩, ⟨some 8, 1, fun _ _ => [(0, 0, (0, 0), (1, 1 / 2 ^ 27))], fun _ _ => []⟩,
    rfl, rfl, rfl, rfl, ⟨((0, 0), (1, 1 / 2 ^ 27)), by simp [PixImg.points], ?_⟩, ?_⟩
  · unfold pixDist
    refine Real.lt_sqrt_of_sq_lt ?_
    norm_num
  · have mone : fl53 (0 - 1) = -1 := by
      rw [zero_sub]; exact_mod_cast fl53_int (m := -1) (by norm_num)
    have one : fl53 1 = 1 := by exact_mod_cast fl53_int (m := 1) (by norm_num)
    have e27 : fl53 (0 - 1 / 2 ^ 27) = -(1 / 2 ^ 27) := by decide +kernel
    have e54 : fl53 (1 / 2 ^ 54) = 1 / 2 ^ 54 := by decide +kernel
    have es : fl53 (1 + 1 / 2 ^ 54) = 1 := by decide +kernel
    have hd : disparityD sqrtD (0, 0) (1, 1 / 2 ^ 27) = 1 := by
      simp only [disparityD]
      rw [mone, e27, show (-1:ℚ) * -1 = 1 by norm_num, one, show (-(1 / 2 ^ 27) : ℚ) * -(1 / 2 ^ 27) = 1 / 2 ^ 54 by norm_num, e54, es, h1]
    rw [one_div] at hd
    simp [addImageD, addImage, trackAll, PixImg.toImg, kthSmallest, hd]

/-- a case: a threshold of one pixel and a single track that moved by two pixels. -/
example {sqrtD : ℚ → ℚ} (hsqrt : SqrtAccurate sqrtD) : ∃ s' : State,
    addImageD sqrtD ⟨0, some 7, [], [], fun _ => none, 1, 0, []⟩ ⟨some 8, 1, fun _ _ => [(0, 0, (0, 0), (2, 0))], fun _ _ => []⟩ = .ok () s' ∧
    s'.prev = some 8 := by
  have he : ∃ s', addImageD sqrtD ⟨0, some 7, [], [], fun _ => none, 1, 0, []⟩
      ⟨some 8, 1, fun _ _ => [(0, 0, (0, 0), (2, 0))], fun _ _ => []⟩ = .ok () s' := by
    simp only [addImageD, addImage, trackAll, PixImg.toImg, kthSmallest]
    simp
    split_ifs <;> exact ⟨_, rfl⟩
  obtain ⟨s', hs'⟩ := he
  refine ⟨s', hs', ?_⟩
  have h := C158_key_frame_partial hsqrt (f := 8) (p := 7) rfl rfl (by norm_num) hs' (by simp [PixImg.points])
  refine (h.1 ?_).2.2
  have hd : ¬ pixDist ((0, 0), (2, 0)) ≤ ((1:ℚ):ℝ) * (1 + 1 / 2 ^ 50) := by
    have : pixDist ((0, 0), (2, 0)) = 2 := by
      unfold pixDist
      rw [show (((0:ℚ):ℝ) - (2:ℚ)) ^ 2 + (((0:ℚ):ℝ) - (0:ℚ)) ^ 2 = 2 ^ 2 by norm_num]
      exact Real.sqrt_sq (by norm_num)
    rw [this]
    norm_num
  have hz : atMost [((0, 0), (2, 0))] (((1:ℚ):ℝ) * (1 + 1 / 2 ^ 50)) = 0 := by
    unfold atMost
    rw [List.filter_cons_of_neg (by simpa using hd)]
    rfl
  have : PixImg.points ⟨some 8, 1, fun _ _ => [(0, 0, (0, 0), (2, 0))], fun _ _ => []⟩ 7 = [((0, 0), (2, 0))] := by simp [PixImg.points]
  rw [this, hz]
  exact Nat.zero_le _

end Vision
end Verif
