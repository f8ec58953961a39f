import Verif.Lemmas.CameraReport
import Verif.Props.Camera
import Verif.Lemmas.Camera6
import Mathlib.Tactic.NormNum

/-! Properties C81 (camera validator), C82 (numbers written into the last image), C83 (errors and statistics of the camera
calibrator) and C84 (variances of the camera parameters). -/

namespace Verif
namespace CamReport

/-! ### C81 -/

/-- two corners, both visible in image 0, one in image 1. -/
noncomputable def img0 : Image := ⟨0, fun _ => some ![0, 0], fun i => some ![3, (i : ℝ)]⟩
/-- only corner 1 is visible. -/
noncomputable def img1 : Image := ⟨1, fun i => if i = 1 then some ![1, 1] else none, fun _ => some ![0, 5]⟩

/-- **C81 (what is collected).** After any calls: the observations are the images in which the target was detected, in order;
the errors are, image by image and corner by corner, predicted minus observed image point of every corner that was observed and
can be projected; the largest errors are those of the list; an image without target changes nothing and returns false. -/
theorem C81_collected (isPos : Matrix (Fin 2) (Fin 2) ℝ → Bool) (size : Nat) (sigma2 : ℝ) (ops : List VOp) (s : Val)
    (hs : s = ops.foldl (VOp.run isPos) (Val.init size sigma2)) :
    s.obs = detected ops ∧ s.errors = (detected ops).flatMap (imageErrors size) ∧
    IsMaxAbs s.maxX (s.errors.map fun e => e 0) ∧ IsMaxAbs s.maxY (s.errors.map fun e => e 1) ∧
    s.addImage isPos none = (s, false) ∧ ∀ im, (s.addImage isPos (some im)).2 = true := by
  obtain ⟨h1, h2, h3⟩ := run_eq isPos ops (Val.init size sigma2) (es := []) (ms := [])
    ⟨rfl, rfl, isMaxAbs_nil, isMaxAbs_nil, rfl⟩
  rw [← hs] at h1 h3
  simp only [List.nil_append] at h3
  have e : s.errors = (detected ops).flatMap (imageErrors size) := h3.errors
  exact ⟨by simpa [Val.init] using h1, e, by rw [e]; exact h3.maxX, by rw [e]; exact h3.maxY, rfl, fun _ => rfl⟩

/-- **C81 (Mahalanobis distances).** There is one squared distance per error, at the same position: the squared length of the
error divided by the variance in force when the image was added; `getNumOutliers` counts those above the quantile. -/
theorem C81_distances (isPos : Matrix (Fin 2) (Fin 2) ℝ → Bool) (size : Nat) (sigma2 : ℝ) (ops : List VOp) (s : Val)
    (hs : s = ops.foldl (VOp.run isPos) (Val.init size sigma2)) :
    s.md2.length = s.errors.length ∧
    (s.md2 = (weighted sigma2 ops).flatMap fun x => (imageErrors size x.2).map fun e => (e 0 ^ 2 + e 1 ^ 2) / x.1) ∧
    (weighted sigma2 ops).map Prod.snd = detected ops ∧
    ((∀ v, VOp.setSigma2 v ∉ ops) → s.md2 = s.errors.map fun e => (e 0 ^ 2 + e 1 ^ 2) / sigma2) ∧
    ∀ q, ∃ out : List ℝ, out.Sublist s.md2 ∧ s.numOutliers q = out.length ∧ (∀ x ∈ out, q < x) ∧
      ∀ x ∈ s.md2, q < x → x ∈ out := by
  obtain ⟨h1, h2, h3⟩ := run_eq isPos ops (Val.init size sigma2) (es := []) (ms := [])
    ⟨rfl, rfl, isMaxAbs_nil, isMaxAbs_nil, rfl⟩
  rw [← hs] at h1 h3
  simp only [List.nil_append] at h3
  have hm : ∀ v : ℝ, mahal v = fun e => (e 0 ^ 2 + e 1 ^ 2) / v := by
    intro v; funext e; unfold mahal; ring
  have e1 : s.errors = (detected ops).flatMap (imageErrors size) := h3.errors
  have e2 : s.md2 = (weighted sigma2 ops).flatMap fun x => (imageErrors size x.2).map fun e => (e 0 ^ 2 + e 1 ^ 2) / x.1 := by
    have := h3.md2
    simp only [hm] at this
    exact this
  have hw : ∀ (ops : List VOp) (v : ℝ), (weighted v ops).map Prod.snd = detected ops := by
    intro ops
    induction ops with
    | nil => intro v; rfl
    | cons op ops ih =>
      intro v
      cases op with
      | setSigma2 v' => exact ih v'
      | image f =>
        cases f with
        | none => exact ih v
        | some im => rw [weighted, List.map_cons, ih]; rfl
  have e1' : s.errors = (weighted sigma2 ops).flatMap fun x => imageErrors size x.2 := by
    rw [e1, ← hw ops sigma2, List.flatMap_map]
  refine ⟨?_, e2, hw ops sigma2, fun hno => ?_, fun q => ?_⟩
  · rw [e1', e2, List.length_flatMap, List.length_flatMap]; simp
  · have hc : ∀ (ops : List VOp) (v : ℝ), (∀ v', VOp.setSigma2 v' ∉ ops) → ∀ x ∈ weighted v ops, x.1 = v := by
      intro ops
      induction ops with
      | nil => intro v _ x hx; cases hx
      | cons op ops ih =>
        intro v hno x hx
        have hno' : ∀ v', VOp.setSigma2 v' ∉ ops := fun v' h => hno v' (List.mem_cons_of_mem _ h)
        cases op with
        | setSigma2 v' => exact absurd List.mem_cons_self (hno v')
        | image f =>
          cases f with
          | none => exact ih v hno' x hx
          | some im =>
            rcases List.mem_cons.1 hx with rfl | hx
            · rfl
            · exact ih v hno' x hx
    rw [e2, e1', List.map_flatMap]
    apply List.flatMap_congr
    intro x hx
    rw [hc ops sigma2 hno x hx]
  · classical
    refine ⟨s.md2.filter fun x => decide (x > q), List.filter_sublist, ?_, ?_, ?_⟩
    · unfold Val.numOutliers
      rw [List.countP_eq_length_filter]
    · intro x hx; simpa using (List.mem_filter.1 hx).2
    · intro x hx hq; exact List.mem_filter.2 ⟨hx, by simpa using hq⟩

/-- **C81 (statistics).** Once there is an error, mean, variance and standard deviation are mean, population variance and its
square root of all errors, component by component; before, they are empty.  (`isPos` stands for the positivity test of the
linear algebra library, assumed right.) -/
theorem C81_statistics (isPos : Matrix (Fin 2) (Fin 2) ℝ → Bool)
    (hpos : ∀ c : Matrix (Fin 2) (Fin 2) ℝ, c.PosSemidef → isPos c = true) (size : Nat) (sigma2 : ℝ) (ops : List VOp) (s : Val)
    (hs : s = ops.foldl (VOp.run isPos) (Val.init size sigma2)) :
    (s.errors = [] → s.mean = none ∧ s.variance = none ∧ s.std = none) ∧
    (s.errors ≠ [] → s.mean = some (fun i => Spec.mean (s.errors.map fun e => e i)) ∧
      s.variance = some (fun i => Spec.variance (s.errors.map fun e => e i)) ∧
      s.std = some (fun i => Real.sqrt (Spec.variance (s.errors.map fun e => e i)))) := by
  obtain ⟨h1, h2, h3⟩ := run_eq isPos ops (Val.init size sigma2) (es := []) (ms := [])
    ⟨rfl, rfl, isMaxAbs_nil, isMaxAbs_nil, rfl⟩
  rw [← hs] at h1 h3
  have hst := h3.stats
  rw [← h3.errors] at hst
  constructor
  · intro he
    rw [he] at hst
    have hv : s.stats.valid = false := by rw [hst]; rfl
    simp [Val.mean, Val.variance, Val.std, hv]
  · intro hne
    obtain ⟨k1, k2, k3⟩ := ml_points isPos hpos s.errors hne
    rw [← hst] at k1 k2 k3
    have hvar : (fun i => s.stats.cov i i) = fun i => Spec.variance (s.errors.map fun e => e i) := by
      funext i
      rw [k2]
      simp only [Spec.covariance, Spec.variance, Spec.comp, List.map_map, List.length_map, pow_two]
      rfl
    have hmean : s.stats.mean = fun i => Spec.mean (s.errors.map fun e => e i) := by
      funext i; exact k1 i
    simp only [Val.mean, Val.variance, Val.std, k3, if_true, hmean, hvar, Option.map_some]
    exact ⟨trivial, trivial, trivial⟩

/-- Two images with three usable corners. -/
example : imageErrors 2 img0 = [![3, 0], ![3, 1]] ∧ imageErrors 2 img1 = [![-1, 4]] := by
  constructor
  · simp [imageErrors, img0, List.range_succ]
  · simp [imageErrors, img1, List.range_succ]; norm_num

/-! ### C82 -/

theorem lastCorners (isPos : Matrix (Fin 2) (Fin 2) ℝ → Bool) (sigma2 q : ℝ) (im : Image) (is : List Nat) :
    ∀ (a : LastAcc) (es : List Vec2), IsMaxAbs a.maxX (es.map fun e => e 0) → IsMaxAbs a.maxY (es.map fun e => e 1) →
    IsMaxAbs a.maxNorm (es.map norm2) → a.normSum = (es.map norm2).sum →
    a.outliers = (es.filter fun e => by classical exact decide (mahal sigma2 e > q)).length →
    a.stats = es.foldl (fun s e => s.addPoint isPos e) freshML →
    let b := is.foldl (lastCorner isPos sigma2 q im) a
    let fs := es ++ is.filterMap fun i => match im.observed i, im.predicted i with | some o, some p => some (p - o) | _, _ => none
    IsMaxAbs b.maxX (fs.map fun e => e 0) ∧ IsMaxAbs b.maxY (fs.map fun e => e 1) ∧ IsMaxAbs b.maxNorm (fs.map norm2) ∧
    b.normSum = (fs.map norm2).sum ∧ b.outliers = (fs.filter fun e => by classical exact decide (mahal sigma2 e > q)).length ∧
    b.stats = fs.foldl (fun s e => s.addPoint isPos e) freshML := by
  induction is with
  | nil => intro a es h1 h2 h3 h4 h5 h6; simpa using ⟨h1, h2, h3, h4, h5, h6⟩
  | cons i is ih =>
    intro a es h1 h2 h3 h4 h5 h6
    simp only [List.foldl_cons, List.filterMap_cons]
    cases hO : im.observed i with
    | none =>
      have : lastCorner isPos sigma2 q im a i = a := by simp [lastCorner, hO]
      rw [this]; exact ih a es h1 h2 h3 h4 h5 h6
    | some o =>
      cases hP : im.predicted i with
      | none =>
        have : lastCorner isPos sigma2 q im a i = a := by simp [lastCorner, hO, hP]
        rw [this]; exact ih a es h1 h2 h3 h4 h5 h6
      | some p =>
        simp only
        have hn : ∀ e : Vec2, |norm2 e| = norm2 e := fun e => abs_of_nonneg (Real.sqrt_nonneg _)
        have hcons : es ++ (p - o) :: is.filterMap (fun i => match im.observed i, im.predicted i with
            | some o, some p => some (p - o) | _, _ => none) =
            (es ++ [p - o]) ++ is.filterMap (fun i => match im.observed i, im.predicted i with
            | some o, some p => some (p - o) | _, _ => none) := by simp
        rw [hcons]
        refine ih _ (es ++ [p - o]) ?_ ?_ ?_ ?_ ?_ ?_
        · simpa [lastCorner, hO, hP] using h1.raise ((p - o : Vec2) 0)
        · simpa [lastCorner, hO, hP] using h2.raise ((p - o : Vec2) 1)
        · have := h3.raise (norm2 (p - o))
          simpa [lastCorner, hO, hP, raise, hn] using this
        · simp [lastCorner, hO, hP, h4]
        · simp only [lastCorner, hO, hP, h5, List.filter_append]
          by_cases hq : mahal sigma2 (p - o) > q <;> simp [hq]
        · simp [lastCorner, hO, hP, h6]

/-- **C82.** The numbers written into the last image: nothing before the first detected image; then, for the usable corners of
the last image, the largest absolute errors, the largest length, the number of outliers and (if there is one) the mean error.
The number called average, however, is the sum of the lengths divided by the number of **all** corners of the target. -/
theorem C82_last_image (isPos : Matrix (Fin 2) (Fin 2) ℝ → Bool)
    (hpos : ∀ c : Matrix (Fin 2) (Fin 2) ℝ, c.PosSemidef → isPos c = true) (q : ℝ) (s : Val) :
    (s.obs = [] → s.lastReport isPos q = none) ∧
    ∀ im, s.obs.getLast? = some im → ∃ r, s.lastReport isPos q = some r ∧
      IsMaxAbs r.maxX ((imageErrors s.size im).map fun e => e 0) ∧ IsMaxAbs r.maxY ((imageErrors s.size im).map fun e => e 1) ∧
      IsMaxAbs r.maxNorm ((imageErrors s.size im).map fun e => Real.sqrt (e 0 * e 0 + e 1 * e 1)) ∧
      (∃ out : List Vec2, out.Sublist (imageErrors s.size im) ∧ r.outliers = out.length ∧
        ∀ e ∈ imageErrors s.size im, e ∈ out ↔ q < (e 0 ^ 2 + e 1 ^ 2) / s.sigma2) ∧
      (imageErrors s.size im ≠ [] → ∀ i, r.mean i = Spec.mean ((imageErrors s.size im).map fun e => e i)) ∧
      (imageErrors s.size im = [] → r.mean = 0) ∧
      r.avgNorm = ((imageErrors s.size im).map fun e => Real.sqrt (e 0 * e 0 + e 1 * e 1)).sum / (s.size : ℝ) := by
  constructor
  · intro h; unfold Val.lastReport; rw [h]; rfl
  · intro im him
    unfold Val.lastReport
    rw [him]
    obtain ⟨h1, h2, h3, h4, h5, h6⟩ := lastCorners isPos s.sigma2 q im (List.range s.size) ⟨freshML, 0, 0, 0, 0, 0⟩ []
      isMaxAbs_nil isMaxAbs_nil isMaxAbs_nil rfl rfl rfl
    simp only [List.nil_append] at h1 h2 h3 h4 h5 h6
    refine ⟨_, rfl, h1, h2, h3, ⟨_, List.filter_sublist, h5, fun e he => ?_⟩, fun hne i => ?_, fun hemp => ?_, ?_⟩
    · rw [List.mem_filter]
      have hm : mahal s.sigma2 e = (e 0 ^ 2 + e 1 ^ 2) / s.sigma2 := by unfold mahal; ring
      constructor
      · rintro ⟨-, h⟩; rw [← hm]; simpa using h
      · intro h; exact ⟨he, by rw [← hm] at h; simpa using h⟩
    · obtain ⟨k1, -, -⟩ := ml_points isPos hpos (imageErrors s.size im) hne
      have : (List.foldl (lastCorner isPos s.sigma2 q im) ⟨freshML, 0, 0, 0, 0, 0⟩ (List.range s.size)).stats.mean i =
          Spec.mean ((imageErrors s.size im).map fun e => e i) := by
        rw [h6]; exact k1 i
      exact this
    · have : (List.foldl (lastCorner isPos s.sigma2 q im) ⟨freshML, 0, 0, 0, 0, 0⟩ (List.range s.size)).stats.mean = 0 := by
        rw [h6]
        show (List.foldl (fun s e => s.addPoint isPos e) freshML (imageErrors s.size im)).mean = 0
        rw [hemp]; rfl
      exact this
    · simp only [h4]; rfl

/-- **C82 (negation).** The printed average is the average of the lengths exactly if every corner of the target was usable or
all errors are zero.  It is never larger. -/
theorem C82_average_wrong (isPos : Matrix (Fin 2) (Fin 2) ℝ → Bool)
    (hpos : ∀ c : Matrix (Fin 2) (Fin 2) ℝ, c.PosSemidef → isPos c = true) (q : ℝ) (s : Val) (im : Image)
    (him : s.obs.getLast? = some im) (hne : imageErrors s.size im ≠ []) (r : LastReport) (hr : s.lastReport isPos q = some r) :
    (r.avgNorm = Spec.mean ((imageErrors s.size im).map fun e => Real.sqrt (e 0 * e 0 + e 1 * e 1)) ↔
      (imageErrors s.size im).length = s.size ∨ ∀ e ∈ imageErrors s.size im, e 0 = 0 ∧ e 1 = 0) ∧
    r.avgNorm ≤ Spec.mean ((imageErrors s.size im).map fun e => Real.sqrt (e 0 * e 0 + e 1 * e 1)) := by
  obtain ⟨r', hr', -, -, -, -, -, -, ha⟩ := (C82_last_image isPos hpos q s).2 im him
  rw [hr] at hr'
  cases hr'
  have hle : (imageErrors s.size im).length ≤ s.size := by
    unfold imageErrors
    exact (List.length_filterMap_le _ _).trans (by simp)
  have hpos1 : 0 < (imageErrors s.size im).length := List.length_pos_of_ne_nil hne
  have hl : (0 : ℝ) < (imageErrors s.size im).length := by exact_mod_cast hpos1
  have hsz : (0 : ℝ) < s.size := by exact_mod_cast Nat.lt_of_lt_of_le hpos1 hle
  have hlR : ((imageErrors s.size im).length : ℝ) ≤ s.size := by exact_mod_cast hle
  have hsum0 : 0 ≤ ((imageErrors s.size im).map fun e => Real.sqrt (e 0 * e 0 + e 1 * e 1)).sum := by
    apply List.sum_nonneg
    intro x hx
    obtain ⟨e, -, rfl⟩ := List.mem_map.1 hx
    exact Real.sqrt_nonneg _
  have hzero : ((imageErrors s.size im).map fun e => Real.sqrt (e 0 * e 0 + e 1 * e 1)).sum = 0 ↔
      ∀ e ∈ imageErrors s.size im, e 0 = 0 ∧ e 1 = 0 := by
    generalize imageErrors s.size im = l
    induction l with
    | nil => simp
    | cons e l ih =>
      have h1 : 0 ≤ Real.sqrt (e 0 * e 0 + e 1 * e 1) := Real.sqrt_nonneg _
      have h2 : 0 ≤ (l.map fun e => Real.sqrt (e 0 * e 0 + e 1 * e 1)).sum := by
        apply List.sum_nonneg
        intro x hx
        obtain ⟨e, -, rfl⟩ := List.mem_map.1 hx
        exact Real.sqrt_nonneg _
      rw [List.map_cons, List.sum_cons]
      constructor
      · intro h
        have e1 : Real.sqrt (e 0 * e 0 + e 1 * e 1) = 0 := by linarith
        have e2 : (l.map fun e => Real.sqrt (e 0 * e 0 + e 1 * e 1)).sum = 0 := by linarith
        intro x hx
        rcases List.mem_cons.1 hx with rfl | hx
        · have hs := (Real.sqrt_eq_zero (add_nonneg (mul_self_nonneg _) (mul_self_nonneg _))).1 e1
          have a0 := mul_self_nonneg (x 0)
          have a1 := mul_self_nonneg (x 1)
          exact ⟨mul_self_eq_zero.1 (by linarith), mul_self_eq_zero.1 (by linarith)⟩
        · exact ih.1 e2 x hx
      · intro h
        obtain ⟨a, b⟩ := h e List.mem_cons_self
        rw [ih.2 fun x hx => h x (List.mem_cons_of_mem _ hx), a, b]
        simp
  rw [ha]
  unfold Spec.mean
  rw [List.length_map]
  constructor
  · rw [← hzero]
    rw [div_eq_div_iff hsz.ne' hl.ne']
    constructor
    · intro h
      have : ((imageErrors s.size im).map fun e => Real.sqrt (e 0 * e 0 + e 1 * e 1)).sum *
          (((imageErrors s.size im).length : ℝ) - s.size) = 0 := by linarith
      rcases mul_eq_zero.1 this with h | h
      · exact Or.inr h
      · left
        have : ((imageErrors s.size im).length : ℝ) = s.size := by linarith
        exact_mod_cast this
    · rintro (h | h)
      · rw [h]
      · rw [h]; simp
  · exact div_le_div_of_nonneg_left hsum0 hl hlR

/-- With image 1, one of two corners usable: the average length √17 is printed as half of that. -/
example : imageErrors 2 img1 ≠ [] ∧ (imageErrors 2 img1).length ≠ 2 ∧ ¬ ∀ e ∈ imageErrors 2 img1, e 0 = 0 ∧ e 1 = 0 := by
  have : imageErrors 2 img1 = [![-1, 4]] := by simp [imageErrors, img1, List.range_succ]; norm_num
  rw [this]; simp

/-! ### C83 -/

open Camera

variable {V F M : Type _}

theorem errorsLoop_eq (w : EWorld V F M) (err : ETId → Vec2) (md2 : ETId → ℝ) (t : List ETId)
    (ht : ∀ i : Nat, w.est.inc.errorTerm w.B i = match t[i]? with | some e => .ok e () | none => .throw .outOfBound ()) :
    ∀ (n k : Nat) (es : List Vec2) (ms : List ℝ), n + k = t.length → errorsLoop w err md2 (List.range' k n) es ms =
      .ok (es ++ (t.drop k).map err, ms ++ (t.drop k).map md2) () := by
  intro n
  induction n with
  | zero =>
    intro k es ms h
    have : t.drop k = [] := by rw [List.drop_eq_nil_iff]; omega
    simp [errorsLoop, this]
  | succ n ih =>
    intro k es ms h
    have hk : k < t.length := by omega
    rw [List.range'_succ, errorsLoop, ht k, List.getElem?_eq_getElem hk]
    simp only [Res.bind]
    rw [ih (k + 1) _ _ (by omega), List.drop_eq_getElem_cons hk]
    simp only [List.map_cons, List.append_assoc, List.singleton_append]

/-- **C83 (errors).** In every reachable state, after whatever failures: `getErrors` returns, at equal positions of two lists,
error vector and squared error of every error term of the estimator's problem, in the order of the batches and within a batch
of the error terms, each once. -/
theorem C83_errors {S : Setup V F M} (hS : S.Ok) {s : Cam V F M} {seen : List (Obs V)} (h : Camera.Reach S s seen) (err : ETId → Vec2)
    (md2 : ETId → ℝ) :
    getErrors s.w err md2 = .ok ((s.w.est.inc.problems.flatMap fun b => (s.w.B b).errorTerms).map err,
      (s.w.est.inc.problems.flatMap fun b => (s.w.B b).errorTerms).map md2) () := by
  have hb := (h.inv hS).base.binv
  have ht : ∀ i : Nat, s.w.est.inc.errorTerm s.w.B i =
      match (s.w.est.inc.problems.flatMap fun b => (s.w.B b).errorTerms)[i]? with
      | some e => .ok e ()
      | none => .throw .outOfBound () := by
    intro i
    have := errorIdxLoop_eq s.w.B hb i s.w.est.inc.problems s.w.est.inc.problems 0 0 (by omega) (by simp)
    rw [IncProblem.errorTerm]
    rw [Nat.sub_zero] at this
    refine Eq.trans ?_ (this.trans ?_)
    · rcases IncProblem.errorIdxLoop s.w.B i s.w.est.inc.problems 0 0 with _ | ⟨k, j⟩ <;> rfl
    · cases (s.w.est.inc.problems.flatMap fun b => (s.w.B b).errorTerms)[i]? <;> rfl
  have hlen : s.w.est.inc.numErrorTerms s.w.B = (s.w.est.inc.problems.flatMap fun b => (s.w.B b).errorTerms).length := by
    have hfold : ∀ (l : List BatchId) n, l.foldl (fun n b => n + (s.w.B b).numErrorTerms) n =
        n + (l.flatMap fun b => (s.w.B b).errorTerms).length := by
      intro l
      induction l with
      | nil => simp
      | cons b l ih =>
        intro n
        rw [List.foldl_cons, ih, List.flatMap_cons, List.length_append, (hb b).et.length_eq]
        simp only [OptProblem.numErrorTerms]; omega
    rw [IncProblem.numErrorTerms, hfold]; omega
  unfold getErrors
  rw [List.range_eq_range', hlen, errorsLoop_eq s.w err md2 _ ht _ 0 [] [] (by omega)]
  simp

/-- **C83 (which errors).** As long as no call threw these are the errors of the images of the accepted submissions, in the
order in which the images were taken, one per visible corner: the `k`-th one depends on the pose of its image, its corner and
the camera parameters. -/
theorem C83_errors_of_accepted_images {S : Setup V F M} (hS : S.Ok) {s : Cam V F M} {seen : List (Obs V)} (h : ReachOk S s seen)
    (err : ETId → Vec2) (md2 : ETId → ℝ) :
    ∃ es ms, getErrors s.w err md2 = .ok (es, ms) () ∧
      es.length = (errorDeps S.lms S.cal s.acceptedImages).length ∧ ms.length = es.length ∧
      ∀ (k : Nat) ds, (errorDeps S.lms S.cal s.acceptedImages)[k]? = some ds →
        ∃ e, s.w.heap.etDVs e = ds ∧ es[k]? = some (err e) ∧ ms[k]? = some (md2 e) := by
  have hl := h.reach.inv hS
  have he := h.ei hS
  have hd : (s.w.est.inc.problems.flatMap fun b => (s.w.B b).errorTerms).map s.w.heap.etDVs =
      errorDeps S.lms S.cal s.acceptedImages := by
    rw [he.probs, List.flatMap_map, List.map_flatMap]
    unfold Cam.acceptedImages errorDeps
    rw [List.flatMap_assoc]
    apply List.flatMap_congr
    intro x hx
    have hc := (hl.base.subsOk x (List.mem_filter.1 hx).1).2
    have := hc.deps
    rw [hl.lms, hl.cal] at this
    exact this
  refine ⟨_, _, C83_errors hS h.reach err md2, ?_, by simp, fun k ds hk => ?_⟩
  · rw [← hd]; simp
  · rw [← hd, List.getElem?_map, Option.map_eq_some_iff] at hk
    obtain ⟨e, hk, rfl⟩ := hk
    exact ⟨e, rfl, by rw [List.getElem?_map, hk]; rfl, by rw [List.getElem?_map, hk]; rfl⟩

/-- **C83 (statistics).** Given the errors: without any, the vectors are empty and the numbers zero; otherwise mean, population
variance, its square root, largest absolute components of the errors and the number of squared errors above the quantile. -/
theorem C83_statistics (isPos : Matrix (Fin 2) (Fin 2) ℝ → Bool)
    (hpos : ∀ c : Matrix (Fin 2) (Fin 2) ℝ, c.PosSemidef → isPos c = true) (q : ℝ) {w : EWorld V F M} {err : ETId → Vec2}
    {md2 : ETId → ℝ} {es : List Vec2} {ms : List ℝ} (h : getErrors w err md2 = .ok (es, ms) ()) :
    ∃ st, getStatistics isPos q w err md2 = .ok st () ∧
    (es = [] → st = ⟨none, none, none, 0, 0, 0⟩) ∧
    (es ≠ [] → st.mean = some (fun i => Spec.mean (es.map fun e => e i)) ∧
      st.variance = some (fun i => Spec.variance (es.map fun e => e i)) ∧
      st.std = some (fun i => Real.sqrt (Spec.variance (es.map fun e => e i))) ∧
      IsMaxAbs st.maxX (es.map fun e => e 0) ∧ IsMaxAbs st.maxY (es.map fun e => e 1) ∧
      ∃ out : List ℝ, out.Sublist ms ∧ st.outliers = out.length ∧ (∀ x ∈ out, q < x) ∧ ∀ x ∈ ms, q < x → x ∈ out) := by
  refine ⟨statisticsOf isPos q es ms, by unfold getStatistics; rw [h]; rfl, ?_, ?_⟩
  · rintro rfl
    unfold statisticsOf
    simp [freshML]
  · intro hne
    obtain ⟨k1, k2, k3⟩ := ml_points isPos hpos es hne
    have hvar : (fun i => (es.foldl (fun s e => s.addPoint isPos e) freshML).cov i i) =
        fun i => Spec.variance (es.map fun e => e i) := by
      funext i
      rw [k2]
      simp only [Spec.covariance, Spec.variance, Spec.comp, List.map_map, List.length_map, pow_two]
      rfl
    have hmean : (es.foldl (fun s e => s.addPoint isPos e) freshML).mean = fun i => Spec.mean (es.map fun e => e i) := by
      funext i; exact k1 i
    unfold statisticsOf
    simp only [k3, if_true, hmean, hvar]
    refine ⟨trivial, trivial, ?_, ?_, ?_, ?_⟩
    · exact congrArg some (funext fun i => congrArg Real.sqrt (congrFun hvar i))
    · simpa using foldl_raise (fun e => e 0) es isMaxAbs_nil
    · simpa using foldl_raise (fun e => e 1) es isMaxAbs_nil
    · classical
      refine ⟨ms.filter fun x => decide (x > q), List.filter_sublist, ?_, ?_, ?_⟩
      · rw [List.countP_eq_length_filter]
      · intro x hx; simpa using (List.mem_filter.1 hx).2
      · intro x hx hq; exact List.mem_filter.2 ⟨hx, by simpa using hq⟩

/-- A run for C83: three images, the first two accepted, one pending; errors numbered by the error term. -/
example : ((run camDbl 0 [.initGeometry true, camAdd 0 8, camAdd 1 8, camAdd 2 8] (camSetup 2).start).map fun x =>
    (x.2, x.1.w.est.inc.problems.flatMap fun b => (x.1.w.B b).errorTerms)) = some ([true, true, true, true], [0, 1, 2]) := by decide

/-! ### C84 -/

/-- **C84 (variances when the camera variables are enumerated projection first).** Let the diagonal of the covariance matrix be
the variances `vp` of the projection followed by those `vd` of the distortion.  Then both getters are right. -/
theorem C84_projection_first (w : EWorld V F M) (diag : M → List ℝ) (vp vd : List ℝ) (hn : w.getNumBatches ≠ 0)
    (hd : diag w.est.stats.marginal.sigma2Theta = vp ++ vd) :
    projectionVariance w diag vp.length = .ok vp () ∧ distortionVariance w diag vd.length = .ok vd () := by
  unfold projectionVariance distortionVariance
  rw [if_neg hn, if_neg hn, hd]
  constructor
  · rw [if_neg (by simp)]; simp
  · rw [if_neg (by simp)]
    simp

/-- **C84 (negation).** The variables are added in the order of their addresses.  If those of the distortion come first the
getters are wrong: with equally many parameters (pinhole: four and four) they are swapped; otherwise (omni: five and four)
`getProjectionVariance` starts with the variances of the distortion and `getDistortionVariance` returns the last ones of the
projection.  So it is right only if `vp` and `vd` agree. -/
theorem C84_distortion_first (w : EWorld V F M) (diag : M → List ℝ) (vp vd : List ℝ) (hn : w.getNumBatches ≠ 0)
    (hd : diag w.est.stats.marginal.sigma2Theta = vd ++ vp) (hle : vd.length ≤ vp.length) :
    projectionVariance w diag vp.length = .ok (vd ++ vp.take (vp.length - vd.length)) () ∧
    distortionVariance w diag vd.length = .ok (vp.drop (vp.length - vd.length)) () ∧
    (vd.length = vp.length → projectionVariance w diag vp.length = .ok vd () ∧ distortionVariance w diag vd.length = .ok vp () ∧
      (projectionVariance w diag vp.length = .ok vp () ↔ vp = vd)) := by
  have h1 : projectionVariance w diag vp.length = .ok (vd ++ vp.take (vp.length - vd.length)) () := by
    unfold projectionVariance
    rw [if_neg hn, hd, if_neg (by simp), List.take_append, List.take_of_length_le hle]
  have h2 : distortionVariance w diag vd.length = .ok (vp.drop (vp.length - vd.length)) () := by
    unfold distortionVariance
    rw [if_neg hn, hd, if_neg (by simp), List.drop_append, List.drop_of_length_le (by simp; omega), List.nil_append]
    simp only [List.length_append]
    congr 2
    omega
  refine ⟨h1, h2, fun he => ?_⟩
  rw [h1, h2, he]
  simp only [Nat.sub_self, List.take_zero, List.append_nil, List.drop_zero, true_and]
  constructor
  · intro h; cases h; rfl
  · rintro rfl; rfl

/-- reading all entries of a long enough vector. -/
theorem readAll_ok (v : List ℝ) : ∀ (n k : Nat), k + n ≤ v.length →
    readAll v (List.range' k n) = .ok ((v.drop k).take n) () := by
  intro n
  induction n with
  | zero => intro k _; simp [readAll]
  | succ n ih =>
    intro k hk
    have hk' : k < v.length := by omega
    rw [List.range'_succ, readAll, at_, List.getElem?_eq_getElem hk']
    simp only [Res.bind]
    rw [ih (k + 1) (by omega), List.drop_eq_getElem_cons hk']
    simp only [List.take_succ_cons]

theorem readAll_nil (n : Nat) (hn : 0 < n) : readAll [] (List.range n) = .ub := by
  obtain ⟨n, rfl⟩ := Nat.exists_eq_succ_of_ne_zero (Nat.pos_iff_ne_zero.1 hn)
  rw [List.range_eq_range', List.range'_succ, readAll]
  rfl

/-- **C84 (without a batch).** As long as the estimator has no batch the variances are empty and writing the result is
undefined behaviour: the first standard deviation is read from an empty vector. -/
theorem C84_no_batch (w : EWorld V F M) (diag : M → List ℝ) (omni : Bool) (np nd : Nat) (hn : w.getNumBatches = 0) :
    projectionVariance w diag np = .ok [] () ∧ distortionVariance w diag nd = .ok [] () ∧ writeSigmas w diag omni np nd = .ub := by
  have h1 : projectionVariance w diag np = .ok [] () := if_pos hn
  have h2 : distortionVariance w diag nd = .ok [] () := if_pos hn
  refine ⟨h1, h2, ?_⟩
  unfold writeSigmas
  rw [h1, h2]
  simp only [Res.bind, List.map_nil]
  rw [readAll_nil _ (by split <;> decide)]

/-- **C84 (writing the result, partial: no call threw).** Suppose the linear solver always reports a covariance matrix for
exactly the parameters of the camera.  After any calls that did not throw: writing the result is undefined behaviour exactly if
no submission has been accepted; otherwise the standard deviations written are the square roots of the first and of the last
diagonal entries. -/
theorem C84_write_partial {S : Setup V F M} (hS : S.Ok) (diag : M → List ℝ) (omni : Bool) (np nd : Nat)
    (hnp : (if omni then 5 else 4) = np) (hnd : nd = 4) {s : Cam V F M}
    (hl : Later S.D S.m0 (fun op ok => ok = true ∧ op.Solver fun mg => (diag mg.sigma2Theta).length = np + nd) S.start s) :
    (writeSigmas s.w diag omni np nd = .ub ↔ ∀ x ∈ s.subs, x.accepted = false) ∧
    ((∃ x ∈ s.subs, x.accepted = true) →
      writeSigmas s.w diag omni np nd = .ok (((diag s.w.est.stats.marginal.sigma2Theta).take np).map Real.sqrt,
        ((diag s.w.est.stats.marginal.sigma2Theta).drop np).map Real.sqrt) ()) := by
  have hl' : Later S.D S.m0 (fun op _ => op.Solver fun mg => (diag mg.sigma2Theta).length = np + nd) S.start s := by
    generalize S.start = s0 at hl
    induction hl with
    | refl => exact .refl _
    | step op _ hP ho ih => exact .step op ih hP.2 ho
  obtain ⟨seen, hok⟩ : ∃ seen, ReachOk S s seen := by
    have h0 : ReachOk S S.start [] := .init
    generalize hst : S.start = s0 at hl h0
    clear hl'
    induction hl with
    | refl => exact ⟨_, h0⟩
    | step op _ hP ho ih =>
      obtain ⟨seen, h⟩ := ih
      rw [hP.1] at ho
      obtain ⟨a, ha⟩ := outcome_true ho
      exact ⟨_, h.step op ha⟩
  have hst := StatInv.later hS hl'
  have hnum : s.w.getNumBatches = (s.subs.filter Sub.accepted).length := by
    rw [EWorld.getNumBatches, IncProblem.numProblems, (hok.ei hS).probs, List.length_map]
  have hno : (∀ x ∈ s.subs, x.accepted = false) → writeSigmas s.w diag omni np nd = .ub := by
    intro hall
    refine (C84_no_batch s.w diag omni np nd ?_).2.2
    rw [hnum, List.length_eq_zero_iff, List.filter_eq_nil_iff]
    intro x hx; rw [hall x hx]; simp
  have hyes : (∃ x ∈ s.subs, x.accepted = true) →
      writeSigmas s.w diag omni np nd = .ok (((diag s.w.est.stats.marginal.sigma2Theta).take np).map Real.sqrt,
        ((diag s.w.est.stats.marginal.sigma2Theta).drop np).map Real.sqrt) () := by
    intro hex
    have hlen := hst.yes hex
    obtain ⟨x, hx, hxa⟩ := hex
    have hn : s.w.getNumBatches ≠ 0 := by
      rw [hnum]
      have : x ∈ s.subs.filter Sub.accepted := List.mem_filter.2 ⟨hx, hxa⟩
      exact Nat.pos_iff_ne_zero.1 (List.length_pos_of_mem this)
    generalize hdg : diag s.w.est.stats.marginal.sigma2Theta = dg at hlen
    unfold writeSigmas projectionVariance distortionVariance
    rw [if_neg hn, if_neg hn, hdg, if_neg (by omega), if_neg (by omega)]
    simp only [Res.bind]
    rw [hnp]
    have e1 : dg.length - nd = np := by omega
    have r1 : readAll ((dg.take np).map Real.sqrt) (List.range np) = .ok ((dg.take np).map Real.sqrt) () := by
      have hle : ((dg.take np).map Real.sqrt).length = np := by rw [List.length_map, List.length_take]; omega
      rw [List.range_eq_range', readAll_ok _ _ _ (by omega), List.drop_zero, List.take_of_length_le (by omega)]
    have r2 : readAll ((dg.drop np).map Real.sqrt) (List.range 4) = .ok ((dg.drop np).map Real.sqrt) () := by
      have hle : ((dg.drop np).map Real.sqrt).length = 4 := by rw [List.length_map, List.length_drop]; omega
      rw [List.range_eq_range', readAll_ok _ _ _ (by omega), List.drop_zero, List.take_of_length_le (by omega)]
    rw [e1, r1]
    simp only
    rw [r2]
  refine ⟨⟨fun hub => ?_, hno⟩, hyes⟩
  intro x hx
  by_contra hne
  rw [hyes ⟨x, hx, by simpa using hne⟩] at hub
  cases hub

/-- **C84 (negation: after a failed first submission).** If the optimizer throws when the first batch is submitted, the batch stays in the
estimator while its covariance matrix is still empty: the number of batches is one, but asking for a variance is undefined
behaviour. -/
theorem C84_after_failure {S : Setup V F M} (hS : S.Ok) {s s' : Cam V F M} {seen : List (Obs V)} (h : ReachOk S s seen)
    (hno : ∀ x ∈ s.subs, x.accepted = false) {oracle : OptInput V → OptCall V F M} {e : Exc}
    (hf : s.processBatch S.D S.m0 oracle true = .throw e s') (diag : M → List ℝ) (hm0 : diag S.m0 = []) (n : Nat) (hn : 0 < n) :
    s'.w.getNumBatches = 1 ∧ projectionVariance s'.w diag n = .ub ∧ distortionVariance s'.w diag n = .ub := by
  have hl := h.reach.inv hS
  have hprob : s.w.est.inc.problems = [] := by
    rw [(h.ei hS).probs, List.map_eq_nil_iff, List.filter_eq_nil_iff]
    intro x hx; rw [hno x hx]; simp
  obtain ⟨b, -, -, -, hp | ⟨hc | hc, -⟩⟩ := C79_after_failure hS h hf
  rotate_left
  · cases hc
  · simp [EWorld.getNumBatches, IncProblem.numProblems, hprob, IncProblem.maxBatches] at hc
  have hst : s'.w.est.stats = S.start.w.est.stats := by
    have hlat : ∀ {s : Cam V F M} {seen : List (Obs V)}, ReachOk S s seen →
        Later S.D S.m0 (fun op _ => op.Solver fun _ => True) S.start s := by
      intro s seen h
      induction h with
      | init => exact .refl _
      | step op _ ho ih =>
        refine .step op ih ?_ (by rw [ho]; rfl)
        cases op <;> simp [Op.Solver]
    have h1 := (StatInv.later hS (hlat h)).no hno
    have h2 : StatInv S (fun _ => True) s' := StatInv.process (ok := false) (StatInv.later hS (hlat h)) hl.base hl.cur (oracle := oracle)
      (fun _ _ _ => trivial) (by rw [hf]; rfl)
    obtain ⟨-, -, -, -, -, -, h5⟩ := processBatch_eff hl.base hl.cur (ok := false) (s' := s') (by rw [hf]; rfl)
    rcases h5 with ⟨-, -, h5⟩ | ⟨b, hb, ⟨e', w', ha, rfl, -, -⟩ | ⟨_, _, -, h5, -⟩⟩
    · cases h5
    · exact h2.no hno
    · cases h5
  have hnum : s'.w.getNumBatches = 1 := by
    rw [EWorld.getNumBatches, IncProblem.numProblems, hp, hprob]; rfl
  have hd : diag s'.w.est.stats.marginal.sigma2Theta = [] := by rw [hst]; exact hm0
  unfold projectionVariance distortionVariance
  have h0 : s'.w.getNumBatches ≠ 0 := by omega
  have h1 : ([] : List ℝ).length < n := hn
  rw [if_neg h0, if_neg h0, hd, if_pos h1, if_pos h1]
  exact ⟨hnum, rfl, rfl⟩

/-- The matrix `k ≠ 0` stands for one with the diagonal `[1, 2, …, 8]`. -/
noncomputable def diag8 (k : Nat) : List ℝ := if k = 0 then [] else [1, 2, 3, 4, 5, 6, 7, 8]

/-- A run with an accepted submission, one with a rejected one and one whose first submission throws. -/
example : (∃ s, Later camDbl 0 (fun op ok => ok = true ∧ op.Solver fun mg => (diag8 mg.sigma2Theta).length = 4 + 4) (camSetup 2).start s ∧
      ∃ x ∈ s.subs, x.accepted = true) ∧
    (∃ s, Later camDbl 0 (fun op ok => ok = true ∧ op.Solver fun mg => (diag8 mg.sigma2Theta).length = 4 + 4) (camSetup 2).start s ∧
      s.subs = [] ∧ s.batchObs.length = 1) := by
  have key : ∀ (ops : List (Op Nat Int Nat)) (s s' : Cam Nat Int Nat) (l : List Bool), run camDbl 0 ops s = some (s', l) →
      (∀ b ∈ l, b = true) → (∀ op ∈ ops, op.Solver fun mg => (diag8 mg.sigma2Theta).length = 4 + 4) →
      Later camDbl 0 (fun op ok => ok = true ∧ op.Solver fun mg => (diag8 mg.sigma2Theta).length = 4 + 4) (camSetup 2).start s →
      Later camDbl 0 (fun op ok => ok = true ∧ op.Solver fun mg => (diag8 mg.sigma2Theta).length = 4 + 4) (camSetup 2).start s' := by
    intro ops
    induction ops with
    | nil => intro s s' l h _ _ hl; simp only [run, Option.some.injEq, Prod.mk.injEq] at h; rw [← h.1]; exact hl
    | cons op ops ih =>
      intro s s' l h hb hq hl
      simp only [run] at h
      cases ho : (op.step camDbl 0 s).outcome with
      | none => rw [ho] at h; simp at h
      | some x =>
        obtain ⟨ok, s1⟩ := x
        rw [ho] at h
        simp only [Option.map_eq_some_iff] at h
        obtain ⟨⟨s2, l2⟩, h1, h2⟩ := h
        simp only [Prod.mk.injEq] at h2
        obtain ⟨rfl, rfl⟩ := h2
        exact ih s1 s2 l2 h1 (fun b hb' => hb b (List.mem_cons_of_mem _ hb')) (fun op hop => hq op (List.mem_cons_of_mem _ hop))
          (.step op hl ⟨hb ok List.mem_cons_self, hq op List.mem_cons_self⟩ ho)
  have hq : ∀ op ∈ [Op.initGeometry true, camAdd 0 8, camAdd 1 8], op.Solver fun mg => (diag8 mg.sigma2Theta).length = 4 + 4 := by
    intro op hop
    simp only [List.mem_cons, List.not_mem_nil, or_false] at hop
    rcases hop with rfl | rfl | rfl
    · trivial
    · intro i mg h; simp only [camOracle, Option.some.injEq] at h; rw [← h]; simp [diag8]
    · intro i mg h; simp only [camOracle, Option.some.injEq] at h; rw [← h]; simp [diag8]
  constructor
  · have h0 : ((run camDbl 0 [.initGeometry true, camAdd 0 8, camAdd 1 8] (camSetup 2).start).map fun x =>
        (x.2, x.1.subs.map Sub.accepted)) = some ([true, true, true], [true]) := by decide
    obtain ⟨⟨s, l⟩, h1, h2⟩ := Option.map_eq_some_iff.1 h0
    simp only [Prod.mk.injEq] at h2
    refine ⟨s, key _ _ _ l h1 (by rw [h2.1]; simp) hq (.refl _), ?_⟩
    have : true ∈ s.subs.map Sub.accepted := by rw [h2.2]; simp
    obtain ⟨x, hx, hxa⟩ := List.mem_map.1 this
    exact ⟨x, hx, hxa⟩
  · have h0 : ((run camDbl 0 [.initGeometry true, camAdd 0 8] (camSetup 2).start).map fun x =>
        (x.2, x.1.subs.map Sub.accepted, x.1.batchObs.length)) = some ([true, true], [], 1) := by decide
    obtain ⟨⟨s, l⟩, h1, h2⟩ := Option.map_eq_some_iff.1 h0
    simp only [Prod.mk.injEq, List.map_eq_nil_iff] at h2
    exact ⟨s, key _ _ _ l h1 (by rw [h2.1]; simp) (fun op hop => hq op (by simp only [List.mem_cons, List.not_mem_nil, or_false] at hop ⊢; tauto)) (.refl _), h2.2⟩

set_option synthInstance.maxSize 1000 in
/-- After a failed first submission: one batch, the matrix of construction. -/
example : ((run camDbl 0 [.initGeometry true, camAdd 0 8, .addImage (some (camObs 1)) camOracleThrow true] (camSetup 2).start).map fun x =>
    (x.2, x.1.w.getNumBatches, x.1.w.est.stats.marginal.sigma2Theta)) = some ([true, true, false], 1, 0) := by decide

end CamReport
end Verif
