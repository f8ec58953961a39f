import Verif.Spec.CameraReport
import Verif.Props.StatsMv
import Mathlib.Tactic.Linarith
import Mathlib.Tactic.Ring
import Mathlib.Tactic.FieldSimp

namespace Verif
namespace CamReport

theorem isMaxAbs_nil : IsMaxAbs 0 [] := ⟨by simp, Or.inl ⟨rfl, rfl⟩⟩

theorem IsMaxAbs.nonneg {m : ℝ} {l : List ℝ} (h : IsMaxAbs m l) : 0 ≤ m := by
  rcases h.2 with ⟨-, h⟩ | ⟨x, -, h⟩
  · rw [h]
  · rw [h]; exact abs_nonneg x

theorem IsMaxAbs.raise {m : ℝ} {l : List ℝ} (h : IsMaxAbs m l) (x : ℝ) : IsMaxAbs (raise m x) (l ++ [x]) := by
  unfold CamReport.raise
  split_ifs with hx
  · refine ⟨fun y hy => ?_, Or.inr ⟨x, by simp, rfl⟩⟩
    rcases List.mem_append.1 hy with hy | hy
    · exact (h.1 y hy).trans hx.le
    · rw [List.mem_singleton.1 hy]
  · refine ⟨fun y hy => ?_, ?_⟩
    · rcases List.mem_append.1 hy with hy | hy
      · exact h.1 y hy
      · rw [List.mem_singleton.1 hy]; exact not_lt.1 hx
    · rcases h.2 with ⟨rfl, hm⟩ | ⟨y, hy, hm⟩
      · refine Or.inr ⟨x, by simp, ?_⟩
        have := not_lt.1 hx
        have h0 := abs_nonneg x
        rw [hm] at this ⊢
        linarith
      · exact Or.inr ⟨y, by simp [hy], hm⟩

theorem foldl_raise (f : Vec2 → ℝ) (es : List Vec2) : ∀ {m : ℝ} {l : List ℝ}, IsMaxAbs m l →
    IsMaxAbs (es.foldl (fun m e => raise m (f e)) m) (l ++ es.map f) := by
  induction es with
  | nil => intro m l h; simpa using h
  | cons e es ih =>
    intro m l h
    have := ih (h.raise (f e))
    simpa using this

/-- the validator's lists after `ims` (with variances). -/
structure VInv (isPos : Matrix (Fin 2) (Fin 2) ℝ → Bool) (s : Val) (es : List Vec2) (ms : List ℝ) : Prop where
  errors : s.errors = es
  md2 : s.md2 = ms
  maxX : IsMaxAbs s.maxX (es.map fun e => e 0)
  maxY : IsMaxAbs s.maxY (es.map fun e => e 1)
  stats : s.stats = es.foldl (fun s e => s.addPoint isPos e) freshML

theorem corner_eq (isPos : Matrix (Fin 2) (Fin 2) ℝ → Bool) (im : Image) (s : Val) (i : Nat) {es : List Vec2} {ms : List ℝ}
    (h : VInv isPos s es ms) :
    (s.corner isPos im i).obs = s.obs ∧ (s.corner isPos im i).sigma2 = s.sigma2 ∧ (s.corner isPos im i).size = s.size ∧
    VInv isPos (s.corner isPos im i)
      (es ++ (match im.observed i, im.predicted i with | some o, some p => [p - o] | _, _ => []))
      (ms ++ (match im.observed i, im.predicted i with | some o, some p => [mahal s.sigma2 (p - o)] | _, _ => [])) := by
  unfold Val.corner
  cases im.observed i with
  | none => exact ⟨rfl, rfl, rfl, by simpa using h⟩
  | some o =>
    cases im.predicted i with
    | none => exact ⟨rfl, rfl, rfl, by simpa using h⟩
    | some p =>
      refine ⟨rfl, rfl, rfl, ⟨by simp [h.errors], by simp [h.md2], ?_, ?_, by simp [h.stats]⟩⟩
      · simpa using h.maxX.raise ((p - o : Vec2) 0)
      · simpa using h.maxY.raise ((p - o : Vec2) 1)

theorem corners_eq (isPos : Matrix (Fin 2) (Fin 2) ℝ → Bool) (im : Image) (is : List Nat) :
    ∀ (s : Val) {es : List Vec2} {ms : List ℝ}, VInv isPos s es ms →
    let t := is.foldl (Val.corner isPos im) s
    let new := is.filterMap fun i => match im.observed i, im.predicted i with | some o, some p => some (p - o) | _, _ => none
    t.obs = s.obs ∧ t.sigma2 = s.sigma2 ∧ t.size = s.size ∧ VInv isPos t (es ++ new) (ms ++ new.map (mahal s.sigma2)) := by
  induction is with
  | nil => intro s es ms h; exact ⟨rfl, rfl, rfl, by simpa using h⟩
  | cons i is ih =>
    intro s es ms h
    obtain ⟨h1, h2, h3, h4⟩ := corner_eq isPos im s i h
    obtain ⟨k1, k2, k3, k4⟩ := ih (s.corner isPos im i) h4
    refine ⟨k1.trans h1, k2.trans h2, k3.trans h3, ?_⟩
    rw [h2] at k4
    simp only [List.foldl_cons, List.filterMap_cons]
    cases hO : im.observed i with
    | none => simp only [hO, List.append_nil] at k4; exact k4
    | some o =>
      cases hP : im.predicted i with
      | none => simp only [hO, hP, List.append_nil] at k4; exact k4
      | some p =>
        simp only [hO, hP, List.append_assoc] at k4
        simpa using k4

theorem addImage_eq (isPos : Matrix (Fin 2) (Fin 2) ℝ → Bool) (s : Val) (im : Image) {es : List Vec2} {ms : List ℝ}
    (h : VInv isPos s es ms) :
    (s.addImage isPos (some im)).1.obs = s.obs ++ [im] ∧ (s.addImage isPos (some im)).1.sigma2 = s.sigma2 ∧
    (s.addImage isPos (some im)).1.size = s.size ∧
    VInv isPos (s.addImage isPos (some im)).1 (es ++ imageErrors s.size im)
      (ms ++ (imageErrors s.size im).map (mahal s.sigma2)) := by
  obtain ⟨h1, h2, h3, h4⟩ := corners_eq isPos im (List.range s.size) s h
  unfold Val.addImage
  refine ⟨by simp only [h1], h2, h3, ?_⟩
  exact ⟨h4.errors, h4.md2, h4.maxX, h4.maxY, h4.stats⟩

theorem run_eq (isPos : Matrix (Fin 2) (Fin 2) ℝ → Bool) (ops : List VOp) : ∀ (s : Val) {es : List Vec2} {ms : List ℝ},
    VInv isPos s es ms →
    let t := ops.foldl (VOp.run isPos) s
    t.obs = s.obs ++ detected ops ∧ t.size = s.size ∧
    VInv isPos t (es ++ (detected ops).flatMap (imageErrors s.size))
      (ms ++ (weighted s.sigma2 ops).flatMap fun x => (imageErrors s.size x.2).map (mahal x.1)) := by
  induction ops with
  | nil => intro s es ms h; exact ⟨by simp [detected], rfl, by simpa [detected, weighted] using h⟩
  | cons op ops ih =>
    intro s es ms h
    cases op with
    | setSigma2 v =>
      have h1 : VInv isPos ({ s with sigma2 := v } : Val) es ms := ⟨h.errors, h.md2, h.maxX, h.maxY, h.stats⟩
      obtain ⟨k1, k2, k3⟩ := ih _ h1
      exact ⟨k1, k2, k3⟩
    | image f =>
      cases f with
      | none =>
        obtain ⟨k1, k2, k3⟩ := ih _ h
        exact ⟨k1, k2, k3⟩
      | some im =>
        obtain ⟨h1, h2, h3, h4⟩ := addImage_eq isPos s im h
        obtain ⟨k1, k2, k3⟩ := ih _ h4
        refine ⟨?_, k2.trans h3, ?_⟩
        · have : (List.foldl (VOp.run isPos) s (VOp.image (some im) :: ops)).obs =
              (s.addImage isPos (some im)).1.obs ++ detected ops := k1
          rw [this, h1]; simp [detected]
        · rw [h2, h3] at k3
          simpa [detected, weighted, VOp.run] using k3

/-- maximum likelihood statistics of a list of points. -/
theorem ml_points (isPos : Matrix (Fin 2) (Fin 2) ℝ → Bool)
    (hpos : ∀ c : Matrix (Fin 2) (Fin 2) ℝ, c.PosSemidef → isPos c = true) (es : List Vec2) (hne : es ≠ []) :
    let st := es.foldl (fun s e => s.addPoint isPos e) freshML
    (∀ i, st.mean i = Spec.mean (Spec.comp i es)) ∧ st.cov = Spec.covariance es ∧ st.valid = true := by
  intro st
  obtain ⟨qs, p, rfl⟩ : ∃ qs p, es = qs ++ [p] := ⟨es.dropLast, es.getLast hne, (List.dropLast_append_getLast hne).symm⟩
  obtain ⟨-, h1, h2, -, h3⟩ := MLEd.C34_mv_streaming_partial isPos hpos freshML rfl [] qs p
  simp only [List.nil_append, List.foldl_cons, List.foldl_nil, MLEd.Op.run] at h1 h2 h3
  exact ⟨h1, h2, h3⟩

end CamReport
end Verif
