import Verif.Model.MvWeighted
import Verif.Spec.MvWeighted
import Verif.Props.StatsMv

/-!
# C146: weighted multivariate estimation
-/

namespace Verif
namespace MLEd
open Spec
variable {d : Nat}

theorem wsumV_eq (ps : List (Fin d → ℝ)) : ∀ (ws : List ℝ) (acc : Fin d → ℝ) (i : Fin d),
    wsumV ps ws acc i = acc i + ((wcomp i (ps.zip ws)).map fun x => x.2 * x.1).sum := by
  induction ps with
  | nil => intro ws acc i; cases ws <;> simp [wsumV, wcomp]
  | cons p ps ih =>
    intro ws acc i
    cases ws with
    | nil => simp [wsumV, wcomp]
    | cons w ws =>
      rw [wsumV, ih]
      simp [wcomp, add_assoc]

theorem wouterV_eq (m : Fin d → ℝ) (ps : List (Fin d → ℝ)) : ∀ (ws : List ℝ) (acc : Matrix (Fin d) (Fin d) ℝ) (i j : Fin d),
    wouterV m ps ws acc i j = acc i j + ((ps.zip ws).map fun x => x.2 * ((x.1 i - m i) * (x.1 j - m j))).sum := by
  induction ps with
  | nil => intro ws acc i j; cases ws <;> simp [wouterV]
  | cons p ps ih =>
    intro ws acc i j
    cases ws with
    | nil => simp [wouterV]
    | cons w ws =>
      rw [wouterV]
      refine (ih ws _ i j).trans ?_
      simp only [(C55_outer_product (fun k => p k - m k) i j).1, List.zip_cons_cons, List.map_cons, List.sum_cons, add_assoc]

theorem wcomp_snd (i : Fin d) (xs : List ((Fin d → ℝ) × ℝ)) : (wcomp i xs).map Prod.snd = xs.map Prod.snd := by
  simp [wcomp]

theorem wcovariance_symm (xs : List ((Fin d → ℝ) × ℝ)) : (wcovariance xs).transpose = wcovariance xs := by
  ext i j
  simp only [Matrix.transpose_apply, wcovariance]
  congr 3
  funext x
  ring

theorem wcovariance_posSemidef (xs : List ((Fin d → ℝ) × ℝ)) (hw : ∀ x ∈ xs, 0 ≤ x.2) : (wcovariance xs).PosSemidef := by
  have key : ∀ (m : Fin d → ℝ) (ys : List ((Fin d → ℝ) × ℝ)), (∀ x ∈ ys, 0 ≤ x.2) →
      (Matrix.of fun i j => (ys.map fun x => x.2 * ((x.1 i - m i) * (x.1 j - m j))).sum : Matrix (Fin d) (Fin d) ℝ).PosSemidef := by
    intro m ys
    induction ys with
    | nil =>
      intro _
      have : (Matrix.of fun i j => (([] : List ((Fin d → ℝ) × ℝ)).map fun x => x.2 * ((x.1 i - m i) * (x.1 j - m j))).sum :
        Matrix (Fin d) (Fin d) ℝ) = 0 := by ext i j; simp
      rw [this]; exact Matrix.PosSemidef.zero
    | cons y ys ih =>
      intro h
      have e : (Matrix.of fun i j => ((y :: ys).map fun x => x.2 * ((x.1 i - m i) * (x.1 j - m j))).sum : Matrix (Fin d) (Fin d) ℝ) =
          y.2 • Matrix.vecMulVec (fun i => y.1 i - m i) (star fun i => y.1 i - m i) +
          Matrix.of fun i j => (ys.map fun x => x.2 * ((x.1 i - m i) * (x.1 j - m j))).sum := by
        ext i j; simp [Matrix.vecMulVec_apply]
      rw [e]
      exact ((Matrix.posSemidef_vecMulVec_self_star _).smul (h y List.mem_cons_self)).add
        (ih fun x hx => h x (List.mem_cons_of_mem _ hx))
  have e : wcovariance xs = (1 / (xs.map Prod.snd).sum) • (Matrix.of fun i j =>
      (xs.map fun x => x.2 * ((x.1 i - wmean (wcomp i xs)) * (x.1 j - wmean (wcomp j xs)))).sum : Matrix (Fin d) (Fin d) ℝ) := by
    ext i j; simp [wcovariance]; ring
  rw [e]
  exact (key (fun i => wmean (wcomp i xs)) xs hw).smul (by
    apply one_div_nonneg.2
    exact List.sum_nonneg fun y hy => by
      obtain ⟨x, hx, rfl⟩ := List.mem_map.1 hy
      exact hw x hx)

/-- what is committed. -/
theorem addPointsW_eq (isPos : Matrix (Fin d) (Fin d) ℝ → Bool) (s : MLEd d × Bool) (ps : List (Fin d → ℝ)) (ws : List ℝ)
    (hl : ws.length = ps.length) (hW : ws.sum ≠ 0) :
    addPointsW isPos s ps ws =
      .ok () (commit isPos s.1 (fun i => wmean (wcomp i (ps.zip ws))) (wcovariance (ps.zip ws)), true) := by
  have hsnd : (ps.zip ws).map Prod.snd = ws := List.map_snd_zip (by omega)
  have hps : ps ≠ [] := by
    rintro rfl
    rw [List.length_nil, List.length_eq_zero_iff] at hl
    subst hl; simp at hW
  have e1 : (fun i => wsumV ps ws 0 i / ws.sum) = fun i => wmean (wcomp i (ps.zip ws)) := by
    funext i
    rw [wsumV_eq, wmean, wcomp_snd, hsnd]; simp
  unfold addPointsW
  rw [if_neg (by omega), if_neg hps, if_neg hW]
  simp only [e1]
  congr 3
  funext i j
  rw [wouterV_eq, wcovariance, hsnd]; simp

/-- **C146**: points with responsibilities.  With another number of responsibilities than points nothing happens; otherwise, if the
responsibilities do not add up to zero, the mean is the weighted mean, the streaming state is unchanged, the estimate is reported valid
exactly if the weighted covariance is positive semi-definite (always if no responsibility is negative), and then it is the covariance of
the distribution; if not, the covariance is that of before (but the mean is not). -/
theorem C146_weighted_partial (isPos : Matrix (Fin d) (Fin d) ℝ → Bool)
    (hpos : ∀ c : Matrix (Fin d) (Fin d) ℝ, c.transpose = c → (isPos c = true ↔ c.PosSemidef)) (s : MLEd d × Bool)
    (ps : List (Fin d → ℝ)) (ws : List ℝ) :
    (ws.length ≠ ps.length → addPointsW isPos s ps ws = .ok () s) ∧
    (ws.length = ps.length → ws.sum ≠ 0 → ∃ t, addPointsW isPos s ps ws = .ok () (t, true) ∧
      t.n = s.1.n ∧ t.sum = s.1.sum ∧ t.sq = s.1.sq ∧
      (∀ i, t.mean i = wmean (wcomp i (ps.zip ws))) ∧
      (t.valid = true ↔ (wcovariance (ps.zip ws)).PosSemidef) ∧
      ((∀ w ∈ ws, 0 ≤ w) → t.valid = true) ∧
      t.cov = if t.valid then wcovariance (ps.zip ws) else s.1.cov) := by
  refine ⟨fun h => by unfold addPointsW; rw [if_pos h], fun hl hW => ?_⟩
  refine ⟨_, addPointsW_eq isPos s ps ws hl hW, (commit_fields _ _ _ _).1, (commit_fields _ _ _ _).2.1, (commit_fields _ _ _ _).2.2, ?_⟩
  obtain ⟨c, hc⟩ : ∃ c, c = wcovariance (ps.zip ws) := ⟨_, rfl⟩
  have hsym : c.transpose = c := by rw [hc]; exact wcovariance_symm _
  have hnn : (∀ w ∈ ws, 0 ≤ w) → c.PosSemidef := by
    intro h; rw [hc]
    exact wcovariance_posSemidef _ fun x hx => h _ (List.of_mem_zip (a := x.1) (b := x.2) hx).2
  rw [← hc]
  unfold commit
  rw [if_neg (by rw [not_not]; exact hsym)]
  by_cases hp : c.PosSemidef
  · rw [if_neg (by rw [(hpos c hsym).2 hp]; simp), if_neg]
    · exact ⟨fun _ => rfl, by simp [hp], by simp, by simp⟩
    · rintro ⟨i, hi⟩
      have := hp.diag_nonneg (i := i)
      linarith
  · have : isPos c = false := by
      rw [Bool.eq_false_iff]; exact fun h => hp ((hpos c hsym).1 h)
    rw [if_pos this]
    exact ⟨fun _ => rfl, by simp [hp], fun h => absurd (hnn h) hp, by simp⟩

/-- **C146** (negations): without any point (and responsibility) the behaviour is undefined; responsibilities that add up to zero leave a
mean that is not finite. -/
theorem C146_degenerate (isPos : Matrix (Fin d) (Fin d) ℝ → Bool) (s : MLEd d × Bool) (p : Fin d → ℝ) :
    addPointsW isPos s [] [] = .ub ∧
    ∃ t, addPointsW isPos s [p] [0] = .ok () (t, false) ∧ t.valid = false := by
  constructor
  · simp [addPointsW]
  · exact ⟨_, by simp [addPointsW]; rfl, rfl⟩

/-- specification: the points since the last reset. -/
def collectW (acc : List (Fin d → ℝ)) : WOp d → List (Fin d → ℝ)
  | .points ps => acc ++ ps
  | .weighted _ _ => acc
  | .reset => []

theorem addPointsW_cases (isPos : Matrix (Fin d) (Fin d) ℝ → Bool) (s : MLEd d × Bool) (ps : List (Fin d → ℝ)) (ws : List ℝ) :
    (ps = [] ∧ ws = [] ∧ addPointsW isPos s ps ws = .ub) ∨
    (¬(ps = [] ∧ ws = []) ∧ ∃ t, addPointsW isPos s ps ws = .ok () t ∧ t.1.n = s.1.n ∧ t.1.sum = s.1.sum ∧ t.1.sq = s.1.sq) := by
  unfold addPointsW
  split_ifs with h1 h2 h3
  · exact Or.inr ⟨by rintro ⟨rfl, rfl⟩; simp at h1, s, rfl, rfl, rfl, rfl⟩
  · refine Or.inl ⟨h2, ?_, rfl⟩
    rw [h2] at h1; simpa using h1
  · exact Or.inr ⟨fun h => h2 h.1, _, rfl, rfl, rfl, rfl⟩
  · exact Or.inr ⟨fun h => h2 h.1, _, rfl, commit_fields _ _ _ _⟩

/-- **C146** (histories): a history of calls is undefined exactly if one of its calls has neither points nor responsibilities. -/
theorem C146_defined (isPos : Matrix (Fin d) (Fin d) ℝ → Bool) (h : List (WOp d)) : ∀ s : MLEd d × Bool,
    (WOp.weighted [] [] ∈ h ∧ runAll isPos h s = .ub) ∨ (WOp.weighted [] [] ∉ h ∧ ∃ t, runAll isPos h s = .ok () t) := by
  induction h with
  | nil => intro s; exact Or.inr ⟨by simp, s, rfl⟩
  | cons o h ih =>
    intro s
    cases o with
    | points ps => simpa [runAll, WOp.run] using ih _
    | reset => simpa [runAll, WOp.run] using ih _
    | weighted ps ws =>
      rcases addPointsW_cases isPos s ps ws with ⟨rfl, rfl, e⟩ | ⟨hne, t, e, -⟩
      · exact Or.inl ⟨by simp, by simp [runAll, WOp.run, e]⟩
      · have hm : WOp.weighted ([] : List (Fin d → ℝ)) [] ∈ WOp.weighted ps ws :: h ↔ WOp.weighted ([] : List (Fin d → ℝ)) [] ∈ h := by
          rw [List.mem_cons]
          constructor
          · rintro (g | g)
            · cases g; exact absurd ⟨rfl, rfl⟩ hne
            · exact g
          · exact Or.inr
        rw [hm]
        simpa [runAll, WOp.run, e] using ih t

theorem runAll_sums (isPos : Matrix (Fin d) (Fin d) ℝ → Bool) (h : List (WOp d)) : ∀ (s t : MLEd d × Bool) (xs),
    Sums s.1 xs → runAll isPos h s = .ok () t → Sums t.1 (h.foldl collectW xs) := by
  induction h with
  | nil => intro s t xs hs e; simp only [runAll, Res.ok.injEq, true_and] at e; subst e; exact hs
  | cons o h ih =>
    intro s t xs hs e
    cases o with
    | points ps => exact ih _ t _ (points_sums isPos ps s.1 xs hs) (by simpa [runAll, WOp.run] using e)
    | reset => exact ih _ t _ ⟨rfl, fun h => absurd rfl h⟩ (by simpa [runAll, WOp.run] using e)
    | weighted ps ws =>
      rcases addPointsW_cases isPos s ps ws with ⟨rfl, rfl, e'⟩ | ⟨hne, u, e', a, b, c⟩
      · simp [runAll, WOp.run, e'] at e
      · refine ih u t xs ⟨a.trans hs.1, fun hx => ?_⟩ (by simpa [runAll, WOp.run, e'] using e)
        rw [b, c]; exact hs.2 hx

theorem runAll_append (isPos : Matrix (Fin d) (Fin d) ℝ → Bool) (h g : List (WOp d)) : ∀ (s t : MLEd d × Bool),
    runAll isPos h s = .ok () t → runAll isPos (h ++ g) s = runAll isPos g t := by
  induction h with
  | nil => intro s t e; simp only [runAll, Res.ok.injEq, true_and] at e; subst e; rfl
  | cons o h ih =>
    intro s t e
    rw [List.cons_append, runAll]
    rw [runAll] at e
    cases hr : o.run isPos s with
    | ok a s' => rw [hr] at e; exact ih _ _ e
    | throw a s' => rw [hr] at e; simp at e
    | ub => rw [hr] at e; simp at e
    | diverge => rw [hr] at e; simp at e

/-- **C146** (streaming): points with responsibilities in between do not disturb the streaming estimates: after any history in which every
such call has points or responsibilities, adding points leaves the number of points since the last reset, their mean vector and their
covariance, and the estimate is valid. -/
theorem C146_streaming (isPos : Matrix (Fin d) (Fin d) ℝ → Bool)
    (hpos : ∀ c : Matrix (Fin d) (Fin d) ℝ, c.PosSemidef → isPos c = true) (s0 : MLEd d × Bool) (h0 : s0.1.n = 0)
    (h : List (WOp d)) (hh : WOp.weighted [] [] ∉ h) (qs : List (Fin d → ℝ)) (p : Fin d → ℝ) :
    ∃ t, runAll isPos (h ++ [.points (qs ++ [p])]) s0 = .ok () (t, true) ∧
      let xs := h.foldl collectW [] ++ qs ++ [p]
      t.n = xs.length ∧ (∀ i, t.mean i = Spec.mean (Spec.comp i xs)) ∧ t.cov = Spec.covariance xs ∧ t.valid = true := by
  obtain ⟨-, u, hu⟩ := (C146_defined isPos h s0).resolve_left fun g => hh g.1
  have hs := runAll_sums isPos h s0 u [] ⟨by simpa using h0, fun g => absurd rfl g⟩ hu
  have hs1 := points_sums isPos qs _ _ hs
  obtain ⟨a, b, c, -, e⟩ := addPoint_values isPos hpos _ _ p hs1
  refine ⟨_, ?_, a, b, c, e⟩
  rw [runAll_append isPos h _ s0 u hu]
  simp [runAll, WOp.run]

theorem sum_repeated (f : (Fin d → ℝ) → ℝ) (xs : List ((Fin d → ℝ) × ℕ)) :
    ((repeated xs).map f).sum = (xs.map fun x => (x.2 : ℝ) * f x.1).sum := by
  induction xs with
  | nil => simp [repeated]
  | cons x xs ih =>
    simp only [repeated, List.flatMap_cons, List.map_append, List.sum_append, List.map_cons, List.sum_cons] at ih ⊢
    rw [ih]; simp

/-- **C146** (repetition): if the responsibilities are whole numbers, not all zero, the estimate is that of the points added as often as
the responsibilities say. -/
theorem C146_repetition (isPos : Matrix (Fin d) (Fin d) ℝ → Bool)
    (hpos : ∀ c : Matrix (Fin d) (Fin d) ℝ, c.transpose = c → (isPos c = true ↔ c.PosSemidef)) (s s0 : MLEd d × Bool)
    (h0 : s0.1.n = 0) (xs : List ((Fin d → ℝ) × ℕ)) (hne : repeated xs ≠ []) :
    ∃ t u, addPointsW isPos s (xs.map Prod.fst) (xs.map fun x => (x.2 : ℝ)) = .ok () (t, true) ∧
      WOp.run isPos s0 (.points (repeated xs)) = .ok () (u, true) ∧
      t.mean = u.mean ∧ t.cov = u.cov ∧ t.valid = u.valid := by
  obtain ⟨qs, p, hq⟩ : ∃ qs p, repeated xs = qs ++ [p] := ⟨_, _, (List.dropLast_append_getLast hne).symm⟩
  obtain ⟨u, hu, -, u2, u3, u4⟩ := C146_streaming isPos
    (fun c hc => (hpos c (by have := hc.1; rwa [Matrix.IsHermitian, Matrix.conjTranspose_eq_transpose_of_trivial] at this)).2 hc) s0 h0
    [] (by simp) qs p
  simp only [List.nil_append, List.foldl_nil] at hu u2 u3
  rw [← hq] at hu u2 u3
  have hcount : (((repeated xs).length : ℕ) : ℝ) = (xs.map fun x => (x.2 : ℝ)).sum := by
    have := sum_repeated (fun _ => 1) xs
    simpa using this
  have hW : (xs.map fun x => (x.2 : ℝ)).sum ≠ 0 := by
    rw [← hcount, Nat.cast_ne_zero]
    exact fun g => hne (List.length_eq_zero_iff.1 g)
  obtain ⟨t, ht, -, -, -, t1, -, t2, t3⟩ := (C146_weighted_partial isPos hpos s (xs.map Prod.fst) (xs.map fun x => (x.2 : ℝ))).2
    (by simp) hW
  have hv := t2 (by
    intro w hw
    obtain ⟨x, -, rfl⟩ := List.mem_map.1 hw
    exact Nat.cast_nonneg _)
  rw [hv, if_pos rfl] at t3
  have hzip : (xs.map Prod.fst).zip (xs.map fun x => (x.2 : ℝ)) = xs.map fun x => (x.1, (x.2 : ℝ)) := by
    rw [List.zip_map']
  have hsnd : ((xs.map fun x => (x.1, (x.2 : ℝ))).map Prod.snd).sum = (xs.map fun x => (x.2 : ℝ)).sum := by simp [Function.comp_def]
  have hm : ∀ i, wmean (wcomp i (xs.map fun x => (x.1, (x.2 : ℝ)))) = Spec.mean (Spec.comp i (repeated xs)) := by
    intro i
    unfold wmean Spec.mean Spec.comp
    rw [wcomp_snd, hsnd, List.length_map, hcount, sum_repeated]
    simp only [wcomp, List.map_map, Function.comp_def]
  refine ⟨t, u, ht, ?_, ?_, ?_, by rw [hv, u4]⟩
  · simp only [runAll] at hu
    cases hr : WOp.run isPos s0 (.points (repeated xs)) with
    | ok a s' => rw [hr] at hu; simpa using hu
    | throw a s' => rw [hr] at hu; simp at hu
    | ub => rw [hr] at hu; simp at hu
    | diverge => rw [hr] at hu; simp at hu
  · funext i; rw [t1, u2, hzip, hm]
  · rw [t3, u3, hzip]
    ext i j
    unfold wcovariance Spec.covariance
    rw [hsnd, hcount, sum_repeated]
    simp only [hm, List.map_map, Function.comp_def]

/-- a case: the hypothesis on the test is met, and two points of weights one and two give a valid estimate. -/
example : ∃ isPos : Matrix (Fin 1) (Fin 1) ℝ → Bool, ∀ s, ∃ t, addPointsW isPos s [![0], ![3]] [1, 2] = .ok () (t, true) ∧
    t.valid = true ∧ t.mean 0 = 2 := by
  classical
  have hpos : ∀ c : Matrix (Fin 1) (Fin 1) ℝ, c.transpose = c → (decide c.PosSemidef = true ↔ c.PosSemidef) := by simp
  refine ⟨fun c => decide c.PosSemidef, fun s => ?_⟩
  obtain ⟨t, h1, -, -, -, h2, -, h3, -⟩ := (C146_weighted_partial _ hpos s [![0], ![3]] [1, 2]).2 rfl (by norm_num)
  exact ⟨t, h1, h3 (by simp), by rw [h2]; norm_num [wmean, wcomp]⟩

end MLEd
end Verif
