import Verif.Lemmas.Stats
import Mathlib.LinearAlgebra.Matrix.PosDef
import Mathlib.Algebra.Order.Star.Real

/-! Property C34, multivariate estimator; `OuterProduct`. -/

namespace Verif

section Outer
variable {K : Type} [CommRing K] {d : Nat}

theorem outerInner_fold (v : Fin d → K) (i : Fin d) (L : List (Fin d)) : ∀ (A : Fin d → Fin d → K) (a b : Fin d),
    L.foldl (outerInner v i) A a b =
      if (a = i ∧ i ≤ b ∧ b ∈ L) ∨ (b = i ∧ i ≤ a ∧ a ∈ L) then v a * v b else A a b := by
  induction L with
  | nil => intro A a b; simp
  | cons j L ih =>
    intro A a b
    rw [List.foldl_cons, ih]
    by_cases h1 : (a = i ∧ i ≤ b ∧ b ∈ L) ∨ (b = i ∧ i ≤ a ∧ a ∈ L)
    · rw [if_pos h1, if_pos]
      rcases h1 with ⟨x, y, z⟩ | ⟨x, y, z⟩
      · exact Or.inl ⟨x, y, List.mem_cons_of_mem _ z⟩
      · exact Or.inr ⟨x, y, List.mem_cons_of_mem _ z⟩
    · rw [if_neg h1]
      unfold outerInner
      by_cases hij : i ≤ j
      · rw [if_pos hij]
        simp only
        by_cases h2 : a = j ∧ b = i
        · obtain ⟨rfl, rfl⟩ := h2
          simp [hij, mul_comm]
        · rw [if_neg h2]
          by_cases h3 : a = i ∧ b = j
          · obtain ⟨rfl, rfl⟩ := h3
            rw [if_pos ⟨rfl, rfl⟩, if_pos (Or.inl ⟨rfl, hij, by simp⟩)]
          · rw [if_neg h3, if_neg]
            rintro (⟨x, y, z⟩ | ⟨x, y, z⟩)
            · rcases List.mem_cons.1 z with z | z
              · exact h3 ⟨x, z⟩
              · exact h1 (Or.inl ⟨x, y, z⟩)
            · rcases List.mem_cons.1 z with z | z
              · exact h2 ⟨z, x⟩
              · exact h1 (Or.inr ⟨x, y, z⟩)
      · rw [if_neg hij, if_neg]
        rintro (⟨x, y, z⟩ | ⟨x, y, z⟩)
        · rcases List.mem_cons.1 z with z | z
          · exact hij (z ▸ y)
          · exact h1 (Or.inl ⟨x, y, z⟩)
        · rcases List.mem_cons.1 z with z | z
          · exact hij (z ▸ y)
          · exact h1 (Or.inr ⟨x, y, z⟩)

theorem outer_fold (v : Fin d → K) (L : List (Fin d)) : ∀ (A : Fin d → Fin d → K) (a b : Fin d),
    L.foldl (fun A i => (List.finRange d).foldl (outerInner v i) A) A a b =
      if (a ∈ L ∧ a ≤ b) ∨ (b ∈ L ∧ b ≤ a) then v a * v b else A a b := by
  induction L with
  | nil => intro A a b; simp
  | cons i L ih =>
    intro A a b
    rw [List.foldl_cons, ih, outerInner_fold]
    simp only [List.mem_finRange, and_true]
    by_cases h1 : (a ∈ L ∧ a ≤ b) ∨ (b ∈ L ∧ b ≤ a)
    · rw [if_pos h1, if_pos]
      rcases h1 with ⟨x, y⟩ | ⟨x, y⟩
      · exact Or.inl ⟨List.mem_cons_of_mem _ x, y⟩
      · exact Or.inr ⟨List.mem_cons_of_mem _ x, y⟩
    · rw [if_neg h1]
      by_cases h2 : (a = i ∧ i ≤ b) ∨ (b = i ∧ i ≤ a)
      · rw [if_pos h2, if_pos]
        rcases h2 with ⟨rfl, y⟩ | ⟨rfl, y⟩
        · exact Or.inl ⟨by simp, y⟩
        · exact Or.inr ⟨by simp, y⟩
      · rw [if_neg h2, if_neg]
        rintro (⟨x, y⟩ | ⟨x, y⟩)
        · rcases List.mem_cons.1 x with rfl | x
          · exact h2 (Or.inl ⟨rfl, y⟩)
          · exact h1 (Or.inl ⟨x, y⟩)
        · rcases List.mem_cons.1 x with rfl | x
          · exact h2 (Or.inr ⟨rfl, y⟩)
          · exact h1 (Or.inr ⟨x, y⟩)

/-- **C55**: for every vector of every dimension `OuterProduct::compute(v)` has entry `v(i) * v(j)` at `(i, j)`; in
particular it is symmetric. -/
theorem C55_outer_product (v : Fin d → K) (i j : Fin d) :
    outerProduct v i j = v i * v j ∧ outerProduct v j i = outerProduct v i j := by
  have h : ∀ i j, outerProduct v i j = v i * v j := by
    intro i j
    unfold outerProduct
    rw [Matrix.of_apply, outer_fold, if_pos]
    simp only [List.mem_finRange, true_and]
    exact le_total i j
  exact ⟨h i j, by rw [h, h, mul_comm]⟩

example : outerProduct ![(2:Int), 3] 1 0 = 6 := by decide

end Outer

namespace MLEd
variable {d : Nat}

/-- calls that change the estimator (weighted points left out). -/
inductive Op (d : Nat) where
  | points (ps : List (Fin d → ℝ))
  | reset

/-- effect of a call. -/
noncomputable def Op.run (isPos : Matrix (Fin d) (Fin d) ℝ → Bool) (s : MLEd d) : Op d → MLEd d
  | .points ps => ps.foldl (addPoint isPos) s
  | .reset => s.reset

/-- points since the last reset. -/
def collect (acc : List (Fin d → ℝ)) : Op d → List (Fin d → ℝ)
  | .points ps => acc ++ ps
  | .reset => []

/-- sums agree with the points (once there are any). -/
def Sums (s : MLEd d) (xs : List (Fin d → ℝ)) : Prop :=
  s.n = xs.length ∧ (xs ≠ [] → (∀ i, s.sum i = (Spec.comp i xs).sum) ∧
    ∀ i j, s.sq i j = (xs.map fun x => x i * x j).sum)

theorem commit_fields (isPos : Matrix (Fin d) (Fin d) ℝ → Bool) (s : MLEd d) (m c) :
    (commit isPos s m c).n = s.n ∧ (commit isPos s m c).sum = s.sum ∧ (commit isPos s m c).sq = s.sq := by
  unfold commit; split_ifs <;> exact ⟨rfl, rfl, rfl⟩

theorem addPoint_fields (isPos : Matrix (Fin d) (Fin d) ℝ → Bool) (s : MLEd d) (p) :
    (addPoint isPos s p).n = s.n + 1 ∧ (addPoint isPos s p).sum = (if s.n = 0 then 0 else s.sum) + p ∧
    (addPoint isPos s p).sq = (if s.n = 0 then 0 else s.sq) + outerProduct p :=
  commit_fields isPos _ _ _

theorem addPoint_sums (isPos : Matrix (Fin d) (Fin d) ℝ → Bool) (s : MLEd d) (xs) (p) (h : Sums s xs) :
    Sums (addPoint isPos s p) (xs ++ [p]) := by
  obtain ⟨h1, h2⟩ := h
  obtain ⟨f1, f2, f3⟩ := addPoint_fields isPos s p
  refine ⟨by rw [f1]; simp [h1], fun _ => ⟨?_, ?_⟩⟩
  · intro i
    rw [f2]
    rcases xs with _ | ⟨x, xs⟩
    · have : s.n = 0 := by simpa using h1
      simp [this, Spec.comp]
    · have hn : s.n ≠ 0 := by rw [h1]; simp
      have := (h2 (by simp)).1 i
      rw [if_neg hn, Pi.add_apply, this]
      simp [Spec.comp, add_assoc]
  · intro i j
    rw [f3, Matrix.add_apply, (C55_outer_product p i j).1]
    rcases xs with _ | ⟨x, xs⟩
    · have : s.n = 0 := by simpa using h1
      simp [this]
    · have hn : s.n ≠ 0 := by rw [h1]; simp
      have := (h2 (by simp)).2 i j
      rw [if_neg hn, this]
      simp [add_assoc]

theorem points_sums (isPos : Matrix (Fin d) (Fin d) ℝ → Bool) (ps : List (Fin d → ℝ)) : ∀ (s : MLEd d) (xs),
    Sums s xs → Sums (ps.foldl (addPoint isPos) s) (xs ++ ps) := by
  induction ps with
  | nil => intro s xs h; simpa using h
  | cons p ps ih =>
    intro s xs h
    have := ih _ _ (addPoint_sums isPos s xs p h)
    simpa using this

theorem run_sums (isPos : Matrix (Fin d) (Fin d) ℝ → Bool) (h : List (Op d)) : ∀ (s : MLEd d) (xs), Sums s xs →
    Sums (h.foldl (Op.run isPos) s) (h.foldl collect xs) := by
  induction h with
  | nil => intro s xs h; exact h
  | cons o h ih =>
    intro s xs hs
    refine ih _ _ ?_
    cases o with
    | points ps => exact points_sums isPos ps s xs hs
    | reset => exact ⟨rfl, fun h => absurd rfl h⟩

theorem sum_dev (xs : List (Fin d → ℝ)) (i j : Fin d) (a b : ℝ) :
    (xs.map fun x => (x i - a) * (x j - b)).sum = (xs.map fun x => x i * x j).sum - b * (Spec.comp i xs).sum -
      a * (Spec.comp j xs).sum + xs.length * (a * b) := by
  induction xs with
  | nil => simp [Spec.comp]
  | cons x xs ih =>
    simp only [Spec.comp, List.map_cons, List.sum_cons, List.length_cons] at ih ⊢
    rw [ih]; push_cast; ring

theorem covariance_posSemidef (xs : List (Fin d → ℝ)) : (Spec.covariance xs).PosSemidef := by
  have key : ∀ (m : Fin d → ℝ) (ys : List (Fin d → ℝ)),
      (Matrix.of fun i j => (ys.map fun x => (x i - m i) * (x j - m j)).sum : Matrix (Fin d) (Fin d) ℝ).PosSemidef := by
    intro m ys
    induction ys with
    | nil =>
      have : (Matrix.of fun i j => (([] : List (Fin d → ℝ)).map fun x => (x i - m i) * (x j - m j)).sum :
        Matrix (Fin d) (Fin d) ℝ) = 0 := by ext i j; simp
      rw [this]; exact Matrix.PosSemidef.zero
    | cons y ys ih =>
      have e : (Matrix.of fun i j => ((y :: ys).map fun x => (x i - m i) * (x j - m j)).sum :
          Matrix (Fin d) (Fin d) ℝ) = Matrix.vecMulVec (y - m) (star (y - m)) +
          Matrix.of fun i j => (ys.map fun x => (x i - m i) * (x j - m j)).sum := by
        ext i j; simp [Matrix.vecMulVec_apply]
      rw [e]
      exact (Matrix.posSemidef_vecMulVec_self_star _).add ih
  have e : Spec.covariance xs = (1 / (xs.length : ℝ)) • (Matrix.of fun i j =>
      (xs.map fun x => (x i - Spec.mean (Spec.comp i xs)) * (x j - Spec.mean (Spec.comp j xs))).sum :
        Matrix (Fin d) (Fin d) ℝ) := by
    ext i j; simp [Spec.covariance]; ring
  rw [e]
  exact (key (fun i => Spec.mean (Spec.comp i xs)) xs).smul (by positivity)

theorem addPoint_values (isPos : Matrix (Fin d) (Fin d) ℝ → Bool)
    (hpos : ∀ c : Matrix (Fin d) (Fin d) ℝ, c.PosSemidef → isPos c = true) (t0 : MLEd d) (xs0 : List (Fin d → ℝ)) (p : Fin d → ℝ)
    (hs1 : Sums t0 xs0) :
    let s := addPoint isPos t0 p
    let xs := xs0 ++ [p]
    s.n = xs.length ∧ (∀ i, s.mean i = Spec.mean (Spec.comp i xs)) ∧ s.cov = Spec.covariance xs ∧
      s.llt = Spec.covariance xs ∧ s.valid = true := by
  intro s xs
  have e : s = addPoint isPos t0 p := rfl
  have hs2 := addPoint_sums isPos _ _ p hs1
  rw [← e] at hs2
  obtain ⟨k1, k2⟩ := hs2
  obtain ⟨k3, k4⟩ := k2 (by simp)
  have hn : (xs.length : ℝ) ≠ 0 := by
    rw [Nat.cast_ne_zero]; simp [xs]
  -- the committed arguments
  obtain ⟨t, m, c, hc, ht⟩ : ∃ t m c, s = commit isPos t m c ∧
      (m = fun i => t.sum i / (t.n : ℝ)) ∧ c = fun i j => t.sq i j / (t.n : ℝ) -
        outerProduct t.sum i j * 2 / ((t.n : ℝ) * t.n) + outerProduct m i j := by
    rw [e]; exact ⟨_, _, _, rfl, rfl, rfl⟩
  obtain ⟨hm, hcc⟩ := ht
  have tn : t.n = xs.length := by rw [← (commit_fields isPos t m c).1, ← hc]; exact k1
  have ts : ∀ i, t.sum i = (Spec.comp i xs).sum := by
    rw [← (commit_fields isPos t m c).2.1, ← hc]; exact k3
  have tq : ∀ i j, t.sq i j = (xs.map fun x => x i * x j).sum := by
    rw [← (commit_fields isPos t m c).2.2, ← hc]; exact k4
  have hm' : ∀ i, m i = Spec.mean (Spec.comp i xs) := by
    intro i; rw [hm]; simp only [Spec.mean, tn, ts]; simp [Spec.comp]
  have hc' : c = Spec.covariance xs := by
    ext i j
    rw [hcc]
    simp only [(C55_outer_product t.sum i j).1, (C55_outer_product m i j).1, tn, ts, tq, hm']
    unfold Spec.covariance
    rw [sum_dev]
    have l : ∀ i, (Spec.comp i xs).length = xs.length := by intro i; simp [Spec.comp]
    simp only [Spec.mean, l]
    field_simp
    ring
  have psd := covariance_posSemidef xs
  have hcommit : s = { t with mean := m, llt := c, cov := c, valid := true } := by
    rw [hc]
    unfold commit
    rw [if_neg, if_neg, if_neg]
    · rintro ⟨i, hi⟩
      rw [hc'] at hi
      have := psd.diag_nonneg (i := i)
      linarith
    · rw [hc', hpos _ psd]; simp
    · rw [not_not, hc']
      have := psd.1
      rwa [Matrix.IsHermitian, Matrix.conjTranspose_eq_transpose_of_trivial] at this
  rw [hcommit]
  exact ⟨tn, hm', hc', hc', rfl⟩

/-- **C34** (multivariate, exact arithmetic, `isPositive` true on positive semi-definite matrices): after any history,
adding one or more points leaves the number of points since the last reset, their mean vector and their population
covariance matrix, whatever the history and the order of the points; the estimate is always reported valid. -/
theorem C34_mv_streaming_partial (isPos : Matrix (Fin d) (Fin d) ℝ → Bool)
    (hpos : ∀ c : Matrix (Fin d) (Fin d) ℝ, c.PosSemidef → isPos c = true) (s0 : MLEd d) (h0 : s0.n = 0)
    (h : List (Op d)) (qs : List (Fin d → ℝ)) (p : Fin d → ℝ) :
    let s := (h ++ [Op.points (qs ++ [p])]).foldl (Op.run isPos) s0
    let xs := h.foldl collect [] ++ qs ++ [p]
    s.n = xs.length ∧ (∀ i, s.mean i = Spec.mean (Spec.comp i xs)) ∧ s.cov = Spec.covariance xs ∧
      s.llt = Spec.covariance xs ∧ s.valid = true := by
  intro s xs
  have hs0 : Sums s0 [] := ⟨by simpa using h0, fun h => absurd rfl h⟩
  have hs1 := points_sums isPos qs _ _ (run_sums isPos h s0 [] hs0)
  have e : s = addPoint isPos (qs.foldl (addPoint isPos) (h.foldl (Op.run isPos) s0)) p := by
    simp [s, Op.run]
  rw [e]
  exact addPoint_values isPos hpos _ _ p hs1

/-- non-vacuity: the test "is positive semi-definite" meets the hypothesis. -/
example : ∃ isPos : Matrix (Fin 2) (Fin 2) ℝ → Bool, ∀ c : Matrix (Fin 2) (Fin 2) ℝ, c.PosSemidef → isPos c = true := by
  classical
  exact ⟨fun c => decide c.PosSemidef, fun c h => by simpa using h⟩

/-- Unlike the one-dimensional estimator, a single point gives a "valid" estimate: its covariance is zero, hence
singular, in every positive dimension. -/
theorem C34_mv_single_point_valid (isPos : Matrix (Fin d) (Fin d) ℝ → Bool)
    (hpos : ∀ c : Matrix (Fin d) (Fin d) ℝ, c.PosSemidef → isPos c = true) (s0 : MLEd d) (h0 : s0.n = 0)
    (p : Fin d → ℝ) (hd : 0 < d) :
    (addPoint isPos s0 p).valid = true ∧ (addPoint isPos s0 p).cov = 0 ∧ (addPoint isPos s0 p).cov.det = 0 := by
  obtain ⟨-, -, hc, -, hv⟩ := C34_mv_streaming_partial isPos hpos s0 h0 [] [] p
  simp only [List.nil_append, List.foldl_cons, List.foldl_nil, Op.run] at hc hv
  have hz : Spec.covariance [p] = 0 := by
    ext i j; simp [Spec.covariance, Spec.mean, Spec.comp]
  refine ⟨hv, hc.trans hz, ?_⟩
  rw [hc.trans hz]
  have : Nonempty (Fin d) := ⟨⟨0, hd⟩⟩
  exact Matrix.det_zero

end MLEd
end Verif
