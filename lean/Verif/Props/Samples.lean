import Verif.Lemmas.Samples
import Mathlib.Tactic.FieldSimp
import Mathlib.Tactic.Positivity
import Mathlib.Data.Real.Archimedean

/-!
# C130: drawing many samples

`getSamples(samples, n)` replaces the contents of the caller's vector by the results of `n` successive `getSample()` calls;
if one of these does not return, it ends as that call and the vector holds the samples drawn before.
-/

namespace Verif
open Samples

/-- **C130.**  For every distribution (`draw` is its `getSample`, a function of the position in the raw sequence), every
number, every vector handed over and every position:

1. the call returns iff the number is one a vector can hold and that many successive draws return; the vector then holds
   exactly these, in order, and the generator is where they leave it;
2. it raises iff the number is refused (nothing is drawn, the vector is empty) or, after fewer draws, one raises; the
   vector then holds what was drawn before;
3. it does not return, or is undefined, iff a draw is;
4. what the vector held before does not matter. -/
theorem C130_samples {X : Type} (draw : Nat → Res Nat X) (maxSize k : Nat) (old : List X) (n : Nat) :
    (∀ xs m, getSamples draw maxSize k (old, n) = .ok () (xs, m) ↔
      k ≤ maxSize ∧ xs.length = k ∧ Successive draw n xs m) ∧
    (∀ e xs m, getSamples draw maxSize k (old, n) = .throw e (xs, m) ↔
      (maxSize < k ∧ e = .external ∧ xs = [] ∧ m = n) ∨
      (k ≤ maxSize ∧ xs.length < k ∧ ∃ p, Successive draw n xs p ∧ draw p = .throw e m)) ∧
    (getSamples draw maxSize k (old, n) = .diverge ↔
      k ≤ maxSize ∧ ∃ xs p, xs.length < k ∧ Successive draw n xs p ∧ draw p = .diverge) ∧
    (getSamples draw maxSize k (old, n) = .ub ↔
      k ≤ maxSize ∧ ∃ xs p, xs.length < k ∧ Successive draw n xs p ∧ draw p = .ub) ∧
    (∀ old' : List X, getSamples draw maxSize k (old', n) = getSamples draw maxSize k (old, n)) := by
  unfold getSamples
  by_cases hk : k > maxSize
  · have hk' : ¬ k ≤ maxSize := by omega
    simp only [if_pos hk]
    refine ⟨fun xs m => by simp [hk'], fun e xs m => ?_, by simp [hk'], by simp [hk'], fun _ => by trivial⟩
    constructor
    · intro h
      simp only [Res.throw.injEq, Prod.mk.injEq] at h
      exact .inl ⟨hk, h.1.symm, h.2.1.symm, h.2.2.symm⟩
    · rintro (⟨_, rfl, rfl, rfl⟩ | ⟨h, _⟩)
      · rfl
      · exact absurd h hk'
  · have hk' : k ≤ maxSize := by omega
    simp only [if_neg hk]
    have stop : ∀ (xs : List X) (p : Nat), xs.length < k → Successive draw n xs p →
        ∃ j, loop draw k [] n = match draw p with
          | .ok x m' => loop draw j ([] ++ xs ++ [x]) m'
          | .throw e m' => .throw e ([] ++ xs, m')
          | .ub => .ub
          | .diverge => .diverge := by
      intro xs p hl hs
      refine ⟨k - xs.length - 1, ?_⟩
      have := Samples.loop_stop hs [] (k - xs.length - 1)
      rwa [show xs.length + (k - xs.length - 1 + 1) = k by omega] at this
    have hend := Samples.loop_end draw k [] n
    refine ⟨fun xs m => ⟨?_, ?_⟩, fun e xs m => ⟨?_, ?_⟩, ⟨?_, ?_⟩, ⟨?_, ?_⟩, fun _ => by trivial⟩
    · intro h
      rw [h] at hend
      generalize hr : (Res.ok () (xs, m) : Res (List X × Nat) Unit) = r at hend
      cases hend with
      | ok hl hs =>
        simp only [List.nil_append, Res.ok.injEq, Prod.mk.injEq, true_and] at hr
        obtain ⟨rfl, rfl⟩ := hr
        exact ⟨hk', hl, hs⟩
      | throw => exact absurd hr (by simp)
      | ub => exact absurd hr (by simp)
      | diverge => exact absurd hr (by simp)
    · rintro ⟨_, rfl, hs⟩
      simpa using Samples.loop_ok hs []
    · intro h
      rw [h] at hend
      generalize hr : (Res.throw e (xs, m) : Res (List X × Nat) Unit) = r at hend
      cases hend with
      | throw hl hs he =>
        simp only [List.nil_append, Res.throw.injEq, Prod.mk.injEq] at hr
        obtain ⟨rfl, rfl, rfl⟩ := hr
        exact .inr ⟨hk', hl, _, hs, he⟩
      | ok => exact absurd hr (by simp)
      | ub => exact absurd hr (by simp)
      | diverge => exact absurd hr (by simp)
    · rintro (⟨h, _⟩ | ⟨_, hl, p, hs, he⟩)
      · omega
      · obtain ⟨j, hj⟩ := stop xs p hl hs
        rw [hj, he]; simp
    · intro h
      rw [h] at hend
      generalize hr : (Res.diverge : Res (List X × Nat) Unit) = r at hend
      cases hend with
      | diverge hl hs he => exact ⟨hk', _, _, hl, hs, he⟩
      | ok => exact absurd hr (by simp)
      | ub => exact absurd hr (by simp)
      | throw => exact absurd hr (by simp)
    · rintro ⟨_, xs, p, hl, hs, he⟩
      obtain ⟨j, hj⟩ := stop xs p hl hs
      rw [hj, he]
    · intro h
      rw [h] at hend
      generalize hr : (Res.ub : Res (List X × Nat) Unit) = r at hend
      cases hend with
      | ub hl hs he => exact ⟨hk', _, _, hl, hs, he⟩
      | ok => exact absurd hr (by simp)
      | diverge => exact absurd hr (by simp)
      | throw => exact absurd hr (by simp)
    · rintro ⟨_, xs, p, hl, hs, he⟩
      obtain ⟨j, hj⟩ := stop xs p hl hs
      rw [hj, he]

/-- **C130, in one go or in two.**  Drawing `j` and then `k` samples gives the same samples as drawing `j + k`, and leaves
the generator in the same place. -/
theorem C130_split {X : Type} (draw : Nat → Res Nat X) (maxSize j k : Nat) (o1 o2 o3 xs ys : List X) (n m p : Nat)
    (h1 : getSamples draw maxSize j (o1, n) = .ok () (xs, m)) (h2 : getSamples draw maxSize k (o2, m) = .ok () (ys, p))
    (hs : j + k ≤ maxSize) : getSamples draw maxSize (j + k) (o3, n) = .ok () (xs ++ ys, p) := by
  obtain ⟨_, hj, s1⟩ := ((C130_samples draw maxSize j o1 n).1 xs m).mp h1
  obtain ⟨_, hk, s2⟩ := ((C130_samples draw maxSize k o2 m).1 ys p).mp h2
  exact ((C130_samples draw maxSize (j + k) o3 n).1 _ _).mpr ⟨hs, by simp [hj, hk], s1.append s2⟩

/-- **C130, uniform samples in a box.**  An object whose support was accepted (`min < max` in every coordinate) always
delivers the samples asked for; the `a`-th sample's coordinate `i` is the affine image of the `(a·d + i)`-th raw number, so
every sample lies in the box when the raw numbers are in the range of `random()`, and exactly one raw number per coordinate
is consumed. -/
theorem C130_uniform_box {d : Nat} (rand : Nat → Nat) (u0 u : Uniformd d) (lo hi : Fin d → ℝ)
    (hu : u0.setSupport lo hi = .ok () u) (maxSize k n : Nat) (old : List (Fin d → ℝ)) (hk : k ≤ maxSize) :
    ∃ xs : List (Fin d → ℝ), getSamples (uniformMv rand u) maxSize k (old, n) = .ok () (xs, n + k * d) ∧ xs.length = k ∧
      (∀ (a : Nat) (ha : a < xs.length) (i : Fin d),
        xs[a] i = lo i + (rand (n + a * d + i) : ℝ) / 2147483647 * (hi i - lo i)) ∧
      ((∀ q, rand q ≤ 2147483647) → ∀ x ∈ xs, ∀ i, lo i ≤ x i ∧ x i ≤ hi i) := by
  have hlt : (∀ i, lo i < hi i) ∧ u.mn = lo ∧ u.mx = hi := by
    unfold Uniformd.setSupport at hu
    split at hu
    · exact absurd hu (by simp)
    · rename_i hne
      push Not at hne
      injection hu with _ h2
      subst h2
      exact ⟨hne, rfl, rfl⟩
  obtain ⟨hlt, rfl, rfl⟩ := hlt
  have key : ∀ (k n : Nat), ∃ xs : List (Fin d → ℝ), Successive (uniformMv rand u) n xs (n + k * d) ∧ xs.length = k ∧
      ∀ (a : Nat) (ha : a < xs.length) (i : Fin d),
        xs[a] i = u.mn i + (rand (n + a * d + i) : ℝ) / 2147483647 * (u.mx i - u.mn i) := by
    intro k
    induction k with
    | zero => intro n; exact ⟨[], by simpa using Successive.nil n, rfl, fun a ha => absurd ha (by simp)⟩
    | succ k ih =>
      intro n
      obtain ⟨xs, h1, h2, h3⟩ := ih (n + d)
      refine ⟨_ :: xs, .cons (uniformMv_ok rand u n hlt) ?_, by simp [h2], ?_⟩
      · rwa [show n + (k + 1) * d = n + d + k * d by ring]
      · intro a ha i
        cases a with
        | zero => simp [uniformDraw]
        | succ a =>
          simp only [List.getElem_cons_succ]
          rw [h3 a (by simpa using ha) i, show n + d + a * d + (i : Nat) = n + (a + 1) * d + i by ring]
  obtain ⟨xs, h1, h2, h3⟩ := key k n
  refine ⟨xs, ((C130_samples _ maxSize k old n).1 _ _).mpr ⟨hk, h2, h1⟩, h2, h3, fun hr x hx i => ?_⟩
  obtain ⟨a, ha, rfl⟩ := List.getElem_of_mem hx
  rw [h3 a ha i]
  have hd := sub_pos.mpr (hlt i)
  have hq0 : (0:ℝ) ≤ (rand (n + a * d + i) : ℝ) / 2147483647 := by positivity
  have hq1 : (rand (n + a * d + i) : ℝ) / 2147483647 ≤ 1 := by
    rw [div_le_one (by norm_num)]
    exact_mod_cast hr (n + a * d + i)
  constructor
  · nlinarith
  · nlinarith

/-- **C130, a box that is never accepted.**  A default-style object whose corners are not ordered in some coordinate makes
the very first draw raise: nothing is delivered. -/
theorem C130_uniform_refused {d : Nat} (rand : Nat → Nat) (u : Uniformd d) (i0 : Fin d) (hbad : u.mx i0 ≤ u.mn i0)
    (maxSize k n : Nat) (old : List (Fin d → ℝ)) (hk : k + 1 ≤ maxSize) :
    ∃ m, getSamples (uniformMv rand u) maxSize (k + 1) (old, n) = .throw .badArgument ([], m) := by
  have loopBad : ∀ (j i n : Nat), i ≤ i0 → i0 < i + j → i + j ≤ d →
      ∃ m, uniformLoop rand (coord u.mn) (coord u.mx) j i n = .throw .badArgument m := by
    intro j
    induction j with
    | zero => intro i n h1 h2; omega
    | succ j ih =>
      intro i n h1 h2 h3
      unfold uniformLoop uniformReal
      by_cases hge : coord u.mn i ≥ coord u.mx i
      · rw [if_pos hge]; exact ⟨n, rfl⟩
      · rw [if_neg hge]
        have hne : i ≠ i0 := by
          rintro rfl
          exact hge (by simpa [coord, i0.2] using hbad)
        obtain ⟨m, hm⟩ := ih (i + 1) (n + 1) (by omega) (by omega) (by omega)
        refine ⟨m, ?_⟩
        simp only [Res.bind, hm]
  obtain ⟨m, hm⟩ := loopBad d 0 n (by omega) (by omega) (by omega)
  refine ⟨m, ((C130_samples _ maxSize (k + 1) old n).2.1 _ _ _).mpr (.inr ⟨hk, by simp, n, .nil n, ?_⟩)⟩
  rw [uniformMv, hm]
  rfl

/-- **C130, uniform integers.**  An object whose bounds satisfy `min < max` always delivers the samples asked for, one raw
number each; with raw numbers in the range of `random()` every sample lies in `[min, max]`, and both ends can be drawn. -/
theorem C130_uniform_int (rand : Nat → Nat) (u : Uniform1 Int) (hlt : u.mn < u.mx) (maxSize k n : Nat) (old : List Int)
    (hk : k ≤ maxSize) :
    ∃ xs : List Int, getSamples (uniformInt rand u) maxSize k (old, n) = .ok () (xs, n + k) ∧ xs.length = k ∧
      ((∀ q, rand q ≤ 2147483647) → ∀ x ∈ xs, u.mn ≤ x ∧ x ≤ u.mx) ∧
      ((∀ q, rand q = 0) → ∀ x ∈ xs, x = u.mn) ∧ ((∀ q, rand q = 2147483647) → ∀ x ∈ xs, x = u.mx) := by
  have one : ∀ n, uniformInt rand u n = .ok (u.mn + roundHalfUp (uniformDraw (rand n) * ((u.mx - u.mn : Int) : ℚ))) (n + 1) := by
    intro n
    unfold uniformInt sampleUniformInt
    rw [if_neg (by omega)]
  have key : ∀ (k n : Nat), ∃ xs : List Int, Successive (uniformInt rand u) n xs (n + k) ∧ xs.length = k ∧
      ∀ x ∈ xs, ∃ q, x = u.mn + roundHalfUp (uniformDraw (rand q) * ((u.mx - u.mn : Int) : ℚ)) := by
    intro k
    induction k with
    | zero => intro n; exact ⟨[], .nil n, rfl, by simp⟩
    | succ k ih =>
      intro n
      obtain ⟨xs, h1, h2, h3⟩ := ih (n + 1)
      refine ⟨_ :: xs, .cons (one n) (by rwa [show n + (k + 1) = n + 1 + k by omega]), by simp [h2], ?_⟩
      intro x hx
      rcases List.mem_cons.mp hx with rfl | hx
      · exact ⟨n, rfl⟩
      · exact h3 x hx
  obtain ⟨xs, h1, h2, h3⟩ := key k n
  refine ⟨xs, ((C130_samples _ maxSize k old n).1 _ _).mpr ⟨hk, h2, h1⟩, h2, fun hr x hx => ?_, fun hr x hx => ?_,
    fun hr x hx => ?_⟩
  · obtain ⟨q, rfl⟩ := h3 x hx
    have hw : (0:ℚ) < ((u.mx - u.mn : Int) : ℚ) := by exact_mod_cast (by omega : 0 < u.mx - u.mn)
    have h0 : (0:ℚ) ≤ uniformDraw (rand q) := by unfold uniformDraw; positivity
    have h1 : uniformDraw (rand q) ≤ 1 := by
      unfold uniformDraw
      rw [div_le_one (by norm_num)]
      exact_mod_cast hr q
    have hlo : (0:Int) ≤ roundHalfUp (uniformDraw (rand q) * ((u.mx - u.mn : Int) : ℚ)) := by
      unfold roundHalfUp
      apply Int.floor_nonneg.mpr
      positivity
    have hhi : roundHalfUp (uniformDraw (rand q) * ((u.mx - u.mn : Int) : ℚ)) ≤ u.mx - u.mn := by
      unfold roundHalfUp
      apply Int.lt_add_one_iff.mp
      apply Int.floor_lt.mpr
      push_cast at hw ⊢
      nlinarith
    omega
  · obtain ⟨q, rfl⟩ := h3 x hx
    rw [hr q]
    norm_num [uniformDraw, roundHalfUp]
  · obtain ⟨q, rfl⟩ := h3 x hx
    rw [hr q]
    have : roundHalfUp (uniformDraw 2147483647 * ((u.mx - u.mn : Int) : ℚ)) = u.mx - u.mn := by
      unfold roundHalfUp uniformDraw
      rw [Int.floor_eq_iff]
      norm_num
    omega

/-- Non-vacuity: a die. -/
example : getSamples (uniformInt (fun n => n * 1000000000) ⟨1, 6, 6⟩) 10 3 ([], 0) = .ok () ([1, 3, 6], 3) := by
  norm_num [getSamples, loop, uniformInt, sampleUniformInt, roundHalfUp, uniformDraw]

/-- Non-vacuity: a unit square, two samples from the constant raw sequence `RAND_MAX`. -/
example : ∃ u : Uniformd 2, (⟨0, 0, 0⟩ : Uniformd 2).setSupport (fun _ => 0) (fun _ => 1) = .ok () u ∧
    ∃ xs, getSamples (uniformMv (fun _ => 2147483647) u) 10 2 ([], 0) = .ok () (xs, 4) ∧ xs.length = 2 := by
  have h : ∃ u : Uniformd 2, (⟨0, 0, 0⟩ : Uniformd 2).setSupport (fun _ => 0) (fun _ => 1) = .ok () u := by
    unfold Uniformd.setSupport
    rw [if_neg (by simp)]
    exact ⟨_, rfl⟩
  obtain ⟨u, hu⟩ := h
  obtain ⟨xs, h1, h2, _⟩ := C130_uniform_box (fun _ => 2147483647) _ u _ _ hu 10 2 0 [] (by norm_num)
  exact ⟨u, hu, xs, by simpa using h1, h2⟩

/-- Non-vacuity: a draw that raises at the third raw number leaves two samples. -/
example : getSamples (fun n => if n < 2 then .ok n (n + 1) else .throw .badArgument n) 100 5 ([7, 8, 9], 0)
    = .throw .badArgument ([0, 1], 2) := rfl

end Verif
