import Verif.Model.Samples
import Verif.Spec.Samples
import Mathlib.Tactic.Linarith
import Mathlib.Tactic.Ring
import Mathlib.Tactic.Push

namespace Verif

theorem Successive.append {X : Type} {draw : Nat → Res Nat X} {n m p : Nat} {xs ys : List X}
    (h : Successive draw n xs m) (h' : Successive draw m ys p) : Successive draw n (xs ++ ys) p := by
  induction h with
  | nil => simpa using h'
  | cons hd _ ih => exact .cons hd (ih h')

theorem Successive.det {X : Type} {draw : Nat → Res Nat X} {n m m' : Nat} {xs ys : List X}
    (h : Successive draw n xs m) (h' : Successive draw n ys m') (hl : xs.length = ys.length) : xs = ys ∧ m = m' := by
  induction h generalizing ys m' with
  | nil =>
    cases h' with
    | nil => exact ⟨rfl, rfl⟩
    | cons _ _ => simp at hl
  | cons hd _ ih =>
    cases h' with
    | nil => simp at hl
    | cons hd' ht' =>
      rw [hd] at hd'
      injection hd' with e1 e2
      subst e1 e2
      obtain ⟨r1, r2⟩ := ih ht' (by simpa using hl)
      exact ⟨by rw [r1], r2⟩

/-- how the loop ends, from any vector: one of four ways. -/
inductive SamplesEnd {X : Type} (draw : Nat → Res Nat X) (k : Nat) (v : List X) (n : Nat) : Res (List X × Nat) Unit → Prop
  | ok {xs m} : xs.length = k → Successive draw n xs m → SamplesEnd draw k v n (.ok () (v ++ xs, m))
  | throw {xs m e m'} : xs.length < k → Successive draw n xs m → draw m = .throw e m' →
      SamplesEnd draw k v n (.throw e (v ++ xs, m'))
  | ub {xs m} : xs.length < k → Successive draw n xs m → draw m = .ub → SamplesEnd draw k v n .ub
  | diverge {xs m} : xs.length < k → Successive draw n xs m → draw m = .diverge → SamplesEnd draw k v n .diverge

theorem Samples.loop_end {X : Type} (draw : Nat → Res Nat X) (k : Nat) (v : List X) (n : Nat) :
    SamplesEnd draw k v n (Samples.loop draw k v n) := by
  induction k generalizing v n with
  | zero => simpa [Samples.loop] using SamplesEnd.ok (draw := draw) (v := v) (n := n) (xs := []) rfl (.nil n)
  | succ k ih =>
    unfold Samples.loop
    cases hd : draw n with
    | ok x n' =>
      simp only
      have h := ih (v ++ [x]) n'
      generalize Samples.loop draw k (v ++ [x]) n' = r at h
      cases h with
      | ok hl hs => simpa using SamplesEnd.ok (v := v) (xs := x :: _) (by simp [hl]) (.cons hd hs)
      | throw hl hs he => simpa using SamplesEnd.throw (v := v) (xs := x :: _) (by simp [hl]) (.cons hd hs) he
      | ub hl hs he => exact SamplesEnd.ub (v := v) (xs := x :: _) (by simp [hl]) (.cons hd hs) he
      | diverge hl hs he => exact SamplesEnd.diverge (v := v) (xs := x :: _) (by simp [hl]) (.cons hd hs) he
    | throw e n' => simpa using SamplesEnd.throw (draw := draw) (v := v) (k := k + 1) (xs := []) (by simp) (.nil n) hd
    | ub => exact SamplesEnd.ub (v := v) (xs := []) (by simp) (.nil n) hd
    | diverge => exact SamplesEnd.diverge (v := v) (xs := []) (by simp) (.nil n) hd

/-- if `k` draws succeed the loop returns them. -/
theorem Samples.loop_ok {X : Type} {draw : Nat → Res Nat X} {n m : Nat} {xs : List X} (h : Successive draw n xs m)
    (v : List X) : Samples.loop draw xs.length v n = .ok () (v ++ xs, m) := by
  induction h generalizing v with
  | nil => simp [Samples.loop]
  | cons hd _ ih => simp [Samples.loop, hd, ih]

/-- if fewer than `k` draws succeed and the next one does not, the loop ends as that one. -/
theorem Samples.loop_stop {X : Type} {draw : Nat → Res Nat X} {n m : Nat} {xs : List X} (h : Successive draw n xs m)
    (v : List X) (j : Nat) :
    Samples.loop draw (xs.length + (j + 1)) v n = match draw m with
      | .ok x m' => Samples.loop draw j (v ++ xs ++ [x]) m'
      | .throw e m' => .throw e (v ++ xs, m')
      | .ub => .ub
      | .diverge => .diverge := by
  induction h generalizing v with
  | nil n => simp [Samples.loop]; cases draw n <;> rfl
  | cons hd _ ih =>
    rw [List.length_cons, show ∀ a : Nat, a + 1 + (j + 1) = (a + (j + 1)) + 1 by omega, Samples.loop, hd]
    simp only
    rw [ih]
    simp

theorem Samples.uniformLoop_ok (rand : Nat → Nat) (mn mx : Nat → ℝ) (k i n : Nat)
    (h : ∀ j, i ≤ j → j < i + k → mn j < mx j) :
    Samples.uniformLoop rand mn mx k i n =
      .ok ((List.range k).map fun j => mn (i + j) + (uniformDraw (rand (n + j)) : ℚ) * (mx (i + j) - mn (i + j)))
        (n + k) := by
  induction k generalizing i n with
  | zero => rfl
  | succ k ih =>
    rw [Samples.uniformLoop, Samples.uniformReal, if_neg (not_le.mpr (h i le_rfl (by omega)))]
    simp only [Res.bind]
    rw [ih (i + 1) (n + 1) (fun j h1 h2 => h j (by omega) (by omega))]
    simp only [List.range_succ_eq_map, List.map_cons, List.map_map]
    congr 1
    · congr 1
      apply List.map_congr_left
      intro j _
      simp only [Function.comp, Nat.succ_eq_add_one]
      rw [show i + 1 + j = i + (j + 1) by omega, show n + 1 + j = n + (j + 1) by omega]
    · omega

theorem Samples.uniformMv_ok {d : Nat} (rand : Nat → Nat) (u : Uniformd d) (n : Nat) (h : ∀ i, u.mn i < u.mx i) :
    Samples.uniformMv rand u n =
      .ok (fun i => u.mn i + (uniformDraw (rand (n + i)) : ℚ) * (u.mx i - u.mn i)) (n + d) := by
  unfold Samples.uniformMv
  rw [Samples.uniformLoop_ok]
  · simp only [Res.bind]
    congr 1
    funext i
    simp [Samples.coord, i.2]
  · intro j _ hj
    have hj' : j < d := by omega
    simpa [Samples.coord, hj'] using h ⟨j, hj'⟩

end Verif
