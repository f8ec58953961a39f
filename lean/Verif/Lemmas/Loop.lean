import Verif.Model.Loop
import Mathlib.Data.Nat.Find

/-! Lemmas about loops without a static bound. -/

namespace Verif
namespace Loop
variable {σ : Type _} (cond : σ → Prop) [DecidablePred cond] (body : σ → Res σ Unit)

theorem run_unfold (s : σ) :
    run cond body s = if cond s then (body s).bind fun _ s' => run cond body s' else .ok () s := by
  classical
  by_cases hc : cond s
  · rw [if_pos hc]
    have h0 : ¬ over cond (iter cond body 0 s) := by simp [iter, over, hc]
    have hs : ∀ n, iter cond body (n + 1) s = (body s).bind fun _ s' => iter cond body n s' := by
      intro n; simp [iter, hc]
    cases hb : body s with
    | ok a s' =>
      have hs' : ∀ n, iter cond body (n + 1) s = iter cond body n s' := by
        intro n; rw [hs, hb]; rfl
      show run cond body s = run cond body s'
      by_cases h : ∃ n, over cond (iter cond body n s')
      · have h' : ∃ n, over cond (iter cond body n s) := by
          obtain ⟨n, hn⟩ := h
          exact ⟨n + 1, by rw [hs']; exact hn⟩
        have e : Nat.find h' = Nat.find h + 1 := by
          apply le_antisymm
          · apply Nat.find_min'
            rw [hs']; exact Nat.find_spec h
          · have hpos : Nat.find h' ≠ 0 := by
              intro e
              have := Nat.find_spec h'
              rw [e] at this
              exact h0 this
            obtain ⟨m, hm⟩ := Nat.exists_eq_succ_of_ne_zero hpos
            rw [hm]
            apply Nat.succ_le_succ
            apply Nat.find_min'
            have := Nat.find_spec h'
            rw [hm] at this
            rw [← hs']; exact this
        unfold run
        rw [dif_pos h', dif_pos h, e, hs']
      · have h' : ¬ ∃ n, over cond (iter cond body n s) := by
          rintro ⟨n, hn⟩
          cases n with
          | zero => exact h0 hn
          | succ n => exact h ⟨n, by rw [← hs']; exact hn⟩
        unfold run
        rw [dif_neg h', dif_neg h]
    | throw e s' =>
      have h' : ∃ n, over cond (iter cond body n s) := ⟨1, by rw [hs, hb]; trivial⟩
      have e : Nat.find h' ≠ 0 := by
        intro e
        have := Nat.find_spec h'
        rw [e] at this
        exact h0 this
      obtain ⟨m, hm⟩ := Nat.exists_eq_succ_of_ne_zero e
      unfold run
      rw [dif_pos h', hm, hs, hb]; rfl
    | ub =>
      have h' : ∃ n, over cond (iter cond body n s) := ⟨1, by rw [hs, hb]; trivial⟩
      have e : Nat.find h' ≠ 0 := by
        intro e
        have := Nat.find_spec h'
        rw [e] at this
        exact h0 this
      obtain ⟨m, hm⟩ := Nat.exists_eq_succ_of_ne_zero e
      unfold run
      rw [dif_pos h', hm, hs, hb]; rfl
    | diverge =>
      have h' : ∃ n, over cond (iter cond body n s) := ⟨1, by rw [hs, hb]; trivial⟩
      have e : Nat.find h' ≠ 0 := by
        intro e
        have := Nat.find_spec h'
        rw [e] at this
        exact h0 this
      obtain ⟨m, hm⟩ := Nat.exists_eq_succ_of_ne_zero e
      unfold run
      rw [dif_pos h', hm, hs, hb]; rfl
  · rw [if_neg hc]
    have h' : ∃ n, over cond (iter cond body n s) := ⟨0, by simpa [iter, over] using hc⟩
    have e : Nat.find h' = 0 := by
      rw [Nat.find_eq_zero]
      simpa [iter, over] using hc
    unfold run
    rw [dif_pos h', e]; rfl

theorem run_steps (f : Nat → σ) (n : Nat) (h : ∀ k < n, cond (f k) ∧ body (f k) = .ok () (f (k + 1))) :
    run cond body (f 0) = run cond body (f n) := by
  induction n with
  | zero => rfl
  | succ n ih =>
    rw [ih (fun k hk => h k (by omega)), run_unfold cond body (f n), if_pos (h n (by omega)).1, (h n (by omega)).2]
    rfl

theorem run_ok (f : Nat → σ) (n : Nat) (h : ∀ k < n, cond (f k) ∧ body (f k) = .ok () (f (k + 1)))
    (hn : ¬ cond (f n)) : run cond body (f 0) = .ok () (f n) := by
  rw [run_steps cond body f n h, run_unfold, if_neg hn]

theorem run_throw (f : Nat → σ) (n : Nat) (h : ∀ k < n, cond (f k) ∧ body (f k) = .ok () (f (k + 1)))
    (hn : cond (f n)) {e : Exc} {s : σ} (hb : body (f n) = .throw e s) : run cond body (f 0) = .throw e s := by
  rw [run_steps cond body f n h, run_unfold, if_pos hn, hb]; rfl

theorem run_diverge (f : Nat → σ) (h : ∀ k, cond (f k) ∧ body (f k) = .ok () (f (k + 1))) :
    run cond body (f 0) = .diverge := by
  classical
  have hi : ∀ n m, iter cond body n (f m) = .ok () (f (m + n)) := by
    intro n
    induction n with
    | zero => intro m; rfl
    | succ n ih =>
      intro m
      simp only [iter, (h m).1, if_true, (h m).2, Res.bind]
      rw [ih (m + 1)]
      congr 2; omega
  unfold run
  rw [dif_neg]
  rintro ⟨n, hn⟩
  rw [hi] at hn
  exact hn (h _).1

end Loop
end Verif
