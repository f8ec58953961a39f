import Verif.Model.EgoFiles
import Mathlib.Data.List.Basic
import Mathlib.Tactic.NormNum

/-! # Lemmas about the files of the egomotion simulation program -/

namespace Verif
namespace SimEgo
variable {T E G P V A B L : Type} [Group T]

theorem dec_inj {i j : ℕ} (h : (toString i).toList = (toString j).toList) : i = j := by
  have h' : Nat.toDigits 10 i = Nat.toDigits 10 j := by simpa using h
  rw [← Nat.ofDigitChars_ten_toDigits (n := i), h', Nat.ofDigitChars_ten_toDigits]

theorem dec_no_bar (k : ℕ) : '_' ∉ (toString k).toList := by
  intro h
  have : ∀ c ∈ (toString k).toList, c.isDigit := fun c hc =>
    Nat.isDigit_of_mem_toDigits (b := 10) (n := k) (by norm_num) (by norm_num) (by simpa using hc)
  exact absurd (this _ h) (by decide)

theorem split_bar {a b x y : List Char} (hx : '_' ∉ x) (hy : '_' ∉ y) (h : a ++ '_' :: x = b ++ '_' :: y) : a = b ∧ x = y := by
  rcases List.append_eq_append_iff.1 h with ⟨c, rfl, h2⟩ | ⟨c, rfl, h2⟩
  · cases c with
    | nil => simp at h2; exact ⟨by simp, h2⟩
    | cons d c =>
      simp only [List.cons_append, List.cons.injEq] at h2
      exact absurd (by rw [h2.2]; simp) hx
  · cases c with
    | nil => simp at h2; exact ⟨by simp, h2.symm⟩
    | cons d c =>
      simp only [List.cons_append, List.cons.injEq] at h2
      exact absurd (by rw [h2.2]; simp) hy

/-- names made of a prefix that ends in `_` and a number determine both. -/
theorem keyed_inj {a b : String} {i j : ℕ} {a' b' : List Char} (ha : a.toList = a' ++ ['_']) (hb : b.toList = b' ++ ['_'])
    (h : keyed a i = keyed b j) : a = b ∧ i = j := by
  have h1 := congrArg String.toList h
  simp only [keyed, String.toList_append, ha, hb] at h1
  have e : (".txt" : String).toList = ['.', 't', 'x', 't'] := by decide
  rw [e] at h1
  have h2 : a' ++ '_' :: ((toString i).toList ++ ['.', 't', 'x', 't']) = b' ++ '_' :: ((toString j).toList ++ ['.', 't', 'x', 't']) := by
    simpa [List.append_assoc] using h1
  obtain ⟨h3, h4⟩ := split_bar (by simpa using dec_no_bar i) (by simpa using dec_no_bar j) h2
  refine ⟨String.toList_inj.1 (by rw [ha, hb, h3]), dec_inj (List.append_cancel_right h4)⟩

/-- the files of one map of motions. -/
theorem motionFiles_get (pre : String) (a' : List Char) (ha : pre.toList = a' ++ ['_']) (data : ℕ → List (Ego.Meas T))
    (keys : List ℕ) (fs : SimTD.Dir (Row T G L A B)) (k : ℕ) (hk : k ∈ keys) (hd : data k ≠ []) :
    motionFiles pre data keys fs (keyed pre k) = some ((data k).map fun m => .motion m.motion) := by
  have key : ∀ (keys : List ℕ) (fs : SimTD.Dir (Row T G L A B)),
      (k ∈ keys ∨ fs (keyed pre k) = some ((data k).map fun m => .motion m.motion)) →
      motionFiles pre data keys fs (keyed pre k) = some ((data k).map fun m => .motion m.motion) := by
    intro keys
    induction keys with
    | nil => intro fs h; simpa [motionFiles] using h
    | cons q ks ih =>
      intro fs h
      refine ih _ ?_
      by_cases hq : q = k
      · subst hq
        right
        have : (data q).isEmpty = false := by simpa using hd
        simp [this, SimTD.Dir.put]
      · rcases h with h | h
        · left
          rcases List.mem_cons.1 h with h | h
          · exact absurd h.symm hq
          · exact h
        · right
          split
          · exact h
          · unfold SimTD.Dir.put
            rw [if_neg]
            · exact h
            · intro e
              exact hq ((keyed_inj ha ha e).2).symm
  exact key keys fs (.inl hk)

theorem motionFiles_other (pre : String) (data : ℕ → List (Ego.Meas T)) (keys : List ℕ) (fs : SimTD.Dir (Row T G L A B))
    (name : String) (h : ∀ k ∈ keys, data k ≠ [] → name ≠ keyed pre k) : motionFiles pre data keys fs name = fs name := by
  induction keys generalizing fs with
  | nil => rfl
  | cons q ks ih =>
    rw [motionFiles, ih _ fun k hk => h k (List.mem_cons_of_mem _ hk)]
    split
    · rfl
    · rename_i hq
      have := h q List.mem_cons_self (by simpa using hq)
      simp [SimTD.Dir.put, this]

theorem calibFiles_get (view : P → ℕ → L) (params : List P) (keys : List ℕ) (fs : SimTD.Dir (Row T G L A B)) (k : ℕ) (hk : k ∈ keys) :
    calibFiles view params keys fs (keyed "calibHist_" k) = some (params.map fun p => .par (view p k)) := by
  have key : ∀ (keys : List ℕ) (fs : SimTD.Dir (Row T G L A B)),
      (k ∈ keys ∨ fs (keyed "calibHist_" k) = some (params.map fun p => .par (view p k))) →
      calibFiles view params keys fs (keyed "calibHist_" k) = some (params.map fun p => .par (view p k)) := by
    intro keys
    induction keys with
    | nil => intro fs h; simpa [calibFiles] using h
    | cons q ks ih =>
      intro fs h
      refine ih _ ?_
      by_cases hq : q = k
      · subst hq
        right
        simp [SimTD.Dir.put]
      · rcases h with h | h
        · left
          rcases List.mem_cons.1 h with h | h
          · exact absurd h.symm hq
          · exact h
        · right
          unfold SimTD.Dir.put
          rw [if_neg]
          · exact h
          · intro e
            exact hq ((keyed_inj (a' := "calibHist".toList) (b' := "calibHist".toList) (by decide) (by decide) e).2).symm
  exact key keys fs (.inl hk)

theorem calibFiles_other (view : P → ℕ → L) (params : List P) (keys : List ℕ) (fs : SimTD.Dir (Row T G L A B)) (name : String)
    (h : ∀ k ∈ keys, name ≠ keyed "calibHist_" k) : calibFiles view params keys fs name = fs name := by
  induction keys generalizing fs with
  | nil => rfl
  | cons q ks ih =>
    rw [calibFiles, ih _ fun k hk => h k (List.mem_cons_of_mem _ hk)]
    simp [SimTD.Dir.put, h q List.mem_cons_self]

/-- names with different first letters. -/
theorem keyed_ne {pre name : String} {c d : Char} {k : ℕ} (h1 : pre.toList.head? = some c) (h2 : name.toList.head? = some d)
    (h : c ≠ d) : keyed pre k ≠ name := by
  intro e
  have h3 := congrArg (fun s : String => s.toList.head?) e
  simp only [keyed, String.toList_append, List.head?_append, h1, h2, Option.some_or] at h3
  exact h (Option.some.inj h3)

end SimEgo
end Verif
