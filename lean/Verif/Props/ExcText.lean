import Verif.Model.ExcText
import Verif.Spec.ExcText
import Mathlib.Data.List.Basic
import Std.Data.String.ToNat
import Mathlib.Tactic.Linarith

/-!
# C131: what an exception says
-/

namespace Verif
open ExcText

theorem what_of_noNull {e : Ex} (h : NoNull e.out) : what e = e.out := by
  unfold what
  generalize e.out = l at h ⊢
  induction l with
  | nil => rfl
  | cons c l ih =>
    have hc : c ≠ '\x00' := by rintro rfl; exact h List.mem_cons_self
    rw [List.takeWhile_cons_of_pos (by simpa using hc), ih (fun hm => h (List.mem_cons_of_mem _ hm))]

/-- the file and the function as a caller gives them: a blank stands for "not given". -/
def given (s : List Char) : Option (List Char) := if s = [' '] then none else some s
/-- the line as a caller gives it: zero stands for "not given". -/
def givenLine (n : Nat) : Option Nat := if n = 0 then none else some n

theorem mk_out (msg file : List Char) (line : Nat) (fn : List Char) :
    (mk msg file line fn).out = textSpec msg (given file) (given fn) (givenLine line) [] := by
  unfold mk textSpec given givenLine
  by_cases h1 : fn = [' '] <;> by_cases h2 : file = [' '] <;> by_cases h3 : line = 0 <;>
    simp [h1, h2, h3, dec]

theorem textSpec_values (msg : List Char) (f g : Option (List Char)) (l : Option Nat) (vs : List (String × List Char)) :
    textSpec msg f g l vs = textSpec msg f g l [] ++
      (vs.map fun v => "[".toList ++ v.1.toList ++ " = ".toList ++ v.2 ++ "]".toList).flatten := by
  simp [textSpec]

/-- the text of an exception of each class, before it is cut at a null character. -/
theorem ExcText.outs {X : Type} (shw : X → List Char) (a b : X) (msg file : List Char) (line : Nat) (fn : List Char) :
    (invalidOperation msg file line fn).out = textSpec msg (given file) (given fn) (givenLine line) [] ∧
    (nullPointer msg file line fn).out =
      textSpec (msg ++ " is a null pointer".toList) (given file) (given fn) (givenLine line) [] ∧
    (badArgument shw a msg file line fn).out =
      textSpec msg (given file) (given fn) (givenLine line) [("argument", shw a)] ∧
    (outOfBound1 shw a msg file line fn).out =
      textSpec msg (given file) (given fn) (givenLine line) [("argument", shw a)] ∧
    (outOfBound2 shw a b msg file line fn).out =
      textSpec msg (given file) (given fn) (givenLine line) [("argument", shw a), ("bound", shw b)] := by
  refine ⟨mk_out .., mk_out .., ?_, ?_, ?_⟩
  · rw [textSpec_values]; simp [badArgument, mk_out]
  · rw [textSpec_values]; simp [outOfBound1, mk_out]
  · rw [textSpec_values]; simp [outOfBound2, mk_out]

/-- **C131.**  When nothing handed over contains a null character, `what()` of each class of exception is the text of the
specification: function, message, file and line as far as they were given, then the argument and the bound.  Copying an
exception, or assigning one to another (or to itself), preserves the text. -/
theorem C131_text {X : Type} (shw : X → List Char) (a b : X) (msg file : List Char) (line : Nat) (fn : List Char)
    (hm : NoNull msg) (hf : NoNull file) (hg : NoNull fn) (ha : NoNull (shw a)) (hb : NoNull (shw b)) :
    what (invalidOperation msg file line fn) = textSpec msg (given file) (given fn) (givenLine line) [] ∧
    what (nullPointer msg file line fn) =
      textSpec (msg ++ " is a null pointer".toList) (given file) (given fn) (givenLine line) [] ∧
    what (badArgument shw a msg file line fn) =
      textSpec msg (given file) (given fn) (givenLine line) [("argument", shw a)] ∧
    what (outOfBound1 shw a msg file line fn) =
      textSpec msg (given file) (given fn) (givenLine line) [("argument", shw a)] ∧
    what (outOfBound2 shw a b msg file line fn) =
      textSpec msg (given file) (given fn) (givenLine line) [("argument", shw a), ("bound", shw b)] ∧
    (∀ e : Ex, what (copy e) = what e) ∧ (∀ e o : Ex, what (assign false e o) = what o) ∧
    (∀ e : Ex, what (assign true e e) = what e) := by
  have hdig : NoNull (toString line).toList := by
    intro h
    have : ∀ c ∈ (toString line).toList, c.isDigit := by
      intro c hc
      exact Nat.isDigit_of_mem_toDigits (b := 10) (n := line) (by norm_num) (by norm_num) (by simpa using hc)
    exact absurd (this _ h) (by decide)
  have hn : ∀ (m : List Char) (vs : List (String × List Char)), NoNull m → (∀ v ∈ vs, NoNull v.1.toList ∧ NoNull v.2) →
      NoNull (textSpec m (given file) (given fn) (givenLine line) vs) := by
    intro m vs h1 h2 h
    unfold textSpec given givenLine at h
    simp only [List.mem_append, List.mem_flatten, List.mem_map] at h
    rcases h with (((h | h) | h) | h) | ⟨l, ⟨v, hv, rfl⟩, hl⟩
    · split at h
      · rename_i heq
        split at heq
        · exact absurd heq (by simp)
        · injection heq with heq
          subst heq
          rcases List.mem_append.mp h with h | h
          · exact hg h
          · exact absurd h (by decide)
      · exact absurd h (by simp)
    · exact h1 h
    · split at h
      · rename_i heq
        split at heq
        · exact absurd heq (by simp)
        · injection heq with heq
          subst heq
          rcases List.mem_append.mp h with h | h
          · rcases List.mem_append.mp h with h | h
            · exact absurd h (by decide)
            · exact hf h
          · exact absurd h (by decide)
      · exact absurd h (by simp)
    · split at h
      · rename_i heq
        split at heq
        · exact absurd heq (by simp)
        · injection heq with heq
          subst heq
          rcases List.mem_append.mp h with h | h
          · rcases List.mem_append.mp h with h | h
            · exact absurd h (by decide)
            · exact hdig h
          · exact absurd h (by decide)
      · exact absurd h (by simp)
    · obtain ⟨h3, h4⟩ := h2 v hv
      simp only [List.mem_append] at hl
      rcases hl with (((hl | hl) | hl) | hl) | hl
      · exact absurd hl (by decide)
      · exact h3 hl
      · exact absurd hl (by decide)
      · exact h4 hl
      · exact absurd hl (by decide)
  have hnp : NoNull (msg ++ " is a null pointer".toList) := by
    intro h
    rcases List.mem_append.mp h with h | h
    · exact hm h
    · exact absurd h (by decide)
  have harg : NoNull "argument".toList := by unfold NoNull; decide
  have hbnd : NoNull "bound".toList := by unfold NoNull; decide
  obtain ⟨o1, o2, o3, o4, o5⟩ := ExcText.outs shw a b msg file line fn
  refine ⟨?_, ?_, ?_, ?_, ?_, fun _ => rfl, fun _ _ => rfl, fun _ => rfl⟩
  · rw [what_of_noNull (by rw [o1]; exact hn _ _ hm (by simp)), o1]
  · rw [what_of_noNull (by rw [o2]; exact hn _ _ hnp (by simp)), o2]
  · rw [what_of_noNull (by rw [o3]; exact hn _ _ hm (fun v hv => by rw [List.mem_singleton] at hv; subst hv; exact ⟨harg, ha⟩)), o3]
  · rw [what_of_noNull (by rw [o4]; exact hn _ _ hm (fun v hv => by rw [List.mem_singleton] at hv; subst hv; exact ⟨harg, ha⟩)), o4]
  · rw [what_of_noNull (by rw [o5]; exact hn _ _ hm (fun v hv => by rcases List.mem_pair.mp hv with rfl | rfl; exacts [⟨harg, ha⟩, ⟨hbnd, hb⟩])), o5]

theorem dec_noBracket (n : Nat) : ']' ∉ dec n := by
  intro h
  have : ∀ c ∈ dec n, c.isDigit := fun c hc =>
    Nat.isDigit_of_mem_toDigits (b := 10) (n := n) (by norm_num) (by norm_num) (by simpa [dec] using hc)
  exact absurd (this _ h) (by decide)

theorem split_at_bracket {c : Char} : ∀ {x y z w : List Char}, c ∉ x → c ∉ y → x ++ c :: z = y ++ c :: w → x = y ∧ z = w
  | [], [], _, _, _, _, h => by simpa using h
  | [], _ :: _, _, _, _, hy, h => by
    simp only [List.nil_append, List.cons_append, List.cons.injEq] at h
    exact absurd (h.1 ▸ List.mem_cons_self) hy
  | _ :: _, [], _, _, hx, _, h => by
    simp only [List.nil_append, List.cons_append, List.cons.injEq] at h
    exact absurd (h.1 ▸ List.mem_cons_self) hx
  | a :: x, b :: y, _, _, hx, hy, h => by
    simp only [List.cons_append, List.cons.injEq] at h
    obtain ⟨h1, h2⟩ := split_at_bracket (fun k => hx (List.mem_cons_of_mem _ k)) (fun k => hy (List.mem_cons_of_mem _ k)) h.2
    exact ⟨by rw [h.1, h1], h2⟩

theorem dec_inj {m n : Nat} (h : dec m = dec n) : m = n := Nat.repr_injective (String.toList_inj.mp h)

/-- **C131, out-of-bound failures are told apart.**  Of two failures raised with the same message at the same place, on
indices or sizes, the texts are the same only if the argument and the bound are. -/
theorem C131_told_apart (a b a' b' : Nat) (msg file : List Char) (line : Nat) (fn : List Char) (hm : NoNull msg)
    (hf : NoNull file) (hg : NoNull fn)
    (h : what (outOfBound2 dec a b msg file line fn) = what (outOfBound2 dec a' b' msg file line fn)) : a = a' ∧ b = b' := by
  have hd : ∀ n, NoNull (dec n) := by
    intro n hn
    have : ∀ c ∈ dec n, c.isDigit := fun c hc =>
      Nat.isDigit_of_mem_toDigits (b := 10) (n := n) (by norm_num) (by norm_num) (by simpa [dec] using hc)
    exact absurd (this _ hn) (by decide)
  rw [(C131_text dec a b msg file line fn hm hf hg (hd a) (hd b)).2.2.2.2.1,
    (C131_text dec a' b' msg file line fn hm hf hg (hd a') (hd b')).2.2.2.2.1, textSpec_values,
    textSpec_values (vs := [("argument", dec a'), ("bound", dec b')])] at h
  have h1 := List.append_cancel_left h
  simp only [List.map_cons, List.map_nil, List.flatten_cons, List.flatten_nil, List.append_assoc, List.append_nil] at h1
  have h2 := List.append_cancel_left (List.append_cancel_left (List.append_cancel_left h1))
  obtain ⟨ha, h3⟩ := split_at_bracket (dec_noBracket a) (dec_noBracket a') h2
  have h4 := List.append_cancel_left (List.append_cancel_left (List.append_cancel_left h3))
  exact ⟨dec_inj ha, dec_inj (List.append_cancel_right (List.append_cancel_left h4))⟩

/-- **C131, limit.**  The text does not determine what was handed over: a message that itself ends in a file label reads as
the shorter message with that file; and a null character hides everything after it, the argument included. -/
theorem C131_not_determined :
    what (invalidOperation "m".toList "f".toList 0 [' ']) = what (invalidOperation "m [file = f]".toList [' '] 0 [' ']) ∧
    what (outOfBound1 dec 1 "m\x00".toList [' '] 0 [' ']) = what (outOfBound1 dec 2 "m\x00".toList [' '] 0 [' ']) := by
  decide

/-- Non-vacuity. -/
example : String.ofList (what (outOfBound2 dec 7 3 "index must be lower than 3".toList "G.h".toList 42 "f()".toList)) =
    "f(): index must be lower than 3 [file = G.h][line = 42][argument = 7][bound = 3]" := by decide

end Verif
