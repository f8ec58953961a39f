import Verif.Model.Serial
import Verif.Spec.Serial
import Mathlib.Data.List.Basic
import Std.Data.String.ToNat

/-!
# C134: printing objects and reading them back
-/

namespace Verif
open Serial

variable {K : Type}

/-- **C134, the text of each class.** -/
theorem C134_text (f : Fmt K) (o : Obj K) : write f o = shown f o := by
  cases o <;> simp [write, shown, labelled, rows, endl, boolText, ExcText.dec]

theorem statement_ostream (f : Fmt K) (c : List Char) (items : List (Item K)) :
    statement f .ostream c items = c ++ (items.map (shownItem f)).flatten := by
  induction items generalizing c with
  | nil => simp [statement]
  | cons i items ih =>
    cases i with
    | text t =>
      have := ih (c ++ t)
      simp only [statement] at this ⊢
      simpa [put, shownItem, List.append_assoc] using this
    | obj o =>
      have := ih (c ++ write f o)
      simp only [statement] at this ⊢
      rw [C134_text] at this
      simpa [put, shownItem, C134_text, List.append_assoc] using this

/-- **C134, on a `std::ostream`**: any chain of insertions appends the texts of the inserted things, in order. -/
theorem C134_ostream (f : Fmt K) (c : List Char) (items : List (Item K)) :
    statement f .ostream c items = c ++ (items.map (shownItem f)).flatten := statement_ostream f c items

/-- **C134, on a variable of type `std::ofstream`**, exactly: the objects inserted before anything else contribute nothing
(vector design variables excepted); from the first item on that is no object of the library everything is written. -/
theorem C134_ofstream (f : Fmt K) (c : List Char) (objs : List (Obj K)) (rest : List (Item K))
    (hr : ∀ i ∈ rest.head?, ∃ t, i = .text t) :
    statement f .ofstream c (objs.map .obj ++ rest) =
      c ++ (objs.map fun o => match o with | .vectorDV v => f.row v | _ => []).flatten ++ (rest.map (shownItem f)).flatten := by
  induction objs generalizing c with
  | nil =>
    cases rest with
    | nil => simp [statement]
    | cons i rest =>
      obtain ⟨t, rfl⟩ := hr i (by simp)
      have := statement_ostream f (c ++ t) rest
      simp only [statement] at this ⊢
      simpa [put, shownItem, List.append_assoc] using this
  | cons o objs ih =>
    have h := ih (c ++ writeFile f o)
    simp only [statement] at h ⊢
    simp only [List.map_cons, List.cons_append, List.foldl_cons, put]
    rw [h]
    cases o <;> simp [writeFile]

/-- **C134, on a file** (partial): everything is written if the chain begins with something that is no object of the library.
Missing: chains that begin with an object (`C134_lost`). -/
theorem C134_file_partial (f : Fmt K) (c t : List Char) (items : List (Item K)) :
    statement f .ofstream c (.text t :: items) = c ++ t ++ (items.map (shownItem f)).flatten := by
  have := C134_ofstream f c [] (.text t :: items) (by simp)
  simpa [shownItem, List.append_assoc] using this

/-- **C134 (negation).**  An object that is printed to a file as the first thing of a statement leaves nothing in the file,
whatever its class (except the vector design variable) and its value, although it has a text. -/
theorem C134_lost (f : Fmt K) (c : List Char) (o : Obj K) (h : Plain (.obj o)) : statement f .ofstream c [.obj o] = c := by
  obtain ⟨o', h1, h2⟩ := h
  have h3 : o = o' := by simpa using h1
  subst h3
  cases o <;> first | exact absurd rfl (h2 _) | simp [statement, put, writeFile]

/-- Non-vacuity: a gamma distribution has a text of at least two lines and leaves nothing in the file. -/
example (f : Fmt Nat) : shown f (.gamma 2 3) ≠ [] ∧ statement f .ofstream [] [.obj (.gamma 2 3)] = [] ∧
    statement f .ofstream [] [.text ['d', '='], .obj (.gamma 2 3)] = ['d', '='] ++ shown f (.gamma 2 3) := by
  refine ⟨by simp [shown, labelled], C134_lost f [] _ ⟨_, rfl, by simp⟩, ?_⟩
  simpa [shownItem] using C134_file_partial f [] ['d', '='] [.obj (.gamma 2 3)]

/-- **C134 (negation).**  Reading back what was printed does not restore the object, whatever was printed and whatever object
it is read into; the text stays in the stream. -/
theorem C134_no_round_trip (f : Fmt K) (o o' : Obj K) (h : o ≠ o') :
    (extract (statement f .ostream [] [.obj o]) o').2 ≠ o ∧ (extract (statement f .ostream [] [.obj o]) o').1 = shown f o := by
  refine ⟨fun h' => h h'.symm, ?_⟩
  simp [extract, statement_ostream, shownItem]

/-- Non-vacuity. -/
example : (Obj.gamma 2 3 : Obj Nat) ≠ .gamma 1 1 := by simp

theorem split_colon {a b x y : List Char} (ha : ':' ∉ a) (hb : ':' ∉ b) (h : a ++ ':' :: x = b ++ ':' :: y) : a = b ∧ x = y := by
  induction a generalizing b with
  | nil =>
    cases b with
    | nil => simpa using h
    | cons c b => simp only [List.nil_append, List.cons_append, List.cons.injEq] at h; exact absurd h.1.symm (by intro e; subst e; simp at hb)
  | cons d a ih =>
    cases b with
    | nil => simp only [List.nil_append, List.cons_append, List.cons.injEq] at h; exact absurd h.1 (by intro e; subst e; simp at ha)
    | cons c b =>
      simp only [List.cons_append, List.cons.injEq] at h
      obtain ⟨h1, h2⟩ := ih (fun hm => ha (List.mem_cons_of_mem _ hm)) (fun hm => hb (List.mem_cons_of_mem _ hm)) h.2
      exact ⟨by rw [h.1, h1], h2⟩

/-- values with the same labels and the same text are the same. -/
theorem labelled_inj {l l' : List (String × List Char)} (hl : l.map Prod.fst = l'.map Prod.fst)
    (hc : ∀ p ∈ l, ':' ∉ p.1.toList ∧ ':' ∉ p.2) (hc' : ∀ p ∈ l', ':' ∉ p.1.toList ∧ ':' ∉ p.2)
    (h : labelled l = labelled l') : l = l' := by
  induction l generalizing l' with
  | nil => cases l' with
    | nil => rfl
    | cons _ _ => simp at hl
  | cons p l ih =>
    cases l' with
    | nil => simp at hl
    | cons p' l' =>
      simp only [List.map_cons, List.cons.injEq] at hl
      obtain ⟨a, v⟩ := p
      obtain ⟨a', v'⟩ := p'
      obtain ⟨rfl, hl⟩ := hl
      cases l with
      | nil =>
        have : l' = [] := by simpa using hl.symm
        subst this
        simp only [labelled, List.append_assoc, List.append_cancel_left_eq] at h
        rw [h]
      | cons q l =>
        cases l' with
        | nil => simp at hl
        | cons q' l' =>
          simp only [labelled, List.append_assoc, List.append_cancel_left_eq] at h
          have hq : q.1 = q'.1 := by simpa using (List.cons.inj hl).1
          have key : ∃ x y, labelled (q :: l) = q.1.toList ++ ':' :: x ∧ labelled (q' :: l') = q.1.toList ++ ':' :: y := by
            cases l <;> cases l' <;> simp [labelled, hq]
          obtain ⟨x, y, hx, hy⟩ := key
          have hn : ':' ∉ q.1.toList := (hc q (by simp)).1
          have e : (v ++ ['\n'] ++ q.1.toList) ++ ':' :: x = (v' ++ ['\n'] ++ q.1.toList) ++ ':' :: y := by
            rw [hx, hy] at h
            simpa [List.append_assoc] using h
          have hv : ':' ∉ v := (hc (a, v) (by simp)).2
          have hv' : ':' ∉ v' := (hc' (a, v') (by simp)).2
          obtain ⟨e1, e2⟩ := split_colon (by simp [hv, hn]) (by simp [hv', hn]) e
          have ev : v = v' := by
            have := List.append_cancel_right e1
            exact List.append_cancel_right this
          subst ev
          have := ih hl (fun p hp => hc p (List.mem_cons_of_mem _ hp)) (fun p hp => hc' p (List.mem_cons_of_mem _ hp))
            (by rw [hx, hy, e2])
          rw [this]

/-- **C134, the text tells the values apart**: two objects of one class have the same text exactly if all their values are
written in the same way (no text of a number, vector or matrix contains a colon). -/
theorem C134_told_apart (f : Fmt K) (hf : NoColon f) :
    (∀ a b a' b', write f (.gamma a b) = write f (.gamma a' b') ↔ f.num a = f.num a' ∧ f.num b = f.num b') ∧
    (∀ a b a' b', write f (.normal1 a b) = write f (.normal1 a' b') ↔ f.num a = f.num a' ∧ f.num b = f.num b') ∧
    (∀ a b a' b', write f (.uniform1 a b) = write f (.uniform1 a' b') ↔ f.num a = f.num a' ∧ f.num b = f.num b') ∧
    (∀ a b a' b', write f (.normalMv a b) = write f (.normalMv a' b') ↔ f.mat a = f.mat a' ∧ f.mat b = f.mat b') ∧
    (∀ a b c a' b' c', write f (.uniformMv a b c) = write f (.uniformMv a' b' c') ↔
      f.mat a = f.mat a' ∧ f.mat b = f.mat b' ∧ f.num c = f.num c') := by
  have h2 : ∀ (k k' : String) (x y x' y' : List Char), ':' ∉ k.toList → ':' ∉ k'.toList → ':' ∉ x → ':' ∉ y → ':' ∉ x' → ':' ∉ y' →
      (labelled [(k, x), (k', y)] = labelled [(k, x'), (k', y')] ↔ x = x' ∧ y = y') := by
    intro k k' x y x' y' a1 a2 a3 a4 a5 a6
    constructor
    · intro h
      have := labelled_inj (by simp) (by simp [a1, a2, a3, a4]) (by simp [a1, a2, a5, a6]) h
      simpa using this
    · rintro ⟨rfl, rfl⟩; rfl
  simp only [C134_text, shown]
  refine ⟨fun a b a' b' => ?_, fun a b a' b' => ?_, fun a b a' b' => ?_, fun a b a' b' => ?_, fun a b c a' b' c' => ?_⟩
  · exact h2 _ _ _ _ _ _ (by decide) (by decide) (hf.num _) (hf.num _) (hf.num _) (hf.num _)
  · exact h2 _ _ _ _ _ _ (by decide) (by decide) (hf.num _) (hf.num _) (hf.num _) (hf.num _)
  · exact h2 _ _ _ _ _ _ (by decide) (by decide) (hf.num _) (hf.num _) (hf.num _) (hf.num _)
  · rw [h2 _ _ _ _ _ _ (by decide) (by decide) (by simp [hf.mat]) (by simp [hf.mat]) (by simp [hf.mat]) (by simp [hf.mat])]
    simp
  · constructor
    · intro h
      have := labelled_inj (by simp) (by simp [hf.mat, hf.num]) (by simp [hf.mat, hf.num]) h
      simpa using this
    · rintro ⟨h3, h4, h5⟩; rw [h3, h4, h5]

/-- Non-vacuity: decimal numbers have no colon, and different distributions have different texts. -/
example : ∃ f : Fmt Nat, NoColon f ∧ write f (.gamma 1 2) ≠ write f (.gamma 12 0) := by
  have hd : ∀ n : Nat, ':' ∉ (toString n).toList := by
    intro n h
    have : ∀ c ∈ (toString n).toList, c.isDigit := by
      intro c hc
      exact Nat.isDigit_of_mem_toDigits (b := 10) (n := n) (by decide) (by decide) (by simpa using hc)
    exact absurd (this _ h) (by decide)
  have h : NoColon (⟨fun n => (toString n).toList, fun _ => [], fun _ => []⟩ : Fmt Nat) := ⟨hd, by simp, by simp⟩
  refine ⟨_, h, fun e => ?_⟩
  have := ((C134_told_apart _ h).1 1 2 12 0).1 e
  exact absurd this.1 (by decide)

end Verif
