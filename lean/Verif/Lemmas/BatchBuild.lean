import Verif.Lemmas.Batch

/-! Batches built by a sequence of additions. -/

namespace Verif
variable {V : Type _}

/-- the elements of a list in the order of their first occurrence. -/
def firsts (l : List Nat) : List Nat := l.foldl (fun acc g => if g ∈ acc then acc else acc ++ [g]) []

theorem firsts_append_one (l : List Nat) (g : Nat) :
    firsts (l ++ [g]) = if g ∈ firsts l then firsts l else firsts l ++ [g] := by
  unfold firsts
  rw [List.foldl_append]
  rfl

theorem mem_firsts (l : List Nat) (g : Nat) : g ∈ firsts l ↔ g ∈ l := by
  induction l using List.reverseRecOn with
  | nil => simp [firsts]
  | append_singleton l a ih =>
    rw [firsts_append_one]
    by_cases h : a ∈ firsts l
    · rw [if_pos h, ih, List.mem_append, List.mem_singleton]
      constructor
      · exact Or.inl
      · rintro (h1 | h1)
        · exact h1
        · subst h1; exact ih.1 h
    · rw [if_neg h, List.mem_append, ih, List.mem_append]

/-- `p` was built by adding the design variables `vs` (with groups) and the error terms `es`. -/
structure Built (vs : List (DVId × GroupId)) (es : List ETId) (p : OptProblem V) : Prop where
  lookup : p.lookup = vs
  terms : p.errorTerms = es
  etLookup : p.etLookup = es
  ordering : p.ordering = firsts (vs.map Prod.snd)
  groups : ∀ g, AL.get g p.groups =
    if g ∈ vs.map Prod.snd then some ((vs.filter fun v => v.2 = g).map Prod.fst) else none
  backup : p.backup = []

theorem Built.empty : Built [] [] (OptProblem.empty : OptProblem V) :=
  ⟨rfl, rfl, rfl, rfl, fun g => by simp [OptProblem.empty], rfl⟩

theorem Built.addDV {vs : List (DVId × GroupId)} {es : List ETId} {p : OptProblem V} (hp : Built vs es p) {d : DVId}
    {g : GroupId} (hd : d ∉ vs.map Prod.fst) :
    ∃ p', p.addDesignVariable (some d) g = .ok () p' ∧ Built (vs ++ [(d, g)]) es p' := by
  have hd' : d ∉ AL.keys p.lookup := by rw [hp.lookup]; exact hd
  refine ⟨p.withDV d g, by simp only [addDV_eq, hd', if_false], ?_⟩
  have hgrp := hp.groups g
  have hhas : AL.has g p.groups = true ↔ g ∈ vs.map Prod.snd := by
    unfold AL.has
    rw [hgrp]
    by_cases h : g ∈ vs.map Prod.snd <;> simp only [h, if_true, if_false, Option.isSome_some, Option.isSome_none,
      Bool.false_eq_true]
  refine ⟨by simp [OptProblem.withDV, hp.lookup], hp.terms, hp.etLookup, ?_, ?_, hp.backup⟩
  · simp only [OptProblem.withDV, List.map_append, List.map_cons, List.map_nil]
    rw [firsts_append_one, ← hp.ordering]
    by_cases h : AL.has g p.groups = true
    · rw [if_pos h, if_pos (by rw [hp.ordering, mem_firsts]; exact hhas.1 h)]
    · rw [if_neg h, if_neg (by rw [hp.ordering, mem_firsts]; exact fun h' => h (hhas.2 h'))]
  · intro g'
    simp only [OptProblem.withDV, AL.get_set, List.map_append, List.map_cons, List.map_nil, List.mem_append, List.mem_singleton,
      List.filter_append]
    by_cases h : g = g'
    · subst h
      rw [if_pos rfl, if_pos (Or.inr rfl), hgrp]
      by_cases h2 : g ∈ vs.map Prod.snd
      · rw [if_pos h2]; simp
      · rw [if_neg h2]
        have : vs.filter (fun v => v.2 = g) = [] := by
          rw [List.filter_eq_nil_iff]
          intro v hv
          simp only [decide_eq_true_eq]
          rintro rfl
          exact h2 (List.mem_map_of_mem hv)
        rw [this]; simp
    · rw [if_neg h, hp.groups g']
      by_cases h2 : g' ∈ vs.map Prod.snd
      · rw [if_pos h2, if_pos (Or.inl h2)]; simp [h]
      · rw [if_neg h2, if_neg (by rintro (h3 | h3); exact h2 h3; exact h h3.symm)]

theorem Built.addET {vs : List (DVId × GroupId)} {es : List ETId} {p : OptProblem V} (hp : Built vs es p) {h : Heap V}
    {e : ETId} (he : e ∉ es) (hd : ∀ d ∈ h.etDVs e, d ∈ vs.map Prod.fst) :
    ∃ p', OptProblem.addErrorTerm h p (some e) = .ok () p' ∧ Built vs (es ++ [e]) p' := by
  refine ⟨{ p with etLookup := p.etLookup ++ [e], errorTerms := p.errorTerms ++ [e] }, ?_, ⟨hp.lookup, congrArg (· ++ [e]) hp.terms, congrArg (· ++ [e]) hp.etLookup, hp.ordering, hp.groups, hp.backup⟩⟩
  rw [addET_eq]
  simp only
  rw [if_neg]
  rw [hp.etLookup, hp.lookup]
  rintro (h1 | h1)
  · exact he h1
  · exact h1 hd

end Verif
