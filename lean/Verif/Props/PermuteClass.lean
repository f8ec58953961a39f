import Verif.Props.IncProblem

/-!
# C09: how a rejected permutation is reported
-/

namespace Verif
variable {V α : Type _}

theorem permuteLoop_class (perm : List Nat) : ∀ (n i : Nat) (c : List α) (e : Exc) (c' : List α),
    permuteLoop perm n i c = .throw e c' → e = .outOfBound := by
  intro n
  induction n with
  | zero => intro i c e c' h; simp [permuteLoop] at h
  | succ n ih =>
    intro i c e c' h
    unfold permuteLoop at h
    split at h
    · cases h
    · split at h
      · cases h; rfl
      · split at h
        · cases h
        · cases h
        · split at h
          · split at h
            · cases h
            · exact ih _ _ _ _ h
          · exact ih _ _ _ _ h

theorem permute_class (c c' : List α) (perm : List Nat) (e : Exc) (h : permute c perm = .throw e c') : e = .outOfBound := by
  unfold permute at h
  split at h
  · cases h; rfl
  · exact permuteLoop_class _ _ _ _ _ _ h

/-- what `permuteDesignVariables(permutation, group)` does to an object `s` whose design variables of that group are `getGroup`, if
`put l` is `s` with the variables of the group in the order `l`: an unknown group and a rejected permutation are reported by an
`OutOfBoundException`; nothing but the order of the group changes, and for an unknown group nothing. -/
def PermutesGroup {S : Type _} (s : S) (known : Bool) (getGroup : Res Unit (List DVId)) (put : List DVId → S) (perm : List Nat)
    (r : Res S Unit) : Prop :=
  (known = false → r = .throw .outOfBound s) ∧
  (known = true → ∃ l, getGroup = .ok l () ∧
    (∀ l', permute l perm = .ok () l' → r = .ok () (put l')) ∧
    (∀ e l', permute l perm = .throw e l' → r = .throw .outOfBound (put l')) ∧
    (permute l perm = .ub → r = .ub) ∧ (permute l perm = .diverge → r = .diverge))

/-- **C09, groups**: permuting the design variables of a group of a batch or of an incremental problem, and permuting error terms or
batches, report every rejection by an `OutOfBoundException`; an unknown group is rejected and changes nothing. -/
theorem C09_group_rejection (p : OptProblem V) (q : IncProblem V) (perm : List Nat) (g : GroupId) :
    PermutesGroup p (p.isGroupInProblem g) (p.getGroup g) (fun l => { p with groups := AL.set g l p.groups }) perm
      (p.permuteDesignVariables perm g) ∧
    PermutesGroup q (q.isGroupInProblem g) (q.getGroup g) (fun l => { q with groups := AL.set g l q.groups }) perm
      (q.permuteDesignVariables perm g) ∧
    (∀ e p', p.permuteErrorTerms perm = .throw e p' → e = .outOfBound) ∧
    (∀ e q', q.permuteProblems perm = .throw e q' → e = .outOfBound) ∧
    ∀ (c c' : List α) e, permute c perm = .throw e c' → e = .outOfBound := by
  refine ⟨⟨?_, ?_⟩, ⟨?_, ?_⟩, ?_, ?_, fun c c' e => permute_class c c' perm e⟩
  · intro h
    rw [OptProblem.isGroupInProblem, AL.has_eq_false_iff] at h
    simp only [OptProblem.permuteDesignVariables, (AL.get_eq_none_iff _ _).2 h]
  · intro h
    rw [OptProblem.isGroupInProblem, AL.has_iff] at h
    cases hg : AL.get g p.groups with
    | none => exact absurd h ((AL.get_eq_none_iff _ _).1 hg)
    | some l =>
      simp only [OptProblem.getGroup, OptProblem.permuteDesignVariables, hg]
      refine ⟨l, rfl, ?_, ?_, ?_, ?_⟩
      · intro l' h'; rw [h']; rfl
      · intro e l' h'; rw [h', permute_class _ _ _ _ h']; rfl
      · intro h'; rw [h']; rfl
      · intro h'; rw [h']; rfl
  · intro h
    rw [IncProblem.isGroupInProblem, AL.has_eq_false_iff] at h
    simp only [IncProblem.permuteDesignVariables, (AL.get_eq_none_iff _ _).2 h]
  · intro h
    rw [IncProblem.isGroupInProblem, AL.has_iff] at h
    cases hg : AL.get g q.groups with
    | none => exact absurd h ((AL.get_eq_none_iff _ _).1 hg)
    | some l =>
      simp only [IncProblem.getGroup, IncProblem.permuteDesignVariables, hg]
      refine ⟨l, rfl, ?_, ?_, ?_, ?_⟩
      · intro l' h'; rw [h']; rfl
      · intro e l' h'; rw [h', permute_class _ _ _ _ h']; rfl
      · intro h'; rw [h']; rfl
      · intro h'; rw [h']; rfl
  · intro e p' h
    unfold OptProblem.permuteErrorTerms at h
    cases hp : permute p.errorTerms perm with
    | throw e1 l => rw [hp] at h; simp only [Res.mapState, Res.throw.injEq] at h; rw [← h.1]; exact permute_class _ _ _ _ hp
    | ok a l => rw [hp] at h; cases h
    | ub => rw [hp] at h; cases h
    | diverge => rw [hp] at h; cases h
  · intro e q' h
    unfold IncProblem.permuteProblems at h
    cases hp : permute q.problems perm with
    | throw e1 l => rw [hp] at h; simp only [Res.mapState, Res.throw.injEq] at h; rw [← h.1]; exact permute_class _ _ _ _ hp
    | ok a l => rw [hp] at h; cases h
    | ub => rw [hp] at h; cases h
    | diverge => rw [hp] at h; cases h

/-- a case: a batch without groups. -/
example : (OptProblem.empty : OptProblem Nat).permuteDesignVariables [0] 7 = .throw .outOfBound .empty :=
  (C09_group_rejection (α := Nat) .empty .empty [0] 7).1.1 rfl

end Verif
