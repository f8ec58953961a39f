import Verif.Lemmas.Permute

/-! Properties C07, C08, C09: in-place permutation of a container. -/

namespace Verif

variable {α : Type _}

/-- **C07.** For every container and every permutation `perm` of `0..n-1`, `permute` returns normally and slot
`i` afterwards holds the element that was in slot `perm[i]`. -/
theorem C07_permute_applies_permutation (c : List α) (perm : List Nat)
    (hp : perm.Perm (List.range c.length)) :
    ∃ c', permute c perm = .ok () c' ∧ c'.length = c.length ∧
      ∀ (i pi : Nat), perm[i]? = some pi → c'[i]? = c[pi]? := by
  have hl : perm.length = c.length := by simpa using hp.length_eq
  obtain ⟨c', hc', inv⟩ := permuteLoop_correct perm c hl (by rw [hl]; exact hp) c.length 0 c (by omega)
    (permInv_init perm c)
  refine ⟨c', by simp [permute, hl, hc'], inv.len, ?_⟩
  intro i pi h
  obtain ⟨hi, rfl⟩ := List.getElem?_eq_some_iff.1 h
  rw [inv.done i (by omega), pstep_lt hi]

/-- non-vacuity: a 3-cycle combined with a transposition. -/
example : ([2, 0, 1, 4, 3] : List Nat).Perm (List.range ["a","b","c","d","e"].length) ∧
    permute ["a","b","c","d","e"] [2, 0, 1, 4, 3] = .ok () ["c","a","b","e","d"] := by decide

/-- **C08.** Whatever index vector is passed, when `permute` comes back (normally or by exception) the container
holds the same elements with the same multiplicities, and it never accesses memory out of range. -/
theorem C08_permute_preserves_elements (c : List α) (perm : List Nat) :
    permute c perm ≠ .ub ∧ ∀ c', (permute c perm).state? = some c' → c'.Perm c := by
  unfold permute
  split
  · exact ⟨by simp, by intro c' h; simp [Res.state?] at h; subst h; exact .refl _⟩
  · rename_i h
    refine ⟨permuteLoop_not_ub perm c.length 0 c (by omega) (by omega) (by simp), ?_⟩
    intro c' h'
    exact permuteLoop_perm perm c.length 0 c c' h'

/-- non-vacuity: an exception half way (`5` is out of range) leaves a rearranged container. -/
example : permute ["a","b","c"] [1, 5, 0] = .throw .outOfBound ["b","a","c"] := by decide

/-- The C++ `while` loop, started at `k` for position `i`, never ends: every value it takes is below `i`. -/
def InnerLoopForever (perm : List Nat) (i k : Nat) : Prop :=
  ∃ f : Nat → Nat, f 0 = k ∧ ∀ m, f m < i ∧ perm[f m]? = some (f (m + 1))

theorem innerLoopForever_iff {perm : List Nat} {i k : Nat} (hi : i ≤ perm.length) :
    InnerLoopForever perm i k ↔ ∀ m, (pstep perm)^[m] k < i := by
  constructor
  · rintro ⟨f, h0, hf⟩
    have : ∀ m, (pstep perm)^[m] k = f m := by
      intro m
      induction m with
      | zero => simpa using h0.symm
      | succ m ih =>
        rw [Function.iterate_succ_apply', ih]
        have := (hf m).2
        simp [pstep, List.getD, this]
    intro m; rw [this]; exact (hf m).1
  · intro h
    refine ⟨fun m => (pstep perm)^[m] k, rfl, fun m => ⟨h m, ?_⟩⟩
    have hm := h m
    simp only [Function.iterate_succ_apply']
    rw [pstep_lt (by omega), List.getElem?_eq_getElem (by omega)]

/-- The divergence outcome of the model is exact: the fuelled inner loop reports `loops` iff the C++ loop runs
for ever. -/
theorem chase_loops_iff (perm : List Nat) (i k : Nat) (hi : i ≤ perm.length) :
    chase perm i i k = .loops ↔ InnerLoopForever perm i k := by
  rw [chase_loops_iff_aux _ _ _ hi, innerLoopForever_iff hi]

theorem permuteLoop_diverge (perm : List Nat) (n i : Nat) (c : List α)
    (hl : perm.length = c.length) (hn : i + n = c.length) (h : permuteLoop perm n i c = .diverge) :
    ∃ j pj, i ≤ j ∧ perm[j]? = some pj ∧ InnerLoopForever perm j pj := by
  induction n generalizing i c with
  | zero => simp [permuteLoop] at h
  | succ n ih =>
    have hi : i < perm.length := by omega
    rw [permuteLoop, List.getElem?_eq_getElem hi] at h
    simp only at h
    split at h
    · simp at h
    · split at h
      · simp at h
      · rename_i hc
        exact ⟨i, perm[i], le_refl _, by simp [hi], (chase_loops_iff perm i _ (by omega)).1 hc⟩
      · split at h
        · split at h
          · simp at h
          · rename_i l' hs
            have := swapAt_length hs
            obtain ⟨j, pj, h1, h2⟩ := ih (i+1) l' (by omega) (by omega) h
            exact ⟨j, pj, by omega, h2⟩
        · obtain ⟨j, pj, h1, h2⟩ := ih (i+1) c hl (by omega) h
          exact ⟨j, pj, by omega, h2⟩

theorem permuteLoop_ok_range (perm : List Nat) (n i : Nat) (c c' : List α)
    (hl : perm.length = c.length) (hn : i + n = c.length) (h : permuteLoop perm n i c = .ok () c') :
    ∀ j pj, i ≤ j → perm[j]? = some pj → pj < c.length ∧ ¬ InnerLoopForever perm j pj := by
  induction n generalizing i c with
  | zero =>
    intro j pj hj hp
    have := (List.getElem?_eq_some_iff.1 hp).1
    omega
  | succ n ih =>
    have hi : i < perm.length := by omega
    rw [permuteLoop, List.getElem?_eq_getElem hi] at h
    simp only at h
    intro j pj hj hp
    split at h
    · simp at h
    · rename_i hlt
      split at h
      · simp at h
      · simp at h
      · rename_i k hk
        have hhere : j = i → pj < c.length ∧ ¬ InnerLoopForever perm j pj := by
          rintro rfl
          rw [List.getElem?_eq_getElem hi] at hp
          injection hp with hp
          subst hp
          refine ⟨by omega, ?_⟩
          rw [← chase_loops_iff _ _ _ (by omega), hk]
          simp
        by_cases hji : j = i
        · exact hhere hji
        · split at h
          · split at h
            · simp at h
            · rename_i l' hs
              have := swapAt_length hs
              have h3 := ih (i+1) l' (by omega) (by omega) h j pj (by omega) hp
              exact ⟨by omega, h3.2⟩
          · exact ih (i+1) c hl (by omega) h j pj (by omega) hp

/-- **C09 (what holds).** If the index vector is not a permutation, `permute` may still return normally, throw
or loop for ever; but it loops for ever only at an inner loop that really never ends (so only on
non-permutations), it throws only on non-permutations, and a normal return guarantees matching length, all
indices in range and that every inner loop ended.
Missing (and false, see `C09_permute_diverges`, `C09_permute_accepts_nonpermutation`): termination on every
vector and rejection of every non-permutation. -/
theorem C09_permute_rejection_partial (c : List α) (perm : List Nat) :
    (permute c perm = .diverge →
      (∃ j pj, perm[j]? = some pj ∧ InnerLoopForever perm j pj) ∧ ¬ perm.Perm (List.range c.length)) ∧
    (∀ e c', permute c perm = .throw e c' → ¬ perm.Perm (List.range c.length)) ∧
    (∀ c', permute c perm = .ok () c' → perm.length = c.length ∧
      ∀ j pj, perm[j]? = some pj → pj < c.length ∧ ¬ InnerLoopForever perm j pj) := by
  have hperm : perm.Perm (List.range c.length) → ∃ c', permute c perm = .ok () c' := fun h => by
    obtain ⟨c', h1, -⟩ := C07_permute_applies_permutation c perm h
    exact ⟨c', h1⟩
  refine ⟨fun h => ⟨?_, ?_⟩, ?_, ?_⟩
  · unfold permute at h
    split at h
    · simp at h
    · rename_i hl
      obtain ⟨j, pj, -, h1, h2⟩ := permuteLoop_diverge perm c.length 0 c (by omega) (by omega) h
      exact ⟨j, pj, h1, h2⟩
  · intro hp
    obtain ⟨c', hc'⟩ := hperm hp
    rw [h] at hc'; simp at hc'
  · intro e c' h hp
    obtain ⟨c'', hc''⟩ := hperm hp
    rw [h] at hc''; simp at hc''
  · intro c' h
    unfold permute at h
    split at h
    · simp at h
    · rename_i hl
      refine ⟨by omega, fun j pj hp => ?_⟩
      exact permuteLoop_ok_range perm c.length 0 c c' (by omega) (by omega) h j pj (by omega) hp

/-- `permute` gets past entry `j`: it is an index of the container, and the inner loop started there ends. -/
def Passes (n : Nat) (perm : List Nat) (j : Nat) : Prop := ∀ pj, perm[j]? = some pj → pj < n ∧ ¬ InnerLoopForever perm j pj

theorem permuteLoop_outcome (perm : List Nat) (n i : Nat) (c : List α)
    (hl : perm.length = c.length) (hn : i + n = c.length) (hall : ∀ j < i, pstep perm j < c.length) :
    (∃ c', permuteLoop perm n i c = .ok () c' ∧ ∀ j, i ≤ j → Passes c.length perm j) ∨
    (permuteLoop perm n i c = .diverge ∧ ∃ j pj, i ≤ j ∧ perm[j]? = some pj ∧ pj < c.length ∧ InnerLoopForever perm j pj ∧
      ∀ j', i ≤ j' → j' < j → Passes c.length perm j') ∨
    (∃ c', permuteLoop perm n i c = .throw .outOfBound c' ∧ ∃ j pj, i ≤ j ∧ perm[j]? = some pj ∧ c.length ≤ pj ∧
      ∀ j', i ≤ j' → j' < j → Passes c.length perm j') := by
  induction n generalizing i c with
  | zero =>
    refine .inl ⟨c, rfl, fun j hj pj hp => ?_⟩
    have := (List.getElem?_eq_some_iff.1 hp).1
    omega
  | succ n ih =>
    have hi : i < perm.length := by omega
    have hg : perm[i]? = some perm[i] := List.getElem?_eq_getElem hi
    rw [permuteLoop, hg]
    simp only
    by_cases hpi : perm[i] ≥ c.length
    · rw [if_pos hpi]
      exact .inr (.inr ⟨c, rfl, i, perm[i], le_refl _, hg, hpi, fun j' h1 h2 => by omega⟩)
    · rw [if_neg hpi]
      have hpi' : perm[i] < c.length := by omega
      cases hk : chase perm i i perm[i] with
      | oob => exact absurd hk (chase_not_oob (by omega))
      | loops =>
        exact .inr (.inl ⟨rfl, i, perm[i], le_refl _, hg, hpi', (chase_loops_iff perm i _ (by omega)).1 hk,
          fun j' h1 h2 => by omega⟩)
      | found k =>
        have hhere : Passes c.length perm i := by
          intro pj hp
          rw [hg] at hp
          injection hp with hp
          subst hp
          refine ⟨hpi', ?_⟩
          rw [← chase_loops_iff _ _ _ (by omega), hk]
          simp
        have hall' : ∀ j < i + 1, pstep perm j < c.length := by
          intro j hj
          by_cases h : j = i
          · subst h; rw [pstep_lt hi]; exact hpi'
          · exact hall j (by omega)
        have hk' := chase_found_lt (by omega) hall hpi' hk
        simp only
        have rest : ∀ c2 : List α, c2.length = c.length →
            (∃ c', permuteLoop perm n (i + 1) c2 = .ok () c' ∧ ∀ j, i ≤ j → Passes c.length perm j) ∨
            (permuteLoop perm n (i + 1) c2 = .diverge ∧ ∃ j pj, i ≤ j ∧ perm[j]? = some pj ∧ pj < c.length ∧
              InnerLoopForever perm j pj ∧ ∀ j', i ≤ j' → j' < j → Passes c.length perm j') ∨
            (∃ c', permuteLoop perm n (i + 1) c2 = .throw .outOfBound c' ∧ ∃ j pj, i ≤ j ∧ perm[j]? = some pj ∧ c.length ≤ pj ∧
              ∀ j', i ≤ j' → j' < j → Passes c.length perm j') := by
          intro c2 hc2
          have hlift : ∀ j, (∀ j', i + 1 ≤ j' → j' < j → Passes c.length perm j') → ∀ j', i ≤ j' → j' < j → Passes c.length perm j' := by
            intro j h j' h1 h2
            by_cases e : j' = i
            · rw [e]; exact hhere
            · exact h j' (by omega) h2
          have := ih (i + 1) c2 (by omega) (by omega) (by rw [hc2]; exact hall')
          rw [hc2] at this
          rcases this with ⟨c', h1, h2⟩ | ⟨h1, j, pj, h2, h3, h4, h5, h6⟩ | ⟨c', h1, j, pj, h2, h3, h4, h5⟩
          · refine .inl ⟨c', h1, fun j hj => ?_⟩
            by_cases e : j = i
            · rw [e]; exact hhere
            · exact h2 j (by omega)
          · exact .inr (.inl ⟨h1, j, pj, by omega, h3, h4, h5, hlift j h6⟩)
          · exact .inr (.inr ⟨c', h1, j, pj, by omega, h3, h4, hlift j h5⟩)
        split
        · obtain ⟨l', hl'⟩ := swapAt_isSome (l := c) (i := i) (k := k) (by omega) hk'
          rw [hl']
          exact rest l' (swapAt_length hl')
        · exact rest c rfl

/-- **C09 (complete description).** Containers and vectors of different lengths: exception.  Otherwise the first entry `permute`
does not get past decides: none – it returns; one that is no index – exception; one whose inner loop never ends – it loops for
ever. -/
theorem C09_permute_outcome (c : List α) (perm : List Nat) :
    ((∃ c', permute c perm = .ok () c') ↔ perm.length = c.length ∧ ∀ j, Passes c.length perm j) ∧
    (permute c perm = .diverge ↔ perm.length = c.length ∧ ∃ j pj, perm[j]? = some pj ∧ pj < c.length ∧
      InnerLoopForever perm j pj ∧ ∀ j' < j, Passes c.length perm j') ∧
    ((∃ e c', permute c perm = .throw e c') ↔ perm.length ≠ c.length ∨ ∃ j pj, perm[j]? = some pj ∧ c.length ≤ pj ∧
      ∀ j' < j, Passes c.length perm j') := by
  have uniq : ∀ j j' pj pj', perm[j]? = some pj → perm[j']? = some pj' → ¬ (pj < c.length ∧ ¬ InnerLoopForever perm j pj) →
      ¬ (pj' < c.length ∧ ¬ InnerLoopForever perm j' pj') → (∀ i < j, Passes c.length perm i) → (∀ i < j', Passes c.length perm i) →
      j = j' := by
    intro j j' pj pj' h1 h2 h3 h4 h5 h6
    rcases Nat.lt_trichotomy j j' with h | h | h
    · exact absurd (h6 j h pj h1) h3
    · exact h
    · exact absurd (h5 j' h pj' h2) h4
  unfold permute
  by_cases hl : perm.length = c.length
  swap
  · have hl' : c.length ≠ perm.length := fun e => hl e.symm
    simp [hl, hl']
  rw [if_neg (by simp [hl])]
  rcases permuteLoop_outcome perm c.length 0 c hl (by omega) (by omega) with ⟨c', h1, h2⟩ | ⟨h1, j, pj, -, h3, h4, h5, h6⟩ |
    ⟨c', h1, j, pj, -, h3, h4, h5⟩
  · rw [h1]
    refine ⟨⟨fun _ => ⟨hl, fun j => h2 j (by omega)⟩, fun _ => ⟨c', rfl⟩⟩, ⟨fun h => by simp at h, ?_⟩, ⟨fun ⟨_, _, h⟩ => by simp at h, ?_⟩⟩
    · rintro ⟨-, j, pj, k1, k2, k3, -⟩
      exact absurd k3 (h2 j (by omega) pj k1).2
    · rintro (k | ⟨j, pj, k1, k2, -⟩)
      · exact absurd hl k
      · exact absurd (h2 j (by omega) pj k1).1 (by omega)
  · rw [h1]
    refine ⟨⟨fun ⟨_, h⟩ => by simp at h, ?_⟩, ⟨fun _ => ⟨hl, j, pj, h3, h4, h5, fun j' h => h6 j' (by omega) h⟩, fun _ => rfl⟩,
      ⟨fun ⟨_, _, h⟩ => by simp at h, ?_⟩⟩
    · rintro ⟨-, k⟩
      exact absurd h5 (k j pj h3).2
    · rintro (k | ⟨j', pj', k1, k2, k3⟩)
      · exact absurd hl k
      · obtain rfl := uniq j j' pj pj' h3 k1 (fun h => h.2 h5) (fun h => by omega) (fun i h => h6 i (by omega) h) k3
        rw [h3] at k1
        cases k1
        omega
  · rw [h1]
    refine ⟨⟨fun ⟨_, h⟩ => by simp at h, ?_⟩, ⟨fun h => by simp at h, ?_⟩,
      ⟨fun _ => .inr ⟨j, pj, h3, h4, fun j' h => h5 j' (by omega) h⟩, fun _ => ⟨_, _, rfl⟩⟩⟩
    · rintro ⟨-, k⟩
      have := (k j pj h3).1
      omega
    · rintro ⟨-, j', pj', k1, k2, k3, k4⟩
      obtain rfl := uniq j j' pj pj' h3 k1 (fun h => by omega) (fun h => h.2 k3) (fun i h => h5 i (by omega) h) k4
      rw [h3] at k1
      cases k1
      omega

/-- **C09 is false of the code (1).** The vector `{0, 0}` makes `permute` loop for ever on any two elements. -/
theorem C09_permute_diverges (a b : α) :
    permute [a, b] [0, 0] = .diverge ∧ InnerLoopForever [0, 0] 1 0 := by
  refine ⟨?_, ⟨fun _ => 0, rfl, by simp⟩⟩
  have h0 : chase [0, 0] 0 0 0 = .found 0 := by decide
  have h1 : chase [0, 0] 1 1 0 = .loops := by decide
  simp [permute, permuteLoop, h0, h1]

/-- **C09 is false of the code (2).** The vector `{1, 1}` is not a permutation, yet it is accepted, and slot 1
does not receive the element it asks for. -/
theorem C09_permute_accepts_nonpermutation (a b : α) (hab : a ≠ b) :
    ¬ ([1, 1] : List Nat).Perm (List.range 2) ∧ permute [a, b] [1, 1] = .ok () [b, a] ∧
      ([b, a] : List α)[1]? ≠ ([a, b] : List α)[1]? := by
  have h0 : chase [1, 1] 0 0 1 = .found 1 := by decide
  have h1 : chase [1, 1] 1 1 1 = .found 1 := by decide
  refine ⟨by decide, ?_, by simpa using hab⟩
  simp [permute, permuteLoop, h0, h1, swapAt]

end Verif
