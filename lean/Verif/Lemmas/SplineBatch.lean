import Verif.Model.SplineBatch
import Verif.Lemmas.BatchBuild

/-! Lemmas about batches with splines. -/

namespace Verif
variable {V : Type _}

/-- The longest beginning of `l` free of repetitions and of elements of `seen`. -/
def freshPrefix : (seen l : List DVId) → List DVId
  | _, [] => []
  | seen, d :: l => if d ∈ seen then [] else d :: freshPrefix (seen ++ [d]) l

theorem freshPrefix_prefix (seen l : List DVId) : freshPrefix seen l <+: l := by
  induction l generalizing seen with
  | nil => exact List.prefix_refl _
  | cons d l ih =>
    unfold freshPrefix
    split
    · exact List.nil_prefix
    · exact List.cons_prefix_cons.2 ⟨rfl, ih _⟩

theorem freshPrefix_eq_iff (seen l : List DVId) : freshPrefix seen l = l ↔ l.Nodup ∧ ∀ d ∈ l, d ∉ seen := by
  induction l generalizing seen with
  | nil => simp [freshPrefix]
  | cons d l ih =>
    unfold freshPrefix
    by_cases h : d ∈ seen
    · simp [h]
    · rw [if_neg h, List.cons.injEq, ih, List.nodup_cons]
      simp only [true_and, List.mem_append, List.mem_cons, List.not_mem_nil, or_false, forall_eq_or_imp, h, not_false_eq_true]
      constructor
      · rintro ⟨h1, h2⟩
        exact ⟨⟨fun hd => (h2 d hd) (Or.inr rfl), h1⟩, fun x hx hxs => h2 x hx (Or.inl hxs)⟩
      · rintro ⟨⟨h1, h2⟩, h3⟩
        refine ⟨h2, fun x hx => ?_⟩
        rintro (h4 | rfl)
        · exact h3 x hx h4
        · exact h1 hx

theorem freshPrefix_nodup (seen l : List DVId) : (freshPrefix seen l).Nodup ∧ ∀ d ∈ freshPrefix seen l, d ∉ seen := by
  induction l generalizing seen with
  | nil => simp [freshPrefix]
  | cons d l ih =>
    unfold freshPrefix
    by_cases h : d ∈ seen
    · simp [h]
    · rw [if_neg h]
      obtain ⟨h1, h2⟩ := ih (seen ++ [d])
      refine ⟨List.nodup_cons.2 ⟨fun hd => h2 d hd (by simp), h1⟩, ?_⟩
      intro x hx
      rcases List.mem_cons.1 hx with rfl | hx
      · exact h
      · exact fun hs => h2 x hx (by simp [hs])

/-- The batch after taking the variables `l`. -/
def OptProblem.withDVs (g : GroupId) : List DVId → OptProblem V → OptProblem V
  | [], p => p
  | d :: l, p => withDVs g l (p.withDV d g)

/-- The heap after activating the variables `l`. -/
def Heap.activate (h : Heap V) (l : List DVId) : Heap V :=
  { h with active := fun d => if d ∈ l then true else h.active d }

theorem activate_nil (h : Heap V) : h.activate [] = h := by simp [Heap.activate]

theorem activate_cons (h : Heap V) (d : DVId) (l : List DVId) : (h.setActive d true).activate l = h.activate (d :: l) := by
  unfold Heap.activate Heap.setActive
  congr 1
  funext x
  by_cases h1 : x ∈ l <;> by_cases h2 : x = d <;> simp [h1, h2]

theorem keys_withDV (p : OptProblem V) (d : DVId) (g : GroupId) :
    AL.keys (p.withDV d g).lookup = AL.keys p.lookup ++ [d] := by
  simp [OptProblem.withDV, AL.keys]

theorem lookup_withDVs (g : GroupId) (l : List DVId) (p : OptProblem V) :
    (p.withDVs g l).lookup = p.lookup ++ l.map (·, g) := by
  induction l generalizing p with
  | nil => simp [OptProblem.withDVs]
  | cons d l ih => rw [OptProblem.withDVs, ih]; simp [OptProblem.withDV]

theorem rest_withDVs (g : GroupId) (l : List DVId) (p : OptProblem V) :
    (p.withDVs g l).errorTerms = p.errorTerms ∧ (p.withDVs g l).etLookup = p.etLookup ∧
      (p.withDVs g l).backup = p.backup := by
  induction l generalizing p with
  | nil => exact ⟨rfl, rfl, rfl⟩
  | cons d l ih => rw [OptProblem.withDVs]; exact ih _

theorem groups_withDVs (g : GroupId) (l : List DVId) (p : OptProblem V) (g' : GroupId) :
    AL.get g' (p.withDVs g l).groups =
      if g' = g ∧ l ≠ [] then some ((AL.get g p.groups).getD [] ++ l) else AL.get g' p.groups := by
  induction l generalizing p with
  | nil => simp [OptProblem.withDVs]
  | cons d l ih =>
    rw [OptProblem.withDVs, ih]
    simp only [OptProblem.withDV, AL.get_set]
    by_cases h : g' = g
    · subst h
      by_cases hl : l = []
      · subst hl; simp
      · simp [hl]
    · simp [h, Ne.symm h]

theorem ordering_withDVs (g : GroupId) (l : List DVId) (p : OptProblem V) :
    (p.withDVs g l).ordering =
      if l = [] ∨ AL.has g p.groups = true then p.ordering else p.ordering ++ [g] := by
  induction l generalizing p with
  | nil => simp [OptProblem.withDVs]
  | cons d l ih =>
    rw [OptProblem.withDVs, ih]
    have : AL.has g (p.withDV d g).groups = true := by simp [OptProblem.withDV, AL.has]
    rw [if_pos (Or.inr this)]
    simp [OptProblem.withDV]

theorem BInv.withDVs {h : Heap V} {p : OptProblem V} (hi : BInv h p) (g : GroupId) (l : List DVId) (hn : l.Nodup)
    (hd : ∀ d ∈ l, d ∉ AL.keys p.lookup) : BInv h (p.withDVs g l) := by
  induction l generalizing p with
  | nil => exact hi
  | cons d l ih =>
    rw [List.nodup_cons] at hn
    refine ih (hi.withDV (hd d (by simp)) g) hn.2 ?_
    intro x hx
    rw [keys_withDV, List.mem_append, List.mem_singleton]
    rintro (h1 | rfl)
    · exact hd x (by simp [hx]) h1
    · exact hn.1 hx

/-- What the loop of `addSpline` does. -/
theorem splineLoop_eq (g : GroupId) (l : List DVId) (p : OptProblem V) (h : Heap V) :
    SplineProblem.addLoop g l (p, h) =
      let f := freshPrefix (AL.keys p.lookup) l
      if f = l then .ok () (p.withDVs g l, h.activate l)
      else .throw .invalidOperation (p.withDVs g f, h.activate (l.take (f.length + 1))) := by
  induction l generalizing p h with
  | nil => simp [SplineProblem.addLoop, freshPrefix, OptProblem.withDVs, activate_nil]
  | cons d l ih =>
    simp only [SplineProblem.addLoop, addDV_eq]
    by_cases hd : d ∈ AL.keys p.lookup
    · have e : freshPrefix (AL.keys p.lookup) (d :: l) = [] := by simp [freshPrefix, hd]
      simp only [hd, if_true, Res.mapState, Res.bind, e]
      rw [if_neg (by simp)]
      simp only [OptProblem.withDVs, List.length_nil, Nat.zero_add, List.take_succ_cons, List.take_zero]
      rw [← activate_cons, activate_nil]
    · have e : freshPrefix (AL.keys p.lookup) (d :: l) = d :: freshPrefix (AL.keys (p.withDV d g).lookup) l := by
        simp [freshPrefix, hd, keys_withDV]
      simp only [hd, if_false, Res.mapState, Res.bind]
      rw [ih, e]
      simp only [List.cons.injEq, true_and]
      split
      · rw [activate_cons]; rfl
      · rw [activate_cons]; rfl

theorem addAll_eq (g : GroupId) (l : List DVId) (p : OptProblem V) (hn : l.Nodup)
    (hd : ∀ d ∈ l, d ∉ AL.keys p.lookup) : addAll g l p = .ok () (p.withDVs g l) := by
  induction l generalizing p with
  | nil => rfl
  | cons d l ih =>
    rw [List.nodup_cons] at hn
    simp only [addAll, addDV_eq, hd d (by simp), if_false, Res.bind]
    refine ih _ hn.2 ?_
    intro x hx
    rw [keys_withDV, List.mem_append, List.mem_singleton]
    rintro (h1 | rfl)
    · exact hd x (by simp [hx]) h1
    · exact hn.1 hx

/-- The batch after taking the terms `l`. -/
def OptProblem.withETs (l : List ETId) (p : OptProblem V) : OptProblem V :=
  { p with etLookup := p.etLookup ++ l, errorTerms := p.errorTerms ++ l }

theorem addTermsAll_eq (h : Heap V) (l : List ETId) (p : OptProblem V) (hn : l.Nodup)
    (he : ∀ e ∈ l, e ∉ p.etLookup) (hd : ∀ e ∈ l, ∀ d ∈ h.etDVs e, d ∈ AL.keys p.lookup) :
    addTermsAll h l p = .ok () (p.withETs l) := by
  induction l generalizing p with
  | nil => simp [addTermsAll, OptProblem.withETs]
  | cons e l ih =>
    rw [List.nodup_cons] at hn
    simp only [addTermsAll, addET_eq]
    rw [if_neg]
    · simp only [Res.bind]
      rw [ih _ hn.2]
      · simp [OptProblem.withETs]
      · intro x hx
        simp only [List.mem_append, List.mem_singleton]
        rintro (h1 | rfl)
        · exact he x (by simp [hx]) h1
        · exact hn.1 hx
      · exact fun x hx => hd x (by simp [hx])
    · rintro (h1 | h1)
      · exact he e (by simp) h1
      · exact h1 (hd e (by simp))

end Verif
