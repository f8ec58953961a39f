import Verif.Lemmas.Groups

namespace Verif
variable {V : Type _}

/-- Invariant of a batch. -/
structure BInv (h : Heap V) (p : OptProblem V) : Prop where
  lk : (AL.keys p.lookup).Nodup
  g : GInv (fun d => AL.get d p.lookup) p.groups p.ordering
  et : p.errorTerms.Perm p.etLookup
  etn : p.etLookup.Nodup
  cl : ∀ e ∈ p.etLookup, ∀ d ∈ h.etDVs e, d ∈ AL.keys p.lookup
  bkn : (AL.keys p.backup).Nodup
  bk : ∀ d ∈ AL.keys p.backup, d ∈ AL.keys p.lookup

theorem BInv.empty (h : Heap V) : BInv h (OptProblem.empty : OptProblem V) where
  lk := by simp [OptProblem.empty, AL.keys]
  g := GInv.init
  et := by simp [OptProblem.empty]
  etn := by simp [OptProblem.empty]
  cl := by simp [OptProblem.empty]
  bkn := by simp [OptProblem.empty, AL.keys]
  bk := by simp [OptProblem.empty, AL.keys]

theorem BInv.heap {h h' : Heap V} {p : OptProblem V} (hi : BInv h p) (he : h'.etDVs = h.etDVs) : BInv h' p :=
  { hi with cl := by rw [he]; exact hi.cl }

/-- Explicit result of an accepted `addDesignVariable`. -/
def OptProblem.withDV (p : OptProblem V) (d : DVId) (g : GroupId) : OptProblem V :=
  { p with
    lookup := p.lookup ++ [(d, g)]
    ordering := if AL.has g p.groups then p.ordering else p.ordering ++ [g]
    groups := AL.set g ((AL.get g p.groups).getD [] ++ [d]) p.groups }

theorem addDV_eq (p : OptProblem V) (dv : Option DVId) (g : GroupId) :
    p.addDesignVariable dv g =
      match dv with
      | none => .throw .nullPointer p
      | some d => if d ∈ AL.keys p.lookup then .throw .invalidOperation p else .ok () (p.withDV d g) := by
  cases dv with
  | none => rfl
  | some d =>
    simp only [OptProblem.addDesignVariable, OptProblem.isDVInProblem]
    by_cases h : d ∈ AL.keys p.lookup
    · simp [h, (AL.has_iff _ _).2 h]
    · rw [(AL.has_eq_false_iff _ _).2 h]
      simp only [Bool.false_eq_true, if_false, h, OptProblem.withDV, OptProblem.isGroupInProblem]
      rw [AL.set_of_not_mem h]
      by_cases hg : AL.has g p.groups = true <;> simp [hg]

theorem get_append_singleton {K W : Type _} [DecidableEq K] (l : List (K × W)) (k k' : K) (w : W)
    (h : k ∉ AL.keys l) :
    AL.get k' (l ++ [(k, w)]) = if k' = k then some w else AL.get k' l := by
  rw [← AL.set_of_not_mem h, AL.get_set]
  by_cases e : k = k'
  · simp [e]
  · simp [e, Ne.symm e]

theorem BInv.withDV {h : Heap V} {p : OptProblem V} (hi : BInv h p) {d : DVId} (hd : d ∉ AL.keys p.lookup)
    (g : GroupId) : BInv h (p.withDV d g) := by
  have hk : ∀ d', d' ∈ AL.keys p.lookup → d' ∈ AL.keys (p.withDV d g).lookup := by
    intro d' h'; simp only [OptProblem.withDV, AL.keys, List.map_append, List.mem_append] at *; exact Or.inl h'
  refine ⟨?_, ?_, hi.et, hi.etn, fun e he d' hd' => hk _ (hi.cl e he d' hd'), hi.bkn,
    fun d' h' => hk _ (hi.bk d' h')⟩
  · simp only [OptProblem.withDV]; rw [← AL.set_of_not_mem hd]; exact AL.nodup_keys_set hi.lk
  · have := hi.g.insert (d := d) (g := g) ((AL.get_eq_none_iff _ _).2 hd) rfl
    have e : (fun d' => AL.get d' (p.withDV d g).lookup) =
        fun d' => if d' = d then some g else AL.get d' p.lookup := by
      funext d'; exact get_append_singleton _ _ _ _ hd
    simp only [e]
    exact this

theorem addET_eq (h : Heap V) (p : OptProblem V) (et : Option ETId) :
    OptProblem.addErrorTerm h p et =
      match et with
      | none => .throw .nullPointer p
      | some e =>
        if e ∈ p.etLookup ∨ ¬ (∀ d ∈ h.etDVs e, d ∈ AL.keys p.lookup) then .throw .invalidOperation p
        else .ok () { p with etLookup := p.etLookup ++ [e], errorTerms := p.errorTerms ++ [e] } := by
  cases et with
  | none => rfl
  | some e =>
    simp only [OptProblem.addErrorTerm, OptProblem.isETInProblem]
    by_cases h1 : e ∈ p.etLookup
    · simp [h1]
    · simp only [h1, decide_false, Bool.false_eq_true, if_false, false_or]
      by_cases h2 : ∀ d ∈ h.etDVs e, d ∈ AL.keys p.lookup
      · have : (h.etDVs e).all p.isDVInProblem = true := by
          rw [List.all_eq_true]; intro d hd; exact (AL.has_iff _ _).2 (h2 d hd)
        rw [if_pos this, if_neg (by simpa using h2)]
      · have : ¬ (h.etDVs e).all p.isDVInProblem = true := by
          rw [List.all_eq_true]; intro h3; exact h2 fun d hd => (AL.has_iff _ _).1 (h3 d hd)
        rw [if_neg this, if_pos h2]

theorem BInv.withET {h : Heap V} {p : OptProblem V} (hi : BInv h p) {e : ETId} (he : e ∉ p.etLookup)
    (hd : ∀ d ∈ h.etDVs e, d ∈ AL.keys p.lookup) :
    BInv h { p with etLookup := p.etLookup ++ [e], errorTerms := p.errorTerms ++ [e] } where
  lk := hi.lk
  g := hi.g
  et := hi.et.append (.refl _)
  etn := by
    rw [List.nodup_append]
    refine ⟨hi.etn, by simp, ?_⟩
    intro a ha b hb; simp at hb; subst hb; rintro rfl; exact he ha
  cl := by
    intro e' he' d hd'
    simp only [List.mem_append, List.mem_singleton] at he'
    rcases he' with he' | rfl
    · exact hi.cl e' he' d hd'
    · exact hd d hd'
  bkn := hi.bkn
  bk := hi.bk

theorem setOrdering_eq {h : Heap V} {p : OptProblem V} (hi : BInv h p) (o : List GroupId) :
    (o.Perm p.ordering ∧ p.setGroupsOrdering o = .ok () { p with ordering := o }) ∨
    (¬ o.Perm p.ordering ∧ p.setGroupsOrdering o = .throw .outOfBound p) := by
  unfold OptProblem.setGroupsOrdering
  by_cases hl : o.length = p.ordering.length
  · have hiff : p.checkOrdering [] o = true ↔ o.Perm p.ordering := by
      rw [checkOrdering_iff, ← perm_of_check hi.g.nodupO hl]
      simp only [List.not_mem_nil, not_false_eq_true, implies_true, and_true]
      constructor
      · rintro ⟨a, b⟩; exact ⟨b, fun g hg => (hi.g.ord g).2 (a g hg)⟩
      · rintro ⟨a, b⟩; exact ⟨fun g hg => (hi.g.ord g).1 (b g hg), a⟩
    by_cases hp : o.Perm p.ordering
    · left; refine ⟨hp, ?_⟩; rw [if_neg (by simpa using hl), if_pos (hiff.2 hp)]
    · right; refine ⟨hp, ?_⟩; rw [if_neg (by simpa using hl), if_neg (fun h => hp (hiff.1 h))]
  · right
    exact ⟨fun hp => hl hp.length_eq, by rw [if_pos hl]⟩

theorem saveLoop_get (h : Heap V) (l : List DVId) (b : List (DVId × V)) (d : DVId) :
    AL.get d (OptProblem.saveLoop h l b) = if d ∈ l then some (h.params d) else AL.get d b := by
  induction l generalizing b with
  | nil => simp [OptProblem.saveLoop]
  | cons a l ih =>
    rw [OptProblem.saveLoop, ih, AL.get_set]
    by_cases h1 : d ∈ l <;> by_cases h2 : a = d <;> simp [h1, h2]
    intro h3; exact absurd h3.symm h2

theorem saveLoop_nodup (h : Heap V) (l : List DVId) (b : List (DVId × V)) (hb : (AL.keys b).Nodup) :
    (AL.keys (OptProblem.saveLoop h l b)).Nodup := by
  induction l generalizing b with
  | nil => exact hb
  | cons a l ih => exact ih _ (AL.nodup_keys_set hb)

theorem saveLoop_keys (h : Heap V) (l : List DVId) (b : List (DVId × V)) (d : DVId) :
    d ∈ AL.keys (OptProblem.saveLoop h l b) ↔ d ∈ l ∨ d ∈ AL.keys b := by
  rw [AL.mem_keys_iff, AL.mem_keys_iff, saveLoop_get]
  by_cases h1 : d ∈ l <;> simp [h1]

theorem BInv.save {h : Heap V} {p : OptProblem V} (hi : BInv h p) (h' : Heap V) :
    BInv h (OptProblem.saveDesignVariables h' p) :=
  { hi with
    bkn := saveLoop_nodup _ _ _ hi.bkn
    bk := by
      intro d hd
      rcases (saveLoop_keys _ _ _ _).1 hd with h1 | h1
      · exact h1
      · exact hi.bk d h1 }

theorem restoreLoop_params (b : List (DVId × V)) (hb : (AL.keys b).Nodup) (h : Heap V) (d : DVId) :
    (OptProblem.restoreLoop b h).params d = (AL.get d b).getD (h.params d) := by
  induction b generalizing h with
  | nil => simp [OptProblem.restoreLoop]
  | cons a b ih =>
    obtain ⟨a, v⟩ := a
    simp only [AL.keys, List.map_cons, List.nodup_cons] at hb
    rw [OptProblem.restoreLoop, ih hb.2, AL.get_cons]
    by_cases e : a = d
    · subst e
      have : AL.get a b = none := (AL.get_eq_none_iff _ _).2 hb.1
      simp [this, Heap.setParams]
    · simp [e, Heap.setParams, Ne.symm e]

theorem restoreLoop_rest (b : List (DVId × V)) (h : Heap V) :
    (OptProblem.restoreLoop b h).active = h.active ∧ (OptProblem.restoreLoop b h).minDim = h.minDim ∧
    (OptProblem.restoreLoop b h).etDVs = h.etDVs ∧ (OptProblem.restoreLoop b h).etDim = h.etDim := by
  induction b generalizing h with
  | nil => simp [OptProblem.restoreLoop]
  | cons a b ih =>
    obtain ⟨a, v⟩ := a
    rw [OptProblem.restoreLoop]
    simpa [Heap.setParams] using ih (h.setParams a v)

theorem mapState_ok {σ τ α : Type _} {r : Res σ α} {g : σ → τ} {a : α} {s : τ}
    (h : r.mapState g = .ok a s) : ∃ s', r = .ok a s' ∧ s = g s' := by
  cases r <;> simp [Res.mapState] at h
  exact ⟨_, by rw [h.1], h.2.symm⟩

theorem mapState_throw {σ τ α : Type _} {r : Res σ α} {g : σ → τ} {e : Exc} {s : τ}
    (h : r.mapState g = .throw e s) : ∃ s', r = .throw e s' ∧ s = g s' := by
  cases r <;> simp [Res.mapState] at h
  exact ⟨_, by rw [h.1], h.2.symm⟩

theorem mapState_ub {σ τ α : Type _} {r : Res σ α} {g : σ → τ}
    (h : r.mapState g = .ub) : r = .ub := by
  cases r <;> simp [Res.mapState] at h; rfl

theorem permute_state_perm {α : Type _} {c c' : List α} {perm : List Nat}
    (h : (permute c perm).state? = some c') : c'.Perm c := by
  unfold permute at h
  split at h
  · simp [Res.state?] at h; subst h; exact .refl _
  · exact permuteLoop_perm _ _ _ _ _ h

theorem permute_not_ub {α : Type _} (c : List α) (perm : List Nat) : permute c perm ≠ .ub := by
  unfold permute
  split
  · simp
  · exact permuteLoop_not_ub perm c.length 0 c (by omega) (by omega) (by simp)

/-- The operation only touches the heap. -/
def BOp.heapOnly : BOp V → Bool
  | .setActive _ _ => true
  | .setValue _ _ => true
  | .restore => true
  | _ => false

/-- What a returning call can have done to the batch: a case list used by all invariant proofs. -/
inductive BEff (op : BOp V) (s : OptProblem V × Heap V) : Bool → OptProblem V × Heap V → Prop where
  | fail : BEff op s false s
  | heap (hop : op.heapOnly = true) (hh : Heap V) (he : hh.etDVs = s.2.etDVs) : BEff op s true (s.1, hh)
  | addDV (d : DVId) (g : GroupId) (hop : op = .addDV (some d) g) (hd : d ∉ AL.keys s.1.lookup) :
      BEff op s true (s.1.withDV d g, s.2)
  | addET (e : ETId) (hop : op = .addET (some e)) (he : e ∉ s.1.etLookup)
      (hd : ∀ d ∈ s.2.etDVs e, d ∈ AL.keys s.1.lookup) :
      BEff op s true ({ s.1 with etLookup := s.1.etLookup ++ [e], errorTerms := s.1.errorTerms ++ [e] }, s.2)
  | clear (hop : op = .clear) : BEff op s true (OptProblem.empty, s.2)
  | order (o : List GroupId) (hop : op = .setOrdering o) (ho : o.Perm s.1.ordering) :
      BEff op s true ({ s.1 with ordering := o }, s.2)
  | permET (ok : Bool) (perm : List Nat) (hop : op = .permET perm) (l : List ETId)
      (hl : l.Perm s.1.errorTerms) : BEff op s ok ({ s.1 with errorTerms := l }, s.2)
  | permDV (ok : Bool) (perm : List Nat) (g : GroupId) (hop : op = .permDV perm g) (l l' : List DVId)
      (hg : AL.get g s.1.groups = some l) (hl : l'.Perm l) :
      BEff op s ok ({ s.1 with groups := AL.set g l' s.1.groups }, s.2)
  | save (hop : op = .save) : BEff op s true (OptProblem.saveDesignVariables s.2 s.1, s.2)

/-- Result of one call as `(returned normally?, state)`; `none` for UB or divergence. -/
def Res.outcome {σ α : Type _} : Res σ α → Option (Bool × σ)
  | .ok _ s => some (true, s)
  | .throw _ s => some (false, s)
  | .ub => none
  | .diverge => none

theorem permute_outcome {α β σ : Type _} {c : List α} {perm : List Nat} (f : List α → β) (g : β → σ)
    {b : Bool} {t : σ}
    (h : (((permute c perm).mapState f).mapState g).outcome = some (b, t)) :
    ∃ l, l.Perm c ∧ t = g (f l) := by
  cases hp : permute c perm with
  | ok a s =>
    rw [hp] at h; simp [Res.mapState, Res.outcome] at h
    exact ⟨s, permute_state_perm (by rw [hp]; rfl), h.2.symm⟩
  | throw e s =>
    rw [hp] at h; simp [Res.mapState, Res.outcome] at h
    exact ⟨s, permute_state_perm (by rw [hp]; rfl), h.2.symm⟩
  | ub => rw [hp] at h; simp [Res.mapState, Res.outcome] at h
  | diverge => rw [hp] at h; simp [Res.mapState, Res.outcome] at h

theorem BOp.step_eff {op : BOp V} {s t : OptProblem V × Heap V} (hi : BInv s.2 s.1) {b : Bool}
    (h : (op.step s).outcome = some (b, t)) : BEff op s b t := by
  obtain ⟨p, hp⟩ := s
  cases op with
  | addDV d g =>
    simp only [BOp.step, addDV_eq] at h
    cases d with
    | none => simp [Res.mapState, Res.outcome] at h; obtain ⟨rfl, rfl⟩ := h; exact .fail
    | some d =>
      simp only at h
      by_cases hd : d ∈ AL.keys p.lookup
      · simp [hd, Res.mapState, Res.outcome] at h; obtain ⟨rfl, rfl⟩ := h; exact .fail
      · simp [hd, Res.mapState, Res.outcome] at h; obtain ⟨rfl, rfl⟩ := h
        exact .addDV d g rfl hd
  | addET e =>
    simp only [BOp.step, addET_eq] at h
    cases e with
    | none => simp [Res.mapState, Res.outcome] at h; obtain ⟨rfl, rfl⟩ := h; exact .fail
    | some e =>
      simp only at h
      split at h
      · simp [Res.mapState, Res.outcome] at h; obtain ⟨rfl, rfl⟩ := h; exact .fail
      · rename_i hc
        simp [Res.mapState, Res.outcome] at h; obtain ⟨rfl, rfl⟩ := h
        rw [not_or, not_not] at hc
        exact .addET e rfl hc.1 hc.2
  | clear => simp [BOp.step, Res.outcome] at h; obtain ⟨rfl, rfl⟩ := h; exact .clear rfl
  | setOrdering o =>
    simp only [BOp.step] at h
    rcases setOrdering_eq hi o with ⟨h1, h2⟩ | ⟨h1, h2⟩
    · rw [h2] at h; simp [Res.mapState, Res.outcome] at h; obtain ⟨rfl, rfl⟩ := h; exact .order o rfl h1
    · rw [h2] at h; simp [Res.mapState, Res.outcome] at h; obtain ⟨rfl, rfl⟩ := h; exact .fail
  | permET perm =>
    simp only [BOp.step, OptProblem.permuteErrorTerms] at h
    obtain ⟨l, h1, rfl⟩ := permute_outcome _ _ h
    exact .permET b perm rfl l h1
  | permDV perm g =>
    simp only [BOp.step, OptProblem.permuteDesignVariables] at h
    cases hg : AL.get g p.groups with
    | none =>
      rw [hg] at h
      simp [Res.mapState, Res.outcome] at h; obtain ⟨rfl, rfl⟩ := h; exact .fail
    | some l =>
      rw [hg] at h
      obtain ⟨l', h1, rfl⟩ := permute_outcome _ _ h
      exact .permDV b perm g rfl l l' hg h1
  | save => simp [BOp.step, Res.outcome] at h; obtain ⟨rfl, rfl⟩ := h; exact .save rfl
  | restore =>
    simp [BOp.step, Res.outcome] at h; obtain ⟨rfl, rfl⟩ := h
    exact .heap rfl _ (restoreLoop_rest _ _).2.2.1
  | setValue d v => simp [BOp.step, Res.outcome] at h; obtain ⟨rfl, rfl⟩ := h; exact .heap rfl _ rfl
  | setActive d v => simp [BOp.step, Res.outcome] at h; obtain ⟨rfl, rfl⟩ := h; exact .heap rfl _ rfl

theorem BOp.step_not_ub (op : BOp V) (s : OptProblem V × Heap V) : op.step s ≠ .ub := by
  obtain ⟨p, hp⟩ := s
  cases op with
  | addDV d g =>
    simp only [BOp.step, addDV_eq]; intro h; have h := mapState_ub h; split at h
    · simp at h
    · split at h <;> simp at h
  | addET e =>
    simp only [BOp.step, addET_eq]; intro h; have h := mapState_ub h; split at h
    · simp at h
    · split at h <;> simp at h
  | clear => simp [BOp.step]
  | setOrdering o =>
    simp only [BOp.step, OptProblem.setGroupsOrdering]; intro h; have h := mapState_ub h
    split at h
    · simp at h
    · split at h <;> simp at h
  | permET perm =>
    simp only [BOp.step, OptProblem.permuteErrorTerms]; intro h
    exact permute_not_ub _ _ (mapState_ub (mapState_ub h))
  | permDV perm g =>
    simp only [BOp.step, OptProblem.permuteDesignVariables]; intro h
    have h := mapState_ub h
    split at h
    · simp at h
    · exact permute_not_ub _ _ (mapState_ub h)
  | save => simp [BOp.step]
  | restore => simp [BOp.step]
  | setValue d v => simp [BOp.step]
  | setActive d b => simp [BOp.step]

theorem BEff.inv {op : BOp V} {s t : OptProblem V × Heap V} {b : Bool} (hi : BInv s.2 s.1)
    (h : BEff op s b t) : BInv t.2 t.1 := by
  cases h with
  | fail => exact hi
  | heap hop hh he => exact hi.heap he
  | addDV d g hop hd => exact hi.withDV hd g
  | addET e hop he hd => exact hi.withET he hd
  | clear hop => exact BInv.empty _
  | order o hop ho => exact { hi with g := hi.g.reorder ho }
  | permET ok perm hop l hl => exact { hi with et := hl.trans hi.et }
  | permDV ok perm g hop l l' hg hl => exact { hi with g := hi.g.permGroup hg hl }
  | save hop => exact hi.save _

/-- Induction principle over client programs: every intermediate state. -/
theorem BOp.run_cons {op : BOp V} {ops : List (BOp V)} {s t : OptProblem V × Heap V} {tr : List Bool}
    (h : BOp.run (op :: ops) s = .ok tr t) :
    ∃ b tr' s', tr = b :: tr' ∧ (op.step s).outcome = some (b, s') ∧ BOp.run ops s' = .ok tr' t := by
  rw [BOp.run] at h
  cases hs : op.step s with
  | ok a s' =>
    rw [hs] at h
    simp only at h
    cases hr : BOp.run ops s' with
    | ok tr' t' => rw [hr] at h; simp [Res.bind] at h; exact ⟨true, tr', s', h.1.symm, rfl, by rw [hr, h.2]⟩
    | throw e t' => rw [hr] at h; simp [Res.bind] at h
    | ub => rw [hr] at h; simp [Res.bind] at h
    | diverge => rw [hr] at h; simp [Res.bind] at h
  | throw e s' =>
    rw [hs] at h
    simp only at h
    cases hr : BOp.run ops s' with
    | ok tr' t' => rw [hr] at h; simp [Res.bind] at h; exact ⟨false, tr', s', h.1.symm, rfl, by rw [hr, h.2]⟩
    | throw e t' => rw [hr] at h; simp [Res.bind] at h
    | ub => rw [hr] at h; simp [Res.bind] at h
    | diverge => rw [hr] at h; simp [Res.bind] at h
  | ub => rw [hs] at h; simp at h
  | diverge => rw [hs] at h; simp at h

theorem BOp.run_inv {ops : List (BOp V)} {s t : OptProblem V × Heap V} {tr : List Bool}
    (hi : BInv s.2 s.1) (h : BOp.run ops s = .ok tr t) : BInv t.2 t.1 := by
  induction ops generalizing s tr with
  | nil => simp [BOp.run] at h; rw [← h.2]; exact hi
  | cons op ops ih =>
    obtain ⟨b, tr', s', -, h1, h2⟩ := BOp.run_cons h
    exact ih ((BOp.step_eff hi h1).inv hi) h2

theorem designVariable_eq {h : Heap V} {p : OptProblem V} (hi : BInv h p) (i : Nat) :
    p.designVariable i = match (enumDV p.groups p.ordering)[i]? with
      | some d => .ok d ()
      | none => .throw .outOfBound () := by
  have hp : (enumDV p.groups p.ordering).Perm (AL.keys p.lookup) :=
    hi.g.enum_perm hi.lk (fun d => AL.mem_keys_iff _ _)
  have hlen : (enumDV p.groups p.ordering).length = p.lookup.length := by
    rw [hp.length_eq]; simp [AL.keys]
  unfold OptProblem.designVariable
  by_cases hlt : i < p.lookup.length
  · rw [if_neg (by omega), GInv.scan_elem p.groups i p.ordering 0 (fun g hg => (hi.g.ord g).1 hg) (by omega)
      (by omega), List.getElem?_eq_getElem (by omega)]
    simp
  · rw [if_pos (by omega), List.getElem?_eq_none (by omega)]

end Verif
