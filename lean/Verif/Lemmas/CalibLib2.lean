import Verif.Lemmas.CalibLib

/-! What holds between the windows of a calibrator with the estimator of the library. -/

namespace Verif
namespace CalibLib
variable {X V F M : Type}

theorem inside_snoc (l : List (Sub X V F M)) (b : Sub X V F M) :
    inside (l ++ [b]) = inside l ++ if b.inside then [l.length] else [] := by
  unfold inside
  cases h : b.inside <;> simp [List.zipIdx_append, List.filter_append, h]

theorem splineVars_snoc (c : Env X V F M) (l : List (Sub X V F M)) (b : Sub X V F M) :
    splineVars c (l ++ [b]) = splineVars c l ++ if b.inside then spl c l.length b.win else [] := by
  unfold splineVars spl
  cases h : b.inside <;> simp [List.zipIdx_append, List.filter_append, h]

theorem allTerms_snoc (c : Env X V F M) (l : List (Sub X V F M)) (b : Sub X V F M) :
    allTerms c (l ++ [b]) = allTerms c l ++ if b.inside then c.termIds l.length b.win else [] := by
  unfold allTerms
  cases h : b.inside <;> simp [List.zipIdx_append, List.filter_append, h]

theorem mem_inside {l : List (Sub X V F M)} {n : Nat} (h : n ∈ inside l) : ∃ b, l[n]? = some b ∧ b.inside = true := by
  unfold inside at h
  obtain ⟨x, hx, rfl⟩ := List.mem_map.1 h
  obtain ⟨h1, h2⟩ := List.mem_filter.1 hx
  exact ⟨x.1, List.mem_zipIdx_iff_getElem?.1 h1, h2⟩

theorem inside_lt {l : List (Sub X V F M)} {n : Nat} (h : n ∈ inside l) : n < l.length := by
  obtain ⟨b, hb, -⟩ := mem_inside h
  exact (List.getElem?_eq_some_iff.1 hb).1

theorem inside_length (l : List (Sub X V F M)) : (inside l).length ≤ l.length := by
  unfold inside
  rw [List.length_map]
  exact (List.length_filter_le _ _).trans (by simp)

theorem lastAccepted_snoc (l : List (Sub X V F M)) (b : Sub X V F M) :
    lastAccepted (l ++ [b]) = match b.ret with
      | some r => if r.batchAccepted then some r else lastAccepted l
      | none => lastAccepted l := by
  unfold lastAccepted
  cases h : b.ret with
  | none => simp [List.filterMap_append, h]
  | some r => cases h2 : r.batchAccepted <;> simp [List.filterMap_append, List.filter_append, h, h2]

theorem calAfter_snoc (v0 : List V) (l : List (Sub X V F M)) (b : Sub X V F M) : calAfter v0 (l ++ [b]) = b.after := by
  simp [calAfter]

/-- what holds between the windows. -/
structure Inv (c : Env X V F M) (g : GroupId) (o : EstOptions F) (st0 : Stats F M) (v0 : List V) (s : St X V F M) : Prop where
  einv : EInv s.w
  opts : s.w.est.options = o
  marg : s.w.est.margGroup = g
  fresh : ∀ k, s.log.length ≤ k → s.w.B k = OptProblem.empty
  batches : ∀ k b, s.log[k]? = some b → IsBatch c k b.win (s.w.B k)
  made : ∀ k b, s.log[k]? = some b → Made c k b.win s.w.heap
  probs : s.w.est.inc.problems = inside s.log
  group0 : (AL.get 0 s.w.est.inc.groups).getD [] = splineVars c s.log
  group1 : (AL.get 1 s.w.est.inc.groups).getD [] = if inside s.log = [] then [] else c.cal
  order : s.w.est.inc.ordering = if inside s.log = [] then [] else orderOf g
  stats : s.w.est.stats = statsAfter st0 s.log
  cal : c.params s = calAfter v0 s.log
  dec : ∀ pre b post, s.log = pre ++ b :: post → Decided c g o st0 v0 pre b

theorem Inv.init (c : Env X V F M) (mo : F) (g : GroupId) (o : EstOptions F) (h : Heap V) :
    Inv c g o (Estimator.initStats c.D mo c.m0) (c.cal.map h.params) (c.start mo g o h) where
  einv := EInv.init _ _ _ _ _ _
  opts := rfl
  marg := rfl
  fresh := fun _ _ => rfl
  batches := by simp [Env.start]
  made := by simp [Env.start]
  probs := rfl
  group0 := by simp [Env.start, Estimator.construct, IncProblem.empty, splineVars]
  group1 := by simp [Env.start, Estimator.construct, IncProblem.empty, inside]
  order := by simp [Env.start, Estimator.construct, IncProblem.empty, inside]
  stats := rfl
  cal := rfl
  dec := by simp [Env.start]

/-- the world in which the batch of a window is handed over. -/
def handOver (c : Env X V F M) (s : St X V F M) (x : X) (p : OptProblem V) : EWorld V F M :=
  { s.w with B := fun b => if b = s.log.length then p else s.w.B b, heap := ready c s.log.length x s.w.heap }

section
variable {c : Env X V F M} {g : GroupId} {o : EstOptions F} {st0 : Stats F M} {v0 : List V} {s : St X V F M} {x : X}
  {p : OptProblem V}

theorem handOver_self : (handOver c s x p).B s.log.length = p := by simp [handOver]

theorem handOver_other {k : Nat} (h : k ≠ s.log.length) : (handOver c s x p).B k = s.w.B k := by simp [handOver, h]

theorem Inv.not_in (hi : Inv c g o st0 v0 s) : s.log.length ∉ s.w.est.inc.problems := by
  rw [hi.probs]; intro h; exact absurd (inside_lt h) (lt_irrefl _)

theorem Inv.inProblem (hi : Inv c g o st0 v0 s) {k : Nat} (hk : k ∈ s.w.est.inc.problems) :
    ∃ b, s.log[k]? = some b ∧ k < s.log.length ∧ IsBatch c k b.win (s.w.B k) := by
  rw [hi.probs] at hk
  obtain ⟨b, hb, -⟩ := mem_inside hk
  exact ⟨b, hb, inside_lt hk, hi.batches k b hb⟩

theorem ready_etDVs (n : Nat) (h : Heap V) {e : ETId} (he : (Nat.unpair e).1 ≠ n) : (ready c n x h).etDVs e = h.etDVs e := by
  simp [ready, Heap.activate, Env.alloc, he]

theorem ready_params (n : Nat) (h : Heap V) {d : DVId} (hd : (Nat.unpair d).1 ≠ n + 1) : (ready c n x h).params d = h.params d := by
  simp [ready, Heap.activate, Env.alloc, hd]

theorem ready_made (n : Nat) (h : Heap V) : Made c n x (ready c n x h) := by
  constructor
  · intro j hj
    have : splVar n j ∈ spl c n x := mem_spl.2 ⟨j, hj, rfl⟩
    refine ⟨by simp [ready, Heap.activate, Env.alloc, splVar, Nat.unpair_pair], ?_⟩
    simp [ready, Heap.activate, this]
  · intro j t ht
    simp [ready, Heap.activate, Env.alloc, term, Nat.unpair_pair, ht]

theorem ready_fitted (n : Nat) (h : Heap V) (j : Nat) : (ready c n x h).params (splVar n j) = c.value x j := by
  simp [ready, Heap.activate, Env.alloc, splVar, Nat.unpair_pair]

theorem Made.ready {k n : Nat} {y : X} {h : Heap V} (hm : Made c k y h) (hk : k ≠ n) : Made c k y (CalibLib.ready c n x h) := by
  constructor
  · intro j hj
    have hne : splVar k j ∉ spl c n x := by
      intro hmem
      obtain ⟨i, -, hi⟩ := mem_spl.1 hmem
      exact hk (splVar_inj hi).1.symm
    have := hm.vars j hj
    refine ⟨?_, ?_⟩
    · have h1 := this.1
      simpa [CalibLib.ready, Heap.activate, Env.alloc, hk, splVar, Nat.unpair_pair] using h1
    · have h2 := this.2
      unfold CalibLib.ready Heap.activate
      simp only [hne]
      simpa [Env.alloc, hk, splVar, Nat.unpair_pair] using h2
  · intro j t ht
    have := hm.terms j t ht
    simpa [CalibLib.ready, Heap.activate, Env.alloc, hk, term, Nat.unpair_pair] using this

theorem Made.same {k : Nat} {y : X} {h h' : Heap V} (hm : Made c k y h) (hs : h' = { h with params := h'.params }) : Made c k y h' := by
  rw [hs]; exact ⟨hm.vars, hm.terms⟩

theorem ready_cal (n : Nat) (h : Heap V) : c.cal.map (ready c n x h).params = c.cal.map h.params := by
  apply List.map_congr_left
  intro d hd
  obtain ⟨j, -, rfl⟩ := mem_cal.1 hd
  exact ready_params n h (by simp [calVar, Nat.unpair_pair])

theorem Inv.handed (hi : Inv c g o st0 v0 s) (hb : BInv (ready c s.log.length x s.w.heap) p) : EInv (handOver c s x p) := by
  refine Camera.EInv.frame hi.einv rfl ?_ ?_
  · intro k
    by_cases hk : k = s.log.length
    · subst hk; rw [handOver_self]; exact hb
    · rw [handOver_other hk]
      show BInv (ready c s.log.length x s.w.heap) (s.w.B k)
      rcases Nat.lt_or_ge k s.log.length with hlt | hge
      · have h0 := hi.einv.winv.batches k
        refine { h0 with cl := ?_ }
        intro e he d hd
        have hB := hi.batches k _ (List.getElem?_eq_getElem hlt)
        have he' := he
        rw [hB.etLookup] at he'
        obtain ⟨j, -, rfl⟩ := mem_termIds.1 he'
        rw [ready_etDVs _ _ (by simpa [term, Nat.unpair_pair] using hk)] at hd
        exact h0.cl _ he d hd
      · rw [hi.fresh k hge]; exact BInv.empty _
  · intro k hk
    exact handOver_other (fun h => hi.not_in (h ▸ hk))

theorem IsBatch.lookup_iff {h : Heap V} {n : Nat} (hp : IsBatch c n x p) (hb : BInv h p) (d : DVId) (g' : GroupId) :
    AL.get d p.lookup = some g' ↔ (g' = 0 ∧ d ∈ spl c n x) ∨ (g' = 1 ∧ d ∈ c.cal) := by
  have h1 : AL.get d p.lookup = some g' ↔ d ∈ (AL.get g' p.groups).getD [] := by
    rw [← Camera.elems_filter hb, ← mem_elems hb]
    simp only [List.mem_map, List.mem_filter, decide_eq_true_eq, Prod.exists, exists_eq_right, exists_and_right]
  rw [h1, hp.groups g']
  by_cases h0 : g' = 0
  · subst h0; simp
  · by_cases h2 : g' = 1
    · subst h2; simp
    · simp [h0, h2]

/-- which variables the problem holds, and in which group. -/
theorem Inv.counts (hi : Inv c g o st0 v0 s) (d : DVId) :
    AL.get d s.w.est.inc.counts ≠ none ↔
      ∃ k b, k ∈ s.w.est.inc.problems ∧ s.log[k]? = some b ∧ (d ∈ spl c k b.win ∨ d ∈ c.cal) := by
  have h1 := hi.einv.winv.zero d
  have h2 := useCount_pos_iff (B := s.w.B) (ps := s.w.est.inc.problems) (d := d)
  simp only [EWorld.toWorld] at h1
  rw [Ne, h1, ← Ne, ← Nat.pos_iff_ne_zero, h2]
  constructor
  · rintro ⟨k, hk, hd⟩
    obtain ⟨g', hg'⟩ := (AL.mem_keys_iff _ _).1 hd
    obtain ⟨b, hb, -, h5⟩ := hi.inProblem hk
    rcases (h5.lookup_iff (hi.einv.winv.batches k) d g').1 hg' with ⟨-, h⟩ | ⟨-, h⟩
    · exact ⟨k, b, hk, hb, .inl h⟩
    · exact ⟨k, b, hk, hb, .inr h⟩
  · rintro ⟨k, b, hk, hb, h⟩
    refine ⟨k, hk, (AL.mem_keys_iff _ _).2 ?_⟩
    have h5 := hi.batches k b hb
    rcases h with h | h
    · exact ⟨0, (h5.lookup_iff (hi.einv.winv.batches k) d 0).2 (.inl ⟨rfl, h⟩)⟩
    · exact ⟨1, (h5.lookup_iff (hi.einv.winv.batches k) d 1).2 (.inr ⟨rfl, h⟩)⟩

theorem Inv.spl_new (hi : Inv c g o st0 v0 s) {d : DVId} (hd : d ∈ spl c s.log.length x) : AL.get d s.w.est.inc.counts = none := by
  by_contra hne
  obtain ⟨k, b, hk, hb, h⟩ := (hi.counts d).1 hne
  obtain ⟨j, -, rfl⟩ := mem_spl.1 hd
  rcases h with h | h
  · obtain ⟨j', -, h'⟩ := mem_spl.1 h
    have := (splVar_inj h').1
    subst this
    exact hi.not_in hk
  · obtain ⟨j', -, h'⟩ := mem_cal.1 h
    exact cal_ne_spl _ _ _ h'

theorem Inv.cal_group (hi : Inv c g o st0 v0 s) {d : DVId} (hd : d ∈ c.cal) {n : Nat} {g' : GroupId}
    (h : AL.get d s.w.est.inc.counts = some (n, g')) : g' = 1 := by
  obtain ⟨k, b, hk, hb, -⟩ := (hi.counts d).1 (by rw [h]; simp)
  have h5 := hi.batches k b hb
  have := (h5.lookup_iff (hi.einv.winv.batches k) d 1).2 (.inr ⟨rfl, hd⟩)
  exact ((hi.einv.winv.some _ _ _ h).2 k hk _ this).symm

theorem Inv.addable (hi : Inv c g o st0 v0 s) (hp : IsBatch c s.log.length x p) (hb : BInv (ready c s.log.length x s.w.heap) p)
    (hroom : s.log.length < IncProblem.maxBatches) :
    Addable (handOver c s x p).B (handOver c s x p).est.inc ((handOver c s x p).B s.log.length) := by
  rw [handOver_self]
  refine ⟨?_, ?_, ?_⟩
  · intro d g1 hg n g' hc
    rcases (hp.lookup_iff hb d g1).1 hg with ⟨rfl, h⟩ | ⟨rfl, h⟩
    · have := hi.spl_new h
      have hc : AL.get d s.w.est.inc.counts = some (n, g') := hc
      rw [this] at hc; simp at hc
    · exact hi.cal_group h hc
  · intro e he k hk he'
    have hk : k ∈ s.w.est.inc.problems := hk
    rw [handOver_other (fun h => hi.not_in (h ▸ hk))] at he'
    obtain ⟨b, hb', hlt, h5⟩ := hi.inProblem hk
    rw [hp.etLookup] at he
    rw [h5.etLookup] at he'
    obtain ⟨i, -, h1⟩ := mem_termIds.1 he
    obtain ⟨j, -, h2⟩ := mem_termIds.1 he'
    have := (term_inj (h1.trans h2.symm)).1
    omega
  · show s.w.est.inc.problems.length < _
    rw [hi.probs]
    exact lt_of_le_of_lt (inside_length _) hroom

/-- the groups after the batch is added. -/
theorem Inv.groups_add (hi : Inv c g o st0 v0 s) (hp : IsBatch c s.log.length x p)
    (hb : BInv (ready c s.log.length x s.w.heap) p) {q1 : IncProblem V}
    (hr : AddResult (handOver c s x p).toWorld s.log.length q1) :
    (AL.get 0 q1.groups).getD [] = splineVars c s.log ++ spl c s.log.length x ∧ (AL.get 1 q1.groups).getD [] = c.cal := by
  have hself : (handOver c s x p).toWorld.B s.log.length = p := handOver_self (c := c) (x := x)
  have key : ∀ g' l, (∀ y ∈ elems p, y.2 = g' → (AL.get y.1 s.w.est.inc.counts = none ↔ l = true)) →
      ((elems p).filter fun y => decide (y.2 = g' ∧ AL.get y.1 (handOver c s x p).est.inc.counts = none)).map Prod.fst =
      if l then (AL.get g' p.groups).getD [] else [] := by
    intro g' l hl
    cases l with
    | true =>
      rw [if_pos rfl, ← Camera.elems_filter hb]
      congr 1
      apply List.filter_congr
      intro y hy
      by_cases e : y.2 = g'
      · have : AL.get y.1 (handOver c s x p).est.inc.counts = none := (hl y hy e).2 rfl
        simp [e, this]
      · simp [e]
    | false =>
      rw [if_neg (by simp), List.map_eq_nil_iff, List.filter_eq_nil_iff]
      intro y hy
      simp only [decide_eq_true_eq, not_and]
      intro e h
      have := (hl y hy e).1 h
      simp at this
  constructor
  · have h := hr.groups 0
    rw [hself] at h
    refine h.trans ?_
    rw [show (handOver c s x p).toWorld.inc.groups = s.w.est.inc.groups from rfl, hi.group0]
    congr 1
    refine (key 0 true ?_).trans ?_
    · intro y hy e
      refine iff_of_true (hi.spl_new (x := x) ?_) rfl
      rcases (hp.lookup_iff hb y.1 y.2).1 ((mem_elems hb y.1 y.2).1 hy) with ⟨-, h⟩ | ⟨h, -⟩
      · exact h
      · rw [e] at h; simp at h
    · simp [hp.groups 0]
  · have h := hr.groups 1
    rw [hself] at h
    refine h.trans ?_
    rw [show (handOver c s x p).toWorld.inc.groups = s.w.est.inc.groups from rfl, hi.group1]
    by_cases hin : inside s.log = []
    · rw [if_pos hin, List.nil_append]
      refine (key 1 true ?_).trans ?_
      · intro y hy e
        refine iff_of_true ?_ rfl
        by_contra hne
        obtain ⟨k, b, hk, -⟩ := (hi.counts y.1).1 hne
        rw [hi.probs, hin] at hk
        simp at hk
      · simp [hp.groups 1]
    · rw [if_neg hin]
      refine (congrArg (c.cal ++ ·) (key 1 false ?_)).trans (by simp)
      intro y hy e
      refine iff_of_false ?_ (by simp)
      obtain ⟨k, hk⟩ := List.exists_mem_of_ne_nil _ hin
      obtain ⟨b, hb', -⟩ := mem_inside hk
      refine (hi.counts y.1).2 ⟨k, b, by rw [hi.probs]; exact hk, hb', .inr ?_⟩
      rcases (hp.lookup_iff hb y.1 y.2).1 ((mem_elems hb y.1 y.2).1 hy) with ⟨h, -⟩ | ⟨-, h⟩
      · rw [e] at h; simp at h
      · exact h

theorem order_add (hg : g = 0 ∨ g = 1) (old : List GroupId) (ho : old = [] ∨ old = orderOf g) :
    g ∈ old ++ ([0, 1] : List GroupId).filter (fun y => decide (y ∉ old)) ∧
    margLast g (old ++ ([0, 1] : List GroupId).filter (fun y => decide (y ∉ old))) = orderOf g := by
  rcases hg with rfl | rfl <;> rcases ho with rfl | rfl <;> decide

theorem Inv.order' (hi : Inv c g o st0 v0 s) : s.w.est.inc.ordering = [] ∨ s.w.est.inc.ordering = orderOf g := by
  rw [hi.order]; split <;> simp

end
end CalibLib
end Verif
