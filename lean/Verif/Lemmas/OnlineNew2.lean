import Verif.Lemmas.OnlineNew

/-! What holds in every round of the incremental 2D laser calibration. -/

namespace Verif
namespace OnlineNew
open Lrf
variable {V F M : Type}

/-- what holds between the rounds. -/
structure Inv (c : Cfg V F M) (g : GroupId) (o : EstOptions F) (st0 : Stats F M) (h0 : Heap V) (s : St V F M) : Prop where
  einv : EInv s.w
  opts : s.w.est.options = o
  marg : s.w.est.margGroup = g
  heap : s.w.heap = { h0 with params := s.w.heap.params }
  starts : ∀ i ∈ s.out.map Block.start, c.bs ∣ i ∧ i < c.steps ∧ IsBatch c i (s.w.B i)
  probs : s.w.est.inc.problems = accepted s.out
  groups : ∀ g', (AL.get g' s.w.est.inc.groups).getD [] = (groupOf c (accepted s.out) g').map c.ad.var
  order : s.w.est.inc.ordering = if accepted s.out = [] then [] else orderOf c.nl g
  stats : s.w.est.stats = prevStats st0 s.out
  theta : s.w.heap.params (c.ad.var .theta) = prevTheta (h0.params (c.ad.var .theta)) s.out
  valsN : lastAccepted s.out = none → ∀ l < c.nl, s.w.heap.params (c.ad.var (.lm l)) = h0.params (c.ad.var (.lm l))
  vals : ∀ b, lastAccepted s.out = some b → ∃ inp ∈ s.w.est.calls, inp.inc.problems = accepted s.out ∧
    ∀ d, s.w.est.inc.isDVInProblem d = true → s.w.heap.params d = (c.oracle b.start inp).params d
  dec : ∀ pre b post, s.out = pre ++ b :: post → Decided c g o st0 (h0.params (c.ad.var .theta)) pre b

theorem Inv.wired {c : Cfg V F M} {g o st0} {h0 : Heap V} {s : St V F M} (hi : Inv c g o st0 h0 s) (hw : Wired c.ad h0) :
    Wired c.ad s.w.heap := by
  rw [hi.heap]; exact hw

theorem accepted_append (l : List (Block V F M)) (b : Block V F M) :
    accepted (l ++ [b]) = accepted l ++ (if b.ret.batchAccepted then [b.start] else []) := by
  unfold accepted
  cases h : b.ret.batchAccepted <;> simp [List.filter_append, h]

theorem lastAccepted_append (l : List (Block V F M)) (b : Block V F M) :
    lastAccepted (l ++ [b]) = if b.ret.batchAccepted then some b else lastAccepted l := by
  unfold lastAccepted
  cases h : b.ret.batchAccepted <;> simp [List.filter_append, h]

theorem lastAccepted_none {l : List (Block V F M)} : lastAccepted l = none ↔ accepted l = [] := by
  simp [lastAccepted, accepted, List.getLast?_eq_none_iff]

theorem accepted_sub {l : List (Block V F M)} {i : Nat} (h : i ∈ accepted l) : i ∈ l.map Block.start := by
  unfold accepted at h
  obtain ⟨b, hb, rfl⟩ := List.mem_map.1 h
  exact List.mem_map.2 ⟨b, (List.mem_filter.1 hb).1, rfl⟩

theorem Inv.init (c : Cfg V F M) (mo : F) (g : GroupId) (o : EstOptions F) (h0 : Heap V) :
    Inv c g o (Estimator.initStats c.D mo c.m0) h0
      ⟨⟨fun _ => OptProblem.empty, h0, Estimator.construct c.D mo c.m0 g o⟩, []⟩ where
  einv := EInv.init _ _ _ _ _ _
  opts := rfl
  marg := rfl
  heap := rfl
  starts := by simp
  probs := rfl
  groups := by
    intro g'
    simp [Estimator.construct, IncProblem.empty, groupOf, accepted]
  order := by simp [Estimator.construct, IncProblem.empty, accepted]
  stats := rfl
  theta := rfl
  valsN := fun _ _ _ => rfl
  vals := by simp [lastAccepted]
  dec := by simp

/-- the world in which the batch is handed over. -/
def handOver (s : St V F M) (i : Nat) (p : OptProblem V) : EWorld V F M :=
  { s.w with B := fun b => if b = i then p else s.w.B b }

section
variable {c : Cfg V F M} {g : GroupId} {o : EstOptions F} {st0 : Stats F M} {h0 : Heap V} {s : St V F M} {i : Nat}
  {p : OptProblem V}

theorem Inv.not_in (hi : Inv c g o st0 h0 s) (hnew : i ∉ s.out.map Block.start) : i ∉ s.w.est.inc.problems := by
  rw [hi.probs]; exact fun h => hnew (accepted_sub h)

theorem Inv.handed (hi : Inv c g o st0 h0 s) (hnew : i ∉ s.out.map Block.start) (hb : BInv s.w.heap p) :
    EInv (handOver s i p) := by
  refine Camera.EInv.frame hi.einv rfl ?_ ?_
  · intro b
    simp only [handOver]
    split
    · exact hb
    · exact hi.einv.winv.batches b
  · intro b hbm
    simp only [handOver]
    rw [if_neg]
    rintro rfl
    exact hi.not_in hnew hbm

/-- the batches in the problem. -/
theorem Inv.inProblem (hi : Inv c g o st0 h0 s) {j : Nat} (hj : j ∈ s.w.est.inc.problems) :
    c.bs ∣ j ∧ j < c.steps ∧ IsBatch c j (s.w.B j) := by
  rw [hi.probs] at hj; exact hi.starts j (accepted_sub hj)

/-- which variables the problem holds. -/
theorem Inv.counts (hi : Inv c g o st0 h0 s) (hbs : 0 < c.bs) (d : DVId) :
    AL.get d s.w.est.inc.counts ≠ none ↔ ∃ j ∈ s.w.est.inc.problems, ∃ v, d = c.ad.var v ∧ Holds c j v := by
  have h1 := hi.einv.winv.zero d
  have h2 := useCount_pos_iff (B := s.w.B) (ps := s.w.est.inc.problems) (d := d)
  simp only [EWorld.toWorld] at h1
  rw [Ne, h1, ← Ne, ← Nat.pos_iff_ne_zero, h2]
  constructor
  · rintro ⟨j, hj, hk⟩
    obtain ⟨g', hg'⟩ := (AL.mem_keys_iff _ _).1 hk
    obtain ⟨-, h4, h5⟩ := hi.inProblem hj
    obtain ⟨v, e1, -, e3⟩ := (h5.lookup_iff (hi.einv.winv.batches j) h4 hbs d g').1 hg'
    exact ⟨j, hj, v, e1, e3⟩
  · rintro ⟨j, hj, v, e1, e3⟩
    obtain ⟨-, h4, h5⟩ := hi.inProblem hj
    exact ⟨j, hj, (AL.mem_keys_iff _ _).2 ⟨_, (h5.lookup_iff (hi.einv.winv.batches j) h4 hbs d _).2 ⟨v, e1, rfl, e3⟩⟩⟩

/-- the group of a variable of the problem. -/
theorem Inv.countGroup (hi : Inv c g o st0 h0 s) (hbs : 0 < c.bs) {v : Var} {n : Nat} {g' : GroupId}
    (h : AL.get (c.ad.var v) s.w.est.inc.counts = some (n, g')) : g' = varGroup v := by
  obtain ⟨j, hj, v', e1, e3⟩ := (hi.counts hbs (c.ad.var v)).1 (by rw [h]; simp)
  obtain rfl := c.ad.var_inj e1
  obtain ⟨-, h4, h5⟩ := hi.inProblem hj
  have := (h5.lookup_iff (hi.einv.winv.batches j) h4 hbs (c.ad.var v) (varGroup v)).2 ⟨v, rfl, rfl, e3⟩
  exact ((hi.einv.winv.some _ _ _ h).2 j hj _ this).symm

/-- a new state is in no other batch. -/
theorem Inv.state_new (hi : Inv c g o st0 h0 s) (hbs : 0 < c.bs) (hnew : i ∉ s.out.map Block.start) (hd : c.bs ∣ i) {k : Nat}
    (hk : k ∈ stepsOf c i) : AL.get (c.ad.var (.state k)) s.w.est.inc.counts = none := by
  by_contra hne
  obtain ⟨j, hj, v, e1, e3⟩ := (hi.counts hbs _).1 hne
  obtain rfl := c.ad.var_inj e1
  obtain ⟨h3, -, -⟩ := hi.inProblem hj
  have hij : i ≠ j := by rintro rfl; exact hi.not_in hnew hj
  simp only [Holds, mem_stepsOf] at e3
  rw [mem_stepsOf] at hk
  rcases starts_apart hd h3 hij with h | h <;> omega

theorem Inv.fits (hi : Inv c g o st0 h0 s) (hbs : 0 < c.bs) (hnew : i ∉ s.out.map Block.start) (hd : c.bs ∣ i) (hlt : i < c.steps)
    (hp : IsBatch c i p) (hb : BInv s.w.heap p) :
    (∀ d g, AL.get d p.lookup = some g → ∀ c g', AL.get d s.w.est.inc.counts = some (c, g') → g' = g) ∧
    (∀ e ∈ p.etLookup, ∀ b' ∈ s.w.est.inc.problems, e ∉ (s.w.B b').etLookup) := by
  refine ⟨?_, ?_⟩
  · intro d g1 hg n g' hc
    obtain ⟨v, rfl, rfl, -⟩ := (hp.lookup_iff hb hlt hbs d g1).1 hg
    exact hi.countGroup hbs hc
  · intro e he j hj he'
    obtain ⟨h3, h4, h5⟩ := hi.inProblem hj
    rw [hp.etLookup] at he
    rw [h5.etLookup] at he'
    obtain ⟨t, ht, rfl⟩ := List.mem_map.1 he
    obtain ⟨t', ht', e⟩ := List.mem_map.1 he'
    obtain rfl := c.ad.term_inj e
    have hij : i ≠ j := by rintro rfl; exact hi.not_in hnew hj
    have a1 := mem_termsOf hlt hbs ht
    have a2 := mem_termsOf h4 hbs ht'
    rcases starts_apart hd h3 hij with h | h <;> omega

theorem handOver_self (s : St V F M) (i : Nat) (p : OptProblem V) : (handOver s i p).B i = p := by simp [handOver]

theorem Inv.addable (hi : Inv c g o st0 h0 s) (hbs : 0 < c.bs) (hnew : i ∉ s.out.map Block.start) (hd : c.bs ∣ i) (hlt : i < c.steps)
    (hp : IsBatch c i p) (hb : BInv s.w.heap p) (hroom : s.w.est.inc.problems.length < IncProblem.maxBatches) :
    Addable (handOver s i p).B (handOver s i p).est.inc ((handOver s i p).B i) := by
  obtain ⟨h1, h2⟩ := hi.fits hbs hnew hd hlt hp hb
  rw [handOver_self]
  refine ⟨h1, ?_, hroom⟩
  intro e he b' hb'
  have : (handOver s i p).B b' = s.w.B b' := by
    simp only [handOver]; rw [if_neg]; rintro rfl; exact hi.not_in hnew hb'
  rw [this]; exact h2 e he b' hb'

/-- no room for another batch: the container of batches cannot grow. -/
theorem Inv.full (hi : Inv c g o st0 h0 s) (hbs : 0 < c.bs) (hnew : i ∉ s.out.map Block.start) (hd : c.bs ∣ i) (hlt : i < c.steps)
    (hp : IsBatch c i p) (hb : BInv s.w.heap p) (hroom : ¬ s.w.est.inc.problems.length < IncProblem.maxBatches) :
    ∃ w', (handOver s i p).addBatch c.D c.m0 (c.oracle i) (c.buildOk i) (some i) false = .throw .external w' := by
  obtain ⟨h1, h2⟩ := hi.fits hbs hnew hd hlt hp hb
  have hw : WInv (handOver s i p).toWorld := (hi.handed hnew hb).winv
  obtain ⟨q', hq, -⟩ := add_full hw (b := i) (by
      simp only [EWorld.toWorld, handOver_self]; exact h1) (by
      simp only [EWorld.toWorld, handOver_self]
      intro e he b' hb'
      have : (handOver s i p).B b' = s.w.B b' := by
        simp only [handOver]; rw [if_neg]; rintro rfl; exact hi.not_in hnew hb'
      rw [this]; exact h2 e he b' hb') hroom
  simp only [EWorld.toWorld] at hq
  refine ⟨(handOver s i p).setInc q', ?_⟩
  unfold EWorld.addBatch
  rw [hq]
  rfl

/-- the groups after the batch is added. -/
theorem Inv.groups_add (hi : Inv c g o st0 h0 s) (hbs : 0 < c.bs) (hnew : i ∉ s.out.map Block.start) (hd : c.bs ∣ i)
    (hlt : i < c.steps) (hp : IsBatch c i p) (hb : BInv s.w.heap p) {q1 : IncProblem V}
    (hr : AddResult (handOver s i p).toWorld i q1) (g' : GroupId) :
    (AL.get g' q1.groups).getD [] = (groupOf c (accepted s.out ++ [i]) g').map c.ad.var := by
  have hg := hr.groups g'
  rw [show (handOver s i p).toWorld.B i = p from handOver_self s i p] at hg
  have hbase : (AL.get g' (handOver s i p).est.inc.groups).getD [] = (groupOf c (accepted s.out) g').map c.ad.var := hi.groups g'
  have key : ((elems p).filter fun x => decide (x.2 = g' ∧ AL.get x.1 (handOver s i p).est.inc.counts = none)).map Prod.fst =
      if g' = 0 ∨ accepted s.out = [] then (groupOf c [i] g').map c.ad.var else [] := by
    have hmem : ∀ x ∈ elems p, ∃ v, x.1 = c.ad.var v ∧ x.2 = varGroup v ∧ Holds c i v := fun x hx =>
      (hp.lookup_iff hb hlt hbs x.1 x.2).1 ((mem_elems hb x.1 x.2).1 hx)
    by_cases hc : g' = 0 ∨ accepted s.out = []
    · rw [if_pos hc, ← hp.group hlt hbs, ← Camera.elems_filter hb]
      congr 1
      apply List.filter_congr
      intro x hx
      obtain ⟨v, e1, e2, e3⟩ := hmem x hx
      by_cases ex : x.2 = g'
      · have : AL.get x.1 (handOver s i p).est.inc.counts = none := by
          rw [e1]
          rcases hc with hc | hc
          · cases v with
            | state k => exact hi.state_new hbs hnew hd e3
            | lm l => rw [ex, hc] at e2; simp [varGroup] at e2
            | theta => rw [ex, hc] at e2; simp [varGroup] at e2
          · by_contra hne
            obtain ⟨j, hj, -⟩ := (hi.counts hbs _).1 hne
            rw [hi.probs, hc] at hj
            simp at hj
        simp [ex, this]
      · simp [ex]
    · rw [if_neg hc]
      push Not at hc
      rw [List.map_eq_nil_iff, List.filter_eq_nil_iff]
      intro x hx
      obtain ⟨v, e1, e2, e3⟩ := hmem x hx
      simp only [decide_eq_true_eq, not_and]
      intro ex
      rw [e1]
      obtain ⟨j, hj⟩ := List.exists_mem_of_ne_nil _ hc.2
      refine (hi.counts hbs _).2 ⟨j, by rw [hi.probs]; exact hj, v, rfl, ?_⟩
      cases v with
      | state k => rw [← ex, e2] at hc; exact absurd rfl hc.1
      | lm l => exact e3
      | theta => trivial
  refine hg.trans ((congrArg₂ (· ++ ·) hbase key).trans ?_)
  unfold groupOf
  by_cases h1 : g' = 0
  · subst h1
    simp [List.flatMap_append]
  · by_cases h2 : accepted s.out = []
    · simp [h1, h2]
    · simp [h1, h2]

end
end OnlineNew
end Verif
