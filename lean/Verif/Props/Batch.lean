import Verif.Lemmas.Batch
import Mathlib.Algebra.BigOperators.Group.List.Basic

/-! Properties C01 – C06: the batch container `OptimizationProblem`. -/

namespace Verif
variable {V : Type _}

/-! ## Specification: what a client program has put into the batch -/

/-- The accepted insertions since the last `clear`, in order. -/
structure BatchSpec where
  vars : List (DVId × GroupId)
  terms : List ETId

/-- Effect of one call, `accepted` telling whether it returned normally. -/
def BatchSpec.step (sp : BatchSpec) (op : BOp V) (accepted : Bool) : BatchSpec :=
  match accepted, op with
  | true, .addDV (some d) g => { sp with vars := sp.vars ++ [(d, g)] }
  | true, .addET (some e) => { sp with terms := sp.terms ++ [e] }
  | true, .clear => ⟨[], []⟩
  | _, _ => sp

/-- Replay of a program with the recorded outcomes. -/
def BatchSpec.replay : List (BOp V) → List Bool → BatchSpec → BatchSpec
  | op :: ops, b :: tr, sp => BatchSpec.replay ops tr (sp.step op b)
  | _, _, sp => sp

theorem batch_refines (ops : List (BOp V)) (tr : List Bool) (s t : OptProblem V × Heap V) (sp : BatchSpec)
    (hi : BInv s.2 s.1) (h1 : s.1.lookup = sp.vars) (h2 : s.1.etLookup = sp.terms)
    (h : BOp.run ops s = .ok tr t) :
    BInv t.2 t.1 ∧ t.1.lookup = (BatchSpec.replay ops tr sp).vars ∧
      t.1.etLookup = (BatchSpec.replay ops tr sp).terms := by
  induction ops generalizing s tr sp with
  | nil =>
    simp [BOp.run] at h; obtain ⟨rfl, rfl⟩ := h
    exact ⟨hi, h1, h2⟩
  | cons op ops ih =>
    obtain ⟨b, tr', s', rfl, h3, h4⟩ := BOp.run_cons h
    have heff := BOp.step_eff hi h3
    have : s'.1.lookup = (sp.step op b).vars ∧ s'.1.etLookup = (sp.step op b).terms := by
      cases heff with
      | fail => exact ⟨h1, h2⟩
      | heap hop hh he => cases op <;> simp [BOp.heapOnly] at hop <;> exact ⟨h1, h2⟩
      | addDV d g hop hd => subst hop; exact ⟨by simp [OptProblem.withDV, BatchSpec.step, h1], h2⟩
      | addET e hop he hd => subst hop; exact ⟨h1, by simp [BatchSpec.step, h2]⟩
      | clear hop => subst hop; exact ⟨rfl, rfl⟩
      | order o hop ho => subst hop; exact ⟨h1, h2⟩
      | permET ok perm hop l hl => subst hop; cases b <;> exact ⟨h1, h2⟩
      | permDV ok perm g hop l l' hg hl => subst hop; cases b <;> exact ⟨h1, h2⟩
      | save hop => subst hop; exact ⟨h1, h2⟩
    exact ih _ _ _ (heff.inv hi) this.1 this.2 h4

theorem batch_reach {ops : List (BOp V)} {tr : List Bool} {h0 : Heap V} {p : OptProblem V} {h : Heap V}
    (hrun : BOp.run ops (OptProblem.empty, h0) = .ok tr (p, h)) :
    BInv h p ∧ p.lookup = (BatchSpec.replay ops tr ⟨[], []⟩).vars ∧
      p.etLookup = (BatchSpec.replay ops tr ⟨[], []⟩).terms :=
  batch_refines ops tr (OptProblem.empty, h0) (p, h) ⟨[], []⟩ (BInv.empty _) rfl rfl hrun

theorem mem_iff_get {K W : Type _} [DecidableEq K] {l : List (K × W)} (hn : (AL.keys l).Nodup) (k : K) (w : W) :
    (k, w) ∈ l ↔ AL.get k l = some w := ⟨AL.get_of_mem hn, AL.get_mem⟩

/-- **C01.** After every client program, `designVariable(0..n-1)` enumerates exactly the accepted variables,
once each, group after group in `getGroupsOrdering()` order, larger indices throw; `getGroupId` and
`isDesignVariableInProblem` agree; the groups ordering lists exactly the groups in use, once each; and no
program makes the container access memory out of range. -/
theorem C01_batch_enumeration (h0 : Heap V) (ops : List (BOp V)) :
    BOp.run ops (OptProblem.empty, h0) ≠ .ub ∧
    ∀ tr p h, BOp.run ops (OptProblem.empty, h0) = .ok tr (p, h) →
      let sp := BatchSpec.replay ops tr ⟨[], []⟩
      p.numDesignVariables = sp.vars.length ∧
      (∃ e : List DVId, e.Perm (sp.vars.map Prod.fst) ∧ e.Nodup ∧
        (∀ i : Nat, p.designVariable i =
          match e[i]? with | some d => .ok d () | none => .throw .outOfBound ()) ∧
        e = p.ordering.flatMap fun g => e.filter fun d => decide ((d, g) ∈ sp.vars)) ∧
      (∀ d, p.isDVInProblem d = true ↔ ∃ g, (d, g) ∈ sp.vars) ∧
      (∀ d g, p.getGroupId d = .ok g () ↔ (d, g) ∈ sp.vars) ∧
      (∀ d, (∀ g, (d, g) ∉ sp.vars) → p.getGroupId d = .throw .invalidOperation ()) ∧
      p.ordering.Nodup ∧ (∀ g, g ∈ p.ordering ↔ ∃ d, (d, g) ∈ sp.vars) := by
  constructor
  · suffices ∀ (ops : List (BOp V)) s, BOp.run ops s ≠ .ub from this _ _
    intro ops
    induction ops with
    | nil => simp [BOp.run]
    | cons op ops ih =>
      intro s
      rw [BOp.run]
      split
      · rename_i s' _; have := ih s'; cases hr : BOp.run ops s' <;> simp_all [Res.bind]
      · rename_i s' _; have := ih s'; cases hr : BOp.run ops s' <;> simp_all [Res.bind]
      · rename_i hs; exact absurd hs (BOp.step_not_ub _ _)
      · simp
  · intro tr p h hrun
    obtain ⟨hi, hv, ht⟩ := batch_reach hrun
    simp only
    rw [← hv]
    have hmem : ∀ d g, (d, g) ∈ p.lookup ↔ AL.get d p.lookup = some g := mem_iff_get hi.lk
    refine ⟨rfl, ⟨enumDV p.groups p.ordering, hi.g.enum_perm hi.lk (fun d => AL.mem_keys_iff _ _),
      hi.g.nodup_enum, designVariable_eq hi, ?_⟩, ?_, ?_, ?_, hi.g.nodupO, ?_⟩
    · simp only [hmem]; exact hi.g.enum_grouped
    · intro d; simp only [hmem, OptProblem.isDVInProblem, AL.has_iff, AL.mem_keys_iff]
    · intro d g
      rw [hmem, OptProblem.getGroupId]
      cases AL.get d p.lookup <;> simp
    · intro d hd
      simp only [hmem] at hd
      rw [OptProblem.getGroupId]
      cases hg : AL.get d p.lookup with
      | none => rfl
      | some g => exact absurd hg (hd g)
    · intro g
      simp only [hmem]
      rw [hi.g.ord, AL.mem_keys_iff]
      constructor
      · rintro ⟨l, hl⟩
        obtain ⟨d, hd⟩ := List.exists_mem_of_ne_nil l (hi.g.ne g l hl)
        exact ⟨d, (hi.g.mem g l hl d).1 hd⟩
      · rintro ⟨d, hd⟩
        exact (AL.mem_keys_iff _ _).1 (hi.g.has d g hd)

/-- Test heap. -/
def heap0 : Heap Nat := ⟨fun _ => true, fun d => d + 1, fun d => 10 * d, fun e => [e, e + 1], fun _ => 1⟩

/-- A program with two groups, a duplicate (rejected), a reordering and an error term. -/
def prog0 : List (BOp Nat) :=
  [.addDV (some 5) 1, .addDV (some 3) 0, .addDV (some 4) 1, .addDV (some 3) 2, .addET (some 3),
   .addET (some 7), .setOrdering [0, 1], .permDV [1, 0] 1, .addDV none 3]

/-- The components of the final state that the examples display. -/
def Res.view {σ α τ : Type _} (r : Res σ α) (f : σ → τ) : Option (α × τ) :=
  match r with
  | .ok a s => some (a, f s)
  | _ => none

example : (BOp.run prog0 (OptProblem.empty, heap0)).view
      (fun s => ((List.range 4).map s.1.designVariable, s.1.ordering)) =
    some ([true, true, true, false, true, false, true, true, false],
      [.ok 3 (), .ok 4 (), .ok 5 (), .throw .outOfBound ()], [0, 1]) := by decide

/-- **C01 (order).** In programs without `permuteDesignVariables` the enumeration is, group after group, the
order of insertion. -/
theorem C01_batch_insertion_order (h0 : Heap V) (ops : List (BOp V)) (tr p h)
    (hno : ∀ op ∈ ops, ∀ perm g, op ≠ .permDV perm g)
    (hrun : BOp.run ops (OptProblem.empty, h0) = .ok tr (p, h)) :
    let sp := BatchSpec.replay ops tr ⟨[], []⟩
    let e := p.ordering.flatMap fun g => (sp.vars.filter fun x => decide (x.2 = g)).map Prod.fst
    ∀ i : Nat, p.designVariable i = match e[i]? with | some d => .ok d () | none => .throw .outOfBound () := by
  have key : ∀ (ops : List (BOp V)) (s t : OptProblem V × Heap V) tr,
      (∀ op ∈ ops, ∀ perm g, op ≠ .permDV perm g) → BInv s.2 s.1 →
      (∀ g l, AL.get g s.1.groups = some l → l = (s.1.lookup.filter fun x => decide (x.2 = g)).map Prod.fst) →
      BOp.run ops s = .ok tr t →
      (∀ g l, AL.get g t.1.groups = some l → l = (t.1.lookup.filter fun x => decide (x.2 = g)).map Prod.fst) := by
    intro ops
    induction ops with
    | nil => intro s t tr _ _ h1 h2; simp [BOp.run] at h2; rw [← h2.2]; exact h1
    | cons op ops ih =>
      intro s t tr hno hi h1 h2
      obtain ⟨b, tr', s', -, h3, h4⟩ := BOp.run_cons h2
      have heff := BOp.step_eff hi h3
      refine ih s' t tr' (fun o ho => hno o (by simp [ho])) (heff.inv hi) ?_ h4
      cases heff with
      | fail => exact h1
      | heap hop hh he => exact h1
      | addDV d g hop hd =>
        intro g' l hl
        simp only [OptProblem.withDV] at hl ⊢
        rw [AL.get_set] at hl
        rw [List.filter_append, List.map_append]
        split at hl
        · rename_i e; subst e
          injection hl with hl
          subst hl
          cases hg : AL.get g s.1.groups with
          | none =>
            have : s.1.lookup.filter (fun x => decide (x.2 = g)) = [] := by
              rw [List.filter_eq_nil_iff]
              rintro ⟨d', g'⟩ hx
              simp only [decide_eq_true_eq]
              rintro rfl
              have := hi.g.has d' g' (AL.get_of_mem hi.lk hx)
              rw [AL.mem_keys_iff, hg] at this
              simp at this
            simp [this]
          | some l => simp [h1 g l hg]
        · rename_i hne
          simp [hne, h1 g' l hl]
      | addET e hop he hd => exact h1
      | clear hop => intro g l hl; simp [OptProblem.empty] at hl
      | order o hop ho => exact h1
      | permET ok perm hop l hl => exact h1
      | permDV ok perm g hop l l' hg hl => exact absurd hop (hno op (by simp) perm g)
      | save hop => exact h1
  obtain ⟨hi, hv, -⟩ := batch_reach hrun
  have hg := key ops (OptProblem.empty, h0) (p, h) tr hno (BInv.empty _) (by simp [OptProblem.empty]) hrun
  intro sp e
  have : e = enumDV p.groups p.ordering := by
    have : ∀ o : List GroupId, (∀ g ∈ o, g ∈ p.ordering) →
        (o.flatMap fun g => (sp.vars.filter fun x => decide (x.2 = g)).map Prod.fst) = enumDV p.groups o := by
      intro o ho
      induction o with
      | nil => rfl
      | cons g o ih =>
        obtain ⟨l, hl⟩ := (AL.mem_keys_iff _ _).1 ((hi.g.ord g).1 (ho g (by simp)))
        simp only [enumDV, List.flatMap_cons, hl, Option.getD_some]
        rw [ih (fun g hg => ho g (by simp [hg]))]
        have := hg g l hl
        simp only [hv] at this
        rw [this]
        rfl
    exact this _ (fun g hg => hg)
  rw [this]
  exact designVariable_eq hi

example : (∀ op ∈ ([.addDV (some 5) 1, .addDV (some 3) 0, .addDV (some 4) 1] : List (BOp Nat)),
      ∀ perm g, op ≠ .permDV perm g) ∧
    (BOp.run [.addDV (some 5) 1, .addDV (some 3) 0, .addDV (some 4) 1] (OptProblem.empty, heap0)).view
      (fun s => (List.range 3).map s.1.designVariable) =
    some ([true, true, true], [.ok 5 (), .ok 4 (), .ok 3 ()]) := by
  constructor
  · simp
  · decide

/-- **C01/C02 (acceptance).** After every program, `addDesignVariable(d,g)` is accepted iff `d` is a non-null
variable not yet in the batch; `addErrorTerm(e)` iff `e` is a non-null term not yet in the batch all of whose
variables are. -/
theorem C02_batch_acceptance (h0 : Heap V) (ops : List (BOp V)) (tr p h)
    (hrun : BOp.run ops (OptProblem.empty, h0) = .ok tr (p, h)) :
    let sp := BatchSpec.replay ops tr ⟨[], []⟩
    (∀ d g, (p.addDesignVariable d g).isOk = true ↔ ∃ d', d = some d' ∧ ∀ g', (d', g') ∉ sp.vars) ∧
    (∀ e, (OptProblem.addErrorTerm h p e).isOk = true ↔
      ∃ e', e = some e' ∧ e' ∉ sp.terms ∧ ∀ d ∈ h.etDVs e', ∃ g, (d, g) ∈ sp.vars) := by
  obtain ⟨hi, hv, ht⟩ := batch_reach hrun
  simp only
  rw [← hv, ← ht]
  have hmem : ∀ d g, (d, g) ∈ p.lookup ↔ AL.get d p.lookup = some g := mem_iff_get hi.lk
  simp only [hmem]
  constructor
  · intro d g
    rw [addDV_eq]
    cases d with
    | none => simp [Res.isOk]
    | some d =>
      simp only [Option.some.injEq]
      by_cases hd : d ∈ AL.keys p.lookup
      · simp only [hd, if_true, Res.isOk]
        obtain ⟨g', hg'⟩ := (AL.mem_keys_iff _ _).1 hd
        simp
        exact ⟨g', hg'⟩
      · simp only [hd, if_false, Res.isOk]
        have := (AL.get_eq_none_iff _ _).2 hd
        simp [this]
  · intro e
    rw [addET_eq]
    cases e with
    | none => simp [Res.isOk]
    | some e =>
      simp only [Option.some.injEq, ← AL.mem_keys_iff]
      split
      · rename_i hc
        simp only [Res.isOk, Bool.false_eq_true, false_iff]
        rintro ⟨e', rfl, h1, h2⟩
        rcases hc with hc | hc
        · exact h1 hc
        · exact hc h2
      · rename_i hc
        rw [not_or, not_not] at hc
        simp only [Res.isOk, true_iff]
        exact ⟨e, rfl, hc⟩

/-- **C02.** After every client program the error terms are exactly the accepted ones, without repetition,
`errorTerm(i)` enumerates them and throws beyond the end, and each depends only on variables of the batch.
`getErrors(d)` returns exactly the terms depending on `d`. -/
theorem C02_batch_error_terms (h0 : Heap V) (ops : List (BOp V)) (tr p h)
    (hrun : BOp.run ops (OptProblem.empty, h0) = .ok tr (p, h)) :
    let sp := BatchSpec.replay ops tr ⟨[], []⟩
    p.numErrorTerms = sp.terms.length ∧
    (∃ t : List ETId, t.Perm sp.terms ∧ t.Nodup ∧
      (∀ i : Nat, p.errorTerm i =
        match t[i]? with | some e => .ok e () | none => .throw .outOfBound ())) ∧
    (∀ e, p.isETInProblem e = true ↔ e ∈ sp.terms) ∧
    (∀ e ∈ sp.terms, ∀ d ∈ h.etDVs e, ∃ g, (d, g) ∈ sp.vars) ∧
    (∀ d e, e ∈ OptProblem.getErrors h p d ↔ e ∈ sp.terms ∧ d ∈ h.etDVs e) := by
  obtain ⟨hi, hv, ht⟩ := batch_reach hrun
  simp only
  rw [← hv, ← ht]
  have hmem : ∀ d g, (d, g) ∈ p.lookup ↔ AL.get d p.lookup = some g := mem_iff_get hi.lk
  simp only [hmem]
  refine ⟨rfl, ⟨p.errorTerms, hi.et, hi.et.nodup_iff.2 hi.etn, ?_⟩, ?_, ?_, ?_⟩
  · intro i
    simp only [OptProblem.errorTerm]
    cases p.errorTerms[i]? <;> rfl
  · intro e; simp [OptProblem.isETInProblem]
  · intro e he d hd; exact (AL.mem_keys_iff _ _).1 (hi.cl e he d hd)
  · intro d e; simp [OptProblem.getErrors, hi.et.mem_iff]

example : (BOp.run (prog0 ++ [.addDV (some 8) 0, .addDV (some 7) 0, .addET (some 7), .permET [1, 0]])
      (OptProblem.empty, heap0)).view (fun s => (List.range 3).map s.1.errorTerm) =
    some ([true, true, true, false, true, false, true, true, false, true, true, true, true],
      [.ok 7 (), .ok 3 (), .throw .outOfBound ()]) := by decide

/-- **C03 (what holds).** In every state, a throwing `addDesignVariable`, `addErrorTerm`,
`setGroupsOrdering`, or a throwing `permuteDesignVariables` on an unknown group, leaves the batch exactly as it
was; a throwing permutation keeps the elements but possibly in another order.
Missing (and false, see `C03_permute_not_exception_safe`): unchanged order after a throwing permutation. -/
theorem C03_batch_exception_safety_partial (p : OptProblem V) (h : Heap V) :
    (∀ d g e p', p.addDesignVariable d g = .throw e p' → p' = p) ∧
    (∀ et e p', OptProblem.addErrorTerm h p et = .throw e p' → p' = p) ∧
    (∀ o e p', p.setGroupsOrdering o = .throw e p' → p' = p) ∧
    (∀ perm g e p', p.permuteDesignVariables perm g = .throw e p' →
      (p.isGroupInProblem g = false → p' = p) ∧
      ∃ l, l.Perm ((AL.get g p.groups).getD []) ∧
        (p.isGroupInProblem g = true → p' = { p with groups := AL.set g l p.groups })) ∧
    (∀ perm e p', p.permuteErrorTerms perm = .throw e p' →
      ∃ l, l.Perm p.errorTerms ∧ p' = { p with errorTerms := l }) := by
  refine ⟨?_, ?_, ?_, ?_, ?_⟩
  · intro d g e p' hh
    rw [addDV_eq] at hh
    split at hh
    · simp at hh; exact hh.2.symm
    · split at hh
      · simp at hh; exact hh.2.symm
      · simp at hh
  · intro et e p' hh
    rw [addET_eq] at hh
    split at hh
    · simp at hh; exact hh.2.symm
    · split at hh
      · simp at hh; exact hh.2.symm
      · simp at hh
  · intro o e p' hh
    unfold OptProblem.setGroupsOrdering at hh
    split at hh
    · simp at hh; exact hh.2.symm
    · split at hh
      · simp at hh
      · simp at hh; exact hh.2.symm
  · intro perm g e p' hh
    unfold OptProblem.permuteDesignVariables at hh
    cases hg : AL.get g p.groups with
    | none =>
      rw [hg] at hh; simp at hh
      refine ⟨fun _ => hh.2.symm, [], by simp, ?_⟩
      intro hgi
      simp [OptProblem.isGroupInProblem, AL.has, hg] at hgi
    | some l =>
      rw [hg] at hh
      obtain ⟨l', h1, rfl⟩ := mapState_throw hh
      refine ⟨?_, l', permute_state_perm (perm := perm) (by rw [Option.getD_some, h1]; rfl), fun _ => rfl⟩
      intro hgi
      simp [OptProblem.isGroupInProblem, AL.has, hg] at hgi
  · intro perm e p' hh
    obtain ⟨l', h1, rfl⟩ := mapState_throw hh
    exact ⟨l', permute_state_perm (by rw [h1]; rfl), rfl⟩

example : (OptProblem.empty : OptProblem Nat).addDesignVariable none 0 = .throw .nullPointer OptProblem.empty := by
  rfl

/-- **C03 is false of the code** for permutations: a reachable batch with three error terms whose
`permuteErrorTerms({1,5,0})` throws after having already swapped two terms. -/
theorem C03_permute_not_exception_safe :
    ∃ (ops : List (BOp Nat)) (tr : List Bool) (p : OptProblem Nat) (h : Heap Nat) (p' : OptProblem Nat) (e : Exc),
      BOp.run ops (OptProblem.empty, heap0) = .ok tr (p, h) ∧
      p.permuteErrorTerms [1, 5, 0] = .throw e p' ∧ p.errorTerm 0 = .ok 0 () ∧ p'.errorTerm 0 = .ok 1 () := by
  refine ⟨[.addDV (some 0) 0, .addDV (some 1) 0, .addDV (some 2) 0, .addDV (some 3) 0,
    .addET (some 0), .addET (some 1), .addET (some 2)], [true, true, true, true, true, true, true],
    ⟨[(0,0),(1,0),(2,0),(3,0)], [0,1,2], [(0,[0,1,2,3])], [0,1,2], [0], []⟩, heap0,
    ⟨[(0,0),(1,0),(2,0),(3,0)], [0,1,2], [(0,[0,1,2,3])], [1,0,2], [0], []⟩, .outOfBound, ?_, ?_, ?_, ?_⟩
  all_goals rfl

/-- **C04.** After every program `setGroupsOrdering(o)` succeeds iff `o` is a permutation of the current
groups ordering; on success only the ordering changes and becomes `o`. -/
theorem C04_batch_set_groups_ordering (h0 : Heap V) (ops : List (BOp V)) (tr p h)
    (hrun : BOp.run ops (OptProblem.empty, h0) = .ok tr (p, h)) (o : List GroupId) :
    (o.Perm p.ordering → p.setGroupsOrdering o = .ok () { p with ordering := o }) ∧
    (¬ o.Perm p.ordering → p.setGroupsOrdering o = .throw .outOfBound p) := by
  obtain ⟨hi, -, -⟩ := batch_reach hrun
  rcases setOrdering_eq hi o with ⟨h1, h2⟩ | ⟨h1, h2⟩
  · exact ⟨fun _ => h2, fun h => absurd h1 h⟩
  · exact ⟨fun h => absurd h h1, fun _ => h2⟩

example : (BOp.run prog0 (OptProblem.empty, heap0)).view (fun s => (s.1.setGroupsOrdering [1, 0]).isOk) =
    some ([true, true, true, false, true, false, true, true, false], true) ∧
    (BOp.run prog0 (OptProblem.empty, heap0)).view (fun s => (s.1.setGroupsOrdering [1, 1]).isOk) =
    some ([true, true, true, false, true, false, true, true, false], false) := by decide

/-! ### C05 -/

/-- Jacobian columns needed by a list of variables: the minimal dimensions of the active ones. -/
def activeDim (h : Heap V) (l : List DVId) : Nat :=
  (l.map fun d => if h.active d then h.minDim d else 0).sum

theorem dimLoop_eq (h : Heap V) (l : List DVId) (n : Nat) : OptProblem.dimLoop h l n = n + activeDim h l := by
  induction l generalizing n with
  | nil => simp [OptProblem.dimLoop, activeDim]
  | cons d l ih =>
    rw [OptProblem.dimLoop, ih]
    simp only [activeDim, List.map_cons, List.sum_cons]
    split <;> omega

theorem sum_activeDim (h : Heap V) (groups : List (GroupId × List DVId)) (o : List GroupId) :
    (o.map fun g => activeDim h ((AL.get g groups).getD [])).sum = activeDim h (enumDV groups o) := by
  induction o with
  | nil => simp [activeDim, enumDV]
  | cons g o ih =>
    rw [List.map_cons, List.sum_cons, ih]
    simp only [enumDV, List.flatMap_cons, activeDim, List.map_append, List.sum_append]

/-- **C05.** After every program, for every activity pattern and dimensions: each group's dimension is the sum
of the minimal dimensions of its active variables, the dimensions over `getGroupsOrdering()` sum up to that of
all enumerated variables, and unknown groups throw. -/
theorem C05_batch_group_dims (h0 : Heap V) (ops : List (BOp V)) (tr p h)
    (hrun : BOp.run ops (OptProblem.empty, h0) = .ok tr (p, h)) :
    let sp := BatchSpec.replay ops tr ⟨[], []⟩
    (∀ g, (∃ d, (d, g) ∈ sp.vars) → OptProblem.getGroupDim h p g =
      .ok (activeDim h ((sp.vars.filter fun x => decide (x.2 = g)).map Prod.fst)) ()) ∧
    (∀ g, (∀ d, (d, g) ∉ sp.vars) → OptProblem.getGroupDim h p g = .throw .outOfBound ()) ∧
    ∃ dims : List Nat, p.ordering.map (OptProblem.getGroupDim h p) = dims.map (fun n => .ok n ()) ∧
      dims.sum = activeDim h (sp.vars.map Prod.fst) := by
  obtain ⟨hi, hv, ht⟩ := batch_reach hrun
  simp only
  rw [← hv]
  have hmem : ∀ d g, (d, g) ∈ p.lookup ↔ AL.get d p.lookup = some g := mem_iff_get hi.lk
  have hget : ∀ g l, AL.get g p.groups = some l →
      OptProblem.getGroupDim h p g = .ok (activeDim h l) () := by
    intro g l hl
    simp [OptProblem.getGroupDim, OptProblem.getGroup, hl, dimLoop_eq]
  have hin : ∀ g d, (d, g) ∈ p.lookup → ∃ l, AL.get g p.groups = some l := by
    intro g d hd
    exact (AL.mem_keys_iff _ _).1 (hi.g.has d g ((hmem d g).1 hd))
  refine ⟨?_, ?_, ?_⟩
  · rintro g ⟨d, hd⟩
    obtain ⟨l, hl⟩ := hin g d hd
    rw [hget g l hl]
    congr 1
    unfold activeDim
    apply List.Perm.sum_eq
    apply List.Perm.map
    rw [List.perm_ext_iff_of_nodup (hi.g.nodupL g l hl)]
    · intro d'
      rw [hi.g.mem g l hl, ← hmem]
      simp
    · have : ((p.lookup.filter fun x => decide (x.2 = g)).map Prod.fst).Sublist (AL.keys p.lookup) :=
        List.Sublist.map _ List.filter_sublist
      exact this.nodup hi.lk
  · intro g hg
    cases hl : AL.get g p.groups with
    | none => simp [OptProblem.getGroupDim, OptProblem.getGroup, hl]
    | some l =>
      obtain ⟨d, hd⟩ := List.exists_mem_of_ne_nil l (hi.g.ne g l hl)
      exact absurd ((hmem d g).2 ((hi.g.mem g l hl d).1 hd)) (hg d)
  · refine ⟨p.ordering.map fun g => activeDim h ((AL.get g p.groups).getD []), ?_, ?_⟩
    · rw [List.map_map]
      apply List.map_congr_left
      intro g hg
      obtain ⟨l, hl⟩ := (AL.mem_keys_iff _ _).1 ((hi.g.ord g).1 hg)
      simp [hget g l hl, hl]
    · rw [sum_activeDim]
      unfold activeDim
      apply List.Perm.sum_eq
      apply List.Perm.map
      exact hi.g.enum_perm hi.lk (fun d => AL.mem_keys_iff _ _)

example : (BOp.run (prog0 ++ [.setActive 4 false]) (OptProblem.empty, heap0)).view
      (fun s => [OptProblem.getGroupDim s.2 s.1 0, OptProblem.getGroupDim s.2 s.1 1,
        OptProblem.getGroupDim s.2 s.1 7]) =
    some ([true, true, true, false, true, false, true, true, false, true],
      [.ok 4 (), .ok 6 (), .throw .outOfBound ()]) := by decide

/-! ### C06 -/

/-- **C06.** Save in any reachable state; run any program without `save` and `clear` (values may change
arbitrarily, variables may be added, other restores may happen); restore: every variable that was in the batch
when saving has the saved value, every other variable keeps the value it had just before, nothing but values
changes.  The result does not depend on the iteration order of the hash map. -/
theorem C06_batch_save_restore (h0 : Heap V) (ops1 ops2 : List (BOp V)) (tr1 tr2 p1 h1 p2 h2)
    (hrun1 : BOp.run ops1 (OptProblem.empty, h0) = .ok tr1 (p1, h1))
    (hno : ∀ op ∈ ops2, op ≠ .save ∧ op ≠ .clear)
    (hrun2 : BOp.run ops2 (OptProblem.saveDesignVariables h1 p1, h1) = .ok tr2 (p2, h2)) :
    let h3 := p2.restoreDesignVariables h2
    (∀ d, h3.params d = if p1.isDVInProblem d then h1.params d else h2.params d) ∧
    h3.active = h2.active ∧ h3.minDim = h2.minDim ∧ h3.etDVs = h2.etDVs ∧ h3.etDim = h2.etDim ∧
    ∀ b : List (DVId × V), b.Perm p2.backup → (OptProblem.restoreLoop b h2).params = h3.params := by
  obtain ⟨hi1, -, -⟩ := batch_reach hrun1
  have hi1' := hi1.save h1
  -- the backup does not change in `ops2`
  have hb : ∀ (ops : List (BOp V)) (s t : OptProblem V × Heap V) tr, BInv s.2 s.1 →
      (∀ op ∈ ops, op ≠ .save ∧ op ≠ .clear) → BOp.run ops s = .ok tr t → t.1.backup = s.1.backup := by
    intro ops
    induction ops with
    | nil => intro s t tr _ _ h; simp [BOp.run] at h; rw [h.2]
    | cons op ops ih =>
      intro s t tr hi hno h
      obtain ⟨b, tr', s', -, h3, h4⟩ := BOp.run_cons h
      have heff := BOp.step_eff hi h3
      rw [ih s' t tr' (heff.inv hi) (fun o ho => hno o (by simp [ho])) h4]
      cases heff with
      | fail => rfl
      | heap hop hh he => rfl
      | addDV d g hop hd => rfl
      | addET e hop he hd => rfl
      | clear hop => exact absurd hop (hno op (by simp)).2
      | order o hop ho => rfl
      | permET ok perm hop l hl => rfl
      | permDV ok perm g hop l l' hg hl => rfl
      | save hop => exact absurd hop (hno op (by simp)).1
  have hbk := hb ops2 _ _ tr2 hi1' hno hrun2
  have hi2 : BInv h2 p2 := BOp.run_inv (s := (_, h1)) (t := (p2, h2)) hi1' hrun2
  have hget : ∀ d, AL.get d p2.backup = if d ∈ AL.keys p1.lookup then some (h1.params d) else none := by
    intro d
    simp only at hbk
    rw [hbk]
    simp only [OptProblem.saveDesignVariables]
    rw [saveLoop_get]
    by_cases h : d ∈ AL.keys p1.lookup
    · simp [h]
    · simp only [h, if_false]
      rw [AL.get_eq_none_iff]
      exact fun hh => h (hi1.bk d hh)
  have hrest := restoreLoop_rest p2.backup h2
  refine ⟨?_, hrest.1, hrest.2.1, hrest.2.2.1, hrest.2.2.2, ?_⟩
  · intro d
    rw [OptProblem.restoreDesignVariables, restoreLoop_params _ hi2.bkn, hget]
    by_cases h : d ∈ AL.keys p1.lookup
    · simp [h, OptProblem.isDVInProblem, (AL.has_iff _ _).2 h]
    · simp [h, OptProblem.isDVInProblem, (AL.has_eq_false_iff _ _).2 h]
  · intro b hperm
    have hkp : (AL.keys b).Perm (AL.keys p2.backup) := hperm.map _
    have hnb : (AL.keys b).Nodup := hkp.nodup_iff.2 hi2.bkn
    funext d
    rw [OptProblem.restoreDesignVariables, restoreLoop_params _ hi2.bkn, restoreLoop_params _ hnb]
    congr 1
    cases hx : AL.get d p2.backup with
    | none => rw [AL.get_eq_none_iff] at hx ⊢; rwa [hkp.mem_iff]
    | some v => exact AL.get_of_mem hnb (hperm.mem_iff.2 (AL.get_mem hx))

example :
    (BOp.run [.addDV (some 5) 1, .save, .setValue 5 77, .addDV (some 6) 1, .setValue 6 78, .restore]
      (OptProblem.empty, heap0)).view (fun s => (s.2.params 5, s.2.params 6)) =
    some ([true, true, true, true, true, true], 50, 78) := by decide

end Verif
