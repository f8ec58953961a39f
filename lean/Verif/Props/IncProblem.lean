import Verif.Lemmas.IncMore
import Verif.Props.Batch

/-! Properties C10 – C17 (and C04 – C06 for the incremental problem, C48):
`IncrementalOptimizationProblem`.

Histories (`Reach h0 w`): any sequence of calls on the incremental problem and on any number of batches,
starting from freshly constructed objects, in which every `add` of a batch was accepted (what a rejected `add`
does is C15) and a batch contained in the problem is not given new variables or error terms and not cleared. -/

namespace Verif
variable {V : Type _}
open IncProblem

/-- Batch `b` of world `w` holds variable `d` in group `g`. -/
def World.Holds (w : World V) (b : BatchId) (d : DVId) (g : GroupId) : Prop := (w.B b).getGroupId d = .ok g ()

theorem holds_iff (w : World V) (b : BatchId) (d : DVId) (g : GroupId) :
    w.Holds b d g ↔ AL.get d (w.B b).lookup = some g := by
  unfold World.Holds OptProblem.getGroupId
  cases AL.get d (w.B b).lookup <;> simp

theorem inc_getGroupId_iff (q : IncProblem V) (d : DVId) (g : GroupId) :
    q.getGroupId d = .ok g () ↔ (AL.get d q.counts).map Prod.snd = some g := by
  unfold IncProblem.getGroupId
  cases AL.get d q.counts <;> simp

theorem WInv.group_iff {w : World V} (hw : WInv w) (d : DVId) (g : GroupId) :
    (AL.get d w.inc.counts).map Prod.snd = Option.some g ↔ ∃ b ∈ w.inc.problems, w.Holds b d g := by
  simp only [holds_iff]
  constructor
  · intro h
    cases hc : AL.get d w.inc.counts with
    | none => rw [hc] at h; simp at h
    | some x =>
      obtain ⟨c, g'⟩ := x
      rw [hc] at h; simp at h; subst h
      have h1 := hw.some d c g' hc
      have hpos : 0 < useCount w.B w.inc.problems d := by
        rcases Nat.eq_zero_or_pos (useCount w.B w.inc.problems d) with h0 | h0
        · rw [(hw.zero d).2 h0] at hc; simp at hc
        · exact h0
      obtain ⟨b, hb, hd⟩ := useCount_pos_iff.1 hpos
      obtain ⟨g, hg⟩ := (AL.mem_keys_iff _ _).1 hd
      exact ⟨b, hb, by rw [hg, h1.2 b hb g hg]⟩
  · rintro ⟨b, hb, hg⟩
    have := useCount_pos hb ((AL.mem_keys_iff d _).2 ⟨g, hg⟩)
    cases hc : AL.get d w.inc.counts with
    | none => rw [(hw.zero d).1 hc] at this; omega
    | some x =>
      obtain ⟨c, g'⟩ := x
      simp [(hw.some d c g' hc).2 b hb g hg]

/-- **C10.** A variable is in the incremental problem iff some contained batch holds it; its use count is the
number of contained batches holding it; `getGroupId` returns `g` iff some contained batch has it in group `g`,
and then all contained batches holding it agree. -/
theorem C10_inc_counts {h0 : Heap V} {w : World V} (h : Reach h0 w) :
    (∀ d, w.inc.isDVInProblem d = true ↔ ∃ b ∈ w.inc.problems, (w.B b).isDVInProblem d = true) ∧
    (∀ d c g, AL.get d w.inc.counts = some (c, g) →
      c = (w.inc.problems.filter fun b => (w.B b).isDVInProblem d).length) ∧
    (∀ d g, w.inc.getGroupId d = .ok g () ↔ ∃ b ∈ w.inc.problems, w.Holds b d g) ∧
    (∀ d g g', ∀ b ∈ w.inc.problems, ∀ b' ∈ w.inc.problems, w.Holds b d g → w.Holds b' d g' → g = g') ∧
    (∀ d, (∀ b ∈ w.inc.problems, (w.B b).isDVInProblem d = false) →
      w.inc.getGroupId d = .throw .invalidOperation ()) := by
  have hw := h.inv
  have hkey : ∀ d, w.inc.isDVInProblem d = true ↔ ∃ b ∈ w.inc.problems, (w.B b).isDVInProblem d = true := by
    intro d
    simp only [IncProblem.isDVInProblem, OptProblem.isDVInProblem, AL.has_iff]
    rw [← useCount_pos_iff]
    have := hw.zero d
    rw [AL.get_eq_none_iff] at this
    constructor
    · intro hd
      rcases Nat.eq_zero_or_pos (useCount w.B w.inc.problems d) with h0 | h0
      · exact absurd hd (this.2 h0)
      · exact h0
    · intro hp
      by_contra hc
      have := this.1 hc
      omega
  refine ⟨hkey, ?_, ?_, ?_, ?_⟩
  · intro d c g hc
    rw [(hw.some d c g hc).1, useCount, List.countP_eq_length_filter]
  · intro d g
    rw [inc_getGroupId_iff]; exact hw.group_iff d g
  · intro d g g' b hb b' hb' h1 h2
    have e1 := (hw.group_iff d g).2 ⟨b, hb, h1⟩
    have e2 := (hw.group_iff d g').2 ⟨b', hb', h2⟩
    rw [e1] at e2; simpa using e2
  · intro d hd
    have : ¬ w.inc.isDVInProblem d = true := by
      rw [hkey]
      rintro ⟨b, hb, h1⟩
      rw [hd b hb] at h1; simp at h1
    simp only [IncProblem.isDVInProblem, AL.has, Option.isSome_iff_ne_none, ne_eq, not_not] at this
    simp [IncProblem.getGroupId, this]

/-- Two batches sharing variable 3 (group 0), added, with a third group removed again. -/
def iprog0 : List (IOp Nat) :=
  [.batch 0 (.addDV (some 5) 1), .batch 0 (.addDV (some 3) 0), .batch 0 (.addDV (some 4) 0),
   .batch 0 (.addET (some 3)),
   .batch 1 (.addDV (some 3) 0), .batch 1 (.addDV (some 9) 2), .batch 1 (.addDV (some 8) 2), .batch 1 (.addET (some 8)),
   .batch 2 (.addDV (some 6) 7),
   .add (some 0), .add (some 2), .add (some 1), .add none, .removeIdx 7, .remove (some 2), .setOrdering [2, 1, 0],
   .permDV [1, 0] 2]

example : (IOp.exec iprog0 (World.init heap0)).map (fun w => (w.inc.problems, w.inc.counts)) =
    some ([0, 1], [(5, (1, 1)), (3, (2, 0)), (4, (1, 0)), (9, (1, 2)), (8, (1, 2))]) := by decide

/-- The world after `iprog0` is reachable. -/
theorem iprog0_reach : ∃ w, IOp.exec iprog0 (World.init heap0) = some w ∧ Reach heap0 w := by
  have : (IOp.exec iprog0 (World.init heap0)).isSome = true := by decide
  obtain ⟨w, hw⟩ := Option.isSome_iff_exists.1 this
  exact ⟨w, hw, reach_of_exec hw⟩

/-- **C11.** The groups ordering has no repetition and lists exactly the groups some contained batch uses; each
listed group is a non-empty, repetition-free list of exactly its variables; other groups throw. -/
theorem C11_inc_groups {h0 : Heap V} {w : World V} (h : Reach h0 w) :
    w.inc.ordering.Nodup ∧ w.inc.getNumGroups = w.inc.ordering.length ∧
    (∀ g, g ∈ w.inc.ordering ↔ ∃ b ∈ w.inc.problems, ∃ d, w.Holds b d g) ∧
    (∀ g ∈ w.inc.ordering, ∃ l, w.inc.getGroup g = .ok l () ∧ l ≠ [] ∧ l.Nodup ∧
      ∀ d, d ∈ l ↔ ∃ b ∈ w.inc.problems, w.Holds b d g) ∧
    (∀ g, g ∉ w.inc.ordering → w.inc.getGroup g = .throw .outOfBound ()) := by
  have hw := h.inv
  refine ⟨hw.g.nodupO, ?_, ?_, ?_, ?_⟩
  · have : w.inc.ordering.Perm (AL.keys w.inc.groups) :=
      (List.perm_ext_iff_of_nodup hw.g.nodupO hw.g.nodupG).2 hw.g.ord
    rw [this.length_eq]; simp [AL.keys, IncProblem.getNumGroups]
  · intro g
    rw [hw.g.mem_ordering_iff]
    simp only [hw.group_iff]
    exact ⟨fun ⟨d, b, hb, hh⟩ => ⟨b, hb, d, hh⟩, fun ⟨b, hb, d, hh⟩ => ⟨d, b, hb, hh⟩⟩
  · intro g hg
    obtain ⟨l, hl⟩ := (AL.mem_keys_iff _ _).1 ((hw.g.ord g).1 hg)
    refine ⟨l, by simp [IncProblem.getGroup, hl], hw.g.ne g l hl, hw.g.nodupL g l hl, ?_⟩
    intro d
    rw [hw.g.mem g l hl]; exact hw.group_iff d g
  · intro g hg
    have : AL.get g w.inc.groups = none := (AL.get_eq_none_iff _ _).2 (fun hh => hg ((hw.g.ord g).2 hh))
    simp [IncProblem.getGroup, this]

example : (IOp.exec iprog0 (World.init heap0)).map (fun w => (w.inc.ordering, w.inc.getNumGroups,
      w.inc.getGroup 2, w.inc.getGroup 7)) =
    some ([2, 1, 0], 3, .ok [8, 9] (), .throw .outOfBound ()) := by decide

/-- **C12.** `designVariable(i)` enumerates the variables of the contained batches, each once, group after group
in `getGroupsOrdering()` order; larger indices throw; and no call whatsoever is undefined behaviour. -/
theorem C12_inc_enumeration {h0 : Heap V} {w : World V} (h : Reach h0 w) :
    (∃ e : List DVId, e.Nodup ∧ w.inc.numDesignVariables = e.length ∧
      (∀ d, d ∈ e ↔ ∃ b ∈ w.inc.problems, (w.B b).isDVInProblem d = true) ∧
      (∀ i : Nat, w.inc.designVariable i =
        match e[i]? with | some d => .ok d () | none => .throw .outOfBound ()) ∧
      (e = w.inc.ordering.flatMap fun g => e.filter fun d => decide (w.inc.getGroupId d = .ok g ()))) ∧
    ∀ op : IOp V, op.step w ≠ .ub := by
  have hw := h.inv
  refine ⟨⟨enumDV w.inc.groups w.inc.ordering, hw.g.nodup_enum, ?_, ?_, inc_designVariable_eq hw, ?_⟩,
    fun op => hw.step_not_ub op⟩
  · have hp : (enumDV w.inc.groups w.inc.ordering).Perm (AL.keys w.inc.counts) :=
      hw.g.enum_perm hw.nd (fun d => by
        rw [AL.mem_keys_iff]
        cases AL.get d w.inc.counts <;> simp)
    rw [hp.length_eq]; simp [AL.keys, IncProblem.numDesignVariables]
  · intro d
    rw [hw.g.mem_enum, ← (C10_inc_counts h).1 d, IncProblem.isDVInProblem, AL.has]
    cases AL.get d w.inc.counts <;> simp
  · simp only [inc_getGroupId_iff]
    exact hw.g.enum_grouped

example : (IOp.exec iprog0 (World.init heap0)).map (fun w => (List.range 6).map w.inc.designVariable) =
    some [.ok 8 (), .ok 9 (), .ok 5 (), .ok 3 (), .ok 4 (), .throw .outOfBound ()] := by decide

/-- **C13.** `numErrorTerms()` is the sum over the contained batches, `errorTerm(i)` the `i`-th element of the
concatenation of the batches' error terms in batch order; no term occurs twice. -/
theorem C13_inc_error_terms {h0 : Heap V} {w : World V} (h : Reach h0 w) :
    let t := w.inc.problems.flatMap fun b => (w.B b).errorTerms
    w.inc.numErrorTerms w.B = (w.inc.problems.map fun b => (w.B b).numErrorTerms).sum ∧
    w.inc.numErrorTerms w.B = t.length ∧ t.Nodup ∧
    (∀ i : Nat, w.inc.errorTerm w.B i =
      match t[i]? with | some e => .ok e () | none => .throw .outOfBound ()) ∧
    (∀ e, w.inc.isETInProblem w.B e = true ↔ e ∈ t) := by
  have hw := h.inv
  have hlen : ∀ b, (w.B b).numErrorTerms = (w.B b).errorTerms.length := by
    intro b; rw [(hw.batches b).et.length_eq]; rfl
  have hfold : ∀ (l : List BatchId) n, l.foldl (fun n b => n + (w.B b).numErrorTerms) n =
      n + (l.map fun b => (w.B b).numErrorTerms).sum := by
    intro l
    induction l with
    | nil => simp
    | cons b l ih => intro n; rw [List.foldl_cons, ih]; simp; omega
  have hs : w.inc.numErrorTerms w.B = (w.inc.problems.map fun b => (w.B b).numErrorTerms).sum := by
    rw [IncProblem.numErrorTerms, hfold]; omega
  refine ⟨hs, ?_, ?_, ?_, ?_⟩
  · rw [hs, List.length_flatMap]; simp only [hlen]
  · have : (w.inc.problems.flatMap fun b => (w.B b).errorTerms).Perm
        (w.inc.problems.flatMap fun b => (w.B b).etLookup) := by
      generalize w.inc.problems = ps
      induction ps with
      | nil => exact List.Perm.nil
      | cons b ps ih => simp only [List.flatMap_cons]; exact (hw.batches b).et.append ih
    exact this.nodup_iff.2 hw.et
  · intro i
    have := errorIdxLoop_eq w.B hw.batches i w.inc.problems w.inc.problems 0 0 (by omega) (by simp)
    rw [IncProblem.errorTerm]
    rw [Nat.sub_zero] at this
    refine Eq.trans ?_ (this.trans ?_)
    · rcases errorIdxLoop w.B i w.inc.problems 0 0 with _ | ⟨k, j⟩ <;> rfl
    · cases (w.inc.problems.flatMap fun b => (w.B b).errorTerms)[i]? <;> rfl
  · intro e
    rw [isET_iff]
    simp only [List.mem_flatMap, (hw.batches _).et.mem_iff]

example : (IOp.exec iprog0 (World.init heap0)).map (fun w => (List.range 3).map (w.inc.errorTerm w.B)) =
    some [.ok 3 (), .ok 8 (), .throw .outOfBound ()] := by decide

/-- **C13**, batch by batch: `getErrorTerms(i)` returns exactly if there is an `i`-th batch, and otherwise throws; the lists it returns,
one after the other, are the error terms `errorTerm` enumerates. -/
theorem C13_inc_error_terms_of_batch {h0 : Heap V} {w : World V} (h : Reach h0 w) :
    ∃ ls : List (List ETId), ls.length = w.inc.problems.length ∧
      (∀ i : Nat, w.inc.getErrorTerms w.B i = match ls[i]? with | some l => .ok l () | none => .throw .outOfBound ()) ∧
      (∀ i : Nat, w.inc.errorTerm w.B i = match ls.flatten[i]? with | some e => .ok e () | none => .throw .outOfBound ()) := by
  refine ⟨w.inc.problems.map fun b => (w.B b).errorTerms, by simp, fun i => ?_, ?_⟩
  · simp only [IncProblem.getErrorTerms, List.getElem?_map]
    cases w.inc.problems[i]? <;> rfl
  · have := (C13_inc_error_terms h).2.2.2.1
    rw [List.flatMap] at this
    exact this

example : (IOp.exec iprog0 (World.init heap0)).map (fun w => (List.range 3).map (w.inc.getErrorTerms w.B)) =
    some [.ok [3] (), .ok [8] (), .throw .outOfBound ()] := by decide

/-- **C14.** If `add(b)` succeeds on a problem not containing `b`, then `remove(b)` succeeds and gives back the
batches, the counts and groups of all variables, the group lists, the groups ordering, the enumeration of
variables and error terms, exactly as they were.  (The backup keeps everything it held for the variables of the
problem.) -/
theorem C14_add_remove_identity {h0 : Heap V} {w : World V} (h : Reach h0 w) {b : BatchId}
    (hnot : b ∉ w.inc.problems) {q' : IncProblem V} (hadd : w.inc.add w.B (some b) = .ok () q') :
    ∃ q'', q'.remove w.B (some b) = .ok () q'' ∧
      q''.problems = w.inc.problems ∧ q''.ordering = w.inc.ordering ∧
      (∀ d, AL.get d q''.counts = AL.get d w.inc.counts) ∧
      (∀ g, q''.getGroup g = w.inc.getGroup g) ∧
      q''.numDesignVariables = w.inc.numDesignVariables ∧
      (∀ i, q''.designVariable i = w.inc.designVariable i) ∧
      (∀ i, q''.errorTerm w.B i = w.inc.errorTerm w.B i) ∧
      (∀ d, w.inc.isDVInProblem d = true → AL.get d q''.backup = AL.get d w.inc.backup) := by
  have hw := h.inv
  obtain ⟨q'', h1, hw2, h2, h3, h4, h5, h6⟩ := add_remove hw hnot hadd
  have hlen : q''.counts.length = w.inc.counts.length := by
    have : (AL.keys q''.counts).Perm (AL.keys w.inc.counts) := by
      rw [List.perm_ext_iff_of_nodup hw2.nd hw.nd]
      intro d
      rw [AL.mem_keys_iff, AL.mem_keys_iff, h3]
    simpa [AL.keys] using this.length_eq
  refine ⟨q'', h1, h2, h5, h3, ?_, hlen, ?_, ?_, ?_⟩
  · intro g; simp only [IncProblem.getGroup, h4]
  · intro i
    have hg : ∀ o, enumDV q''.groups o = enumDV w.inc.groups o := by
      intro o; unfold enumDV; simp only [h4]
    have := inc_designVariable_eq hw2 i
    simp only at this
    rw [this, inc_designVariable_eq hw i, hg, h5]
  · intro i; simp only [IncProblem.errorTerm, h2]
  · intro d hd
    rw [h6, if_neg]
    rintro ⟨-, hc⟩
    simp [IncProblem.isDVInProblem, AL.has, hc] at hd

example : (IOp.exec (iprog0 ++ [.add (some 2)]) (World.init heap0)).map
      (fun w => (w.inc.problems, w.inc.ordering, w.inc.groups)) =
      some ([0, 1, 2], [2, 1, 0, 7], [(1, [5]), (0, [3, 4]), (2, [8, 9]), (7, [6])]) := by decide

example : (IOp.exec (iprog0 ++ [.add (some 2), .remove (some 2)]) (World.init heap0)).map
      (fun w => (w.inc.problems, w.inc.ordering, w.inc.groups)) =
      (IOp.exec iprog0 (World.init heap0)).map (fun w => (w.inc.problems, w.inc.ordering, w.inc.groups)) := by
  decide

/-- **C49.** What a successful `add` does: the batch is appended; its variables become part of the problem and
nothing else does; groups not yet present are appended in the batch's own order; variables not yet present are
appended to their group in the batch's enumeration order; the backup is untouched. -/
theorem C49_inc_add_effect {h0 : Heap V} {w : World V} (h : Reach h0 w) {b : BatchId} {q' : IncProblem V}
    (hadd : w.inc.add w.B (some b) = .ok () q') :
    q'.problems = w.inc.problems ++ [b] ∧ q'.backup = w.inc.backup ∧
    (∀ d, q'.isDVInProblem d = true ↔ w.inc.isDVInProblem d = true ∨ (w.B b).isDVInProblem d = true) ∧
    q'.ordering = w.inc.ordering ++ (w.B b).ordering.filter (fun g => decide (g ∉ w.inc.ordering)) ∧
    ∃ e : List DVId, (∀ i : Nat, (w.B b).designVariable i =
        match e[i]? with | some d => .ok d () | none => .throw .outOfBound ()) ∧
      ∀ g ∈ q'.ordering, ∃ l, q'.getGroup g = .ok l () ∧
        l = (match w.inc.getGroup g with | .ok l0 _ => l0 | _ => []) ++
          e.filter (fun d => decide ((w.B b).getGroupId d = .ok g () ∧ w.inc.isDVInProblem d = false)) := by
  have hw := h.inv
  have ha : Addable w.B w.inc (w.B b) := by
    by_contra hc
    obtain ⟨e, q1, h1, -⟩ := add_not_ok hw hc
    rw [h1] at hadd; simp at hadd
  obtain ⟨q1, h1, hr⟩ := add_ok hw ha
  rw [h1] at hadd
  simp only [Res.ok.injEq, true_and] at hadd
  subst hadd
  have hw1 := hr.inv hw ha
  have hb := hw.batches b
  refine ⟨hr.problems, hr.backup, ?_, hr.ordering, enumDV (w.B b).groups (w.B b).ordering,
    designVariable_eq hb, ?_⟩
  · intro d
    simp only [IncProblem.isDVInProblem, OptProblem.isDVInProblem, AL.has, hr.c.cnt, addU, elems_get hb]
    cases AL.get d (w.B b).lookup <;> simp
  · intro g hg
    obtain ⟨l, hl⟩ := (AL.mem_keys_iff _ _).1 ((hw1.g.ord g).1 hg)
    simp only at hl
    refine ⟨l, by simp [IncProblem.getGroup, hl], ?_⟩
    have e1 := hr.groups g
    rw [hl, Option.getD_some] at e1
    rw [e1]
    congr 1
    · simp only [IncProblem.getGroup]
      cases AL.get g w.inc.groups <;> rfl
    · unfold elems
      rw [List.filter_map, List.map_map]
      rw [show (Prod.fst ∘ fun d => (d, (AL.get d (w.B b).lookup).getD 0)) = id from rfl, List.map_id]
      apply List.filter_congr
      intro d hd
      obtain ⟨g', hg'⟩ := (hb.g.mem_enum d).1 hd
      simp only [Function.comp, hg', Option.getD_some, OptProblem.getGroupId, IncProblem.isDVInProblem, AL.has]
      cases AL.get d w.inc.counts <;> simp

example : ∃ w, Reach heap0 w ∧ ∃ q', w.inc.add w.B (some 2) = .ok () q' := by
  obtain ⟨w, h1, h2⟩ := iprog0_reach
  refine ⟨w, h2, ?_⟩
  have : ((IOp.exec iprog0 (World.init heap0)).map fun w => (w.inc.add w.B (some 2)).isOk) = some true := by decide
  rw [h1] at this
  simp at this
  cases hh : w.inc.add w.B (some 2) with
  | ok a s => exact ⟨s, rfl⟩
  | _ => rw [hh] at this; simp [Res.isOk] at this

/-- **C15 (what holds).** `add(b)` is accepted iff `b` is not null, gives no variable of the problem a different
group, brings only new error terms and the vector of batches is not full; otherwise it throws (`NullPointerException` leaving
everything unchanged, or `InvalidOperationException`, or `std::length_error` for a full vector) and leaves the batches and the backup unchanged.
Missing (and false, see the two theorems below): counts, groups and ordering unchanged after an
`InvalidOperationException`. -/
theorem C15_failed_add_partial {h0 : Heap V} {w : World V} (h : Reach h0 w) :
    w.inc.add w.B none = .throw .nullPointer w.inc ∧
    ∀ b, ((w.inc.add w.B (some b)).isOk = true ↔
        (∀ d g g', w.Holds b d g → w.inc.getGroupId d = .ok g' () → g' = g) ∧
        (∀ e, (w.B b).isETInProblem e = true → w.inc.isETInProblem w.B e = false) ∧
        w.inc.numProblems < IncProblem.maxBatches) ∧
      ((w.inc.add w.B (some b)).isOk = false →
        ∃ e q', w.inc.add w.B (some b) = .throw e q' ∧
          (w.inc.numProblems < IncProblem.maxBatches → e = .invalidOperation) ∧
          q'.problems = w.inc.problems ∧ q'.backup = w.inc.backup) := by
  have hw := h.inv
  refine ⟨rfl, fun b => ?_⟩
  have hadd : Addable w.B w.inc (w.B b) ↔
      (∀ d g g', w.Holds b d g → w.inc.getGroupId d = .ok g' () → g' = g) ∧
        (∀ e, (w.B b).isETInProblem e = true → w.inc.isETInProblem w.B e = false) ∧
        w.inc.numProblems < IncProblem.maxBatches := by
    simp only [Addable, holds_iff, inc_getGroupId_iff, IncProblem.numProblems]
    apply and_congr
    · constructor
      · intro hc d g g' h1 h2
        cases hx : AL.get d w.inc.counts with
        | none => rw [hx] at h2; simp at h2
        | some x =>
          rw [hx] at h2
          simp at h2; rw [← h2]
          exact hc d g h1 x.1 x.2 hx
      · intro hc d g h1 c g' h2
        exact hc d g g' h1 (by simp [h2])
    · refine and_congr ?_ Iff.rfl
      simp only [← Bool.not_eq_true, isET_iff, not_exists, not_and, OptProblem.isETInProblem, decide_eq_true_eq]
  by_cases ha : Addable w.B w.inc (w.B b)
  · obtain ⟨q', h1, -⟩ := add_ok hw ha
    rw [h1, ← hadd]
    simp [Res.isOk, ha]
  · obtain ⟨e, q', h1, he⟩ := add_not_ok hw ha
    have h2 := add_throw_rest h1
    rw [h1, ← hadd]
    exact ⟨by simp [Res.isOk, ha], fun _ => ⟨e, q', rfl, he, h2⟩⟩

set_option synthInstance.maxSize 1000 in
/-- **C15 is false (1).** After a rejected `add` because of a group mismatch the groups ordering lists a group
that does not exist, and no `setGroupsOrdering` – not even with the current ordering – succeeds any more. -/
theorem C15_group_mismatch_corrupts :
    ∃ (h0 : Heap Nat) (w : World Nat) (b : BatchId) (q' : IncProblem Nat), Reach h0 w ∧
      w.inc.add w.B (some b) = .throw .invalidOperation q' ∧
      (∃ g ∈ q'.ordering, q'.getGroup g = .throw .outOfBound ()) ∧
      q'.ordering ≠ w.inc.ordering ∧
      (∃ o, (w.inc.setGroupsOrdering o).isOk = true ∧ o ≠ w.inc.ordering) ∧
      ∀ o, q'.setGroupsOrdering o = .throw .outOfBound q' := by
  let prog : List (IOp Nat) := [.batch 0 (.addDV (some 5) 1), .batch 0 (.addDV (some 3) 0), .add (some 0),
    .batch 1 (.addDV (some 3) 9)]
  have key : ((IOp.exec prog (World.init heap0)).map fun w =>
      (w.inc.ordering, (w.inc.setGroupsOrdering [0, 1]).isOk, w.inc.add w.B (some 1) |> fun r =>
        match r with
        | .throw .invalidOperation q' => some (q'.ordering, q'.getGroup 9, AL.keys q'.groups)
        | _ => none)) =
      some ([1, 0], true, some ([1, 0, 9], .throw .outOfBound (), [1, 0])) := by decide
  cases hw : IOp.exec prog (World.init heap0) with
  | none => rw [hw] at key; simp at key
  | some w =>
    rw [hw] at key
    simp only [Option.map_some, Option.some.injEq, Prod.mk.injEq] at key
    obtain ⟨k1, k2, k3⟩ := key
    have hreach := reach_of_exec hw
    have hno := (C15_failed_add_partial hreach).2 1
    cases hadd : w.inc.add w.B (some 1) with
    | throw e q' =>
      have hok : (w.inc.add w.B (some 1)).isOk = false := by rw [hadd]; rfl
      rw [hadd] at k3
      obtain rfl : e = .invalidOperation := by cases e <;> simp at k3 ⊢
      simp only [Option.some.injEq, Prod.mk.injEq] at k3
      obtain ⟨k3, k4, k5⟩ := k3
      refine ⟨heap0, w, 1, q', hreach, hadd, ⟨9, by simp [k3], k4⟩, by rw [k1, k3]; decide,
        ⟨[0, 1], k2, by rw [k1]; decide⟩, ?_⟩
      intro o
      unfold IncProblem.setGroupsOrdering
      split
      · rfl
      · rename_i hl
        rw [if_neg]
        intro hc
        rw [checkOrdering_iff'] at hc
        have h1 := (List.subperm_of_subset hc.2.1 hc.1).length_le
        rw [k5] at h1
        rw [k3] at hl
        simp at hl h1
        omega
    | ok a s => rw [hadd] at k3; simp at k3
    | ub => rw [hadd] at k3; simp at k3
    | diverge => rw [hadd] at k3; simp at k3

/-- **C15 is false (2).** After a rejected `add` because of a known error term, the problem enumerates a
variable that no contained batch holds, and `remove` of the rejected batch cannot take it back. -/
theorem C15_duplicate_error_term_corrupts :
    ∃ (h0 : Heap Nat) (w : World Nat) (b : BatchId) (q' : IncProblem Nat) (d : DVId), Reach h0 w ∧
      w.inc.add w.B (some b) = .throw .invalidOperation q' ∧
      q'.problems = w.inc.problems ∧
      (∀ b' ∈ q'.problems, (w.B b').isDVInProblem d = false) ∧ q'.isDVInProblem d = true ∧
      q'.remove w.B (some b) = .throw .invalidOperation q' := by
  let prog : List (IOp Nat) := [.batch 0 (.addDV (some 3) 0), .batch 0 (.addDV (some 4) 0),
    .batch 0 (.addET (some 3)), .add (some 0),
    .batch 1 (.addDV (some 3) 0), .batch 1 (.addDV (some 4) 0), .batch 1 (.addDV (some 7) 2),
    .batch 1 (.addET (some 3))]
  have key : ((IOp.exec prog (World.init heap0)).map fun w =>
      (w.inc.add w.B (some 1) |> fun r =>
        match r with
        | .throw .invalidOperation q' => some (q'.problems, q'.isDVInProblem 7, (w.B 0).isDVInProblem 7)
        | _ => none)) =
      some (some ([0], true, false)) := by decide
  cases hw : IOp.exec prog (World.init heap0) with
  | none => rw [hw] at key; simp at key
  | some w =>
    rw [hw] at key
    simp only [Option.map_some, Option.some.injEq] at key
    have hreach := reach_of_exec hw
    have hno := (C15_failed_add_partial hreach).2 1
    cases hadd : w.inc.add w.B (some 1) with
    | throw e q' =>
      have hok : (w.inc.add w.B (some 1)).isOk = false := by rw [hadd]; rfl
      obtain ⟨e1, q1, h1, -, h2, -⟩ := hno.2 hok
      rw [hadd] at h1
      simp only [Res.throw.injEq] at h1
      obtain ⟨rfl, rfl⟩ := h1
      rw [hadd] at key
      obtain rfl : e = .invalidOperation := by cases e <;> simp at key ⊢
      simp only [Option.some.injEq, Prod.mk.injEq] at key
      obtain ⟨k3, k4, k5⟩ := key
      refine ⟨heap0, w, 1, q', 7, hreach, hadd, h2, ?_, k4, ?_⟩
      · rw [k3]; intro b' hb'; simp at hb'; subst hb'; exact k5
      · simp only [IncProblem.remove, IncProblem.findProblem, k3]; rfl
    | ok a s => rw [hadd] at key; simp at key
    | ub => rw [hadd] at key; simp at key
    | diverge => rw [hadd] at key; simp at key

theorem flatMap_filter_drop {α β : Type _} (l : List α) (f : α → List β) (p : α → Bool)
    (h : ∀ a ∈ l, p a = false → f a = []) : (l.filter p).flatMap f = l.flatMap f := by
  induction l with
  | nil => rfl
  | cons a l ih =>
    have ih := ih (fun x hx => h x (by simp [hx]))
    rw [List.filter_cons]
    cases hp : p a with
    | true => simp [ih]
    | false => simp [ih, h a (by simp) hp]

/-- **C16.** `remove(i)` throws and changes nothing for `i` out of range; otherwise it takes out exactly the
`i`-th batch, keeping the others in order; the variables that stay are exactly those of the remaining batches,
enumerated in the old relative order; groups that stay keep their relative order; the backup loses exactly the
entries of removed variables.  `remove(b)` of a null or unknown batch throws and changes nothing, of a known one
is `remove` of its first position. -/
theorem C16_inc_remove {h0 : Heap V} {w : World V} (h : Reach h0 w) :
    (∀ i, w.inc.problems.length ≤ i → w.inc.removeIdx w.B i = .throw .outOfBound w.inc) ∧
    (∀ i, i < w.inc.problems.length → ∃ q', w.inc.removeIdx w.B i = .ok () q' ∧
      q'.problems = w.inc.problems.eraseIdx i ∧
      (∀ d, q'.isDVInProblem d = true ↔ ∃ b ∈ w.inc.problems.eraseIdx i, (w.B b).isDVInProblem d = true) ∧
      (∀ d, q'.isDVInProblem d = true → q'.getGroupId d = w.inc.getGroupId d) ∧
      (∃ e : List DVId,
        (∀ j : Nat, w.inc.designVariable j =
          match e[j]? with | some d => .ok d () | none => .throw .outOfBound ()) ∧
        (∀ j : Nat, q'.designVariable j =
          match (e.filter q'.isDVInProblem)[j]? with | some d => .ok d () | none => .throw .outOfBound ())) ∧
      q'.ordering = w.inc.ordering.filter q'.isGroupInProblem ∧
      (∀ d, AL.get d q'.backup = if w.inc.isDVInProblem d && !q'.isDVInProblem d then none
        else AL.get d w.inc.backup)) ∧
    w.inc.remove w.B none = .throw .invalidOperation w.inc ∧
    (∀ b, b ∉ w.inc.problems → w.inc.remove w.B (some b) = .throw .invalidOperation w.inc) ∧
    (∀ b ∈ w.inc.problems, w.inc.remove w.B (some b) = w.inc.removeIdx w.B (w.inc.problems.idxOf b)) := by
  have hw := h.inv
  refine ⟨?_, ?_, rfl, ?_, ?_⟩
  · intro i hi
    simp [IncProblem.removeIdx, List.getElem?_eq_none hi]
  · intro i hi
    obtain ⟨q', h1, hr⟩ := removeIdx_ok hw (List.getElem?_eq_getElem hi)
    have hw' := hr.inv hw (List.getElem?_eq_getElem hi)
    have hU := hr.counts hw
    have hreach' : Reach h0 { w with inc := q' } :=
      .step (.removeIdx i) true h (by simp [IOp.step, h1, Res.mapState, Res.outcome]) trivial trivial
    have hc' := C10_inc_counts hreach'
    refine ⟨q', h1, hr.problems, ?_, ?_, ?_, ?_, ?_⟩
    · intro d
      have := hc'.1 d
      simp only [hr.problems] at this
      exact this
    · intro d hd
      simp only [IncProblem.isDVInProblem, AL.has] at hd
      simp only [IncProblem.getGroupId]
      have := hU d
      split at this
      · cases hx : AL.get d w.inc.counts with
        | none => rw [hx] at this; simp [decU] at this; rw [this] at hd; simp at hd
        | some x =>
          obtain ⟨c, g⟩ := x
          rw [hx] at this
          match c with
          | 0 => simp [decU] at this; rw [this] at hd; simp at hd
          | 1 => simp [decU] at this; rw [this] at hd; simp at hd
          | c + 2 => rw [this]; simp [decU]
      · rw [this]
    · refine ⟨enumDV w.inc.groups w.inc.ordering, inc_designVariable_eq hw, ?_⟩
      intro j
      have e1 := inc_designVariable_eq hw' j
      simp only at e1
      rw [e1]
      have : enumDV q'.groups q'.ordering = (enumDV w.inc.groups w.inc.ordering).filter q'.isDVInProblem := by
        unfold enumDV
        rw [hr.ordering, flatMap_filter_drop]
        · rw [List.filter_flatMap]
          congr 1
          funext g
          rw [hr.groups]
          rfl
        · intro g _ hg
          simp only [decide_eq_false_iff_not] at hg
          rw [(AL.get_eq_none_iff _ _).2 hg]; rfl
      rw [this]
      cases ((enumDV w.inc.groups w.inc.ordering).filter q'.isDVInProblem)[j]? <;> rfl
    · rw [hr.ordering]
      apply List.filter_congr
      intro g _
      simp only [IncProblem.isGroupInProblem]
      cases hx : AL.has g q'.groups with
      | true => simpa using (AL.has_iff _ _).1 hx
      | false => simpa using (AL.has_eq_false_iff _ _).1 hx
    · intro d
      rw [hr.backup]
      congr 1
      simp only [IncProblem.isDVInProblem, AL.has, Bool.and_eq_true, Bool.not_eq_true', Option.isSome_iff_ne_none,
        Option.isSome_eq_false_iff, Option.isNone_iff_eq_none, ne_eq, eq_iff_iff]
      constructor
      · rintro ⟨a, b⟩
        refine ⟨?_, b⟩
        intro hn
        have := useCount_pos (List.getElem_mem hi) a
        rw [(hw.zero d).1 hn] at this; omega
      · rintro ⟨a, b⟩
        refine ⟨?_, b⟩
        by_contra hn
        have := hU d
        rw [if_neg hn, b] at this
        exact a this.symm
  · intro b hb
    have : w.inc.findProblem b = none := by
      rw [IncProblem.findProblem, List.findIdx?_eq_none_iff]
      intro x hx
      simp only [beq_eq_false_iff_ne, ne_eq]
      rintro rfl; exact hb hx
    simp [IncProblem.remove, this]
  · intro b hb
    have : w.inc.findProblem b = some (w.inc.problems.idxOf b) := by
      rw [IncProblem.findProblem, List.findIdx?_eq_some_iff_findIdx_eq]
      exact ⟨List.idxOf_lt_length_iff.2 hb, rfl⟩
    simp [IncProblem.remove, this]

example : (IOp.exec (iprog0 ++ [.removeIdx 0]) (World.init heap0)).map
      (fun w => (w.inc.problems, w.inc.ordering, (List.range 4).map w.inc.designVariable)) =
      some ([1], [2, 0], [.ok 8 (), .ok 9 (), .ok 3 (), .throw .outOfBound ()]) := by decide

/-- **C48.** The contained batches are exactly those added and not removed since, in order: every call, in any state at all,
changes the list of batches only in this way. -/
theorem C48_inc_batches {w w' : World V} (op : IOp V) (ok : Bool) (hs : (op.step w).outcome = some (ok, w')) :
    (∀ b, op = .add (some b) → ok = true → w'.inc.problems = w.inc.problems ++ [b]) ∧
    (∀ i, op = .removeIdx i → ok = true → i < w.inc.problems.length ∧ w'.inc.problems = w.inc.problems.eraseIdx i) ∧
    (∀ b, op = .remove (some b) → ok = true → b ∈ w.inc.problems ∧ w'.inc.problems = w.inc.problems.erase b) ∧
    (op = .clear → w'.inc.problems = []) ∧
    (∀ perm, op = .permProblems perm → w'.inc.problems.Perm w.inc.problems) ∧
    (((∀ b, op ≠ .add (some b)) ∧ (∀ i, op ≠ .removeIdx i) ∧ (∀ b, op ≠ .remove (some b)) ∧ op ≠ .clear ∧
      (∀ perm, op ≠ .permProblems perm)) ∨ (ok = false ∧ ∀ perm, op ≠ .permProblems perm) →
      w'.inc.problems = w.inc.problems) :=
  step_problems op ok hs

example : ∃ w, Reach heap0 w ∧ w.inc.problems = [0, 1] := by
  obtain ⟨w, h1, h2⟩ := iprog0_reach
  refine ⟨w, h2, ?_⟩
  have : ((IOp.exec iprog0 (World.init heap0)).map fun w => w.inc.problems) = some [0, 1] := by decide
  rw [h1] at this; simpa using this

/-- **C04 (incremental problem).** `setGroupsOrdering(o)` succeeds iff `o` is a permutation of the current
ordering, and then only the ordering changes. -/
theorem C04_inc_set_groups_ordering {h0 : Heap V} {w : World V} (h : Reach h0 w) (o : List GroupId) :
    (o.Perm w.inc.ordering → w.inc.setGroupsOrdering o = .ok () { w.inc with ordering := o }) ∧
    (¬ o.Perm w.inc.ordering → w.inc.setGroupsOrdering o = .throw .outOfBound w.inc) := by
  rcases inc_setOrdering_eq h.inv.g o with ⟨h1, h2⟩ | ⟨h1, h2⟩
  · exact ⟨fun _ => h2, fun h => absurd h1 h⟩
  · exact ⟨fun h => absurd h h1, fun _ => h2⟩

example : (IOp.exec iprog0 (World.init heap0)).map (fun w =>
      ((w.inc.setGroupsOrdering [0, 1, 2]).isOk, (w.inc.setGroupsOrdering [0, 1, 7]).isOk,
        (w.inc.setGroupsOrdering [0, 1, 1]).isOk)) = some (true, false, false) := by decide

/-- **C05 (incremental problem).** Each group's dimension is the sum of the minimal dimensions of its active
variables; over `getGroupsOrdering()` they sum up to the dimension of all active variables enumerated; unknown
groups throw. -/
theorem C05_inc_group_dims {h0 : Heap V} {w : World V} (h : Reach h0 w) :
    (∀ g l, w.inc.getGroup g = .ok l () → IncProblem.getGroupDim w.heap w.inc g = .ok (activeDim w.heap l) ()) ∧
    (∀ g, g ∉ w.inc.ordering → IncProblem.getGroupDim w.heap w.inc g = .throw .outOfBound ()) ∧
    ∃ (dims : List Nat) (e : List DVId),
      (∀ i : Nat, w.inc.designVariable i =
        match e[i]? with | some d => .ok d () | none => .throw .outOfBound ()) ∧
      w.inc.ordering.map (IncProblem.getGroupDim w.heap w.inc) = dims.map (fun n => .ok n ()) ∧
      dims.sum = activeDim w.heap e := by
  have hw := h.inv
  have hget : ∀ g l, AL.get g w.inc.groups = some l →
      IncProblem.getGroupDim w.heap w.inc g = .ok (activeDim w.heap l) () := by
    intro g l hl
    simp [IncProblem.getGroupDim, IncProblem.getGroup, hl, dimLoop_eq]
  refine ⟨?_, ?_, w.inc.ordering.map (fun g => activeDim w.heap ((AL.get g w.inc.groups).getD [])),
    enumDV w.inc.groups w.inc.ordering, inc_designVariable_eq hw, ?_, ?_⟩
  · intro g l hl
    simp [IncProblem.getGroupDim, hl, dimLoop_eq]
  · intro g hg
    simp [IncProblem.getGroupDim, (C11_inc_groups h).2.2.2.2 g hg]
  · rw [List.map_map]
    apply List.map_congr_left
    intro g hg
    obtain ⟨l, hl⟩ := (AL.mem_keys_iff _ _).1 ((hw.g.ord g).1 hg)
    simp [hget g l hl, hl]
  · exact sum_activeDim _ _ _

example : (IOp.exec (iprog0 ++ [.batch 0 (.setActive 9 false)]) (World.init heap0)).map
      (fun w => w.inc.ordering.map (IncProblem.getGroupDim w.heap w.inc)) =
    some [.ok 9 (), .ok 6 (), .ok 9 ()] := by decide

/-! ### save / restore -/

/-- Not a `clear` of the incremental problem. -/
def IOp.NoClear (op : IOp V) : Prop := op ≠ .clear

theorem backup_sub {h0 : Heap V} {w : World V} (h : ReachP IOp.NoClear h0 w) :
    ∀ d ∈ AL.keys w.inc.backup, d ∈ AL.keys w.inc.counts := by
  induction h with
  | init => simp [World.init, IncProblem.empty, AL.keys]
  | @step w w' op ok hr hs hreg hP ih =>
    have hw := hr.inv
    have hrem : ∀ i (b : Bool) q', (w.inc.removeIdx w.B i).outcome = some (b, q') →
        ∀ d ∈ AL.keys q'.backup, d ∈ AL.keys q'.counts := by
      intro i b q' hq d hd
      cases hidx : w.inc.problems[i]? with
      | none => simp [IncProblem.removeIdx, hidx, Res.outcome] at hq; rw [← hq.2] at hd ⊢; exact ih d hd
      | some bb =>
        obtain ⟨q1, h1, hrr⟩ := removeIdx_ok hw hidx
        rw [h1] at hq; simp [Res.outcome] at hq
        obtain ⟨-, rfl⟩ := hq
        obtain ⟨v, hv⟩ := (AL.mem_keys_iff _ _).1 hd
        rw [hrr.backup] at hv
        split at hv
        · simp at hv
        · rename_i hn
          by_contra hc
          have hc' := (AL.get_eq_none_iff _ _).2 hc
          have h1 : d ∉ AL.keys (w.B bb).lookup := fun hh => hn ⟨hh, hc'⟩
          have h2 := hrr.counts hw d
          rw [if_neg h1, hc'] at h2
          exact (AL.get_eq_none_iff _ _).1 h2.symm (ih d ((AL.mem_keys_iff _ _).2 ⟨v, hv⟩))
    cases op with
    | add b =>
      obtain ⟨q, hq, rfl⟩ := outcome_mapState hs
      cases b with
      | none => simp [IncProblem.add, Res.outcome] at hq; rw [← hq.2]; exact ih
      | some b =>
        simp only [IOp.Regular] at hreg
        subst hreg
        by_cases ha : Addable w.B w.inc (w.B b)
        · obtain ⟨q1, h1, hrr⟩ := add_ok hw ha
          rw [h1] at hq; simp [Res.outcome] at hq
          subst hq
          intro d hd
          simp only [hrr.backup] at hd
          obtain ⟨x, hx⟩ := (AL.mem_keys_iff _ _).1 (ih d hd)
          simp only [AL.mem_keys_iff, hrr.c.cnt, addU]
          cases AL.get d (elems (w.B b)) with
          | none => exact ⟨x, hx⟩
          | some g => exact ⟨_, rfl⟩
        · obtain ⟨e, q1, h1, -⟩ := add_not_ok hw ha
          rw [h1] at hq; simp [Res.outcome] at hq
    | removeIdx i => obtain ⟨q, hq, rfl⟩ := outcome_mapState hs; exact hrem i ok q hq
    | remove b =>
      obtain ⟨q, hq, rfl⟩ := outcome_mapState hs
      cases b with
      | none => simp [IncProblem.remove, Res.outcome] at hq; rw [← hq.2]; exact ih
      | some b =>
        simp only [IncProblem.remove] at hq
        split at hq
        · exact hrem _ ok q hq
        · simp [Res.outcome] at hq; rw [← hq.2]; exact ih
    | clear => exact absurd rfl hP
    | setOrdering o =>
      obtain ⟨q, hq, rfl⟩ := outcome_mapState hs
      rcases inc_setOrdering_eq hw.g o with ⟨-, h2⟩ | ⟨-, h2⟩ <;> rw [h2] at hq <;> simp [Res.outcome] at hq <;>
        rw [← hq.2] <;> exact ih
    | permProblems perm =>
      simp only [IOp.step, IncProblem.permuteProblems] at hs
      obtain ⟨l, hl, rfl⟩ := permute_outcome _ _ hs
      exact ih
    | permDV perm g =>
      simp only [IOp.step, IncProblem.permuteDesignVariables] at hs
      cases hg : AL.get g w.inc.groups with
      | none => rw [hg] at hs; simp [Res.mapState, Res.outcome] at hs; rw [← hs.2]; exact ih
      | some l =>
        rw [hg] at hs
        obtain ⟨l', hl, rfl⟩ := permute_outcome _ _ hs
        exact ih
    | save =>
      simp [IOp.step, Res.outcome] at hs
      rw [← hs.2]
      intro d hd
      simp only [IncProblem.saveDesignVariables] at hd ⊢
      rw [saveLoop_keys] at hd
      rcases hd with hd | hd
      · exact hd
      · exact ih d hd
    | restore => simp [IOp.step, Res.outcome] at hs; rw [← hs.2]; exact ih
    | batch b bop => obtain ⟨s, h1, rfl⟩ := outcome_mapState hs; exact ih

theorem ReachP.mono {P Q : IOp V → Prop} {h0 : Heap V} {w : World V} (hPQ : ∀ op, P op → Q op)
    (h : ReachP P h0 w) : ReachP Q h0 w := by
  induction h with
  | init => exact .init
  | step op ok _ h1 h2 h3 ih => exact .step op ok ih h1 h2 (hPQ _ h3)

/-- **C17 (what holds).** In histories that never `clear` the incremental problem, `restoreDesignVariables`
changes only values of variables that are in the problem.  Missing (and false, see
`C17_restore_after_clear_touches_removed`): histories with `clear`. -/
theorem C17_restore_touches_members_partial {h0 : Heap V} {w : World V} (h : ReachP IOp.NoClear h0 w) (d : DVId)
    (hd : w.inc.isDVInProblem d = false) :
    (w.inc.restoreDesignVariables w.heap).params d = w.heap.params d := by
  have hw := h.inv
  rw [IncProblem.restoreDesignVariables, restoreLoop_params _ hw.bkn]
  have : AL.get d w.inc.backup = none := by
    rw [AL.get_eq_none_iff]
    intro hh
    have := (AL.has_iff _ _).2 (backup_sub h d hh)
    rw [IncProblem.isDVInProblem] at hd
    rw [hd] at this; simp at this
  simp [this]

example : (IOp.exec (iprog0 ++ [.save, .batch 0 (.setValue 8 1), .batch 0 (.setValue 4 2), .remove (some 0), .restore])
      (World.init heap0)).map (fun w => (w.inc.isDVInProblem 4, w.heap.params 4, w.heap.params 8)) =
    some (false, 2, 80) := by decide

/-- **C17 is false with `clear`.** After `save`, `clear`, a change of a variable and `restore`, the variable –
not in the problem any more – is set back. -/
theorem C17_restore_after_clear_touches_removed :
    ∃ (h0 : Heap Nat) (w : World Nat) (d : DVId), Reach h0 w ∧ w.inc.isDVInProblem d = false ∧
      (w.inc.restoreDesignVariables w.heap).params d ≠ w.heap.params d := by
  let prog : List (IOp Nat) := [.batch 0 (.addDV (some 5) 1), .add (some 0), .save, .clear,
    .batch 0 (.setValue 5 77)]
  have key : ((IOp.exec prog (World.init heap0)).map fun w =>
      (w.inc.isDVInProblem 5, (w.inc.restoreDesignVariables w.heap).params 5, w.heap.params 5)) =
      some (false, 50, 77) := by decide
  cases hw : IOp.exec prog (World.init heap0) with
  | none => rw [hw] at key; simp at key
  | some w =>
    rw [hw] at key
    simp only [Option.map_some, Option.some.injEq, Prod.mk.injEq] at key
    exact ⟨heap0, w, 5, reach_of_exec hw, key.1, by rw [key.2.1, key.2.2]; decide⟩

/-- Calls that leave the saved values alone. -/
def IOp.KeepsBackup (op : IOp V) : Prop :=
  match op with
  | .save | .clear | .removeIdx _ | .remove _ => False
  | _ => True

theorem steps_backup {w w' : World V} (hs : Steps IOp.KeepsBackup w w') (hw : WInv w) :
    w'.inc.backup = w.inc.backup := by
  induction hs with
  | refl => rfl
  | @step w w1 w2 op ok h1 h2 h3 _ ih =>
    rw [ih (hw.step h1 h2)]
    cases op with
    | add b =>
      obtain ⟨q, hq, rfl⟩ := outcome_mapState h1
      cases b with
      | none => simp [IncProblem.add, Res.outcome] at hq; rw [← hq.2]
      | some b =>
        exact (add_any w.B w.inc b hq).2
    | removeIdx i => exact absurd h3 (by simp [IOp.KeepsBackup])
    | remove b => exact absurd h3 (by simp [IOp.KeepsBackup])
    | clear => exact absurd h3 (by simp [IOp.KeepsBackup])
    | save => exact absurd h3 (by simp [IOp.KeepsBackup])
    | setOrdering o =>
      obtain ⟨q, hq, rfl⟩ := outcome_mapState h1
      rcases inc_setOrdering_eq hw.g o with ⟨-, k2⟩ | ⟨-, k2⟩ <;> rw [k2] at hq <;> simp [Res.outcome] at hq <;>
        rw [← hq.2]
    | permProblems perm =>
      simp only [IOp.step, IncProblem.permuteProblems] at h1
      obtain ⟨l, hl, rfl⟩ := permute_outcome _ _ h1
      rfl
    | permDV perm g =>
      simp only [IOp.step, IncProblem.permuteDesignVariables] at h1
      cases hg : AL.get g w.inc.groups with
      | none => rw [hg] at h1; simp [Res.mapState, Res.outcome] at h1; rw [← h1.2]
      | some l =>
        rw [hg] at h1
        obtain ⟨l', hl, rfl⟩ := permute_outcome _ _ h1
        rfl
    | restore => simp [IOp.step, Res.outcome] at h1; rw [← h1.2]
    | batch b bop => obtain ⟨s, k1, rfl⟩ := outcome_mapState h1; rfl

/-- **C06 (incremental problem).** Save in any state reached without `clear`; run any calls except `save`,
`clear`, removals; restore: every variable in the problem at save time has its saved value, all others keep
theirs. -/
theorem C06_inc_save_restore {h0 : Heap V} {w w2 : World V} (h : ReachP IOp.NoClear h0 w)
    (hs : Steps IOp.KeepsBackup { w with inc := w.inc.saveDesignVariables w.heap } w2) (d : DVId) :
    (w2.inc.restoreDesignVariables w2.heap).params d =
      if w.inc.isDVInProblem d then w.heap.params d else w2.heap.params d := by
  have hw := h.inv
  have hw1 : WInv { w with inc := w.inc.saveDesignVariables w.heap } :=
    hw.step (op := .save) (b := true) rfl trivial
  have hb := steps_backup hs hw1
  have hw2 := hs.inv hw1
  rw [IncProblem.restoreDesignVariables, restoreLoop_params _ hw2.bkn, hb]
  simp only [IncProblem.saveDesignVariables]
  rw [saveLoop_get]
  by_cases hd : d ∈ AL.keys w.inc.counts
  · simp [hd, IncProblem.isDVInProblem, (AL.has_iff _ _).2 hd]
  · have : AL.get d w.inc.backup = none := (AL.get_eq_none_iff _ _).2 (fun hh => hd (backup_sub h d hh))
    simp [hd, IncProblem.isDVInProblem, (AL.has_eq_false_iff _ _).2 hd, this]

example : ∃ (w w2 : World Nat), ReachP IOp.NoClear heap0 w ∧ w.inc.isDVInProblem 5 = true ∧
    Steps IOp.KeepsBackup { w with inc := w.inc.saveDesignVariables w.heap } w2 ∧ w2.heap.params 5 = 77 ∧
    w.heap.params 5 = 50 := by
  have h1 : (IOp.exec iprog0 (World.init heap0)).isSome = true := by decide
  obtain ⟨w, hw⟩ := Option.isSome_iff_exists.1 h1
  have h3 : (IOp.exec iprog0 (World.init heap0)).map (fun w => (w.inc.isDVInProblem 5, w.heap.params 5)) =
    some (true, 50) := by decide
  rw [hw] at h3; simp at h3
  refine ⟨w, ⟨fun b' => if b' = 0 then w.B 0 else w.B b', w.inc.saveDesignVariables w.heap, w.heap.setParams 5 77⟩,
    ReachP.steps .init (steps_of_exec hw _ ?_), h3.1,
    .step (.batch 0 (.setValue 5 77)) true rfl (fun _ => Or.inl rfl) trivial (.refl _), rfl, h3.2⟩
  intro op hop
  simp [iprog0] at hop
  rcases hop with rfl | rfl | rfl | rfl | rfl | rfl | rfl | rfl | rfl | rfl | rfl | rfl | rfl | rfl | rfl | rfl | rfl <;>
    simp [IOp.NoClear]

end Verif
