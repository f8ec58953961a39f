import Verif.Lemmas.IncIrregular
import Verif.Props.IncProblem

/-! Property C113: calls on a batch while an incremental problem contains it, and histories with no restriction at all.

The incremental problem keeps only shared pointers to its batches, and a batch can be changed after it was added. -/

namespace Verif
variable {V : Type _}
open IncProblem

/-- **C113 (a new error term is seen).** Adding an error term which no contained batch has, to a batch contained once, keeps
every guarantee (the world is still one of those the other theorems cover); the variables and groups of the problem are
unchanged, it has one error term more, and that one is reported. -/
theorem C113_add_error_term {h0 : Heap V} {w w' : World V} (h : Reach h0 w) {b : BatchId} {e : ETId}
    (hone : w.inc.problems.count b = 1) (hnew : w.inc.isETInProblem w.B e = false)
    (hs : (IOp.batch b (.addET (some e))).step w = .ok () w') :
    Reach h0 w' ∧ w'.inc = w.inc ∧ w'.inc.numErrorTerms w'.B = w.inc.numErrorTerms w.B + 1 ∧
    (∀ e', w'.inc.isETInProblem w'.B e' = true ↔ e' = e ∨ w.inc.isETInProblem w.B e' = true) ∧
    ∃ i, w'.inc.errorTerm w'.B i = .ok e () := by
  have hmem : b ∈ w.inc.problems := List.count_pos_iff.1 (by omega)
  have hnew' : ∀ b' ∈ w.inc.problems, (w.B b').isETInProblem e = false := by
    intro b' hb'
    simp only [IncProblem.isETInProblem, List.any_eq_false] at hnew
    simpa using hnew b' hb'
  have hr : Reach h0 w' := .step (.batch b (.addET (some e))) true h (by rw [hs]; rfl)
    (fun _ => Or.inr (Or.inr ⟨e, rfl, hone, hnew'⟩)) trivial
  have hw := h.inv
  -- the batch afterwards
  simp only [IOp.step, BOp.step, OptProblem.addErrorTerm, hnew' b hmem] at hs
  split at hs
  · simp at *
  rename_i hx
  split at hs
  swap
  · simp [Res.mapState] at hs
  simp only [Res.mapState, Res.ok.injEq, true_and] at hs
  have hinc : w'.inc = w.inc := by rw [← hs]
  have hB : ∀ b', (w'.B b').errorTerms = if b' = b then (w.B b).errorTerms ++ [e] else (w.B b').errorTerms := by
    intro b'; rw [← hs]; simp only; split <;> rfl
  have c13 := C13_inc_error_terms h
  have c13' := C13_inc_error_terms hr
  simp only at c13 c13'
  have hperm : (w'.inc.problems.flatMap fun b => (w'.B b).errorTerms).Perm
      (e :: w.inc.problems.flatMap fun b => (w.B b).errorTerms) := by
    obtain ⟨l1, l2, hl⟩ := List.append_of_mem hmem
    have hn1 : b ∉ l1 := by
      intro hc
      have := List.count_pos_iff.2 hc
      rw [hl, List.count_append, List.count_cons_self] at hone; omega
    have hn2 : b ∉ l2 := by
      intro hc
      have := List.count_pos_iff.2 hc
      rw [hl, List.count_append, List.count_cons_self] at hone; omega
    have hout : ∀ l : List BatchId, b ∉ l → (l.flatMap fun b => (w'.B b).errorTerms) = l.flatMap fun b => (w.B b).errorTerms := by
      intro l hl
      rw [List.flatMap_def, List.flatMap_def]
      congr 1
      apply List.map_congr_left
      intro b' hb'
      rw [hB, if_neg (fun e : b' = b => hl (e ▸ hb'))]
    rw [hinc, hl]
    simp only [List.flatMap_append, List.flatMap_cons, hout l1 hn1, hout l2 hn2, hB b, if_true, List.append_assoc,
      List.singleton_append]
    rw [← List.append_assoc, ← List.append_assoc]
    exact List.perm_middle
  refine ⟨hr, hinc, ?_, ?_, ?_⟩
  · rw [c13'.2.1, c13.2.1, hperm.length_eq, List.length_cons]
  · intro e'
    rw [c13'.2.2.2.2, c13.2.2.2.2, hperm.mem_iff, List.mem_cons]
  · have : e ∈ w'.inc.problems.flatMap fun b => (w'.B b).errorTerms := hperm.mem_iff.2 (by simp)
    obtain ⟨i, hi⟩ := List.mem_iff_getElem?.1 this
    exact ⟨i, by rw [c13'.2.2.2.1, hi]⟩

example : ∃ w w', Reach heap0 w ∧ w.inc.problems.count 0 = 1 ∧ w.inc.isETInProblem w.B 4 = false ∧
    (IOp.batch 0 (.addET (some 4))).step w = .ok () w' := by
  obtain ⟨w, h1, h2⟩ := iprog0_reach
  have h3 : (IOp.exec iprog0 (World.init heap0)).map (fun w => (w.inc.problems.count 0, w.inc.isETInProblem w.B 4,
    ((IOp.batch 0 (.addET (some 4))).step w).isOk)) = some (1, false, true) := by decide
  rw [h1] at h3
  simp only [Option.map_some, Option.some.injEq, Prod.mk.injEq] at h3
  cases hk : (IOp.batch 0 (.addET (some 4))).step w with
  | ok a w' => exact ⟨w, w', h2, h3.1, h3.2.1, hk⟩
  | _ => rw [hk] at h3; simp [Res.isOk] at h3

/-- `remove(b)` finds the batch: it is removal at some index holding `b`. -/
theorem remove_idx {w : World V} {b : BatchId} (hb : b ∈ w.inc.problems) (B : BatchId → OptProblem V) :
    ∃ idx, w.inc.problems[idx]? = some b ∧ w.inc.remove B (some b) = w.inc.removeIdx B idx ∧
      w.inc.problems.eraseIdx idx = w.inc.problems.erase b := by
  cases hf : w.inc.findProblem b with
  | none => exact absurd hb (findIdx_none hf)
  | some i =>
    have h3 := List.findIdx?_eq_some_iff_findIdx_eq.1 hf
    refine ⟨i, (findIdx_some hf).1, by simp [IncProblem.remove, hf], ?_⟩
    have hidx : w.inc.problems.idxOf b = i := h3.2
    exact (List.erase_eq_eraseIdx_of_idxOf hidx).symm

/-- Two contained batches with the variables of error term 3; the first one holds that term. -/
def iprogTwice : List (IOp Nat) :=
  [.batch 0 (.addDV (some 3) 0), .batch 0 (.addDV (some 4) 0), .batch 0 (.addET (some 3)),
   .batch 1 (.addDV (some 3) 0), .batch 1 (.addDV (some 4) 0), .batch 1 (.addDV (some 5) 1), .batch 1 (.addET (some 4)),
   .add (some 0), .add (some 1)]

set_option synthInstance.maxSize 1000 in
/-- **C113 (negation: the same error term twice).** An error term can be given to two contained batches: a batch does not know
of the problem, so nothing rejects it.  The problem then lists the term twice and counts it twice. -/
theorem C113_same_error_term_twice :
    ∃ w w' : World Nat, Reach heap0 w ∧ w.inc.numErrorTerms w.B = 2 ∧
      (∃ op, (IOp.batch 1 op).step w = .ok () w' ∧ op = .addET (some 3)) ∧ w'.inc.problems = [0, 1] ∧
      w'.inc.numErrorTerms w'.B = 3 ∧ w'.inc.errorTerm w'.B 0 = .ok 3 () ∧ w'.inc.errorTerm w'.B 2 = .ok 3 () := by
  have hsome : ∃ w, IOp.exec iprogTwice (World.init heap0) = some w := by
    rw [← Option.isSome_iff_exists]; decide
  obtain ⟨w, hw⟩ := hsome
  have hr : Reach heap0 w := reach_of_exec hw
  have key : (IOp.exec iprogTwice (World.init heap0)).map (fun w =>
      (w.inc.numErrorTerms w.B, (IOp.batch 1 (.addET (some 3))).step w |>.outcome.map fun x =>
        (x.1, x.2.inc.problems, x.2.inc.numErrorTerms x.2.B, x.2.inc.errorTerm x.2.B 0, x.2.inc.errorTerm x.2.B 2))) =
      some (2, some (true, [0, 1], 3, .ok 3 (), .ok 3 ())) := by decide
  rw [hw] at key
  simp only [Option.map_some, Option.some.injEq, Prod.mk.injEq] at key
  obtain ⟨k1, k2⟩ := key
  cases hs : (IOp.batch 1 (.addET (some 3))).step w with
  | ok a w' =>
    rw [hs] at k2
    simp only [Res.outcome, Option.map_some, Option.some.injEq, Prod.mk.injEq, true_and] at k2
    exact ⟨w, w', hr, k1, ⟨_, hs, rfl⟩, k2.1, k2.2.1, k2.2.2.1, k2.2.2.2⟩
  | throw e w' => rw [hs] at k2; simp [Res.outcome] at k2
  | ub => rw [hs] at k2; simp [Res.outcome] at k2
  | diverge => rw [hs] at k2; simp [Res.outcome] at k2

/-- **C113 (negation: clearing a contained batch).** In any state: after `clear()` on a contained batch, `remove` of that batch succeeds and
drops it from the list, but nothing else: every variable, count, group and the enumeration stay, although no contained batch
may hold the variable any more; the numbers of error terms follow the batches. -/
theorem C113_clear_keeps_variables {w w1 : World V} {b : BatchId} (hb : b ∈ w.inc.problems)
    (h1 : (IOp.batch b .clear).step w = .ok () w1) :
    ∃ w2, (IOp.remove (some b)).step w1 = .ok () w2 ∧ w2.inc.problems = w.inc.problems.erase b ∧
      (∀ d, w2.inc.isDVInProblem d = w.inc.isDVInProblem d ∧ w2.inc.getGroupId d = w.inc.getGroupId d) ∧
      w2.inc.numDesignVariables = w.inc.numDesignVariables ∧ (∀ i, w2.inc.designVariable i = w.inc.designVariable i) ∧
      (∀ g, w2.inc.getGroup g = w.inc.getGroup g) ∧ w2.inc.ordering = w.inc.ordering ∧
      w1.inc.numErrorTerms w1.B = w2.inc.numErrorTerms w2.B := by
  simp only [IOp.step, BOp.step, Res.mapState, Res.ok.injEq, true_and] at h1
  subst h1
  obtain ⟨idx, hidx, hrem, her⟩ := remove_idx hb (fun b' => if b' = b then (w.B b).clear else w.B b')
  have hgo : w.inc.removeIdx (fun b' => if b' = b then (w.B b).clear else w.B b') idx =
      .ok () { w.inc with problems := w.inc.problems.erase b } := by
    simp [IncProblem.removeIdx, hidx, OptProblem.clear, OptProblem.numDesignVariables, removeLoop, Res.bind, her]
  refine ⟨{ w with B := fun b' => if b' = b then (w.B b).clear else w.B b', inc := { w.inc with problems := w.inc.problems.erase b } },
    by simp only [IOp.step, hrem, hgo, Res.mapState], rfl, fun d => ⟨rfl, rfl⟩, rfl, fun i => rfl, fun g => rfl,
    rfl, ?_⟩
  simp only [IncProblem.numErrorTerms]
  have hfold : ∀ (f : BatchId → Nat) (l : List BatchId) n, l.foldl (fun n b => n + f b) n = n + (l.map f).sum := by
    intro f l
    induction l with
    | nil => simp
    | cons b l ih => intro n; rw [List.foldl_cons, ih]; simp; omega
  rw [hfold, hfold, Nat.zero_add, Nat.zero_add, ((List.perm_cons_erase hb).map _).sum_nat]
  simp [OptProblem.clear, OptProblem.numErrorTerms]

/-- A contained batch is cleared and removed: variables 5 and 4, which no contained batch holds, are still reported. -/
example : (IOp.runAny (iprog0 ++ [.batch 0 .clear, .remove (some 0)]) (World.init heap0)).state?.map (fun w =>
    (w.inc.problems, w.inc.numDesignVariables, (List.range 6).map w.inc.designVariable)) =
    some ([1], 5, [.ok 8 (), .ok 9 (), .ok 5 (), .ok 3 (), .ok 4 (), .throw .outOfBound ()]) := by decide

/-- **C113 (negation: a variable no contained batch knows).** A contained batch is given a variable that is in no contained
batch, and is then removed.  The removal succeeds, and from then on the problem reports that variable, in group 0, although no
contained batch holds it and no group lists it; the number of variables is one too large.  The enumeration gives the variables
of the contained batches, each once, and at the last index repeats the first variable of group 0, or throws if there is no
group 0. -/
theorem C113_added_variable {h0 : Heap V} {w w1 : World V} (h : Reach h0 w) {b : BatchId} {d : DVId} {g : GroupId}
    (hone : w.inc.problems.count b = 1) (hd : w.inc.isDVInProblem d = false)
    (h1 : (IOp.batch b (.addDV (some d) g)).step w = .ok () w1) :
    ∃ w2, (IOp.remove (some b)).step w1 = .ok () w2 ∧ w2.inc.problems = w.inc.problems.erase b ∧
      w2.inc.isDVInProblem d = true ∧ w2.inc.getGroupId d = .ok 0 () ∧
      (∀ b' ∈ w2.inc.problems, (w2.B b').isDVInProblem d = false) ∧ (∀ g' l, w2.inc.getGroup g' = .ok l () → d ∉ l) ∧
      ∃ e : List DVId, e.Nodup ∧ (∀ d', d' ∈ e ↔ ∃ b' ∈ w2.inc.problems, (w2.B b').isDVInProblem d' = true) ∧
        w2.inc.numDesignVariables = e.length + 1 ∧ (∀ i (hi : i < e.length), w2.inc.designVariable i = .ok e[i] ()) ∧
        w2.inc.designVariable e.length =
          match w2.inc.getGroup 0 with | .ok (x :: _) _ => .ok x () | _ => .throw .stdOutOfRange () := by
  have hw := h.inv
  obtain ⟨hdb, rfl⟩ := addDV_step h1
  have hmem : b ∈ w.inc.problems := List.count_pos_iff.1 (by omega)
  have hdn : AL.get d w.inc.counts = none := by
    simpa [IncProblem.isDVInProblem, AL.has] using hd
  obtain ⟨idx, hidx, hrem, her⟩ := remove_idx hmem (w.giveDV b d g).B
  obtain ⟨q', hq, hr⟩ := remove_giveDV_unknown hw hidx hdn hdb g
  have hw2 := hr.inv hw hidx
  have hp := phantom_designVariable hw2 d
  simp only at hp
  have hprob : q'.problems = w.inc.problems.erase b := by rw [hr.problems, her]
  have hbn : b ∉ q'.problems := by
    rw [hprob, ← List.count_pos_iff, List.count_erase_self]; omega
  have hB : ∀ b' ∈ q'.problems, (w.giveDV b d g).B b' = w.B b' := by
    intro b' hb'
    simp only [World.giveDV]
    rw [if_neg (fun e : b' = b => hbn (e ▸ hb'))]
  have hnone : ∀ b' ∈ q'.problems, (w.B b').isDVInProblem d = false := by
    intro b' hb'
    rw [← Bool.not_eq_true]
    intro hc
    have hpos : 0 < useCount w.B w.inc.problems d := by
      refine useCount_pos ?_ ((AL.has_iff _ _).1 hc)
      rw [hprob] at hb'
      exact List.mem_of_mem_erase hb'
    rw [(hw.zero d).1 hdn] at hpos; omega
  have hnk : AL.get d q'.counts = none := by
    rw [hr.counts hw d]; simp [hdb, hdn]
  refine ⟨{ w.giveDV b d g with inc := phantom d q' }, ?_, hprob, ?_, ?_, ?_, ?_, enumDV q'.groups q'.ordering, ?_, ?_, hp.1, hp.2.1, hp.2.2⟩
  · show ((w.inc.remove (w.giveDV b d g).B (some b)).mapState _) = _
    rw [hrem, hq]; rfl
  · show AL.has d (q'.counts ++ [(d, (2 ^ 64 - 1, 0))]) = true
    refine (AL.has_iff _ _).2 ?_
    simp only [AL.keys, List.map_append, List.map_cons, List.map_nil, List.mem_append, List.mem_singleton, or_true]
  · have : AL.get d (q'.counts ++ [(d, (2 ^ 64 - 1, 0))]) = some (2 ^ 64 - 1, 0) := by
      rw [← AL.set_of_not_mem ((AL.get_eq_none_iff _ _).1 hnk), AL.get_set]; simp
    simp only [IncProblem.getGroupId, phantom, this]
  · intro b' hb'
    rw [show ({ w.giveDV b d g with inc := phantom d q' } : World V).B b' = w.B b' from hB b' hb']
    exact hnone b' hb'
  · intro g' l hl hc
    simp only [IncProblem.getGroup, phantom] at hl
    cases hg : AL.get g' q'.groups with
    | none => rw [hg] at hl; simp at hl
    | some l' =>
      rw [hg] at hl; simp at hl; subst hl
      have := (hw2.g.mem g' l' hg d).1 hc
      simp only [hnk] at this; simp at this
  · show (enumDV q'.groups q'.ordering).Nodup
    exact (hw2.g.enum_perm hw2.nd (fun d => by
      rw [AL.mem_keys_iff]; cases AL.get d q'.counts <;> simp)).nodup_iff.2 hw2.nd
  · intro d'
    have hperm : (enumDV q'.groups q'.ordering).Perm (AL.keys q'.counts) :=
      hw2.g.enum_perm hw2.nd (fun d => by
        rw [AL.mem_keys_iff]; cases AL.get d q'.counts <;> simp)
    rw [hperm.mem_iff]
    have h2 : d' ∈ AL.keys q'.counts ↔ 0 < useCount w.B q'.problems d' := by
      have := hw2.zero d'
      simp only at this
      rw [AL.get_eq_none_iff] at this
      rw [Nat.pos_iff_ne_zero, ne_eq, ← this, not_not]
    rw [h2, useCount_pos_iff]
    constructor
    · rintro ⟨b', hb', hk⟩
      refine ⟨b', hb', ?_⟩
      rw [show ({ w.giveDV b d g with inc := phantom d q' } : World V).B b' = w.B b' from hB b' hb']
      exact (AL.has_iff _ _).2 hk
    · rintro ⟨b', hb', hk⟩
      refine ⟨b', hb', ?_⟩
      rw [show ({ w.giveDV b d g with inc := phantom d q' } : World V).B b' = w.B b' from hB b' hb'] at hk
      exact (AL.has_iff _ _).1 hk

set_option synthInstance.maxSize 1000 in
/-- Batch 0 of `iprog0` gets variable 11 and is removed: three variables are left (3, 8, 9), four are counted, and the fourth
is 3 again; 11 is reported in group 0.  Without group 0 the last index throws. -/
example : (IOp.runAny (iprog0 ++ [.batch 0 (.addDV (some 11) 5), .remove (some 0)]) (World.init heap0)).state?.map (fun w =>
    (w.inc.problems, w.inc.numDesignVariables, (List.range 4).map w.inc.designVariable, w.inc.getGroupId 11)) =
    some ([1], 4, [.ok 8 (), .ok 9 (), .ok 3 (), .ok 3 ()], .ok 0 ()) := by decide
example : (IOp.runAny [.batch 0 (.addDV (some 4) 2), .add (some 0), .batch 0 (.addDV (some 11) 5), .remove (some 0)]
    (World.init heap0)).state?.map (fun w => (w.inc.problems, w.inc.numDesignVariables, w.inc.designVariable 0)) =
    some ([], 1, .throw .stdOutOfRange ()) := by decide
example : ∃ w w1, Reach heap0 w ∧ w.inc.problems.count 0 = 1 ∧ w.inc.isDVInProblem 11 = false ∧
    (IOp.batch 0 (.addDV (some 11) 5)).step w = .ok () w1 := by
  obtain ⟨w, h1, h2⟩ := iprog0_reach
  have h3 : (IOp.exec iprog0 (World.init heap0)).map (fun w => (w.inc.problems.count 0, w.inc.isDVInProblem 11,
    ((IOp.batch 0 (.addDV (some 11) 5)).step w).isOk)) = some (1, false, true) := by decide
  rw [h1] at h3
  simp only [Option.map_some, Option.some.injEq, Prod.mk.injEq] at h3
  cases hk : (IOp.batch 0 (.addDV (some 11) 5)).step w with
  | ok a w' => exact ⟨w, w', h2, h3.1, h3.2.1, hk⟩
  | _ => rw [hk] at h3; simp [Res.isOk] at h3

/-- **C113 (negation: a variable another batch holds).** If a contained batch is given a variable that exactly one other
contained batch holds, removing the first batch makes the problem forget the variable the other one still needs. -/
theorem C113_shared_variable_lost {h0 : Heap V} {w w1 : World V} (h : Reach h0 w) {b b' : BatchId} {d : DVId} {g : GroupId}
    (hb : b ∈ w.inc.problems) (hother : w.inc.problems.filter (fun x => (w.B x).isDVInProblem d) = [b'])
    (h1 : (IOp.batch b (.addDV (some d) g)).step w = .ok () w1) :
    ∃ w2, (IOp.remove (some b)).step w1 = .ok () w2 ∧ w2.inc.problems = w.inc.problems.erase b ∧
      b' ∈ w2.inc.problems ∧ (w2.B b').isDVInProblem d = true ∧ w2.inc.isDVInProblem d = false ∧
      w2.inc.getGroupId d = .throw .invalidOperation () := by
  have hw := h.inv
  obtain ⟨hdb, rfl⟩ := addDV_step h1
  have hin : b' ∈ w.inc.problems ∧ (w.B b').isDVInProblem d = true := by
    have : b' ∈ w.inc.problems.filter (fun x => (w.B x).isDVInProblem d) := by rw [hother]; simp
    simpa [List.mem_filter] using this
  have huse : useCount w.B w.inc.problems d = 1 := by
    rw [useCount, List.countP_eq_length_filter, hother]; rfl
  have hne : b' ≠ b := by
    rintro rfl
    exact hdb ((AL.has_iff _ _).1 hin.2)
  obtain ⟨idx, hidx, hrem, her⟩ := remove_idx hb (w.giveDV b d g).B
  have hsome : ∃ gd, AL.get d w.inc.counts = some (1, gd) := by
    cases hc : AL.get d w.inc.counts with
    | none => rw [(hw.zero d).1 hc] at huse; omega
    | some x => exact ⟨x.2, by rw [← huse, ← (hw.some d x.1 x.2 hc).1]⟩
  obtain ⟨gd, hgd⟩ := hsome
  obtain ⟨q', hq, hprob, hcnt⟩ := remove_giveDV_known hw hidx hgd hdb g
  simp only [decU] at hcnt
  refine ⟨{ w.giveDV b d g with inc := q' }, ?_, by rw [← her]; exact hprob, ?_, ?_, ?_, ?_⟩
  · show ((w.inc.remove (w.giveDV b d g).B (some b)).mapState _) = _
    rw [hrem, hq]; rfl
  · show b' ∈ q'.problems
    rw [hprob, her]; exact (List.mem_erase_of_ne hne).2 hin.1
  · simp [World.giveDV, hne, hin.2]
  · simp [IncProblem.isDVInProblem, AL.has, hcnt]
  · simp [IncProblem.getGroupId, hcnt]

/-- Batch 0 of `iprog0` gets variable 9 of batch 1 and is removed: batch 1 is still there, variable 9 is not; removing batch 1
then makes 9 a variable of the empty problem. -/
example : (IOp.runAny (iprog0 ++ [.batch 0 (.addDV (some 9) 5), .remove (some 0)]) (World.init heap0)).state?.map (fun w =>
    (w.inc.problems, w.inc.numDesignVariables, (w.B 1).isDVInProblem 9, w.inc.isDVInProblem 9)) =
    some ([1], 2, true, false) := by decide
example : (IOp.runAny (iprog0 ++ [.batch 0 (.addDV (some 9) 5), .remove (some 0), .remove (some 1)])
    (World.init heap0)).state?.map (fun w => (w.inc.problems, w.inc.numDesignVariables, w.inc.isDVInProblem 9)) =
    some ([], 1, true) := by decide
example : ∃ w w1, Reach heap0 w ∧ 0 ∈ w.inc.problems ∧ w.inc.problems.filter (fun x => (w.B x).isDVInProblem 9) = [1] ∧
    (IOp.batch 0 (.addDV (some 9) 5)).step w = .ok () w1 := by
  obtain ⟨w, h1, h2⟩ := iprog0_reach
  have h3 : (IOp.exec iprog0 (World.init heap0)).map (fun w => (decide (0 ∈ w.inc.problems),
    w.inc.problems.filter (fun x => (w.B x).isDVInProblem 9), ((IOp.batch 0 (.addDV (some 9) 5)).step w).isOk)) =
    some (true, [1], true) := by decide
  rw [h1] at h3
  simp only [Option.map_some, Option.some.injEq, Prod.mk.injEq, decide_eq_true_eq] at h3
  cases hk : (IOp.batch 0 (.addDV (some 9) 5)).step w with
  | ok a w' => exact ⟨w, w', h2, h3.1, h3.2.1, hk⟩
  | _ => rw [hk] at h3; simp [Res.isOk] at h3

/-- is the result undefined behaviour? -/
def resUB {σ α : Type _} : Res σ α → Bool
  | .ub => true
  | _ => false
theorem resUB_iff {σ α : Type _} (r : Res σ α) : resUB r = true ↔ r = .ub := by cases r <;> simp [resUB]

/-- **C113 (negation: undefined behaviour).** Some client program that only makes calls which return normally – it gives a
contained batch a variable and removes it, then adds two batches holding that variable – reaches a state in which removing the
last of these batches has undefined behaviour (the end iterator of a group's list is erased). -/
theorem C113_remove_undefined : ∃ (ops : List (IOp Nat)) (w : World Nat) (tr : List Bool),
    IOp.runAny ops (World.init heap0) = .ok tr w ∧ (∀ b ∈ tr, b = true) ∧ w.inc.problems = [1, 2] ∧
    (IOp.remove (some 2)).step w = .ub ∧ (IOp.removeIdx 1).step w = .ub := by
  have key : ∀ ops : List (IOp Nat), ((IOp.runAny ops (World.init heap0)).outcome.map fun x =>
      (x.2.inc.problems, resUB ((IOp.remove (some 2)).step x.2), resUB ((IOp.removeIdx 1).step x.2))) = some ([1, 2], true, true) →
      (match IOp.runAny ops (World.init heap0) with | .ok tr _ => tr.all id | _ => false) = true →
      ∃ (w : World Nat) (tr : List Bool), IOp.runAny ops (World.init heap0) = .ok tr w ∧ (∀ b ∈ tr, b = true) ∧
        w.inc.problems = [1, 2] ∧ (IOp.remove (some 2)).step w = .ub ∧ (IOp.removeIdx 1).step w = .ub := by
    intro ops h1 h2
    cases hr : IOp.runAny ops (World.init heap0) with
    | ok tr w =>
      rw [hr] at h1 h2
      simp only [Res.outcome, Option.map_some, Option.some.injEq, Prod.mk.injEq, resUB_iff, List.all_eq_true, id_eq] at h1 h2
      exact ⟨w, tr, rfl, h2, h1.1, h1.2.1, h1.2.2⟩
    | _ => rw [hr] at h2; simp at h2
  obtain ⟨w, tr, h⟩ := key [.batch 0 (.addDV (some 3) 1), .add (some 0), .batch 0 (.addDV (some 7) 1), .remove (some 0),
    .batch 1 (.addDV (some 7) 0), .add (some 1), .batch 2 (.addDV (some 7) 0), .add (some 2)] (by decide) (by decide)
  exact ⟨_, w, tr, h⟩

theorem runAny_not_throw (ops : List (IOp V)) (w w' : World V) (e : Exc) : IOp.runAny ops w ≠ .throw e w' := by
  induction ops generalizing w with
  | nil => simp [IOp.runAny]
  | cons op ops ih =>
    rw [IOp.runAny]
    cases op.step w with
    | ok a w1 => simp only; cases h2 : IOp.runAny ops w1 <;> simp [Res.bind]; rintro rfl rfl; exact ih _ h2
    | throw e' w1 => simp only; cases h2 : IOp.runAny ops w1 <;> simp [Res.bind]; rintro rfl rfl; exact ih _ h2
    | ub => simp
    | diverge => simp

theorem AnyReach.of_runAny {h0 : Heap V} {ops : List (IOp V)} {w w' : World V} {tr : List Bool} (h : AnyReach h0 w)
    (hr : IOp.runAny ops w = .ok tr w') : AnyReach h0 w' := by
  induction ops generalizing w tr with
  | nil => simp [IOp.runAny] at hr; rw [← hr.2]; exact h
  | cons op ops ih =>
    rw [IOp.runAny] at hr
    cases hs : op.step w with
    | ok a w1 =>
      rw [hs] at hr
      simp only at hr
      cases h2 : IOp.runAny ops w1 with
      | ok tr' w2 =>
        rw [h2] at hr; simp [Res.bind] at hr
        rw [hr.2] at h2
        exact ih (.step op true h (by rw [hs]; rfl)) h2
      | _ => rw [h2] at hr; simp [Res.bind] at hr
    | throw e w1 =>
      rw [hs] at hr
      simp only at hr
      cases h2 : IOp.runAny ops w1 with
      | ok tr' w2 =>
        rw [h2] at hr; simp [Res.bind] at hr
        rw [hr.2] at h2
        exact ih (.step op false h (by rw [hs]; rfl)) h2
      | _ => rw [h2] at hr; simp [Res.bind] at hr
    | ub => rw [hs] at hr; simp at hr
    | diverge => rw [hs] at hr; simp at hr

/-- **C113 (what holds for every client program).** Whatever calls were made – batches changed while contained, additions
rejected – the batches of the problem enumerate their own variables and terms properly, and the error terms of the problem are
those of its batches, in order; a term is in the problem iff a contained batch has it. -/
theorem C113_any_history {h0 : Heap V} {w : World V} (h : AnyReach h0 w) :
    let t := w.inc.problems.flatMap fun b => (w.B b).errorTerms
    w.inc.numErrorTerms w.B = t.length ∧
    (∀ i : Nat, w.inc.errorTerm w.B i = match t[i]? with | some e => .ok e () | none => .throw .outOfBound ()) ∧
    (∀ e, w.inc.isETInProblem w.B e = true ↔ e ∈ t) ∧
    (∀ b, (w.B b).errorTerms.Nodup ∧ (w.B b).ordering.Nodup ∧ ∃ l : List DVId, l.Nodup ∧
      (w.B b).numDesignVariables = l.length ∧ (∀ d, (w.B b).isDVInProblem d = true ↔ d ∈ l) ∧
      ∀ i, (w.B b).designVariable i = match l[i]? with | some d => .ok d () | none => .throw .outOfBound ()) := by
  have hw := h.batches
  have hlen : ∀ b, (w.B b).numErrorTerms = (w.B b).errorTerms.length := by
    intro b; rw [(hw b).et.length_eq]; rfl
  have hfold : ∀ (l : List BatchId) n, l.foldl (fun n b => n + (w.B b).numErrorTerms) n =
      n + (l.map fun b => (w.B b).numErrorTerms).sum := by
    intro l
    induction l with
    | nil => simp
    | cons b l ih => intro n; rw [List.foldl_cons, ih]; simp; omega
  refine ⟨?_, ?_, ?_, ?_⟩
  · rw [IncProblem.numErrorTerms, hfold, Nat.zero_add, List.length_flatMap]; simp only [hlen]
  · intro i
    have := errorIdxLoop_eq w.B hw i w.inc.problems w.inc.problems 0 0 (by omega) (by simp)
    rw [IncProblem.errorTerm]
    rw [Nat.sub_zero] at this
    refine Eq.trans ?_ (this.trans ?_)
    · rcases errorIdxLoop w.B i w.inc.problems 0 0 with _ | ⟨k, j⟩ <;> rfl
    · cases (w.inc.problems.flatMap fun b => (w.B b).errorTerms)[i]? <;> rfl
  · intro e
    rw [isET_iff]
    simp only [List.mem_flatMap, (hw _).et.mem_iff]
  · intro b
    have hb := hw b
    refine ⟨hb.et.nodup_iff.2 hb.etn, hb.g.nodupO, enumDV (w.B b).groups (w.B b).ordering, ?_, ?_, ?_, ?_⟩
    · rw [← elems_keys]; exact elems_nodup hb
    · rw [← elems_keys, ← elems_length hb]; simp [AL.keys]
    · intro d
      rw [← elems_keys, (elems_perm hb).mem_iff]; exact AL.has_iff _ _
    · intro i
      rw [designVariable_eq hb]
      cases (enumDV (w.B b).groups (w.B b).ordering)[i]? <;> rfl

/-- A run the theorem covers although calls on contained batches and a rejected addition occur in it. -/
example : (IOp.runAny (iprogTwice ++ [.batch 1 (.addET (some 3)), .add (some 0), .batch 2 (.addDV (some 4) 5), .add (some 2),
      .batch 0 .clear]) (World.init heap0)).state?.map (fun w =>
    (w.inc.problems, w.inc.numErrorTerms w.B, (List.range 3).map (w.inc.errorTerm w.B))) =
    some ([0, 1], 2, [.ok 4 (), .ok 3 (), .throw .outOfBound ()]) := by decide
example : ∃ w : World Nat, AnyReach heap0 w ∧ w.inc.problems = [0, 1] ∧ w.inc.numErrorTerms w.B = 2 := by
  have h : (IOp.runAny (iprogTwice ++ [.batch 1 (.addET (some 3)), .add (some 0), .batch 2 (.addDV (some 4) 5), .add (some 2),
      .batch 0 .clear]) (World.init heap0)).state?.map (fun w => (w.inc.problems, w.inc.numErrorTerms w.B)) =
    some ([0, 1], 2) := by decide
  cases hr : IOp.runAny (iprogTwice ++ [.batch 1 (.addET (some 3)), .add (some 0), .batch 2 (.addDV (some 4) 5), .add (some 2),
      .batch 0 .clear]) (World.init heap0) with
  | ok tr w =>
    rw [hr] at h
    simp only [Res.state?, Option.map_some, Option.some.injEq, Prod.mk.injEq] at h
    exact ⟨w, .of_runAny .init hr, h.1, h.2⟩
  | throw e w => exact absurd hr (runAny_not_throw _ _ _ _)
  | ub => rw [hr] at h; simp [Res.state?] at h
  | diverge => rw [hr] at h; simp [Res.state?] at h

end Verif
