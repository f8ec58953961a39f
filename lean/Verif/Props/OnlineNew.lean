import Verif.Lemmas.OnlineNew3
import Verif.Props.LrfBatch
import Mathlib.Algebra.BigOperators.Group.List.Basic

/-! C117: the incremental 2D laser calibration program, from the creation of the estimator to its report. -/

namespace Verif
namespace OnlineNew
open Lrf
variable {V F M : Type}

/-- rounding compared with counting. -/
theorem round_total {steps bs : Nat} (hbs : 0 < bs) :
    _root_.round ((steps : ℚ) / (bs : ℚ)) =
      if steps % bs = 0 ∨ bs ≤ 2 * (steps % bs) then (((steps + bs - 1) / bs : ℕ) : ℤ) else (((steps + bs - 1) / bs : ℕ) : ℤ) - 1 := by
  have hq : (0 : ℚ) < bs := by exact_mod_cast hbs
  have hdm := Nat.div_add_mod steps bs
  have hlt := Nat.mod_lt steps hbs
  generalize ha : steps / bs = a at hdm
  generalize hr : steps % bs = r at hdm hlt ⊢
  have hfl : _root_.round ((steps : ℚ) / (bs : ℚ)) = if bs ≤ 2 * r then (a : ℤ) + 1 else a := by
    rw [round_eq, Int.floor_eq_iff]
    have hs : (steps : ℚ) = bs * a + r := by exact_mod_cast hdm.symm
    have hr' : (r : ℚ) < bs := by exact_mod_cast hlt
    have hr0 : (0 : ℚ) ≤ r := by positivity
    have e : (steps : ℚ) / bs = a + r / bs := by rw [hs]; field_simp
    rw [e]
    split
    · rename_i h
      have h' : (bs : ℚ) ≤ 2 * r := by exact_mod_cast h
      have h1 : (1 : ℚ) / 2 ≤ r / bs := by rw [le_div_iff₀ hq]; linarith
      have h2 : (r : ℚ) / bs < 1 := by rw [div_lt_one hq]; exact hr'
      push_cast
      constructor <;> linarith
    · rename_i h
      have h' : 2 * (r : ℚ) < bs := by exact_mod_cast (by omega : 2 * r < bs)
      have h1 : (r : ℚ) / bs < 1 / 2 := by rw [div_lt_iff₀ hq]; linarith
      have h2 : (0 : ℚ) ≤ r / bs := by positivity
      push_cast
      constructor <;> linarith
  have hceil : (steps + bs - 1) / bs = if r = 0 then a else a + 1 := by
    split
    · rename_i h
      rw [Nat.div_eq_iff hbs, Nat.mul_comm a bs]
      omega
    · rw [Nat.div_eq_iff hbs, Nat.add_mul, Nat.mul_comm a bs, one_mul]
      omega
  rw [hfl, hceil]
  by_cases h0 : r = 0
  · subst h0
    simp
    omega
  · by_cases h1 : bs ≤ 2 * r <;> simp [h0, h1]

section
variable {c : Cfg V F M} {mo : F} {g : GroupId} {o : EstOptions F} {h0 : Heap V}

theorem loop_cases (hw : Wired c.ad h0) (hbs : 0 < c.bs) (hg : GroupOk c.nl g) :
    (∃ s, loop c ⟨⟨fun _ => OptProblem.empty, h0, Estimator.construct c.D mo c.m0 g o⟩, []⟩ = .ok () s ∧
      Inv c g o (Estimator.initStats c.D mo c.m0) h0 s ∧
      s.out.map Block.start = (List.range ((c.steps + c.bs - 1) / c.bs)).map (· * c.bs)) ∨
    ∃ s, loop c ⟨⟨fun _ => OptProblem.empty, h0, Estimator.construct c.D mo c.m0 g o⟩, []⟩ = .throw .external s ∧
      ∃ i l', s.out.map Block.start ++ i :: l' = (List.range ((c.steps + c.bs - 1) / c.bs)).map (· * c.bs) ∧
        Cause c s.out.length i := by
  obtain ⟨b, h1, h2⟩ := batchStarts_eq (steps := c.steps) hbs
  have hl : ∀ i ∈ b.starts, c.bs ∣ i ∧ i < c.steps := by
    intro i hi; rw [h2] at hi; exact (mem_batchStarts hbs).1 hi
  have := (Inv.init c mo g o h0).rounds_ok b.starts hw hbs hg (by rw [h2]; simpa using batchStarts_nodup _ hbs) hl
  unfold loop
  rw [h1]
  simp only [List.map_nil, List.nil_append] at this
  rw [h2] at this
  rcases this with ⟨s, k1, k2, k3⟩ | ⟨s, k1, i, l', k2, k3⟩
  · left; exact ⟨s, by simp only [h2]; exact k1, k2, k3⟩
  · right; exact ⟨s, by simp only [h2]; exact k1, i, l', k2, k3⟩

theorem groupOf_nil (c : Cfg V F M) (g : GroupId) : groupOf c [] g = [] := by
  unfold groupOf; split <;> simp

theorem Inv.getGroup {st0 : Stats F M} {s : St V F M} (hi : Inv c g o st0 h0 s) (g' : GroupId) :
    s.w.est.inc.getGroup g' = if groupOf c (accepted s.out) g' = [] then .throw .outOfBound ()
      else .ok ((groupOf c (accepted s.out) g').map c.ad.var) () := by
  have h1 := hi.groups g'
  unfold IncProblem.getGroup
  cases h : AL.get g' s.w.est.inc.groups with
  | none =>
    rw [h] at h1
    simp only [Option.getD_none] at h1
    rw [if_pos (List.map_eq_nil_iff.1 h1.symm)]
  | some l =>
    rw [h] at h1
    simp only [Option.getD_some] at h1
    have := hi.einv.winv.g.ne g' l h
    rw [if_neg, h1]
    intro e
    rw [e] at h1
    exact this h1

theorem stepsOf_ne {i : Nat} (hi : i < c.steps) (hbs : 0 < c.bs) : stepsOf c i ≠ [] := by
  rw [stepsOf_eq hi hbs]; simp

/-- the poses are there as soon as a batch is. -/
theorem Inv.group0 {st0 : Stats F M} {s : St V F M} (hi : Inv c g o st0 h0 s) (hbs : 0 < c.bs) :
    groupOf c (accepted s.out) 0 = [] ↔ accepted s.out = [] := by
  constructor
  · intro h
    by_contra hne
    obtain ⟨j, hj⟩ := List.exists_mem_of_ne_nil _ hne
    obtain ⟨-, h2, -⟩ := hi.starts j (accepted_sub hj)
    simp only [groupOf, if_true, List.map_eq_nil_iff, List.flatMap_eq_nil_iff] at h
    exact stepsOf_ne h2 hbs (h j hj)
  · intro h; rw [h]; exact groupOf_nil c 0

/-- C117.  Started with objects that belong together, a positive batch size and a group to eliminate last that the batches have, the
program ends in one of three ways: it reports, and then at least one batch was accepted; no batch was accepted and the request for the
poses is refused (`OutOfBoundException`) after all batches were tried; or a round fails because the container of batches is full,
the optimizer fails or the linear solver cannot be restored.  No other exception, no undefined behaviour, no endless loop. -/
theorem C117_outcomes (hw : Wired c.ad h0) (hbs : 0 < c.bs) (hg : GroupOk c.nl g) :
    (∃ rep s, program c mo g o h0 = .ok rep s ∧ accepted s.out ≠ [] ∧
      s.out.map Block.start = (List.range ((c.steps + c.bs - 1) / c.bs)).map (· * c.bs)) ∨
    (∃ s, program c mo g o h0 = .throw .outOfBound s ∧ accepted s.out = [] ∧
      s.out.map Block.start = (List.range ((c.steps + c.bs - 1) / c.bs)).map (· * c.bs)) ∨
    (∃ s, program c mo g o h0 = .throw .external s ∧
      ∃ i l', s.out.map Block.start ++ i :: l' = (List.range ((c.steps + c.bs - 1) / c.bs)).map (· * c.bs) ∧
        Cause c s.out.length i) := by
  rcases loop_cases (mo := mo) (o := o) hw hbs hg with ⟨s, k1, hi, k3⟩ | ⟨s, k1, k2⟩
  · have hgrp := hi.getGroup 0
    by_cases ha : accepted s.out = []
    · right; left
      refine ⟨s, ?_, ha, k3⟩
      rw [if_pos ((hi.group0 hbs).2 ha)] at hgrp
      unfold program
      rw [k1]
      simp only [Res.bind, finish, hgrp]
    · left
      rw [if_neg (fun h => ha ((hi.group0 hbs).1 h))] at hgrp
      unfold program
      rw [k1]
      simp only [Res.bind, finish, hgrp]
      exact ⟨_, s, rfl, ha, k3⟩
  · right; right
    refine ⟨s, ?_, k2⟩
    unfold program
    rw [k1]
    rfl

/-- what is known if the program reports. -/
theorem program_inv (hw : Wired c.ad h0) (hbs : 0 < c.bs) (hg : GroupOk c.nl g) {rep : Report V F M} {s : St V F M}
    (h : program c mo g o h0 = .ok rep s) :
    Inv c g o (Estimator.initStats c.D mo c.m0) h0 s ∧ accepted s.out ≠ [] ∧
    s.out.map Block.start = (List.range ((c.steps + c.bs - 1) / c.bs)).map (· * c.bs) ∧ finish c s = .ok rep s := by
  rcases loop_cases (mo := mo) (o := o) hw hbs hg with ⟨s', k1, hi, k3⟩ | ⟨s', k1, k2⟩
  · unfold program at h
    rw [k1] at h
    simp only [Res.bind] at h
    have hf := h
    have hgrp := hi.getGroup 0
    by_cases ha : accepted s'.out = []
    · rw [if_pos ((hi.group0 hbs).2 ha)] at hgrp
      simp only [finish, hgrp] at h
      simp at h
    · rw [if_neg (fun h => ha ((hi.group0 hbs).1 h))] at hgrp
      simp only [finish, hgrp, Res.ok.injEq] at h
      obtain rfl := h.2
      exact ⟨hi, ha, k3, hf⟩
  · unfold program at h
    rw [k1] at h
    simp [Res.bind] at h

/-- C117, the rounds.  There is one round per started batch size, in order; and every round decides and prints as specified by
`Decided`: gain and rank are compared with those of the last accepted batch, and the calibration printed before a round, and after a
rejected one, is that of the last accepted batch. -/
theorem C117_rounds (hw : Wired c.ad h0) (hbs : 0 < c.bs) (hg : GroupOk c.nl g) {rep : Report V F M} {s : St V F M}
    (h : program c mo g o h0 = .ok rep s) :
    s.out.map Block.start = (List.range ((c.steps + c.bs - 1) / c.bs)).map (· * c.bs) ∧
    ∀ pre b post, s.out = pre ++ b :: post →
      Decided c g o (Estimator.initStats c.D mo c.m0) (h0.params (c.ad.var .theta)) pre b := by
  obtain ⟨hi, -, h3, -⟩ := program_inv hw hbs hg h
  exact ⟨h3, hi.dec⟩

/-- C117, the problem at the end.  It consists of exactly the accepted batches: group 0 the poses of their steps in order, group 1
the landmarks, group 2 the calibration, no further group, the group to eliminate in the last place; and the error terms of these
batches in order. -/
theorem C117_problem (hw : Wired c.ad h0) (hbs : 0 < c.bs) (hg : GroupOk c.nl g) {rep : Report V F M} {s : St V F M}
    (h : program c mo g o h0 = .ok rep s) :
    s.w.est.inc.problems = accepted s.out ∧
    (∀ g', s.w.est.inc.getGroup g' = if groupOf c (accepted s.out) g' = [] then .throw .outOfBound ()
      else .ok ((groupOf c (accepted s.out) g').map c.ad.var) ()) ∧
    s.w.est.inc.ordering = orderOf c.nl g ∧
    (∀ k, s.w.est.inc.errorTerm s.w.B k = match ((accepted s.out).flatMap (termsOf c))[k]? with
      | some t => .ok (c.ad.term t) ()
      | none => .throw .outOfBound ()) := by
  obtain ⟨hi, ha, -, -⟩ := program_inv hw hbs hg h
  refine ⟨hi.probs, hi.getGroup, by rw [hi.order, if_neg ha], ?_⟩
  intro k
  have h1 := inc_errorTerm_eq hi.einv.winv k
  simp only [EWorld.toWorld] at h1
  rw [h1, hi.probs]
  have h2 : ((accepted s.out).flatMap fun b => (s.w.B b).errorTerms) = ((accepted s.out).flatMap (termsOf c)).map c.ad.term := by
    rw [List.map_flatMap]
    apply List.flatMap_congr
    intro j hj
    exact (hi.starts j (accepted_sub hj)).2.2.terms
  rw [h2, List.getElem?_map]
  cases ((accepted s.out).flatMap (termsOf c))[k]? <;> rfl

theorem foldl_terms (B : BatchId → OptProblem V) (l : List BatchId) (n : Nat) :
    l.foldl (fun n b => n + (B b).numErrorTerms) n = n + (l.map fun b => (B b).numErrorTerms).sum := by
  induction l generalizing n with
  | nil => simp
  | cons b l ih => simp [ih]; omega

theorem stepTerms_length (nl k : Nat) : (stepTerms nl k).length = nl + 1 := by simp [stepTerms]

theorem termsOf_length (c : Cfg V F M) (i : Nat) : (termsOf c i).length = ((stepsOf c i).length - 1) * (c.nl + 1) := by
  unfold termsOf
  rw [List.length_flatMap]
  simp [stepTerms_length]

/-- C117, the report.  The numbers count the accepted batches, their poses with the landmarks and the calibration, and one motion and
`nl` observations for every step of an accepted batch but its first; the statistics are those returned for the last accepted batch;
and the calibration, landmarks and poses are the result of the optimization over exactly the accepted batches. -/
theorem C117_report (hw : Wired c.ad h0) (hbs : 0 < c.bs) (hg : GroupOk c.nl g) {rep : Report V F M} {s : St V F M}
    (h : program c mo g o h0 = .ok rep s) :
    rep.numBatches = (accepted s.out).length ∧ rep.margGroup = g ∧
    rep.numDesignVariables = ((accepted s.out).map fun i => (stepsOf c i).length).sum + c.nl + 1 ∧
    rep.numErrorTerms = ((accepted s.out).map fun i => ((stepsOf c i).length - 1) * (c.nl + 1)).sum ∧
    ∃ b inp, lastAccepted s.out = some b ∧ rep.stats = statsOf b.ret ∧ rep.calibration = b.after ∧
      inp.inc.problems = accepted s.out ∧
      rep.calibration = (c.oracle b.start inp).params (c.ad.var .theta) ∧
      rep.landmarks = (List.range c.nl).map (fun l => (c.oracle b.start inp).params (c.ad.var (.lm l))) ∧
      rep.poses = ((accepted s.out).flatMap (stepsOf c)).map (fun k => (c.oracle b.start inp).params (c.ad.var (.state k))) := by
  obtain ⟨hi, ha, -, hf⟩ := program_inv hw hbs hg h
  have hgrp := hi.getGroup 0
  rw [if_neg (fun h => ha ((hi.group0 hbs).1 h))] at hgrp
  simp only [finish, hgrp, Res.ok.injEq, and_true] at hf
  subst hf
  have hdv : ∀ d, AL.get d s.w.est.inc.counts ≠ none ↔ s.w.est.inc.isDVInProblem d = true := by
    intro d
    unfold IncProblem.isDVInProblem AL.has
    cases AL.get d s.w.est.inc.counts <;> simp
  obtain ⟨j, hj⟩ := List.exists_mem_of_ne_nil _ ha
  have hth : s.w.est.inc.isDVInProblem (c.ad.var .theta) = true :=
    (hdv _).1 ((hi.counts hbs _).2 ⟨j, by rw [hi.probs]; exact hj, .theta, rfl, trivial⟩)
  have hlm : ∀ l < c.nl, s.w.est.inc.isDVInProblem (c.ad.var (.lm l)) = true := fun l hl =>
    (hdv _).1 ((hi.counts hbs _).2 ⟨j, by rw [hi.probs]; exact hj, .lm l, rfl, hl⟩)
  have hst : ∀ k ∈ (accepted s.out).flatMap (stepsOf c), s.w.est.inc.isDVInProblem (c.ad.var (.state k)) = true := by
    intro k hk
    obtain ⟨i, h1, h2⟩ := List.mem_flatMap.1 hk
    exact (hdv _).1 ((hi.counts hbs _).2 ⟨i, by rw [hi.probs]; exact h1, .state k, rfl, h2⟩)
  refine ⟨?_, hi.marg, ?_, ?_, ?_⟩
  · simp only [EWorld.getNumBatches, IncProblem.numProblems]; rw [hi.probs]
  · have hp : (enumDV s.w.est.inc.groups s.w.est.inc.ordering).Perm (AL.keys s.w.est.inc.counts) :=
      hi.einv.winv.g.enum_perm hi.einv.winv.nd (fun d => by
        rw [AL.mem_keys_iff]
        simp only [EWorld.toWorld]
        cases AL.get d s.w.est.inc.counts <;> simp)
    have e1 : s.w.est.inc.numDesignVariables = (enumDV s.w.est.inc.groups s.w.est.inc.ordering).length := by
      rw [hp.length_eq]; simp [AL.keys, IncProblem.numDesignVariables]
    simp only
    rw [e1, hi.order, if_neg ha]
    unfold enumDV
    rw [List.length_flatMap]
    have e2 : ∀ g', ((AL.get g' s.w.est.inc.groups).getD []).length = (groupOf c (accepted s.out) g').length := by
      intro g'; rw [hi.groups g', List.length_map]
    simp only [e2]
    have g0 : (groupOf c (accepted s.out) 0).length = ((accepted s.out).map fun i => (stepsOf c i).length).sum := by
      simp [groupOf, List.length_flatMap]
    have g1 : (groupOf c (accepted s.out) 1).length = c.nl := by simp [groupOf, ha]
    have g2 : (groupOf c (accepted s.out) 2).length = 1 := by simp [groupOf, ha]
    unfold orderOf
    rcases Nat.eq_zero_or_pos c.nl with hn | hn
    · rw [if_pos hn]
      split <;> simp only [List.map_cons, List.map_nil, List.sum_cons, List.sum_nil, g0, g2] <;> omega
    · rw [if_neg (by omega)]
      split
      · simp only [List.map_cons, List.map_nil, List.sum_cons, List.sum_nil, g0, g1, g2]; omega
      · split <;> simp only [List.map_cons, List.map_nil, List.sum_cons, List.sum_nil, g0, g1, g2] <;> omega
  · simp only [IncProblem.numErrorTerms]
    rw [foldl_terms, hi.probs, Nat.zero_add]
    congr 1
    apply List.map_congr_left
    intro j hj
    have := (hi.starts j (accepted_sub hj)).2.2
    simp only [OptProblem.numErrorTerms]
    rw [this.etLookup, List.length_map, termsOf_length]
  · obtain ⟨b, hb⟩ : ∃ b, lastAccepted s.out = some b := by
      cases hl : lastAccepted s.out with
      | none => exact absurd (lastAccepted_none.1 hl) ha
      | some b => exact ⟨b, rfl⟩
    obtain ⟨inp, -, k2, k3⟩ := hi.vals b hb
    refine ⟨b, inp, hb, ?_, ?_, k2, k3 _ hth, ?_, ?_⟩
    · simp only; rw [hi.stats]; unfold prevStats; rw [hb]; rfl
    · simp only; rw [hi.theta]; unfold prevTheta; rw [hb]; rfl
    · simp only
      apply List.map_congr_left
      intro l hl
      exact k3 _ (hlm l (List.mem_range.1 hl))
    · simp only [groupOf, if_true, List.map_map]
      apply List.map_congr_left
      intro k hk
      exact k3 _ (hst k hk)

/-- C117, the printed total.  The number after "out of" is the number of batches tried exactly if the last batch is not shorter than
half a batch: otherwise it is one less. -/
theorem C117_total (hw : Wired c.ad h0) (hbs : 0 < c.bs) (hg : GroupOk c.nl g) {rep : Report V F M} {s : St V F M}
    (h : program c mo g o h0 = .ok rep s) :
    rep.outOf = if c.steps % c.bs = 0 ∨ c.bs ≤ 2 * (c.steps % c.bs) then (s.out.length : ℤ) else (s.out.length : ℤ) - 1 := by
  obtain ⟨hi, ha, h3, hf⟩ := program_inv hw hbs hg h
  have hgrp := hi.getGroup 0
  rw [if_neg (fun h => ha ((hi.group0 hbs).1 h))] at hgrp
  simp only [finish, hgrp, Res.ok.injEq, and_true] at hf
  subst hf
  have hl : s.out.length = (c.steps + c.bs - 1) / c.bs := by
    have := congrArg List.length h3
    simpa using this
  rw [hl]
  exact round_total hbs

/-- C117, when the program refuses to report.  It then has tried all batches, and every batch with an observable calibration was turned
down because validity checking is on and the optimizer used up its iterations or did not lower the cost; landmarks and calibration are
left at their initial values. -/
theorem C117_nothing_accepted (hw : Wired c.ad h0) (hbs : 0 < c.bs) (hg : GroupOk c.nl g) {s : St V F M}
    (h : program c mo g o h0 = .throw .outOfBound s) :
    (∀ b ∈ s.out, 0 ≤ b.ret.marginal.rankTheta → o.checkValidity = true ∧
      (b.ret.srv.iterations = o.maxIterations ∨ c.D.ge b.ret.srv.JFinal b.ret.srv.JStart = true)) ∧
    s.w.heap.params (c.ad.var .theta) = h0.params (c.ad.var .theta) ∧
    (∀ l < c.nl, s.w.heap.params (c.ad.var (.lm l)) = h0.params (c.ad.var (.lm l))) ∧ s.w.getNumBatches = 0 := by
  rcases loop_cases (mo := mo) (o := o) hw hbs hg with ⟨s', k1, hi, k3⟩ | ⟨s', k1, k2⟩
  · unfold program at h
    rw [k1] at h
    simp only [Res.bind] at h
    have hgrp := hi.getGroup 0
    by_cases ha : accepted s'.out = []
    · rw [if_pos ((hi.group0 hbs).2 ha)] at hgrp
      simp only [finish, hgrp, Res.throw.injEq, true_and] at h
      subst h
      have hla : lastAccepted s'.out = none := lastAccepted_none.2 ha
      have hall : ∀ b ∈ s'.out, b.ret.batchAccepted = false := by
        intro b hb
        unfold accepted at ha
        rw [List.map_eq_nil_iff, List.filter_eq_nil_iff] at ha
        simpa using ha b hb
      refine ⟨?_, ?_, hi.valsN hla, ?_⟩
      · intro b hb hrank
        obtain ⟨pre, post, hs⟩ := List.append_of_mem hb
        have hd := (hi.dec pre b post hs).rule
        have hpre : prevStats (Estimator.initStats c.D mo c.m0) pre = Estimator.initStats c.D mo c.m0 := by
          unfold prevStats
          have : lastAccepted pre = none := by
            rw [lastAccepted_none]
            unfold accepted
            rw [List.map_eq_nil_iff, List.filter_eq_nil_iff]
            intro b' hb'
            simpa using hall b' (by rw [hs]; exact List.mem_append_left _ hb')
          rw [this]; rfl
        rw [hall b hb, hpre] at hd
        have h1 : b.ret.marginal.rankTheta > (Estimator.initStats c.D mo c.m0).marginal.rankTheta := by
          simp only [Estimator.initStats]; omega
        simp only [Bool.false_eq_true, false_iff, not_and] at hd
        have h2 := hd (.inr h1)
        push Not at h2
        refine ⟨h2.1, ?_⟩
        by_cases h3 : b.ret.srv.iterations = o.maxIterations
        · exact .inl h3
        · right
          have := h2.2 h3
          simpa using this
      · rw [hi.theta]; unfold prevTheta; rw [hla]; rfl
      · simp only [EWorld.getNumBatches, IncProblem.numProblems]; rw [hi.probs, ha]; rfl
    · rw [if_neg (fun h => ha ((hi.group0 hbs).1 h))] at hgrp
      simp only [finish, hgrp] at h
      simp at h
  · unfold program at h
    rw [k1] at h
    simp [Res.bind] at h

/-- C117, the rounds if the program refuses to report: as in `C117_rounds`. -/
theorem C117_rounds_refused (hw : Wired c.ad h0) (hbs : 0 < c.bs) (hg : GroupOk c.nl g) {s : St V F M}
    (h : program c mo g o h0 = .throw .outOfBound s) :
    s.out.map Block.start = (List.range ((c.steps + c.bs - 1) / c.bs)).map (· * c.bs) ∧
    ∀ pre b post, s.out = pre ++ b :: post →
      Decided c g o (Estimator.initStats c.D mo c.m0) (h0.params (c.ad.var .theta)) pre b := by
  rcases loop_cases (mo := mo) (o := o) hw hbs hg with ⟨s', k1, hi, k3⟩ | ⟨s', k1, k2⟩
  · unfold program at h
    rw [k1] at h
    simp only [Res.bind] at h
    have hgrp := hi.getGroup 0
    by_cases ha : accepted s'.out = []
    · rw [if_pos ((hi.group0 hbs).2 ha)] at hgrp
      simp only [finish, hgrp, Res.throw.injEq, true_and] at h
      subst h
      exact ⟨k3, hi.dec⟩
    · rw [if_neg (fun h => ha ((hi.group0 hbs).1 h))] at hgrp
      simp only [finish, hgrp] at h
      simp at h
  · unfold program at h
    rw [k1] at h
    simp [Res.bind] at h

/-- C117, a group to eliminate that no batch has.  The first batch makes the program end with `InvalidOperationException`, and that
batch is in the problem. -/
theorem C117_missing_group (hw : Wired c.ad h0) (hbs : 0 < c.bs) (hg : ¬ GroupOk c.nl g) (hs : 0 < c.steps) :
    ∃ s, program c mo g o h0 = .throw .invalidOperation s ∧ s.out = [] ∧ s.w.est.inc.problems = [0] := by
  let s0 : St V F M := ⟨⟨fun _ => OptProblem.empty, h0, Estimator.construct c.D mo c.m0 g o⟩, []⟩
  have hi : Inv c g o (Estimator.initStats c.D mo c.m0) h0 s0 := Inv.init c mo g o h0
  obtain ⟨b, h1, h2⟩ := batchStarts_eq (steps := c.steps) hbs
  have hpos : 0 < (c.steps + c.bs - 1) / c.bs := Nat.div_pos (by omega) hbs
  obtain ⟨n, hn⟩ : ∃ n, (c.steps + c.bs - 1) / c.bs = n + 1 := ⟨(c.steps + c.bs - 1) / c.bs - 1, by omega⟩
  have h3 : b.starts = 0 :: ((List.range n).map Nat.succ).map (· * c.bs) := by
    rw [h2, hn, List.range_succ_eq_map]; simp
  obtain ⟨p, hbuild, hp, hb⟩ := isBatch (hi.wired hw) hs hbs
  have hadd := hi.addable hbs (i := 0) (by simp [s0]) (Nat.dvd_zero _) hs hp hb (by
    simp [s0, Estimator.construct, IncProblem.empty, IncProblem.maxBatches])
  have hE := hi.handed (i := 0) (by simp [s0]) hb
  obtain ⟨q1, hq1, hr, heff⟩ := addBatch_eff c.D c.m0 (c.oracle 0) (c.buildOk 0) hE.winv hadd false
  have hord : g ∉ q1.ordering := by
    have := hr.ordering
    rw [show (handOver s0 0 p).toWorld.B 0 = p from handOver_self s0 0 p, hp.order] at this
    rw [this]
    simp only [s0, handOver, EWorld.toWorld, Estimator.construct, IncProblem.empty, List.nil_append, List.mem_filter]
    exact fun h => order_bad c.nl hg h.1
  generalize hres : (handOver s0 0 p).addBatch c.D c.m0 (c.oracle 0) (c.buildOk 0) (some 0) false = res at heff
  have hres2 : res = .throw .invalidOperation ((handOver s0 0 p).setInc q1) := by
    cases heff with
    | noMarg => rfl
    | optThrows _ _ hm => exact absurd hm hord
    | kept _ _ _ _ _ _ hm => exact absurd hm hord
    | rejected _ _ _ _ _ _ _ _ _ _ hm => exact absurd hm hord
  subst hres2
  refine ⟨⟨(handOver s0 0 p).setInc q1, []⟩, ?_, rfl, hr.problems⟩
  unfold program loop
  rw [h1]
  have e : round c 0 s0 = .throw .invalidOperation ⟨(handOver s0 0 p).setInc q1, []⟩ := by
    unfold round
    rw [hbuild]
    change (match (handOver s0 0 p).addBatch c.D c.m0 (c.oracle 0) (c.buildOk 0) (some 0) false with
      | .ok r w' => _
      | .throw e w' => _
      | .ub => _
      | .diverge => _) = _
    rw [hres]
  simp only [h3, rounds]
  change ((round c 0 s0).bind _).bind _ = _
  rw [e]
  rfl

end

/-- 5010 steps in batches of 200 are 26 batches, printed as 25. -/
example : _root_.round (((5010 : ℕ) : ℚ) / ((200 : ℕ) : ℚ)) = 25 ∧ (5010 + 200 - 1) / 200 = 26 := by
  rw [round_total (by norm_num)]; decide

/-! ### a run -/

/-- a heap with these objects, all values 7. -/
noncomputable def exHeap : Heap Nat where
  active := fun _ => true
  minDim := fun _ => 3
  params := fun _ => 7
  etDVs := demoHeap.etDVs
  etDim := fun _ => 3

theorem ex_wired : Wired demoAddr exHeap := demo_wired

/-- 5 steps, batches of 2, 1 landmark; the optimizer sets every value to `100 + i` in the round starting at `i` and reports `iters`
iterations, the cost going from 10 to 4, and rank 3. -/
def exCfg (iters : Nat) : Cfg Nat Int Nat where
  ad := demoAddr
  D := ⟨0, fun a b => (a - b) / 2, fun a b => decide (a > b), fun a b => decide (a ≥ b)⟩
  m0 := 0
  steps := 5
  bs := 2
  nl := 1
  oracle := fun i _ => ⟨fun _ => 100 + i, ⟨fun _ => 0, fun _ => 0, fun _ => 0, [], []⟩, some (⟨iters, 10, 4⟩, ⟨0, 0, 0, 0, 0⟩),
    some ⟨10, 0, 0, 0, 0, 0, 0, 0, 3, 0, 0, 0, 0, 0, 0⟩⟩
  buildOk := fun _ => true

/-- validity checking on, at most 20 iterations, threshold 3. -/
def exOpts : EstOptions Int := ⟨3, true, 20, true⟩

theorem ex_no_failure (iters i n : Nat) (hn : n < IncProblem.maxBatches) : ¬ Cause (exCfg iters) n i := by
  rintro (h | ⟨inp, h | h⟩ | h)
  · omega
  all_goals simp [exCfg] at h

theorem ex_returns (iters : Nat) (h : ∀ s, program (exCfg iters) (-1) 2 exOpts exHeap ≠ .throw .outOfBound s) :
    ∃ rep s, program (exCfg iters) (-1) 2 exOpts exHeap = .ok rep s := by
  rcases C117_outcomes (c := exCfg iters) (mo := -1) (g := 2) (o := exOpts) ex_wired (by simp [exCfg]) (.inr (.inl rfl)) with
    ⟨rep, s, h1, -⟩ | ⟨s, h1, -⟩ | ⟨s, -, i, l', h2, h3⟩
  · exact ⟨rep, s, h1⟩
  · exact absurd h1 (h s)
  · exfalso
    have : s.out.length < IncProblem.maxBatches := by
      have := congrArg List.length h2
      simp [exCfg] at this
      have hm : 3 < IncProblem.maxBatches := by simp [IncProblem.maxBatches]
      omega
    exact ex_no_failure iters i _ this h3

/-- a run that reports: the optimizer converges, the first batch is accepted. -/
theorem ex_reports : ∃ rep s, program (exCfg 5) (-1) 2 exOpts exHeap = .ok rep s := by
  refine ex_returns 5 ?_
  intro s h
  obtain ⟨h1, -⟩ := C117_nothing_accepted ex_wired (by simp [exCfg]) (.inr (.inl rfl)) h
  obtain ⟨h2, h3⟩ := C117_rounds_refused ex_wired (by simp [exCfg]) (.inr (.inl rfl)) h
  have h4 : s.out ≠ [] := by
    intro e
    rw [e] at h2
    have := congrArg List.length h2
    simp [exCfg] at this
  obtain ⟨b, l, hb⟩ := List.exists_cons_of_ne_nil h4
  obtain ⟨inp, sc, -, -, k1, k2, -, -⟩ := (h3 [] b l hb).source
  simp only [exCfg, Option.some.injEq, Prod.mk.injEq] at k1 k2
  have := h1 b (by rw [hb]; simp) (by rw [← k2]; simp)
  rw [← k1.1] at this
  simp [exOpts, exCfg] at this

example : ∃ rep s, program (exCfg 5) (-1) 2 exOpts exHeap = .ok rep s ∧ rep.numBatches = (accepted s.out).length ∧
    s.w.est.inc.ordering = [0, 1, 2] ∧ s.out.map Block.start = [0, 2, 4] ∧ rep.outOf = 3 := by
  obtain ⟨rep, s, h⟩ := ex_reports
  have h1 := C117_report ex_wired (by simp [exCfg]) (.inr (.inl rfl)) h
  have h2 := C117_problem ex_wired (by simp [exCfg]) (.inr (.inl rfl)) h
  have h3 := C117_rounds ex_wired (by simp [exCfg]) (.inr (.inl rfl)) h
  have h4 := C117_total ex_wired (by simp [exCfg]) (.inr (.inl rfl)) h
  have h5 := congrArg List.length h3.1
  simp [exCfg] at h5
  rw [h5] at h4
  exact ⟨rep, s, h, h1.1, h2.2.2.1, h3.1, by simpa [exCfg] using h4⟩

/-- C117, a run that refuses: the optimizer always uses up its 20 iterations, so that no batch is accepted, and the program ends with
an exception instead of a report. -/
theorem C117_refusal_possible : ∃ s, program (exCfg 20) (-1) 2 exOpts exHeap = .throw .outOfBound s ∧
    s.out.map Block.start = [0, 2, 4] := by
  rcases C117_outcomes (c := exCfg 20) (mo := -1) (g := 2) (o := exOpts) ex_wired (by simp [exCfg]) (.inr (.inl rfl)) with
    ⟨rep, s, h1, h2, -⟩ | ⟨s, h1, -, h3⟩ | ⟨s, -, i, l', h2, h3⟩
  · exfalso
    obtain ⟨-, hd⟩ := C117_rounds ex_wired (by simp [exCfg]) (.inr (.inl rfl)) h1
    apply h2
    unfold accepted
    rw [List.map_eq_nil_iff, List.filter_eq_nil_iff]
    intro b hb hacc
    obtain ⟨pre, post, hs⟩ := List.append_of_mem hb
    have hd' := hd pre b post hs
    obtain ⟨inp, sc, -, -, k1, -⟩ := hd'.source
    simp only [exCfg, Option.some.injEq, Prod.mk.injEq] at k1
    have := (hd'.rule.1 hacc).2 rfl
    rw [← k1.1] at this
    exact this.1 rfl
  · exact ⟨s, h1, h3⟩
  · exfalso
    have : s.out.length < IncProblem.maxBatches := by
      have := congrArg List.length h2
      simp [exCfg] at this
      have hm : 3 < IncProblem.maxBatches := by simp [IncProblem.maxBatches]
      omega
    exact ex_no_failure 20 i _ this h3

example : ∃ s, program (exCfg 5) (-1) 7 exOpts exHeap = .throw .invalidOperation s ∧ s.out = [] ∧ s.w.est.inc.problems = [0] :=
  C117_missing_group ex_wired (by simp [exCfg]) (by simp [GroupOk]) (by simp [exCfg])

end OnlineNew
end Verif
