import Verif.Lemmas.Refused6
import Verif.Props.Estimator
import Verif.Props.IncIrregular

/-! Property C118: what a refused batch leaves behind for later calls. -/

namespace Verif
open IncProblem
variable {V F M : Type _}

/-! ### specification -/

/-- A client program on an estimator that catches every exception and goes on: the calls with what each showed.  `P` restricts
the calls that may be made. -/
inductive ERuns (D : Dbl F) (m0 : M) (P : EWorld V F M → EOp V F M → Prop) :
    EWorld V F M → List (EOp V F M × EObs F M) → EWorld V F M → Prop where
  | done (w) : ERuns D m0 P w [] w
  | call {w w1 w2 op ob tr} (hP : P w op) (hs : (op.step D m0 w).observe = some (ob, w1)) (hr : ERuns D m0 P w1 tr w2) :
      ERuns D m0 P w ((op, ob) :: tr) w2

/-- Batch `b` files the variable `d` under the group `g`, which is new to the problem, although the problem has it under
another group; nothing else is wrong with the batch and it has no other variable in that group. -/
structure Misfiled (B : BatchId → OptProblem V) (q : IncProblem V) (b : BatchId) (d : DVId) (g : GroupId) : Prop where
  held : (B b).getGroupId d = .ok g ()
  other : ∃ g', q.getGroupId d = .ok g' () ∧ g' ≠ g
  new : q.isGroupInProblem g = false
  rest : ∀ d', d' ≠ d → ∀ g1, (B b).getGroupId d' = .ok g1 () → g1 ≠ g ∧ ∀ g2, q.getGroupId d' = .ok g2 () → g2 = g1

/-- No batch with a variable in group `g` is offered. -/
def NotOffering (g : GroupId) (w : EWorld V F M) (op : EOp V F M) : Prop :=
  ∀ b f o k, op = .addBatch (some b) f o k → ∀ d, (w.B b).getGroupId d ≠ .ok g ()

/-- Calls on a batch that neither add a variable nor clear it. -/
def BOp.keepsVariables : BOp V → Bool
  | .addDV _ _ => false
  | .clear => false
  | _ => true

/-- The variables of contained batches are left alone. -/
def KeepsContained (w : EWorld V F M) (op : EOp V F M) : Prop :=
  ∀ b bop, op = .batch b bop → b ∈ w.est.inc.problems → bop.keepsVariables = true

/-! ### connection to the lemmas -/

theorem getGroupId_lookup (p : OptProblem V) (d : DVId) (g : GroupId) :
    p.getGroupId d = .ok g () ↔ AL.get d p.lookup = some g := by
  unfold OptProblem.getGroupId
  cases AL.get d p.lookup <;> simp

theorem observe_state {r : Res (EWorld V F M) (Option (RetVal F M))} {ob : EObs F M} {w : EWorld V F M}
    (h : r.observe = some (ob, w)) : r.state? = some w ∧ ((∃ e, r = .throw e w) → ob = none) := by
  cases r with
  | ok a s =>
    simp only [Res.observe, Option.some.injEq, Prod.mk.injEq] at h
    exact ⟨by rw [Res.state?, h.2], fun ⟨e, he⟩ => by simp at he⟩
  | throw e s =>
    simp only [Res.observe, Option.some.injEq, Prod.mk.injEq] at h
    exact ⟨by rw [Res.state?, h.2], fun _ => h.1.symm⟩
  | ub => simp [Res.observe] at h
  | diverge => simp [Res.observe] at h

theorem Misfiled.ghost {h : Heap V} {B : BatchId → OptProblem V} {q : IncProblem V} {b : BatchId} {d : DVId} {g : GroupId}
    (hm : Misfiled B q b d g) (hi : BInv h (B b)) : ∃ q', q.add B (some b) = .throw .invalidOperation q' ∧ Ghost g q' := by
  obtain ⟨g', hg', hne⟩ := hm.other
  rw [inc_getGroupId_iff] at hg'
  cases hc : AL.get d q.counts with
  | none => rw [hc] at hg'; simp at hg'
  | some cg =>
    have hcg : cg.2 = g' := by rw [hc] at hg'; simpa using hg'
    refine add_makes_ghost hi ((getGroupId_lookup _ _ _).1 hm.held) hc (by rw [hcg]; exact hne) ?_ ?_
    · have := hm.new; rwa [IncProblem.isGroupInProblem, AL.has_eq_false_iff] at this
    · intro d' hd' g1 hg1
      obtain ⟨r1, r2⟩ := hm.rest d' hd' g1 ((getGroupId_lookup _ _ _).2 hg1)
      refine ⟨r1, fun cg' hcg' => r2 cg'.2 ?_⟩
      rw [inc_getGroupId_iff, hcg']; rfl

/-! ### what is left alone -/

/-- **C118 (what holds).**  In any state, whatever is wrong with the batch: if the estimator's problem refuses it, `addBatch`
throws; the batches, the error terms in the problem, all values, the statistics, the options and the record of optimizer runs are as
before, and every variable that was in is still in, under its group.  Missing, and false by the theorems below: that nothing
else was added, so that later calls do what they would have done. -/
theorem C118_left_alone_partial (D : Dbl F) (m0 : M) (w : EWorld V F M) (b : Option BatchId) {e : Exc} {q' : IncProblem V}
    (href : w.est.inc.add w.B b = .throw e q') (oracle : OptInput V → OptCall V F M) (buildOk force : Bool) :
    ∃ w1, w.addBatch D m0 oracle buildOk b force = .throw e w1 ∧
      w1.B = w.B ∧ w1.heap = w.heap ∧ w1.est.stats = w.est.stats ∧ w1.est.options = w.est.options ∧
      w1.est.calls = w.est.calls ∧ w1.est.inc.problems = w.est.inc.problems ∧
      (∀ t, w1.est.inc.isETInProblem w1.B t = w.est.inc.isETInProblem w.B t) ∧
      w1.est.inc.numErrorTerms w1.B = w.est.inc.numErrorTerms w.B ∧
      ∀ d g, w.est.inc.getGroupId d = .ok g () → w1.est.inc.getGroupId d = .ok g () ∧ w1.est.inc.isDVInProblem d = true := by
  have hp : q'.problems = w.est.inc.problems := by
    cases b with
    | none => simp only [IncProblem.add, Res.throw.injEq] at href; rw [← href.2]
    | some b => exact (add_any w.B w.est.inc b (ok := false) (q' := q') (by rw [href]; rfl)).1
  refine ⟨w.setInc q', ?_, rfl, rfl, rfl, rfl, rfl, hp, ?_, ?_, ?_⟩
  · simp only [EWorld.addBatch, href, Res.mapState, Res.bind]
  · intro t
    simp only [EWorld.setInc, IncProblem.isETInProblem, hp]
  · simp only [EWorld.setInc, IncProblem.numErrorTerms, hp]
  · intro d g hg
    rw [inc_getGroupId_iff] at hg
    have := add_pres (P := fun q : IncProblem V => (AL.get d q.counts).map Prod.snd = some g) (fun _ _ h => h)
      (fun _ _ q d1 g1 q' _ h0 h1 => addOne_grows q q' d1 g1 h0 h1) hg (by rw [href]; rfl : Res.state? _ = some q')
    refine ⟨(inc_getGroupId_iff _ _ _).2 this, ?_⟩
    simp only [EWorld.setInc, IncProblem.isDVInProblem]
    rw [AL.has_iff, AL.mem_keys_iff]
    cases hx : AL.get d q'.counts with
    | none => rw [hx] at this; simp at this
    | some x => exact ⟨x, rfl⟩

/-! ### the estimator after a misfiled variable -/

theorem ghost_runs {D : Dbl F} {m0 : M} {g : GroupId} {w1 w2 : EWorld V F M} {tr : List (EOp V F M × EObs F M)}
    (hg : Ghost g w1.est.inc) (hr : ERuns D m0 (NotOffering g) w1 tr w2) :
    w2.est.calls = w1.est.calls ∧ w2.est.stats = w1.est.stats ∧
    ∀ x ∈ tr, match x.1 with
      | .addBatch _ _ _ _ => x.2 = none
      | .reoptimize _ => x.2 = none
      | .removeBatchIdx _ _ => x.2 = none
      | _ => True := by
  induction hr with
  | done w => exact ⟨rfl, rfl, by simp⟩
  | @call w w1 w2 op ob tr hP hs hr ih =>
    obtain ⟨hst, hth⟩ := observe_state hs
    obtain ⟨a1, a2, a3, -, a5⟩ := hg.step op
      (fun b' f o k hop d' hd' => hP b' f o k hop d' ((getGroupId_lookup _ _ _).2 hd')) hst
    obtain ⟨b1, b2, b3⟩ := ih a1
    refine ⟨b1.trans a2, b2.trans a3, ?_⟩
    intro x hx
    rcases List.mem_cons.1 hx with rfl | hx
    · cases op with
      | addBatch _ _ _ _ => exact hth a5
      | reoptimize _ => exact hth a5
      | removeBatchIdx _ _ => exact hth a5
      | _ => trivial
    · exact b3 x hx

/-- **C118 (negation: one misfiled variable ends the estimator's life).**  In any regular history let a batch be offered that
files one variable under a group new to the estimator although it is known under another.  The call throws and the batch is
not in; but from then on, whatever calls are made – batches built, options set, batches offered, removed – as long as no batch with a variable of
that group is offered, every `addBatch`, `reoptimize` and `removeBatch(idx)` throws, the optimizer is never run again and the
statistics never change. -/
theorem C118_estimator_dead {D : Dbl F} {m0 : M} {mo : F} {g0 : GroupId} {o : EstOptions F} {h0 : Heap V}
    {w : EWorld V F M} (h : EReach D m0 (EWorld.fresh D mo m0 g0 o h0) w) {b : BatchId} {d : DVId} {g : GroupId}
    (hm : Misfiled w.B w.est.inc b d g) (oracle : OptInput V → OptCall V F M) (buildOk force : Bool) :
    ∃ w1, w.addBatch D m0 oracle buildOk (some b) force = .throw .invalidOperation w1 ∧
      w1.est.inc.problems = w.est.inc.problems ∧
      ∀ tr w2, ERuns D m0 (NotOffering g) w1 tr w2 →
        w2.est.calls = w.est.calls ∧ w2.est.stats = w.est.stats ∧
        ∀ x ∈ tr, match x.1 with
          | .addBatch _ _ _ _ => x.2 = none
          | .reoptimize _ => x.2 = none
          | .removeBatchIdx _ _ => x.2 = none
          | _ => True := by
  obtain ⟨q', hadd, hg⟩ := hm.ghost (h.inv.winv.batches b)
  refine ⟨w.setInc q', ?_, ?_, ?_⟩
  · simp only [EWorld.addBatch, hadd, Res.mapState, Res.bind]
  · have := (add_any w.B w.est.inc b (ok := false) (q' := q') (by rw [hadd]; rfl)).1
    simpa [EWorld.setInc] using this
  · intro tr w2 hr
    exact ghost_runs (w1 := w.setInc q') hg hr

/-- Calls and what they showed, without the restriction: for examples. -/
def EOp.play (D : Dbl F) (m0 : M) : List (EOp V F M) → EWorld V F M → Option (List (EObs F M) × EWorld V F M)
  | [], w => some ([], w)
  | op :: ops, w =>
    match (op.step D m0 w).observe with
    | some (ob, w1) => (EOp.play D m0 ops w1).map fun x => (ob :: x.1, x.2)
    | none => none

/-- Batch 3 files variable 3 (known in group 0) under group 9; batch 4 holds variable 7 in group 9 and the marginalised
variable 5. -/
def refBatches : List (EOp Nat Int Nat) :=
  [.batch 3 (.addDV (some 5) 1), .batch 3 (.addDV (some 3) 9), .batch 4 (.addDV (some 7) 9), .batch 4 (.addDV (some 5) 1),
   .batch 5 (.addDV (some 5) 1), .batch 5 (.addDV (some 4) 0)]

/-- A regular history in which batch 0 was accepted, then the offer of batch 3: its hypotheses hold, batch 5 would have been
accepted before, and afterwards it is refused however often it is offered. -/
example : ((EOp.play dblInt 0 (ebatches0 ++ refBatches ++ [.addBatch (some 0) false (oracle0 8 1 5) true,
      .addBatch (some 5) false (oracle0 20 1 5) true]) est0).map fun x => flags (x.1.drop 16)) =
      some [some (some true), some (some true)] ∧
    ((EOp.play dblInt 0 (ebatches0 ++ refBatches ++ [.addBatch (some 0) false (oracle0 8 1 5) true,
      .addBatch (some 3) false (oracle0 20 1 5) true, .addBatch (some 5) true (oracle0 20 1 5) true,
      .reoptimize (oracle0 20 1 5), .removeBatchIdx 1 (oracle0 20 1 5),
      .addBatch (some 5) true (oracle0 20 1 5) true]) est0).map fun x => (flags (x.1.drop 16), x.2.est.calls.length)) =
      some ([some (some true), none, none, none, none, none], 1) := by decide

/-- `C118_left_alone_partial` applies to that offer. -/
example : ((EOp.play dblInt 0 (ebatches0 ++ refBatches ++ [.addBatch (some 0) false (oracle0 8 1 5) true]) est0).map fun x =>
    match x.2.est.inc.add x.2.B (some 3) with | .throw .invalidOperation _ => true | _ => false) = some true := by decide

set_option synthInstance.maxSize 1000 in
example : ∃ w, EReach dblInt 0 est0 w ∧ Misfiled w.B w.est.inc 3 3 9 := by
  have hr : ((EOp.run dblInt 0 (ebatches0 ++ refBatches ++ [.addBatch (some 0) false (oracle0 8 1 5) true]) est0).map
      fun x => (AL.get 3 (x.2.B 3).lookup, x.2.est.inc.getGroupId 3, x.2.est.inc.isGroupInProblem 9,
        (x.2.B 3).lookup, x.2.est.inc.getGroupId 5)) =
      some (some 9, .ok 0 (), false, [(5, 1), (3, 9)], .ok 1 ()) := by decide
  cases hw : EOp.run dblInt 0 (ebatches0 ++ refBatches ++ [.addBatch (some 0) false (oracle0 8 1 5) true]) est0 with
  | none => rw [hw] at hr; simp at hr
  | some x =>
    rw [hw] at hr
    simp only [Option.map_some, Option.some.injEq, Prod.mk.injEq] at hr
    obtain ⟨k1, k2, k3, k4, k5⟩ := hr
    refine ⟨x.2, reach_of_run .init hw, (getGroupId_lookup _ _ _).2 k1, ⟨0, k2, by decide⟩, k3, ?_⟩
    intro d' hd' g1 hg1
    rw [getGroupId_lookup, k4] at hg1
    simp only [AL.get_cons, AL.get_nil] at hg1
    split at hg1
    · rename_i h5
      subst h5
      simp only [Option.some.injEq] at hg1
      subst hg1
      refine ⟨by decide, fun g2 hg2 => ?_⟩
      rw [k5] at hg2
      simpa using hg2.symm
    · split at hg1
      · rename_i h3; exact absurd h3.symm hd'
      · simp at hg1

/-! ### a batch refused for an error term -/

theorem leak_runs {D : Dbl F} {m0 : M} {d : DVId} {w1 w2 : EWorld V F M} {tr : List (EOp V F M × EObs F M)}
    (hr : ERuns D m0 KeepsContained w1 tr w2) : ∀ {k : Nat}, (∀ b, BInv w1.heap (w1.B b)) → Leak w1.B d k w1.est.inc →
    k + tr.length < 2 ^ 64 - 1 →
    Leak w2.B d (k + tr.length) w2.est.inc ∧
      ∃ l, w2.est.calls = w1.est.calls ++ l ∧ ∀ i ∈ l, i.inc.isDVInProblem d = true := by
  have hin : ∀ {B : BatchId → OptProblem V} {k q}, Leak B d k q → q.isDVInProblem d = true := by
    rintro B k q ⟨c, g, h, -⟩
    exact (AL.has_iff _ _).2 ((AL.mem_keys_iff _ _).2 ⟨_, h⟩)
  induction hr with
  | done w => exact fun _ hl _ => ⟨hl, [], by simp, by simp⟩
  | @call w w1 w2 op ob tr hP hs hr ih =>
    intro k hB hl hk
    obtain ⟨hst, -⟩ := observe_state hs
    rw [List.length_cons] at hk ⊢
    have step : (∀ b, BInv w1.heap (w1.B b)) ∧ Leak w1.B d (k + 1) w1.est.inc ∧
        ∃ l, w1.est.calls = w.est.calls ++ l ∧ ∀ i ∈ l, i.inc.isDVInProblem d = true := by
      by_cases hop : ∃ b bop, op = .batch b bop
      · obtain ⟨b, bop, rfl⟩ := hop
        obtain ⟨h1, h2, h3, h4⟩ := bop_keeps hB hst
        refine ⟨h2, ?_, [], by rw [h1]; simp, by simp⟩
        rw [h1]
        have huse : useCount w1.B w.est.inc.problems d = useCount w.B w.est.inc.problems d := by
          refine useCount_congr (fun b' hb' => ?_) d
          by_cases hbb : b' = b
          · have hkv := hP b bop rfl (hbb ▸ hb')
            refine h3 ⟨fun d g he => ?_, fun he => ?_⟩ b'
            · rw [he] at hkv; simp [BOp.keepsVariables] at hkv
            · rw [he] at hkv; simp [BOp.keepsVariables] at hkv
          · exact h4 b' hbb
        obtain ⟨c, g, l1, l2, l3⟩ := hl
        exact ⟨c, g, l1, by omega, by omega⟩
      · obtain ⟨a1, a2, a3, l, a4, a5⟩ := estep_after (Leak.carried hB (by omega) : Carried (Leak w.B d k) _ w.B) hl op
          (fun b bop he => hop ⟨b, bop, he⟩) hst
        refine ⟨fun b => ?_, a2 ▸ a1, l, a4, fun i hi => hin (a5 i hi).1⟩
        rw [a2]; exact (hB b).heap a3
    obtain ⟨s1, s2, l, s3, s4⟩ := step
    obtain ⟨r1, l', r2, r3⟩ := ih s1 s2 (by omega)
    refine ⟨?_, l ++ l', by rw [r2, s3, List.append_assoc], ?_⟩
    · have : k + 1 + tr.length = k + (tr.length + 1) := by omega
      rwa [this] at r1
    · intro i hi
      rcases List.mem_append.1 hi with hi | hi
      · exact s4 i hi
      · exact r3 i hi

/-- **C118 (negation: the variables of a refused batch stay).**  In any regular history let a batch be offered that agrees
with the estimator on the groups of its variables but has an error term that is already in.  The call throws and the batch is
not in; but its variables are: whatever fewer than 2^60 calls follow – removing every batch included, as long as the variables of contained batches are left
alone – each variable of the refused batch remains a variable of the estimator's problem, and of every problem the optimizer
is run on. -/
theorem C118_variables_stay {D : Dbl F} {m0 : M} {mo : F} {g0 : GroupId} {o : EstOptions F} {h0 : Heap V}
    {w : EWorld V F M} (h : EReach D m0 (EWorld.fresh D mo m0 g0 o h0) w) {b : BatchId}
    (hgroups : ∀ d g g', (w.B b).getGroupId d = .ok g () → w.est.inc.getGroupId d = .ok g' () → g' = g)
    (hdup : ∃ e, (w.B b).isETInProblem e = true ∧ w.est.inc.isETInProblem w.B e = true)
    (oracle : OptInput V → OptCall V F M) (buildOk force : Bool) :
    ∃ w1, w.addBatch D m0 oracle buildOk (some b) force = .throw .invalidOperation w1 ∧
      w1.est.inc.problems = w.est.inc.problems ∧
      ∀ tr w2, ERuns D m0 KeepsContained w1 tr w2 → tr.length < 2 ^ 60 → ∀ d, (w.B b).isDVInProblem d = true →
        w2.est.inc.isDVInProblem d = true ∧
        ∃ later, w2.est.calls = w.est.calls ++ later ∧ ∀ i ∈ later, i.inc.isDVInProblem d = true := by
  obtain ⟨e, he, hin⟩ := hdup
  obtain ⟨q', hadd, hp, hleak⟩ := add_dup_leak h.inv.winv (b := b)
    (fun d g hg c g' hc => hgroups d g g' ((getGroupId_lookup _ _ _).2 hg)
      (by rw [inc_getGroupId_iff, show AL.get d w.est.inc.counts = _ from hc]; rfl))
    (e := e) (show e ∈ (w.B b).etLookup by simpa [OptProblem.isETInProblem] using he) hin
  refine ⟨w.setInc q', ?_, hp, ?_⟩
  · have hadd' : w.est.inc.add w.B (some b) = .throw .invalidOperation q' := hadd
    simp only [EWorld.addBatch, hadd', Res.mapState, Res.bind]
  · intro tr w2 hr hlen d hd
    have hm : maxBatches + 1 < 2 ^ 60 := by decide
    obtain ⟨⟨c, g, r1, -⟩, r2⟩ := leak_runs hr (w1 := w.setInc q') h.inv.winv.batches
      (hleak d ((AL.has_iff _ _).1 hd)) (by omega)
    exact ⟨(AL.has_iff _ _).2 ((AL.mem_keys_iff _ _).2 ⟨_, r1⟩), r2⟩

/-- Batch 0 accepted, offered again by mistake (refused) and removed: no batch is left, its three variables are. -/
example : ((EOp.play dblInt 0 (ebatches0 ++ [.addBatch (some 0) false (oracle0 8 1 5) true,
      .addBatch (some 0) false (oracle0 20 1 5) true, .removeBatchIdx 0 (oracle0 20 1 5)]) est0).map fun x =>
        (flags (x.1.drop 10), x.2.est.inc.problems, [3, 4, 5, 6].map x.2.est.inc.isDVInProblem,
          x.2.est.calls.map fun i => i.inc.isDVInProblem 3)) =
      some ([some (some true), none, some none], [], [true, true, true, false], [true, true]) ∧
    ((EOp.play dblInt 0 (ebatches0 ++ [.addBatch (some 0) false (oracle0 8 1 5) true,
      .removeBatchIdx 0 (oracle0 20 1 5)]) est0).map fun x => [3, 4, 5, 6].map x.2.est.inc.isDVInProblem) =
      some [false, false, false, false] := by decide

set_option synthInstance.maxSize 1000 in
example : ∃ w, EReach dblInt 0 est0 w ∧
    (∀ d g g', (w.B 0).getGroupId d = .ok g () → w.est.inc.getGroupId d = .ok g' () → g' = g) ∧
    ∃ e, (w.B 0).isETInProblem e = true ∧ w.est.inc.isETInProblem w.B e = true := by
  have hr : ((EOp.run dblInt 0 (ebatches0 ++ [.addBatch (some 0) false (oracle0 8 1 5) true]) est0).map
      fun x => ((x.2.B 0).lookup, x.2.est.inc.counts, (x.2.B 0).isETInProblem 3, x.2.est.inc.isETInProblem x.2.B 3)) =
      some ([(5, 1), (3, 0), (4, 0)], [(5, 1, 1), (3, 1, 0), (4, 1, 0)], true, true) := by decide
  cases hw : EOp.run dblInt 0 (ebatches0 ++ [.addBatch (some 0) false (oracle0 8 1 5) true]) est0 with
  | none => rw [hw] at hr; simp at hr
  | some x =>
    rw [hw] at hr
    simp only [Option.map_some, Option.some.injEq, Prod.mk.injEq] at hr
    obtain ⟨k1, k2, k3, k4⟩ := hr
    refine ⟨x.2, reach_of_run .init hw, ?_, 3, k3, k4⟩
    intro d g g' h1 h2
    rw [getGroupId_lookup, k1] at h1
    rw [inc_getGroupId_iff, k2] at h2
    simp only [AL.get_cons, AL.get_nil] at h1 h2
    clear k1 k2 k3 k4 hw
    by_cases a : 5 = d
    · simp [a] at h1 h2; rw [← h1, ← h2]
    by_cases b : 3 = d
    · simp [a, b] at h1 h2; rw [← h1, ← h2]
    by_cases c : 4 = d
    · simp [a, b, c] at h1 h2; rw [← h1, ← h2]
    · simp [a, b, c] at h1

/-! ### the optimizer on the wrong part of the problem -/

/-- The variables in the order in which the optimizer numbers them. -/
def enumerated (i : OptInput Nat) : List (Option DVId) :=
  (List.range i.inc.numDesignVariables).map fun n => match i.inc.designVariable n with | .ok d _ => some d | _ => none

/-- **C118 (negation: the optimizer's input is no longer the sum of the batches).**  After a refused batch the group ordering
can list a group twice: batch 0 is accepted, batch 3 (variable 3 in group 9 only) refused, batch 0 removed, batch 4 (variable 7 in group 9, the
marginalised variable 5 in group 1) offered.  The optimizer is then run with variable 7 numbered twice and the marginalised
variable not at all, and with the marginalised columns said to begin at 16 although only the 8 columns of variable 7 precede them. -/
theorem C118_wrong_index :
    ((EOp.play dblInt 0 (ebatches0 ++ [.batch 3 (.addDV (some 3) 9), .batch 4 (.addDV (some 7) 9), .batch 4 (.addDV (some 5) 1),
      .addBatch (some 0) false (oracle0 8 1 5) true,
      .addBatch (some 3) false (oracle0 20 1 5) true, .removeBatchIdx 0 (oracle0 20 1 5),
      .addBatch (some 4) true (oracle0 20 1 5) true]) est0).map fun x =>
        (x.2.est.calls.map fun i => (enumerated i, i.margStart), x.2.est.inc.ordering)) =
      some ([([some 3, some 4, some 5], 9), ([some 7, some 7], 16)], [9, 9, 1]) ∧ heap0.minDim 7 = 8 ∧ heap0.minDim 5 = 6 := by decide

/-! ### the group ordering -/

/-- **C118 (negation: the group ordering can no longer be set).**  In any regular history of the problem itself, let a batch
with one misfiled variable be offered.  `add` throws; and after any further calls, those that throw included, that do not clear
the problem, every `setGroupsOrdering` throws, whatever ordering is given – the current one included. -/
theorem C118_ordering_stuck {h0 : Heap V} {w : World V} (h : Reach h0 w) {b : BatchId} {d : DVId} {g : GroupId}
    (hm : Misfiled w.B w.inc b d g) :
    ∃ w1, (IOp.add (some b)).step w = .throw .invalidOperation w1 ∧ w1.inc.problems = w.inc.problems ∧
      ∀ ops tr w2, (∀ op ∈ ops, op ≠ .clear) → IOp.runAny ops w1 = .ok tr w2 →
        ∀ o, w2.inc.setGroupsOrdering o = .throw .outOfBound w2.inc := by
  obtain ⟨q', hadd, hg⟩ := hm.ghost (h.inv.batches b)
  refine ⟨{ w with inc := q' }, ?_, ?_, ?_⟩
  · simp only [IOp.step, hadd, Res.mapState]
  · exact (add_any w.B w.inc b (ok := false) (q' := q') (by rw [hadd]; rfl)).1
  · intro ops tr w2 hc hr o
    have : Overfull q' := add_overfull h.inv (b := some b) (by rw [hadd]; rfl) hg
    exact (this.runAny (w := { w with inc := q' }) hc hr).setOrdering o

/-- Variable 3 is known in group 0 and offered in group 9: afterwards not even the current ordering can be set. -/
example : ((IOp.runAny [.batch 0 (.addDV (some 3) 0), .batch 0 (.addDV (some 4) 1), .batch 1 (.addDV (some 3) 9),
      .add (some 0), .setOrdering [1, 0], .add (some 1), .setOrdering [1, 0], .setOrdering [1, 0, 9], .remove (some 0),
      .setOrdering [9], .setOrdering [], .clear, .setOrdering []] (World.init heap0)).bind fun tr w => .ok (tr, w.inc.ordering) w).mapState
        (fun _ => ()) =
    .ok ([true, true, true, true, true, false, false, false, true, false, false, true, true], []) () := by decide

example : ∃ w : World Nat, Reach heap0 w ∧ Misfiled w.B w.inc 1 3 9 := by
  have hr : ((IOp.exec [.batch 0 (.addDV (some 3) 0), .batch 0 (.addDV (some 4) 1), .batch 1 (.addDV (some 3) 9),
      .add (some 0)] (World.init heap0)).map fun w => ((w.B 1).lookup, w.inc.getGroupId 3, w.inc.isGroupInProblem 9)) =
      some ([(3, 9)], Res.ok 0 (), false) := by decide
  cases hw : IOp.exec [.batch 0 (.addDV (some 3) 0), .batch 0 (.addDV (some 4) 1), .batch 1 (.addDV (some 3) 9),
      .add (some 0)] (World.init heap0) with
  | none => rw [hw] at hr; simp at hr
  | some w =>
    rw [hw] at hr
    simp only [Option.map_some, Option.some.injEq, Prod.mk.injEq] at hr
    obtain ⟨k1, k2, k3⟩ := hr
    refine ⟨w, reach_of_exec hw, (getGroupId_lookup _ _ _).2 (by rw [k1]; rfl), ⟨0, k2, by decide⟩, k3, ?_⟩
    intro d' hd' g1 hg1
    rw [getGroupId_lookup, k1] at hg1
    simp [AL.get_cons, AL.get_nil, Ne.symm hd'] at hg1

end Verif
