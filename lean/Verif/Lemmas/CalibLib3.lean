import Verif.Lemmas.CalibLib2

/-! One window of a calibrator with the estimator of the library. -/

namespace Verif
namespace CalibLib
variable {X V F M : Type}
variable {c : Env X V F M} {g : GroupId} {o : EstOptions F} {st0 : Stats F M} {v0 : List V} {s : St X V F M} {x : X}
  {p : OptProblem V}

/-- what a refused batch leaves, also when the matrices cannot be rebuilt afterwards. -/
theorem refused {D : Dbl F} {m0 : M} {oracle : OptInput V → OptCall V F M} {w w' : EWorld V F M} (hw : EInv w) {b : BatchId}
    (hnew : b ∉ w.est.inc.problems) (ha : Addable w.B w.est.inc (w.B b))
    (hres : w.addBatch D m0 oracle false (some b) false = .throw .external w')
    {call : OptCall V F M} {srv : Srv F} {sc : Scaled M} {mg : Marginal F M} {q1 : IncProblem V}
    (hq1 : w.est.inc.add w.B (some b) = .ok () q1)
    (hc : call = oracle (optInput (optWorld w q1 false))) (h1 : call.report = some (srv, sc)) (h2 : call.marginal = some mg)
    (hk : EWorld.keep D w.est.options w.est.stats (D.halfDiff mg.svLog2Sum w.est.stats.marginal.svLog2Sum) srv mg false = false)
    (hm : w.est.margGroup ∈ q1.ordering) :
    ∃ r w2, w.addBatch D m0 oracle true (some b) false = .ok r w2 ∧ r.batchAccepted = false ∧ w'.B = w2.B ∧ w'.heap = w2.heap ∧
      w'.est.inc = w2.est.inc ∧ w'.est.stats = w2.est.stats ∧ w'.est.options = w2.est.options ∧
      w'.est.margGroup = w2.est.margGroup ∧ w'.est.inc.problems ≠ [] := by
  obtain ⟨qa, ha1, hra, heffa⟩ := addBatch_eff D m0 oracle false hw.winv ha false
  obtain ⟨qb, hb1, hrb, heffb⟩ := addBatch_eff D m0 oracle true hw.winv ha false
  have e1 : qa = q1 := by rw [ha1] at hq1; simpa using hq1
  have e2 : qb = q1 := by rw [hb1] at hq1; simpa using hq1
  subst e1
  subst e2
  rw [hres] at heffa
  generalize hres2 : w.addBatch D m0 oracle true (some b) false = res2 at heffb
  cases heffa with
  | optThrows call' hc' hm' ht =>
    rw [← hc] at hc'
    subst hc'
    rw [h1, h2] at ht
    simp at ht
  | rejected call' srv' sc' mg' gain' idx h5 q2 L hc' hm' h1' h2' hg' hk' hh hi hq2 hr2 hL r hr =>
    cases heffb with
    | noMarg hm'' => exact absurd hm hm''
    | optThrows call'' hc'' hm'' ht =>
      rw [← hc] at hc''
      subst hc''
      rw [h1, h2] at ht
      simp at ht
    | kept call'' srv'' sc'' mg'' gain'' hc'' hm'' h1'' h2'' hg'' hk'' =>
      rw [← hc] at hc''
      subst hc''
      rw [h1] at h1''
      rw [h2] at h2''
      simp only [Option.some.injEq, Prod.mk.injEq] at h1'' h2''
      obtain ⟨rfl, rfl⟩ := h1''
      subst h2''
      rw [hg'', hk] at hk''
      simp at hk''
    | rejected call'' srv'' sc'' mg'' gain'' idx'' h5'' q2'' L'' hc'' hm'' h1'' h2'' hg'' hk'' hh'' hi'' hq2'' hr2'' hL'' r'' hr'' =>
      rw [← hc'] at hc''
      subst hc''
      rw [← hh] at hh''
      subst hh''
      rw [hi] at hi''
      simp only [Option.some.injEq] at hi''
      subst hi''
      rw [hq2] at hq2''
      simp only [Res.ok.injEq, true_and] at hq2''
      subst hq2''
      simp only [Bool.false_eq_true, or_false] at hr
      split at hr
      · simp at hr
      · rename_i hne
        simp only [Res.throw.injEq, true_and] at hr
        simp only [or_true, if_true] at hr''
        refine ⟨_, _, hr'', rfl, ?_⟩
        rw [hr]
        exact ⟨rfl, rfl, rfl, rfl, rfl, rfl, hne⟩

theorem getGroup_of {q : IncProblem V} {g : GroupId} {l : List DVId} (h : (AL.get g q.groups).getD [] = l) (hl : l ≠ []) :
    q.getGroup g = .ok l () := by
  unfold IncProblem.getGroup
  cases h1 : AL.get g q.groups with
  | none => rw [h1] at h; simp at h; exact absurd h.symm (fun h3 => hl h3.symm)
  | some m => rw [h1] at h; simp at h; simp [h]

theorem spl_ne (hx : Good c x) (n : Nat) : spl c n x ≠ [] := by
  rw [spl_eq]
  have := hx.1
  intro h
  have := congrArg List.length h
  simp at this
  omega

theorem cal_ne (hc : 0 < c.ncal) : c.cal ≠ [] := by
  intro h
  have := congrArg List.length h
  simp [Env.cal] at this
  omega

/-- the error terms in the problem. -/
theorem Inv.allTerms (hi : Inv c g o st0 v0 s) :
    s.w.est.inc.problems.flatMap (fun k => (s.w.B k).errorTerms) = allTerms c s.log := by
  rw [hi.probs]
  unfold inside CalibLib.allTerms
  rw [List.flatMap_map]
  apply List.flatMap_congr
  intro y hy
  have := List.mem_zipIdx_iff_getElem?.1 (List.mem_filter.1 hy).1
  exact (hi.batches _ _ this).terms

/-- all objects are as they were made, also after the batch of the new window is made. -/
theorem Inv.allMade (hi : Inv c g o st0 v0 s) {b : Sub X V F M} (hbw : b.win = x) {k : Nat} {w : Sub X V F M}
    (hk : (s.log ++ [b])[k]? = some w) : Made c k w.win (handOver c s x p).heap := by
  show Made c k w.win (ready c s.log.length x s.w.heap)
  rcases Nat.lt_trichotomy k s.log.length with h | h | h
  · rw [List.getElem?_append_left h] at hk
    exact (hi.made k w hk).ready (by omega)
  · subst h
    simp at hk
    subst hk
    rw [hbw]; exact ready_made _ _
  · have := (List.getElem?_eq_some_iff.1 hk).1
    simp at this
    omega

/-- what the optimizer is given. -/
theorem Inv.sees (hi : Inv c g o st0 v0 s) (hx : Good c x) (hc : 0 < c.ncal) (hg : g = 0 ∨ g = 1)
    (hp : IsBatch c s.log.length x p) (hb : BInv (ready c s.log.length x s.w.heap) p) {q1 : IncProblem V}
    (hr : AddResult (handOver c s x p).toWorld s.log.length q1) {a : List V} {r : Option (RetVal F M)} {i : Bool} :
    Sees c g s.log ⟨x, c.params s, a, r, i⟩ (optInput (optWorld (handOver c s x p) q1 false)) := by
  obtain ⟨h0, h1⟩ := hi.groups_add hp hb hr
  have hincs := optWorld_inc (handOver c s x p) q1 false
  have hpr : q1.problems = inside s.log ++ [s.log.length] := by
    rw [← hi.probs]; exact hr.problems
  refine ⟨hincs.1.trans hpr, ?_, ?_, ?_, ?_, ?_, ?_, ?_⟩
  · have : q1.ordering = s.w.est.inc.ordering ++ ([0, 1] : List GroupId).filter (fun y => decide (y ∉ s.w.est.inc.ordering)) := by
      have := hr.ordering
      rw [show (handOver c s x p).toWorld.B s.log.length = p from handOver_self (c := c) (x := x), hp.ordering] at this
      exact this
    refine hincs.2.2.2.trans ?_
    rw [show (handOver c s x p).est.margGroup = g from hi.marg, this]
    exact (order_add hg _ hi.order').2
  · refine getGroup_of ?_ (by simp only [ne_eq, List.append_eq_nil_iff, not_and]; intro _ h; intro h2; exact spl_ne hx s.log.length (by unfold spl; rw [h, h2]; rfl))
    show (AL.get 0 (optWorld (handOver c s x p) q1 false).est.inc.groups).getD [] = _
    rw [hincs.2.2.1]; exact h0
  · refine getGroup_of ?_ (cal_ne hc)
    show (AL.get 1 (optWorld (handOver c s x p) q1 false).est.inc.groups).getD [] = _
    rw [hincs.2.2.1]; exact h1
  · show (optWorld (handOver c s x p) q1 false).est.inc.problems.flatMap
      (fun k => ((optWorld (handOver c s x p) q1 false).B k).errorTerms) = _
    rw [hincs.1, optWorld_B, hpr, List.flatMap_append, ← hi.allTerms, ← hi.probs]
    congr 1
    · apply List.flatMap_congr
      intro k hk
      rw [handOver_other (fun h => hi.not_in (h ▸ hk))]
    · simp only [List.flatMap_cons, List.flatMap_nil, List.append_nil]
      rw [handOver_self]; exact hp.terms
  · show c.cal.map (optWorld (handOver c s x p) q1 false).heap.params = _
    rw [optWorld_heap]
    exact ready_cal _ _
  · intro k w hk
    show Made c k w.win (optWorld (handOver c s x p) q1 false).heap
    rw [optWorld_heap]
    exact hi.allMade rfl hk
  · intro j _
    show (optWorld (handOver c s x p) q1 false).heap.params _ = _
    rw [optWorld_heap]
    exact ready_fitted _ _ _

theorem inside_contains {l : List Nat} {n : Nat} (h : n ∉ l) : (l ++ [n]).contains n = true ∧ l.contains n = false := by
  constructor
  · simp
  · simpa using h

theorem keep_iff {D : Dbl F} {st : Stats F M} {gain : F} {srv : Srv F} {mg : Marginal F M} :
    EWorld.keep D o st gain srv mg false = true ↔
      (D.gt gain o.infoGainDelta = true ∨ mg.rankTheta > st.marginal.rankTheta) ∧
      (o.checkValidity = true → srv.iterations ≠ o.maxIterations ∧ D.ge srv.JFinal srv.JStart = false) := by
  simp only [EWorld.keep, EWorld.solutionValid, Bool.or_false, Bool.and_eq_true, Bool.or_eq_true, decide_eq_true_eq,
    Bool.not_eq_true', Bool.and_eq_false_iff, Bool.or_eq_false_iff, decide_eq_false_iff_not]
  cases o.checkValidity <;> simp

/-- one window. -/
theorem Inv.step (hi : Inv c g o st0 v0 s) (hx : Good c x) (hc : 0 < c.ncal) (hg : g = 0 ∨ g = 1)
    (hroom : s.log.length < IncProblem.maxBatches) :
    ∃ s' b, s'.log = s.log ++ [b] ∧ b.win = x ∧ Inv c g o st0 v0 s' ∧
      ((∃ r, b.ret = some r ∧ c.submit s x = .ok r.informationGain s') ∨ (b.ret = none ∧ c.submit s x = .throw .external s')) := by
  obtain ⟨sp, hbuild, hp, hb⟩ := batch_built c s.log.length s.w.heap hx hc
  have hsub : c.submit s x = match (handOver c s x sp.base).addBatch c.D c.m0 (c.oracle s.log.length) (c.buildOk s.log.length)
        (some s.log.length) false with
      | .ok r w' => .ok r.informationGain ⟨w', s.log ++ [⟨x, c.params s, c.cal.map w'.heap.params, some r,
          w'.est.inc.problems.contains s.log.length⟩]⟩
      | .throw e w' => .throw e ⟨w', s.log ++ [⟨x, c.params s, c.cal.map w'.heap.params, none,
          w'.est.inc.problems.contains s.log.length⟩]⟩
      | .ub => .ub
      | .diverge => .diverge := by
    unfold Env.submit; simp only; rw [hbuild]; rfl
  generalize sp.base = p at hp hb hsub
  rw [hsub]
  have hadd := hi.addable hp hb hroom
  have hE := hi.handed hb
  have hnp : s.log.length ∉ (handOver c s x p).est.inc.problems := hi.not_in
  obtain ⟨q1, hq1, hr, heff⟩ := addBatch_eff c.D c.m0 (c.oracle s.log.length) (c.buildOk s.log.length) hE.winv hadd false
  have hsees := fun a r i => hi.sees (a := a) (r := r) (i := i) hx hc hg hp hb hr
  obtain ⟨hg0, hg1⟩ := hi.groups_add hp hb hr
  have hincs := optWorld_inc (handOver c s x p) q1 false
  have hmg : (handOver c s x p).est.margGroup = g := hi.marg
  have hop : (handOver c s x p).est.options = o := hi.opts
  have hst : (handOver c s x p).est.stats = statsAfter st0 s.log := hi.stats
  have hord : (optWorld (handOver c s x p) q1 false).est.inc.ordering = orderOf g := (hsees [] none true).ordering
  have hprob : (optWorld (handOver c s x p) q1 false).est.inc.problems = inside s.log ++ [s.log.length] :=
    (hsees [] none true).problems
  have hinB : s.log.length ∉ inside s.log := by rw [← hi.probs]; exact hi.not_in
  have hgm : g ∈ q1.ordering := by
    have : q1.ordering = s.w.est.inc.ordering ++ ([0, 1] : List GroupId).filter (fun y => decide (y ∉ s.w.est.inc.ordering)) := by
      have := hr.ordering
      rw [show (handOver c s x p).toWorld.B s.log.length = p from handOver_self (c := c) (x := x), hp.ordering] at this
      exact this
    rw [this]; exact (order_add hg _ hi.order').1
  -- what is the same in all outcomes
  have frame : ∀ (w' : EWorld V F M) (b : Sub X V F M), b.win = x → Camera.SameB (handOver c s x p) w' →
      (∀ k, (s.log ++ [b]).length ≤ k → w'.B k = OptProblem.empty) ∧
      (∀ k b', (s.log ++ [b])[k]? = some b' → IsBatch c k b'.win (w'.B k)) ∧
      (∀ k b', (s.log ++ [b])[k]? = some b' → Made c k b'.win w'.heap) := by
    intro w' b hbw hB
    rw [hB.1]
    refine ⟨?_, ?_, fun k b' hk => (hi.allMade hbw hk).same hB.2⟩
    · intro k hk
      simp only [List.length_append, List.length_cons, List.length_nil] at hk
      rw [handOver_other (by omega)]; exact hi.fresh k (by omega)
    · intro k b' hk
      rcases Nat.lt_trichotomy k s.log.length with h | h | h
      · rw [List.getElem?_append_left h] at hk
        rw [handOver_other (by omega)]; exact hi.batches k b' hk
      · subst h
        simp at hk
        subst hk
        rw [handOver_self, hbw]; exact hp
      · have := (List.getElem?_eq_some_iff.1 hk).1
        simp at this
        omega
  have split' : ∀ (b : Sub X V F M), Decided c g o st0 v0 s.log b → ∀ pre b' post, s.log ++ [b] = pre ++ b' :: post →
      Decided c g o st0 v0 pre b' := by
    intro b hb' pre b' post h
    rcases OnlineNew.split_snoc h with ⟨rfl, rfl⟩ | ⟨post', h'⟩
    · exact hb'
    · exact hi.dec pre b' post' h'
  -- the batch stays
  have stays : ∀ (w' : EWorld V F M) (b : Sub X V F M), b.win = x → b.inside = true → b.after = c.cal.map w'.heap.params →
      EInv w' → Camera.SameB (handOver c s x p) w' → w'.est.options = o → w'.est.margGroup = g →
      w'.est.inc = (optWorld (handOver c s x p) q1 false).est.inc → w'.est.stats = statsAfter st0 (s.log ++ [b]) →
      Decided c g o st0 v0 s.log b → Inv c g o st0 v0 ⟨w', s.log ++ [b]⟩ := by
    intro w' b hbw hbi hba hinv hB ho' hm' hinc hst' hdec
    obtain ⟨f1, f2, f3⟩ := frame w' b hbw hB
    refine ⟨hinv, ho', hm', f1, f2, f3, ?_, ?_, ?_, ?_, hst', ?_, split' b hdec⟩
    · rw [inside_snoc, hbi, if_pos rfl]; simp only; rw [hinc]; exact hprob
    · rw [splineVars_snoc, hbi, if_pos rfl, hbw]; simp only; rw [hinc, hincs.2.2.1]; exact hg0
    · rw [inside_snoc, hbi, if_neg (by simp)]; simp only; rw [hinc, hincs.2.2.1]; exact hg1
    · rw [inside_snoc, hbi, if_neg (by simp)]; simp only; rw [hinc]; exact hord
    · rw [calAfter_snoc, hba]; rfl
  -- the batch is taken out
  have leaves : ∀ (w' : EWorld V F M) (b : Sub X V F M), b.win = x → b.inside = false → b.after = c.cal.map w'.heap.params →
      EInv w' → Camera.SameB (handOver c s x p) w' → w'.est.options = o → w'.est.margGroup = g →
      w'.est.inc.problems = inside s.log → w'.est.inc.ordering = s.w.est.inc.ordering →
      (∀ g', AL.get g' w'.est.inc.groups = AL.get g' s.w.est.inc.groups) →
      w'.est.stats = statsAfter st0 (s.log ++ [b]) →
      Decided c g o st0 v0 s.log b → Inv c g o st0 v0 ⟨w', s.log ++ [b]⟩ := by
    intro w' b hbw hbi hba hinv hB ho' hm' hpr hor hgr hst' hdec
    obtain ⟨f1, f2, f3⟩ := frame w' b hbw hB
    have hin : inside (s.log ++ [b]) = inside s.log := by rw [inside_snoc, hbi]; simp
    refine ⟨hinv, ho', hm', f1, f2, f3, ?_, ?_, ?_, ?_, hst', ?_, split' b hdec⟩
    · rw [hin]; exact hpr
    · rw [splineVars_snoc, hbi]; simp only; rw [hgr]; simpa using hi.group0
    · rw [hin]; simp only; rw [hgr]; exact hi.group1
    · rw [hin]; simp only; rw [hor]; exact hi.order
    · rw [calAfter_snoc, hba]; rfl
  have hcalB : ∀ d ∈ c.cal, p.isDVInProblem d = true := by
    intro d hd
    unfold OptProblem.isDVInProblem
    rw [AL.has_iff, AL.mem_keys_iff]
    exact ⟨1, (hp.lookup_iff hb d 1).2 (.inr ⟨rfl, hd⟩)⟩
  have hcal0 : c.cal.map (handOver c s x p).heap.params = c.params s := ready_cal _ _
  -- the refused batch, from what `addBatch` returns
  have refusal : ∀ (w2 : EWorld V F M) (bo : Bool) (r : RetVal F M),
      (handOver c s x p).addBatch c.D c.m0 (c.oracle s.log.length) bo (some s.log.length) false = .ok r w2 →
      r.batchAccepted = false →
      w2.B = (handOver c s x p).B ∧ w2.est.inc.problems = inside s.log ∧ w2.est.inc.ordering = s.w.est.inc.ordering ∧
      (∀ g', AL.get g' w2.est.inc.groups = AL.get g' s.w.est.inc.groups) ∧ w2.est.stats = statsAfter st0 s.log ∧
      w2.est.options = o ∧ w2.est.margGroup = g ∧ c.cal.map w2.heap.params = c.params s := by
    intro w2 bo r hres hra
    obtain ⟨e1, e2, -, e4, e5, -, -, -, -, -, -, e12, e13, e14, e15, -, -⟩ := hE.rejected (.inl hnp) hres hra
    refine ⟨e1, e2.trans hi.probs, e4, fun g' => OnlineNew.getGroup_eq (e5 g'), e12.trans hst, e13.trans hop, e14.trans hmg, ?_⟩
    rw [← hcal0]
    apply List.map_congr_left
    intro d hd
    refine e15 d (.inr ?_)
    rw [handOver_self]; exact hcalB d hd
  generalize hres : (handOver c s x p).addBatch c.D c.m0 (c.oracle s.log.length) (c.buildOk s.log.length) (some s.log.length)
    false = res at heff
  have hinv : ∀ {ok : Bool} {w' : EWorld V F M}, res.outcome = some (ok, w') → EInv w' := by
    intro ok w' h
    exact hE.add_inv hadd hr heff h
  have hsame : ∀ {ok : Bool} {w' : EWorld V F M}, res.outcome = some (ok, w') → Camera.SameB (handOver c s x p) w' := by
    intro ok w' h
    exact (Camera.addBatch_same (D := c.D) (m0 := c.m0) (oracle := c.oracle s.log.length) (buildOk := c.buildOk s.log.length)
      (force := false) (w := handOver c s x p) (w' := w') (b := some s.log.length) (ok := ok) (by rw [hres]; exact h))
  have hboth := inside_contains hinB
  cases hcase : res with
  | ub =>
    rw [hcase] at heff
    cases heff with
    | rejected call srv sc mg gain idx h5 q2 L hcall hm h1 h2 hgn hk hh hidx hq2 hr2 hL _ hres' =>
      simp only at hres'; split at hres' <;> simp at hres'
  | diverge =>
    rw [hcase] at heff
    cases heff with
    | rejected call srv sc mg gain idx h5 q2 L hcall hm h1 h2 hgn hk hh hidx hq2 hr2 hL _ hres' =>
      simp only at hres'; split at hres' <;> simp at hres'
  | throw e w' =>
    have hw' := hinv (ok := false) (w' := w') (by rw [hcase]; rfl)
    have hB' := hsame (ok := false) (w' := w') (by rw [hcase]; rfl)
    rw [hcase] at heff hres
    cases heff with
    | noMarg hm => rw [hmg] at hm; exact absurd hgm hm
    | optThrows call hcall hm ht =>
      refine ⟨_, _, rfl, rfl, ?_, .inr ⟨rfl, rfl⟩⟩
      have hpr' : (afterOpt (optWorld (handOver c s x p) q1 false) call).est.inc.problems = inside s.log ++ [s.log.length] := hprob
      have hia : (afterOpt (optWorld (handOver c s x p) q1 false) call).est.inc.problems.contains s.log.length = true := by
        rw [hpr']; exact hboth.1
      refine stays _ _ rfl hia rfl hw' hB' ?_ ?_ rfl ?_ ?_
      · show (optWorld (handOver c s x p) q1 false).est.options = o
        rw [optWorld_est]; exact hop
      · show (optWorld (handOver c s x p) q1 false).est.margGroup = g
        rw [optWorld_marg]; exact hmg
      · show (optWorld (handOver c s x p) q1 false).est.stats = _
        rw [optWorld_est]
        unfold statsAfter; rw [lastAccepted_snoc]; exact hst
      · refine ⟨hi.cal, fun r h => by simp at h, fun _ => ?_⟩
        refine ⟨optInput (optWorld (handOver c s x p) q1 false), hsees _ _ _, .inl ⟨?_, hia, ?_⟩⟩
        · rw [← hcall]; exact ht
        · rw [← hcall]; rfl
    | rejected call srv sc mg gain idx h5 q2 L hcall hm h1 h2 hgn hk hh hidx hq2 hr2 hL _ hres' =>
      have hbo : c.buildOk s.log.length = false ∧ e = .external := by
        simp only at hres'; split at hres'
        · simp at hres'
        · rename_i hno
          push Not at hno
          simp only [Res.throw.injEq] at hres'
          exact ⟨by simpa using hno.2, hres'.1⟩
      obtain ⟨hbo, rfl⟩ := hbo
      rw [hbo] at hres
      obtain ⟨r, w2, k1, k2, k3, k4, k5, k6, k7, k8, k9⟩ := refused hE hnp hadd hres hq1 hcall h1 h2 (by rw [← hgn]; exact hk) hm
      obtain ⟨j1, j2, j3, j4, j5, j6, j7, j8⟩ := refusal w2 true r k1 k2
      have hia : w'.est.inc.problems.contains s.log.length = false := by rw [k5, j2]; exact hboth.2
      refine ⟨_, _, rfl, rfl, ?_, .inr ⟨rfl, rfl⟩⟩
      refine leaves _ _ rfl hia rfl hw' hB' (k7.trans j6) (k8.trans j7) (by rw [k5]; exact j2) (by rw [k5]; exact j3)
        (by rw [k5]; exact j4) ?_ ?_
      · unfold statsAfter; rw [lastAccepted_snoc]; exact k6.trans j5
      · refine ⟨hi.cal, fun r h => by simp at h, fun _ => ?_⟩
        refine ⟨optInput (optWorld (handOver c s x p) q1 false), hsees _ _ _, .inr ⟨hbo, ?_, hia, ?_⟩⟩
        · rw [← j2, ← k5]; exact k9
        · show c.cal.map w'.heap.params = c.params s
          rw [k4]; exact j8
  | ok r w' =>
    have hw' := hinv (ok := true) (w' := w') (by rw [hcase]; rfl)
    have hB' := hsame (ok := true) (w' := w') (by rw [hcase]; rfl)
    rw [hcase] at heff hres
    refine ⟨_, _, rfl, rfl, ?_, .inl ⟨r, rfl, rfl⟩⟩
    cases heff with
    | kept call srv sc mg gain hcall hm h1 h2 hgn hk =>
      have hia : (optWorld (handOver c s x p) q1 false).est.inc.problems.contains s.log.length = true := by
        rw [hprob]; exact hboth.1
      refine stays _ _ rfl hia rfl hw' hB' hop hmg rfl ?_ ?_
      · unfold statsAfter; rw [lastAccepted_snoc]; rfl
      · refine ⟨hi.cal, fun r h => ?_, fun h => by simp at h⟩
        obtain rfl := Option.some.inj h
        refine ⟨optInput (optWorld (handOver c s x p) q1 false), sc, hsees _ _ _, ?_, ?_, ?_, ?_, ?_, hia, ?_⟩
        · rw [← hcall]; exact h1
        · rw [← hcall]; exact h2
        · simp only; rw [hop]
        · simp only; rw [hgn, hst]
        · rw [hop, hst] at hk
          exact iff_of_true rfl (keep_iff.1 hk)
        · simp only [if_true]; rw [← hcall]
    | rejected call srv sc mg gain idx h5 q2 L hcall hm h1 h2 hgn hk hh hidx hq2 hr2 hL _ hres' =>
      have hrej : r = ⟨false, gain, mg, EWorld.scaledOf c.m0 (handOver c s x p).est.options sc, srv⟩ := by
        simp only at hres'
        split at hres'
        · simp only [Res.ok.injEq] at hres'; exact hres'.1
        · simp at hres'
      have hra : r.batchAccepted = false := by rw [hrej]
      obtain ⟨j1, j2, j3, j4, j5, j6, j7, j8⟩ := refusal w' _ r hres hra
      have hia : w'.est.inc.problems.contains s.log.length = false := by rw [j2]; exact hboth.2
      refine leaves _ _ rfl hia rfl hw' hB' j6 j7 j2 j3 j4 ?_ ?_
      · unfold statsAfter; rw [lastAccepted_snoc]; simp only [hra]; exact j5
      · refine ⟨hi.cal, fun r' h => ?_, fun h => by simp at h⟩
        obtain rfl := Option.some.inj h
        refine ⟨optInput (optWorld (handOver c s x p) q1 false), sc, hsees _ _ _, ?_, ?_, ?_, ?_, ?_, ?_, ?_⟩
        · rw [← hcall, hrej]; exact h1
        · rw [← hcall, hrej]; exact h2
        · rw [hrej]; simp only; rw [hop]
        · rw [hrej]; simp only; rw [hgn, hst]
        · rw [hop, hst] at hk
          rw [hrej]
          refine iff_of_false (by simp) ?_
          intro hcon
          rw [keep_iff.2 hcon] at hk
          simp at hk
        · rw [hra]; exact hia
        · rw [hra]; exact j8

end CalibLib
end Verif
