import Verif.Lemmas.Camera2

/-! The estimator's problem during calibration. -/

namespace Verif
namespace Camera
variable {V F M : Type _}

open Cam

theorem bind_ok_inv {σ α β : Type _} {r : Res σ α} {f : α → σ → Res σ β} {b : β} {t : σ} (h : r.bind f = .ok b t) :
    ∃ a s, r = .ok a s ∧ f a s = .ok b t := by
  cases r <;> simp [Res.bind] at h ⊢; exact h

/-- the variables of a group of a batch, in enumeration order. -/
theorem elems_filter {h : Heap V} {p : OptProblem V} (hi : BInv h p) (g : GroupId) :
    ((elems p).filter fun x => decide (x.2 = g)).map Prod.fst = (AL.get g p.groups).getD [] := by
  have key : ∀ ord : List GroupId, ord.Nodup → (∀ g' ∈ ord, g' ∈ p.ordering) →
      (((enumDV p.groups ord).map fun d => (d, (AL.get d p.lookup).getD 0)).filter fun x => decide (x.2 = g)).map Prod.fst =
        if g ∈ ord then (AL.get g p.groups).getD [] else [] := by
    intro ord
    induction ord with
    | nil => intro _ _; simp [enumDV]
    | cons g' ord ih =>
      intro hn hsub
      have hn' := List.nodup_cons.1 hn
      have ih := ih hn'.2 fun x hx => hsub x (List.mem_cons_of_mem _ hx)
      have hsplit : enumDV p.groups (g' :: ord) = (AL.get g' p.groups).getD [] ++ enumDV p.groups ord := by
        simp [enumDV]
      rw [hsplit, List.map_append, List.filter_append, List.map_append, ih]
      have hg' : ∀ d ∈ (AL.get g' p.groups).getD [], (AL.get d p.lookup).getD 0 = g' := by
        intro d hd
        cases hl : AL.get g' p.groups with
        | none => rw [hl] at hd; simp at hd
        | some l =>
          rw [hl] at hd
          have := (hi.g.mem g' l hl d).1 hd
          rw [this]; rfl
      by_cases e : g' = g
      · subst e
        have h1 : ((((AL.get g' p.groups).getD []).map fun d => (d, (AL.get d p.lookup).getD 0)).filter
            fun x => decide (x.2 = g')) = ((AL.get g' p.groups).getD []).map fun d => (d, (AL.get d p.lookup).getD 0) := by
          rw [List.filter_eq_self]
          intro x hx
          obtain ⟨d, hd, rfl⟩ := List.mem_map.1 hx
          simpa using hg' d hd
        rw [h1]
        simp [hn'.1, Function.comp_def]
      · have h1 : ((((AL.get g' p.groups).getD []).map fun d => (d, (AL.get d p.lookup).getD 0)).filter
            fun x => decide (x.2 = g)) = [] := by
          rw [List.filter_eq_nil_iff]
          intro x hx
          obtain ⟨d, hd, rfl⟩ := List.mem_map.1 hx
          simp only [decide_eq_true_eq]
          rw [hg' d hd]; exact e
        rw [h1]
        simp [Ne.symm e]
  have := key p.ordering hi.g.nodupO fun _ h => h
  unfold elems
  rw [this]
  by_cases hg : g ∈ p.ordering
  · rw [if_pos hg]
  · rw [if_neg hg]
    have : AL.get g p.groups = none := by
      rw [AL.get_eq_none_iff]; exact fun hk => hg ((hi.g.ord g).2 hk)
    rw [this]; rfl

/-- the estimator's view does not change when other batches are worked on. -/
theorem EInv.frame {w w' : EWorld V F M} (hw : EInv w) (he : w'.est = w.est) (hb : ∀ b, BInv w'.heap (w'.B b))
    (hB : ∀ b ∈ w.est.inc.problems, w'.B b = w.B b) : EInv w' := by
  have hu : ∀ d, useCount w'.B w.est.inc.problems d = useCount w.B w.est.inc.problems d := by
    intro d
    unfold useCount
    apply List.countP_congr
    intro b hbm
    rw [hB b hbm]
  refine ⟨⟨hb, ?_, ?_, ?_, ?_, ?_, ?_, by simp only [EWorld.toWorld, he]; exact hw.winv.len⟩, ?_, ?_, ?_⟩
  · simp only [EWorld.toWorld, he]; exact hw.winv.nd
  · simp only [EWorld.toWorld, he]; exact hw.winv.g
  · intro d; simp only [EWorld.toWorld, he, hu]; exact hw.winv.zero d
  · intro d c g hc
    simp only [EWorld.toWorld, he, hu] at hc ⊢
    obtain ⟨h1, h2⟩ := hw.winv.some d c g hc
    exact ⟨h1, fun b hbm g' hg' => h2 b hbm g' (by simp only [EWorld.toWorld]; rw [← hB b hbm]; exact hg')⟩
  · simp only [EWorld.toWorld, he]
    have : (w.est.inc.problems.flatMap fun b => (w'.B b).etLookup) = w.est.inc.problems.flatMap fun b => (w.B b).etLookup :=
      List.flatMap_congr fun b hbm => by rw [hB b hbm]
    rw [this]; exact hw.winv.et
  · simp only [EWorld.toWorld, he]; exact hw.winv.bkn
  · rw [he]; exact hw.bk
  · rw [he]; exact hw.last
  · rw [he]; exact hw.log

theorem Contents.mem_lookup {h : Heap V} {lmG calG trG : GroupId} {lms cal : List DVId} {p : OptProblem V}
    {es : List (Entry V)} (hc : Contents h lmG calG trG lms cal p es) (d : DVId) (g : GroupId) :
    (d, g) ∈ p.lookup ↔ (d ∈ lms ∧ g = lmG) ∨ (d ∈ cal ∧ g = calG) ∨ (d ∈ es.flatMap Entry.dvs ∧ g = trG) := by
  rw [hc.lookup]
  simp only [List.mem_append, List.mem_map, Prod.mk.injEq]
  constructor
  · rintro ((⟨x, hx, rfl, rfl⟩ | ⟨x, hx, rfl, rfl⟩) | ⟨x, hx, rfl, rfl⟩)
    · exact .inl ⟨hx, rfl⟩
    · exact .inr (.inl ⟨hx, rfl⟩)
    · exact .inr (.inr ⟨hx, rfl⟩)
  · rintro (⟨hx, rfl⟩ | ⟨hx, rfl⟩ | ⟨hx, rfl⟩)
    · exact .inl (.inl ⟨d, hx, rfl, rfl⟩)
    · exact .inl (.inr ⟨d, hx, rfl, rfl⟩)
    · exact .inr ⟨d, hx, rfl, rfl⟩

/-- what is known about the estimator as long as no submission failed. -/
structure EI (s : Cam V F M) : Prop where
  einv : EInv s.w
  probs : s.w.est.inc.problems = (s.subs.filter Sub.accepted).map Sub.batch
  tr : s.opt.trGroup ≠ s.opt.lmGroup → s.opt.trGroup ≠ s.opt.calGroup →
    (AL.get s.opt.trGroup s.w.est.inc.groups).getD [] =
      (s.subs.filter Sub.accepted).flatMap fun x => x.images.flatMap Entry.dvs

theorem EI.mem_sub {s : Cam V F M} (hi : EI s) {b : BatchId} (hb : b ∈ s.w.est.inc.problems) :
    ∃ x ∈ s.subs, x.batch = b ∧ x.accepted = true := by
  rw [hi.probs] at hb
  obtain ⟨x, hx, rfl⟩ := List.mem_map.1 hb
  obtain ⟨h1, h2⟩ := List.mem_filter.1 hx
  exact ⟨x, h1, rfl, h2⟩

theorem EI.lt {s : Cam V F M} (hi : EI s) (hs : Base s) {b : BatchId} (hb : b ∈ s.w.est.inc.problems) : b < s.nb := by
  obtain ⟨x, hx, rfl, -⟩ := hi.mem_sub hb
  exact (hs.subsOk x hx).1

/-- the batch under construction fits the estimator's problem. -/
theorem EI.addable {s : Cam V F M} (hi : EI s) (hs : Base s) {b : BatchId} {es : List (Entry V)}
    (hnot : b ∉ s.subs.map Sub.batch)
    (hc : Contents s.w.heap s.opt.lmGroup s.opt.calGroup s.opt.trGroup s.lms s.cal (s.w.B b) es) :
    (∀ d g, AL.get d (s.w.B b).lookup = some g → ∀ c g', AL.get d s.w.est.inc.counts = some (c, g') → g' = g) ∧
    (∀ e ∈ (s.w.B b).etLookup, ∀ b' ∈ s.w.est.inc.problems, e ∉ (s.w.B b').etLookup) ∧ b ∉ s.w.est.inc.problems ∧
    ∀ d, d ∉ s.lms ++ s.cal → d ∈ AL.keys (s.w.B b).lookup → AL.get d s.w.est.inc.counts = none := by
  have hnp : b ∉ s.w.est.inc.problems := by
    intro hb
    obtain ⟨x, hx, rfl, -⟩ := hi.mem_sub hb
    exact hnot (List.mem_map.2 ⟨x, hx, rfl⟩)
  have hnew : ∀ d, d ∉ s.lms ++ s.cal → d ∈ AL.keys (s.w.B b).lookup → AL.get d s.w.est.inc.counts = none := by
    intro d hd hk
    apply (hi.einv.winv.zero d).2
    by_contra h0
    obtain ⟨b', hb', hk'⟩ := useCount_pos_iff.1 (Nat.pos_of_ne_zero h0)
    have := hs.trDisj b b' d hd hk hk'
    subst this
    exact hnp hb'
  refine ⟨?_, ?_, hnp, hnew⟩
  · intro d g hg c g' hcnt
    by_cases hd : d ∈ s.lms ++ s.cal
    · have h0 : useCount s.w.B s.w.est.inc.problems d ≠ 0 := by
        intro h0
        have := (hi.einv.winv.zero d).2 h0
        simp only [EWorld.toWorld] at this
        rw [this] at hcnt; simp at hcnt
      obtain ⟨b', hb', hk'⟩ := useCount_pos_iff.1 (Nat.pos_of_ne_zero h0)
      obtain ⟨x, hx, hxb, -⟩ := hi.mem_sub hb'
      have hc' := (hs.subsOk x hx).2
      rw [hxb] at hc'
      have hsame : AL.get d (s.w.B b').lookup = some g := by
        rcases List.mem_append.1 hd with h | h
        · have e1 := AL.get_of_mem (hs.binv b).lk ((hc.mem_lookup d _).2 (.inl ⟨h, rfl⟩))
          have e2 := AL.get_of_mem (hs.binv b').lk ((hc'.mem_lookup d _).2 (.inl ⟨h, rfl⟩))
          rw [e2, ← e1]; exact hg
        · have e1 := AL.get_of_mem (hs.binv b).lk ((hc.mem_lookup d _).2 (.inr (.inl ⟨h, rfl⟩)))
          have e2 := AL.get_of_mem (hs.binv b').lk ((hc'.mem_lookup d _).2 (.inr (.inl ⟨h, rfl⟩)))
          rw [e2, ← e1]; exact hg
      exact ((hi.einv.winv.some d c g' hcnt).2 b' hb' g hsame).symm
    · rw [hnew d hd ((AL.mem_keys_iff _ _).2 ⟨g, hg⟩)] at hcnt; simp at hcnt
  · intro e he b' hb' he'
    have := hs.etDisj b b' e he he'
    subst this
    exact hnp hb'

/-- the transformation variables of a batch, in the order of its images. -/
theorem Contents.trGroup {h : Heap V} {lmG calG trG : GroupId} {lms cal : List DVId} {p : OptProblem V}
    {es : List (Entry V)} (hc : Contents h lmG calG trG lms cal p es) (h1 : trG ≠ lmG) (h2 : trG ≠ calG) :
    (AL.get trG p.groups).getD [] = es.flatMap Entry.dvs := by
  rw [hc.groups, hc.lookup, List.filter_append, List.filter_append]
  have e1 : (lms.map (·, lmG)).filter (fun x => decide (x.2 = trG)) = [] := by
    rw [List.filter_eq_nil_iff]; simp [Ne.symm h1]
  have e2 : (cal.map (·, calG)).filter (fun x => decide (x.2 = trG)) = [] := by
    rw [List.filter_eq_nil_iff]; simp [Ne.symm h2]
  have e3 : ((es.flatMap Entry.dvs).map (·, trG)).filter (fun x => decide (x.2 = trG)) = (es.flatMap Entry.dvs).map (·, trG) := by
    rw [List.filter_eq_self]; simp only [List.mem_map, decide_eq_true_eq]; rintro _ ⟨x, -, rfl⟩; rfl
  rw [e1, e2, e3]
  simp [Function.comp_def]

/-- the estimator after a submission that returned. -/
theorem EI.submit {D : Dbl F} {m0 : M} {oracle : OptInput V → OptCall V F M} {buildOk : Bool} {s : Cam V F M}
    (hi : EI s) (hs : Base s) {b : BatchId} {es : List (Entry V)} (hnot : b ∉ s.subs.map Sub.batch)
    (hc : Contents s.w.heap s.opt.lmGroup s.opt.calGroup s.opt.trGroup s.lms s.cal (s.w.B b) es)
    {r : RetVal F M} {w' : EWorld V F M} (ha : s.w.addBatch D m0 oracle buildOk (some b) false = .ok r w') :
    EInv w' ∧ w'.est.inc.problems = s.w.est.inc.problems ++ (if r.batchAccepted then [b] else []) ∧
    (s.opt.trGroup ≠ s.opt.lmGroup → s.opt.trGroup ≠ s.opt.calGroup →
      (AL.get s.opt.trGroup w'.est.inc.groups).getD [] = (AL.get s.opt.trGroup s.w.est.inc.groups).getD [] ++
        (if r.batchAccepted then es.flatMap Entry.dvs else [])) ∧
    (r.batchAccepted = false → ∀ g, AL.get g w'.est.inc.groups = AL.get g s.w.est.inc.groups) := by
  obtain ⟨-, -, hnp, hnew⟩ := hi.addable hs hnot hc
  have hadd : Addable s.w.B s.w.est.inc (s.w.B b) := by
    obtain ⟨b', hb', h⟩ := addBatch_ok_addable hi.einv ha
    rw [Option.some.inj hb']; exact h
  obtain ⟨q1, hq1, hr, heff⟩ := addBatch_eff D m0 oracle buildOk hi.einv.winv hadd false
  have hinv := hi.einv.add_inv hadd hr heff (ok := true) (w' := w') (by rw [ha]; rfl)
  refine ⟨hinv, ?_⟩
  rw [ha] at heff
  have hprob : q1.problems = s.w.est.inc.problems ++ [b] := hr.problems
  cases heff with
  | kept call srv sc mg gain hcall hm h1 h2 hg hk =>
    refine ⟨by simp only [if_true]; rw [(optWorld_inc _ _ _).1, hprob], ?_, by simp⟩
    intro n1 n2
    simp only [if_true]
    rw [(optWorld_inc _ _ _).2.2.1, hr.groups]
    congr 1
    rw [← hc.trGroup n1 n2, ← elems_filter (hs.binv b)]
    congr 1
    apply List.filter_congr
    intro x hx
    have hx' : AL.get x.1 (s.w.B b).lookup = some x.2 := (mem_elems (hs.binv b) x.1 x.2).1 hx
    by_cases ex : x.2 = s.opt.trGroup
    · have hmem := AL.get_mem hx'
      rw [ex] at hmem
      have hni : x.1 ∉ s.lms ++ s.cal := by
        intro hmm
        rcases List.mem_append.1 hmm with h | h
        · have := AL.get_of_mem (hs.binv b).lk ((hc.mem_lookup x.1 _).2 (.inl ⟨h, rfl⟩))
          rw [hx', ex] at this; exact n1 (Option.some.inj this)
        · have := AL.get_of_mem (hs.binv b).lk ((hc.mem_lookup x.1 _).2 (.inr (.inl ⟨h, rfl⟩)))
          rw [hx', ex] at this; exact n2 (Option.some.inj this)
      have := hnew x.1 hni ((AL.mem_keys_iff _ _).2 ⟨_, hx'⟩)
      simp only [EWorld.toWorld, this, and_true]
    · simp [ex]
  | rejected call srv sc mg gain idx h5 q2 L hcall hm h1 h2 hg hk hh hidx hq2 hr2 hL _ hres =>
    have hres' : r.batchAccepted = false ∧ w'.est.inc = q2 := by
      simp only at hres
      split at hres
      · simp only [Res.ok.injEq] at hres
        obtain ⟨rfl, rfl⟩ := hres
        exact ⟨rfl, rfl⟩
      · simp at hres
    have hw3 := optWorld_winv hi.einv.winv hadd hr hm false
    have hw5 : WInv (⟨s.w.B, (optWorld s.w q1 false).est.inc, h5⟩ : World V) := by
      have hrest := restoreLoop_rest (optWorld s.w q1 false).est.inc.backup { s.w.heap with params := call.params }
      have := hw3.heapParams (h' := h5) (by
        rw [hh]; simp only [EWorld.toWorld, optWorld_heap]
        exact hrest.2.2.1)
      simp only [EWorld.toWorld, optWorld_B] at this
      exact this
    obtain ⟨q2', e1, -, e3, -, e5, -⟩ := remove_after (w5 := ⟨s.w.B, (optWorld s.w q1 false).est.inc, h5⟩) hi.einv.winv hnp hadd
      hr rfl hw5 (optWorld_inc _ _ _).2.1 (optWorld_inc _ _ _).2.2.1 (optWorld_inc _ _ _).1
    have : q2' = q2 := by
      simp only [IncProblem.remove, IncProblem.findProblem, (optWorld_inc _ _ _).1, hidx] at e1
      rw [hq2] at e1
      simp only [Res.ok.injEq, true_and] at e1
      exact e1.symm
    subst this
    rw [hres'.2, hres'.1]
    refine ⟨by simp only [Bool.false_eq_true, if_false, List.append_nil]; exact e3, ?_, fun _ => e5⟩
    intro _ _
    simp only [Bool.false_eq_true, if_false, List.append_nil]
    exact congrArg (fun x => Option.getD x []) (e5 s.opt.trGroup)

theorem EI.start (S : Setup V F M) : EI S.start where
  einv := EInv.init S.D S.minusOne S.m0 S.margGroup S.eopts S.heap
  probs := rfl
  tr := fun _ _ => rfl

theorem EI.process {S : Setup V F M} {s s' : Cam V F M} {oracle : OptInput V → OptCall V F M} {buildOk : Bool}
    (hi : EI s) (hs : Base s) (hc : Cur s) (h : s.processBatch S.D S.m0 oracle buildOk = .ok () s') : EI s' := by
  obtain ⟨hb', -, h1, h2, h3, h4, h5⟩ := processBatch_eff hs hc (ok := true) (s' := s') (by rw [h]; rfl)
  rcases h5 with ⟨-, rfl, -⟩ | ⟨b, hb, ⟨e, w', -, -, h6, -⟩ | ⟨r, w', ha, -, k1, k2, k3, k4, k5, k6, k7, k8, k9, k10, -⟩⟩
  · exact hi
  · simp at h6
  · have hcur := hc
    simp only [Cur, hb] at hcur
    obtain ⟨e1, e2, e3, -⟩ := hi.submit hs hcur.2.1 hcur.2.2 ha
    refine ⟨?_, ?_, ?_⟩
    · apply EInv.frame e1 k1 hb'.binv
      intro b' hbm
      have hsame : SameB s.w w' := addBatch_same (ok := true) (by rw [ha]; rfl)
      rw [hsame.1]
      apply k2
      rw [e2] at hbm
      rcases List.mem_append.1 hbm with hbm | hbm
      · exact Nat.ne_of_lt (hi.lt hs hbm)
      · split at hbm
        · simp only [List.mem_singleton] at hbm
          rw [hbm]; exact Nat.ne_of_lt hcur.1
        · simp at hbm
    · rw [k1, e2, hi.probs, k8, List.filter_append, List.map_append]
      cases r.batchAccepted <;> simp
    · rw [h1]
      intro n1 n2
      rw [k1, e3 n1 n2, hi.tr n1 n2, k8, List.filter_append, List.flatMap_append]
      cases r.batchAccepted <;> simp

theorem ReachOk.ei {S : Setup V F M} (hS : S.Ok) {s : Cam V F M} {seen : List (Obs V)} (h : ReachOk S s seen) : EI s := by
  induction h with
  | init => exact EI.start S
  | @step s s' seen r op hprev hst ih =>
    have hl := hprev.reach.inv hS
    cases op with
    | initGeometry found =>
      simp only [Op.step, Cam.initGeometry] at hst
      split at hst
      · simp only [Res.bind, Res.ok.injEq] at hst; rw [← hst.2]; exact ih
      · split at hst
        · simp only [Res.bind, Res.ok.injEq] at hst; rw [← hst.2]; exact ⟨ih.einv, ih.probs, ih.tr⟩
        · simp only [Res.bind, Res.ok.injEq] at hst; rw [← hst.2]; exact ih
    | setNum n =>
      simp only [Op.step, Res.ok.injEq] at hst
      rw [← hst.2]; exact ⟨ih.einv, ih.probs, ih.tr⟩
    | processBatch oracle buildOk =>
      obtain ⟨a, t, hp, hst⟩ := bind_ok_inv hst
      simp only [Res.ok.injEq] at hst
      rw [← hst.2]; exact ih.process hl.base hl.cur hp
    | addImage found oracle buildOk =>
      obtain ⟨a, t, hp, hst⟩ := bind_ok_inv hst
      simp only [Res.ok.injEq] at hst
      obtain ⟨-, rfl⟩ := hst
      unfold Cam.addImage at hp
      split at hp
      · simp at hp
      · cases found with
        | none => simp only [Res.ok.injEq] at hp; rw [← hp.2]; exact ih
        | some o =>
          obtain ⟨en, s1, h1, h2, h3, ⟨b, h4, h5, h6⟩, h7, h8, h9, h10, h11, h12, h13, h14, h15, h16, -⟩ := hl.observe o
          simp only [h1] at hp
          have hei : EI ({ s1 with batchObs := s1.batchObs ++ [en] } : Cam V F M) := by
            refine ⟨?_, ?_, ?_⟩
            · apply EInv.frame ih.einv h9 h3.base.binv
              intro b' hbm
              apply h6 b' (ih.lt hl.base hbm)
              rintro rfl
              rcases h5 with h5 | ⟨-, h5⟩
              · have hcur := hl.cur
                simp only [Cur, h5] at hcur
                obtain ⟨x, hx, hxb, -⟩ := ih.mem_sub hbm
                exact hcur.2.1 (List.mem_map.2 ⟨x, hx, hxb⟩)
              · exact absurd (ih.lt hl.base hbm) (Nat.not_lt.2 h5)
            · simp only [h9, h15]; exact ih.probs
            · simp only [h9, h15, h10]; exact ih.tr
          obtain ⟨_, _, e1, hp⟩ := bind_ok_inv hp
          simp only [Res.ok.injEq] at e1
          obtain ⟨rfl, rfl⟩ := e1
          split at hp
          · obtain ⟨a, t', hp, hst⟩ := bind_ok_inv hp
            simp only [Res.ok.injEq] at hst
            rw [← hst.2]; exact hei.process h3.base h3.cur hp
          · simp only [Res.ok.injEq] at hp
            rw [← hp.2]; exact hei

end Camera
end Verif
