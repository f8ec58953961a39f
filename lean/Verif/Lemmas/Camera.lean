import Verif.Spec.Camera
import Verif.Lemmas.Estimator2

/-! Invariants of the camera calibrator. -/

namespace Verif
namespace Camera
variable {V F M : Type _}

open Cam

/-- the same, counting from `i`. -/
def visFrom (o : Obs V) (i : Nat) (lms : List DVId) : List DVId := ((lms.zipIdx i).filter fun x => o.visible x.2).map Prod.fst

/-- what a batch made from the given images contains. -/
structure Contents (h : Heap V) (lmG calG trG : GroupId) (lms cal : List DVId) (p : OptProblem V)
    (es : List (Entry V)) : Prop where
  lookup : p.lookup = lms.map (·, lmG) ++ cal.map (·, calG) ++ (es.flatMap Entry.dvs).map (·, trG)
  groups : ∀ g, (AL.get g p.groups).getD [] = (p.lookup.filter fun x => decide (x.2 = g)).map Prod.fst
  ets : p.errorTerms = p.etLookup
  deps : p.errorTerms.map h.etDVs = es.flatMap fun e => (visLms e.obs lms).map fun l => [e.qdv, e.tdv, l] ++ cal

/-- everything except the batch under construction. -/
structure Base (s : Cam V F M) : Prop where
  lt : ∀ d ∈ s.lms ++ s.cal, d < s.nd
  nodup : (s.lms ++ s.cal).Nodup
  binv : ∀ b, BInv s.w.heap (s.w.B b)
  fresh : ∀ b, s.nb ≤ b → s.w.B b = OptProblem.empty
  dvlt : ∀ b, ∀ d ∈ AL.keys (s.w.B b).lookup, d < s.nd
  etlt : ∀ b, ∀ e ∈ (s.w.B b).etLookup, e < s.ne
  etDisj : ∀ b b' e, e ∈ (s.w.B b).etLookup → e ∈ (s.w.B b').etLookup → b = b'
  trDisj : ∀ b b' d, d ∉ s.lms ++ s.cal → d ∈ AL.keys (s.w.B b).lookup → d ∈ AL.keys (s.w.B b').lookup → b = b'
  subsOk : ∀ x ∈ s.subs, x.batch < s.nb ∧
    Contents s.w.heap s.opt.lmGroup s.opt.calGroup s.opt.trGroup s.lms s.cal (s.w.B x.batch) x.images
  subsNodup : (s.subs.map Sub.batch).Nodup

/-- the batch under construction, if there is one. -/
def Cur (s : Cam V F M) : Prop :=
  match s.batch with
  | none => s.batchObs = []
  | some b => b < s.nb ∧ b ∉ s.subs.map Sub.batch ∧
    Contents s.w.heap s.opt.lmGroup s.opt.calGroup s.opt.trGroup s.lms s.cal (s.w.B b) s.batchObs

/-- `s'` arises from `s` by working on batch `b` and allocating objects. -/
structure Ext (b : BatchId) (s s' : Cam V F M) : Prop where
  est : s'.w.est = s.w.est
  opt : s'.opt = s.opt
  lms : s'.lms = s.lms
  cal : s'.cal = s.cal
  ready : s'.ready = s.ready
  batch : s'.batch = s.batch
  num : s'.num = s.num
  batchObs : s'.batchObs = s.batchObs
  estObs : s'.estObs = s.estObs
  subs : s'.subs = s.subs
  nb : s'.nb = s.nb
  nd : s.nd ≤ s'.nd
  ne : s.ne ≤ s'.ne
  B : ∀ b', b' ≠ b → s'.w.B b' = s.w.B b'
  params : ∀ d, d < s.nd → s'.w.heap.params d = s.w.heap.params d
  etDVs : ∀ e, e < s.ne → s'.w.heap.etDVs e = s.w.heap.etDVs e

theorem Ext.refl (b : BatchId) (s : Cam V F M) : Ext b s s :=
  ⟨rfl, rfl, rfl, rfl, rfl, rfl, rfl, rfl, rfl, rfl, rfl, Nat.le_refl _, Nat.le_refl _, fun _ _ => rfl, fun _ _ => rfl,
    fun _ _ => rfl⟩

theorem Ext.trans {b : BatchId} {s s' s'' : Cam V F M} (h : Ext b s s') (k : Ext b s' s'') : Ext b s s'' where
  est := k.est.trans h.est
  opt := k.opt.trans h.opt
  lms := k.lms.trans h.lms
  cal := k.cal.trans h.cal
  ready := k.ready.trans h.ready
  batch := k.batch.trans h.batch
  num := k.num.trans h.num
  batchObs := k.batchObs.trans h.batchObs
  estObs := k.estObs.trans h.estObs
  subs := k.subs.trans h.subs
  nb := k.nb.trans h.nb
  nd := h.nd.trans k.nd
  ne := h.ne.trans k.ne
  B := fun b' hb => (k.B b' hb).trans (h.B b' hb)
  params := fun d hd => (k.params d (Nat.lt_of_lt_of_le hd h.nd)).trans (h.params d hd)
  etDVs := fun e he => (k.etDVs e (Nat.lt_of_lt_of_le he h.ne)).trans (h.etDVs e he)

theorem ext_setB (s : Cam V F M) (b : BatchId) (p : OptProblem V) : Ext b s (s.setB b p) :=
  ⟨rfl, rfl, rfl, rfl, rfl, rfl, rfl, rfl, rfl, rfl, rfl, Nat.le_refl _, Nat.le_refl _,
    fun b' hb => by simp [setB, hb], fun _ _ => rfl, fun _ _ => rfl⟩

theorem ext_allocDV (b : BatchId) (s : Cam V F M) (v : V) : Ext b s (s.allocDV v) :=
  ⟨rfl, rfl, rfl, rfl, rfl, rfl, rfl, rfl, rfl, rfl, rfl, Nat.le_succ _, Nat.le_refl _, fun _ _ => rfl,
    fun d hd => by simp [allocDV, Nat.ne_of_lt hd], fun _ _ => rfl⟩

theorem ext_allocET (b : BatchId) (s : Cam V F M) (l : List DVId) : Ext b s (s.allocET l) :=
  ⟨rfl, rfl, rfl, rfl, rfl, rfl, rfl, rfl, rfl, rfl, rfl, Nat.le_refl _, Nat.le_succ _, fun _ _ => rfl,
    fun _ _ => rfl, fun e he => by simp [allocET, Nat.ne_of_lt he]⟩

@[simp] theorem setB_same (s : Cam V F M) (b : BatchId) (p : OptProblem V) : (s.setB b p).w.B b = p := by simp [setB]

/-- groups list the variables in the order of addition. -/
def GroupsOk (p : OptProblem V) : Prop :=
  ∀ g, (AL.get g p.groups).getD [] = (p.lookup.filter fun x => decide (x.2 = g)).map Prod.fst

theorem GroupsOk.withDV {p : OptProblem V} (h : GroupsOk p) (d : DVId) (g : GroupId) : GroupsOk (p.withDV d g) := by
  intro g'
  simp only [OptProblem.withDV, AL.get_set, List.filter_append, List.map_append]
  by_cases e : g = g'
  · subst e; simp [h g]
  · simp [e, h g']

theorem addDVs_spec (b : BatchId) (g : GroupId) (ds : List DVId) (s : Cam V F M) (hb : BInv s.w.heap (s.w.B b))
    (hg : GroupsOk (s.w.B b)) (hnd : ds.Nodup) (hnew : ∀ d ∈ ds, d ∉ AL.keys (s.w.B b).lookup) :
    ∃ s', addDVs b g ds s = .ok () s' ∧ Ext b s s' ∧ s'.nd = s.nd ∧ s'.ne = s.ne ∧ s'.w.heap = s.w.heap ∧
      BInv s.w.heap (s'.w.B b) ∧ GroupsOk (s'.w.B b) ∧ (s'.w.B b).lookup = (s.w.B b).lookup ++ ds.map (·, g) ∧
      (s'.w.B b).etLookup = (s.w.B b).etLookup ∧ (s'.w.B b).errorTerms = (s.w.B b).errorTerms := by
  induction ds generalizing s with
  | nil => exact ⟨s, rfl, Ext.refl b s, rfl, rfl, rfl, hb, hg, by simp, rfl, rfl⟩
  | cons d ds ih =>
    have hd := hnew d List.mem_cons_self
    have hstep : s.onBatch b (fun p => p.addDesignVariable (some d) g) = .ok () (s.setB b ((s.w.B b).withDV d g)) := by
      simp [onBatch, addDV_eq, hd, Res.mapState]
    obtain ⟨s', h1, h2, h3, h4, h5, h6, h7, h8, h9, h10⟩ := ih (s.setB b ((s.w.B b).withDV d g))
      (by rw [setB_same]; exact hb.withDV hd g) (by rw [setB_same]; exact hg.withDV d g) (List.nodup_cons.1 hnd).2 (by
        intro d' hd'
        rw [setB_same]
        simp only [OptProblem.withDV, AL.keys, List.map_append, List.map_cons, List.map_nil, List.mem_append,
          List.mem_singleton, not_or]
        exact ⟨hnew d' (List.mem_cons_of_mem _ hd'), fun e => (List.nodup_cons.1 hnd).1 (e ▸ hd')⟩)
    refine ⟨s', ?_, (ext_setB s b _).trans h2, h3, h4, h5, h6, h7, ?_, ?_, ?_⟩
    · simp only [addDVs, hstep, Res.bind]; exact h1
    · rw [h8, setB_same]; simp [OptProblem.withDV]
    · rw [h9, setB_same]; rfl
    · rw [h10, setB_same]; rfl

/-- heaps that agree on the error terms of a batch. -/
theorem BInv.congr {h h' : Heap V} {p : OptProblem V} (hi : BInv h p) (he : ∀ e ∈ p.etLookup, h'.etDVs e = h.etDVs e) :
    BInv h' p := { hi with cl := fun e h1 d hd => hi.cl e h1 d (by rw [← he e h1]; exact hd) }

theorem Contents.congr {h h' : Heap V} {lmG calG trG : GroupId} {lms cal : List DVId} {p : OptProblem V}
    {es : List (Entry V)} (hc : Contents h lmG calG trG lms cal p es) (he : ∀ e ∈ p.etLookup, h'.etDVs e = h.etDVs e) :
    Contents h' lmG calG trG lms cal p es :=
  ⟨hc.lookup, hc.groups, hc.ets, by
    rw [← hc.deps, hc.ets]
    exact List.map_congr_left fun e h1 => he e h1⟩

theorem Base.initBatch {s : Cam V F M} (hs : Base s) : ∃ s', s.initBatch = .ok s.nb s' ∧ Base s' ∧ Cur s' ∧
    s'.batch = some s.nb ∧ s'.batchObs = [] ∧ s'.num = s.num ∧ s'.w.est = s.w.est ∧ s'.w.heap = s.w.heap ∧ s'.opt = s.opt ∧
    s'.lms = s.lms ∧ s'.cal = s.cal ∧ s'.ready = s.ready ∧ s'.estObs = s.estObs ∧ s'.subs = s.subs ∧ s'.nb = s.nb + 1 ∧
    s'.nd = s.nd ∧ s'.ne = s.ne ∧ (∀ b, b ≠ s.nb → s'.w.B b = s.w.B b) ∧ (s'.w.B s.nb).errorTerms = [] := by
  obtain ⟨hn1, hn2, hn3⟩ := List.nodup_append.1 hs.nodup
  let s1 : Cam V F M := { s.setB s.nb OptProblem.empty with batch := some s.nb, nb := s.nb + 1 }
  have e1 : s1.w.B s.nb = OptProblem.empty := by simp [s1, setB]
  obtain ⟨s2, h1, x1, nd1, ne1, hp1, b1, g1, l1, t1, r1⟩ := addDVs_spec s.nb s.opt.lmGroup s.lms s1
    (by rw [e1]; exact BInv.empty _) (by rw [e1]; intro g; rfl) hn1 (by rw [e1]; simp [OptProblem.empty, AL.keys])
  rw [e1] at l1 t1 r1
  obtain ⟨s3, h2, x2, nd2, ne2, hp2, b2, g2, l2, t2, r2⟩ := addDVs_spec s.nb s.opt.calGroup s.cal s2
    (by rw [hp1]; exact b1) g1 hn2 (by
      intro d hd
      rw [l1]
      simp only [OptProblem.empty, AL.keys, List.nil_append, List.map_map, List.mem_map, Function.comp, not_exists, not_and]
      rintro x hx rfl
      exact hn3 x hx x hd rfl)
  have hlook : (s3.w.B s.nb).lookup = s.lms.map (·, s.opt.lmGroup) ++ s.cal.map (·, s.opt.calGroup) := by
    rw [l2, l1]; simp [OptProblem.empty]
  have hets : (s3.w.B s.nb).etLookup = [] := by rw [t2, t1]; rfl
  have herr : (s3.w.B s.nb).errorTerms = [] := by rw [r2, r1]; rfl
  have x := x1.trans x2
  have hheap : s3.w.heap = s.w.heap := by rw [hp2, hp1]; rfl
  have hBo : ∀ b, b ≠ s.nb → s3.w.B b = s.w.B b := by
    intro b hb
    rw [x.B b hb]; simp [s1, setB, hb]
  have hkeys : ∀ d, d ∈ AL.keys (s3.w.B s.nb).lookup ↔ d ∈ s.lms ++ s.cal := by
    intro d; rw [hlook]; simp [AL.keys, Function.comp_def]
  have hnd : s3.nd = s.nd := by rw [nd2, nd1]; rfl
  have hne : s3.ne = s.ne := by rw [ne2, ne1]; rfl
  have hnb : s3.nb = s.nb + 1 := by rw [x.nb]
  have hlms : s3.lms = s.lms := x.lms
  have hcal : s3.cal = s.cal := x.cal
  have hopt : s3.opt = s.opt := x.opt
  have hsubs : s3.subs = s.subs := x.subs
  have hbinv : ∀ b, BInv s3.w.heap (s3.w.B b) := by
    intro b
    by_cases hb : b = s.nb
    · subst hb; rw [hp2]; exact b2
    · rw [hheap, hBo b hb]; exact hs.binv b
  have hsubne : ∀ y ∈ s.subs, y.batch ≠ s.nb := fun y hy => Nat.ne_of_lt (hs.subsOk y hy).1
  refine ⟨{ s3 with batchObs := [] }, ?_, ?_, ?_, x.batch, rfl, x.num, x.est, hheap, hopt, hlms, hcal, x.ready, x.estObs,
    hsubs, hnb, hnd, hne, hBo, herr⟩
  · simp only [Cam.initBatch]
    rw [h1]
    simp only [Res.bind]
    rw [h2]
  · refine ⟨?_, ?_, hbinv, ?_, ?_, ?_, ?_, ?_, ?_, ?_⟩
    · simp only [hlms, hcal, hnd]; exact hs.lt
    · simp only [hlms, hcal]; exact hs.nodup
    · intro b hb
      simp only [hnb] at hb ⊢
      rw [hBo b (by omega)]; exact hs.fresh b (by omega)
    · intro b d hd
      simp only [hnd] at hd ⊢
      by_cases hb : b = s.nb
      · subst hb; exact hs.lt d ((hkeys d).1 hd)
      · rw [hBo b hb] at hd; exact hs.dvlt b d hd
    · intro b e he
      simp only [hne] at he ⊢
      by_cases hb : b = s.nb
      · subst hb; rw [hets] at he; simp at he
      · rw [hBo b hb] at he; exact hs.etlt b e he
    · intro b b' e h h'
      simp only at h h'
      by_cases hb : b = s.nb
      · subst hb; rw [hets] at h; simp at h
      · by_cases hb' : b' = s.nb
        · subst hb'; rw [hets] at h'; simp at h'
        · rw [hBo b hb] at h; rw [hBo b' hb'] at h'; exact hs.etDisj b b' e h h'
    · intro b b' d hd h h'
      simp only [hlms, hcal] at hd h h'
      by_cases hb : b = s.nb
      · subst hb; exact absurd ((hkeys d).1 h) hd
      · by_cases hb' : b' = s.nb
        · subst hb'; exact absurd ((hkeys d).1 h') hd
        · rw [hBo b hb] at h; rw [hBo b' hb'] at h'; exact hs.trDisj b b' d hd h h'
    · intro y hy
      simp only [hsubs] at hy
      obtain ⟨h3, h4⟩ := hs.subsOk y hy
      simp only [hnb, hheap, hopt, hlms, hcal]
      exact ⟨Nat.lt_succ_of_lt h3, by rw [hBo _ (hsubne y hy)]; exact h4⟩
    · simp only [hsubs]; exact hs.subsNodup
  · have hbt : ({ s3 with batchObs := [] } : Cam V F M).batch = some s.nb := x.batch
    have hbt' : s3.batch = some s.nb := hbt
    simp only [Cur]
    rw [hbt']
    refine ⟨by rw [hnb]; exact Nat.lt_succ_self _, ?_, ?_, ?_, ?_, ?_⟩
    · rw [hsubs]
      intro hcon
      obtain ⟨y, hy, e⟩ := List.mem_map.1 hcon
      exact hsubne y hy e
    · rw [hlook, hlms, hcal, hopt]; simp
    · exact g2
    · rw [herr, hets]
    · rw [herr]; simp

theorem ensureBatch_spec {s : Cam V F M} (hs : Base s) (hc : Cur s) : ∃ b s', s.ensureBatch = .ok b s' ∧ Base s' ∧ Cur s' ∧
    s'.batch = some b ∧ s'.batchObs = s.batchObs ∧ s'.num = s.num ∧ s'.w.est = s.w.est ∧ s'.w.heap = s.w.heap ∧
    s'.opt = s.opt ∧ s'.lms = s.lms ∧ s'.cal = s.cal ∧ s'.ready = s.ready ∧ s'.estObs = s.estObs ∧ s'.subs = s.subs ∧
    s.nb ≤ s'.nb ∧ s'.nd = s.nd ∧ s'.ne = s.ne ∧ (∀ b', b' < s.nb → s'.w.B b' = s.w.B b') ∧
    (s.batch = some b ∨ s.batch = none ∧ s.nb ≤ b) := by
  unfold ensureBatch
  cases hb : s.batch with
  | some b =>
    exact ⟨b, s, rfl, hs, hc, hb, rfl, rfl, rfl, rfl, rfl, rfl, rfl, rfl, rfl, rfl, Nat.le_refl _, rfl, rfl, fun _ _ => rfl,
      Or.inl rfl⟩
  | none =>
    obtain ⟨s', h1, h2, h3, h4, h5, h6, h7, h8, h9, h10, h11, h12, h13, h14, h15, h16, h17, h18, h19⟩ := hs.initBatch
    refine ⟨s.nb, s', h1, h2, h3, h4, ?_, h6, h7, h8, h9, h10, h11, h12, h13, h14, by omega, h16, h17,
      fun b' hb' => h18 b' (by omega), Or.inr ⟨rfl, Nat.le_refl _⟩⟩
    simp only [Cur, hb] at hc
    rw [h5, hc]

theorem visFrom_cons (o : Obs V) (i : Nat) (l : DVId) (ls : List DVId) :
    visFrom o i (l :: ls) = if o.visible i then l :: visFrom o (i + 1) ls else visFrom o (i + 1) ls := by
  simp only [visFrom, List.zipIdx_cons, List.filter_cons]
  by_cases h : o.visible i <;> simp [h]

theorem errorLoop_spec (b : BatchId) (q t : DVId) (o : Obs V) (ls : List DVId) (i : Nat) (s : Cam V F M)
    (hb : ∀ b, BInv s.w.heap (s.w.B b)) (hlt : ∀ b, ∀ e ∈ (s.w.B b).etLookup, e < s.ne)
    (hets : (s.w.B b).errorTerms = (s.w.B b).etLookup)
    (hq : q ∈ AL.keys (s.w.B b).lookup) (ht : t ∈ AL.keys (s.w.B b).lookup)
    (hl : ∀ l ∈ ls, l ∈ AL.keys (s.w.B b).lookup) (hcal : ∀ d ∈ s.cal, d ∈ AL.keys (s.w.B b).lookup) :
    ∃ s' new, errorLoop b q t o ls i s = .ok () s' ∧ Ext b s s' ∧ s'.nd = s.nd ∧ s'.w.heap.params = s.w.heap.params ∧
      (∀ b, BInv s'.w.heap (s'.w.B b)) ∧
      (∀ b, ∀ e ∈ (s'.w.B b).etLookup, e < s'.ne) ∧ (s'.w.B b).lookup = (s.w.B b).lookup ∧
      (s'.w.B b).groups = (s.w.B b).groups ∧ (s'.w.B b).etLookup = (s.w.B b).etLookup ++ new ∧
      (s'.w.B b).errorTerms = (s'.w.B b).etLookup ∧ (∀ e ∈ new, s.ne ≤ e) ∧
      new.map s'.w.heap.etDVs = (visFrom o i ls).map fun l => [q, t, l] ++ s.cal := by
  induction ls generalizing i s with
  | nil =>
    exact ⟨s, [], rfl, Ext.refl b s, rfl, rfl, hb, hlt, rfl, rfl, by simp, hets, by simp, by simp [visFrom]⟩
  | cons l ls ih =>
    rw [visFrom_cons]
    by_cases hv : o.visible i = true
    · simp only [errorLoop, hv, if_true]
      set s1 := s.allocET ([q, t, l] ++ s.cal) with hs1
      set p' : OptProblem V := { s.w.B b with
        etLookup := (s.w.B b).etLookup ++ [s.ne], errorTerms := (s.w.B b).errorTerms ++ [s.ne] } with hp'
      have hdeps : s1.w.heap.etDVs s.ne = [q, t, l] ++ s.cal := by simp [hs1, allocET]
      have hB1 : s1.w.B = s.w.B := rfl
      have hbinv1 : ∀ b, BInv s1.w.heap (s.w.B b) := fun b => BInv.congr (hb b) fun e he => by
        simp [hs1, allocET, Nat.ne_of_lt (hlt b e he)]
      have hnot : s.ne ∉ (s.w.B b).etLookup := fun h => Nat.lt_irrefl _ (hlt b _ h)
      have hin : ∀ d ∈ s1.w.heap.etDVs s.ne, d ∈ AL.keys (s.w.B b).lookup := by
        rw [hdeps]
        intro d hd
        simp only [List.cons_append, List.nil_append, List.mem_cons] at hd
        rcases hd with rfl | rfl | rfl | hd
        · exact hq
        · exact ht
        · exact hl _ List.mem_cons_self
        · exact hcal d hd
      have hstep : s1.onBatch b (fun p => OptProblem.addErrorTerm s1.w.heap p (some s.ne)) = .ok () (s1.setB b p') := by
        simp only [onBatch, hB1, addET_eq]
        rw [if_neg (by push Not; exact ⟨hnot, hin⟩)]
        rfl
      rw [hstep]
      simp only [Res.bind]
      have hBinv2 : ∀ b', BInv (s1.setB b p').w.heap ((s1.setB b p').w.B b') := by
        intro b'
        by_cases hbb : b' = b
        · subst hbb; rw [setB_same]; exact (hbinv1 b').withET hnot hin
        · rw [(ext_setB s1 b p').B b' hbb]; exact hbinv1 b'
      obtain ⟨s', new, h1, h2, h3, hpar, h4, h5, h6, h7, h8, h9, h10, h11⟩ := ih (i + 1) (s1.setB b p') hBinv2 (by
          intro b' e he
          show e < s.ne + 1
          by_cases hbb : b' = b
          · subst hbb
            rw [setB_same] at he
            simp only [hp', List.mem_append, List.mem_singleton] at he
            rcases he with he | rfl
            · exact Nat.lt_succ_of_lt (hlt b' e he)
            · exact Nat.lt_succ_self _
          · rw [(ext_setB s1 b p').B b' hbb] at he
            exact Nat.lt_succ_of_lt (hlt b' e he))
        (by rw [setB_same]; simp [hp', hets]) (by rw [setB_same]; exact hq) (by rw [setB_same]; exact ht)
        (by rw [setB_same]; exact fun l' hl' => hl l' (List.mem_cons_of_mem _ hl')) (by rw [setB_same]; exact hcal)
      refine ⟨s', s.ne :: new, h1, ((ext_allocET b s _).trans (ext_setB s1 b p')).trans h2, h3, hpar, h4, h5, ?_, ?_, ?_, h9, ?_, ?_⟩
      · rw [h6, setB_same]
      · rw [h7, setB_same]
      · rw [h8, setB_same]; simp [hp']
      · intro e he
        simp only [List.mem_cons] at he
        rcases he with rfl | he
        · exact Nat.le_refl _
        · have : s.ne + 1 ≤ e := h10 e he
          omega
      · simp only [List.map_cons]
        refine List.cons_eq_cons.2 ⟨?_, h11⟩
        rw [h2.etDVs s.ne (Nat.lt_succ_self _)]
        exact hdeps
    · simp only [errorLoop, hv, Bool.false_eq_true, if_false]
      obtain ⟨s', new, h⟩ := ih (i + 1) s hb hlt hets hq ht (fun l' hl' => hl l' (List.mem_cons_of_mem _ hl')) hcal
      exact ⟨s', new, h⟩

theorem visFrom_zero (o : Obs V) (ls : List DVId) : visFrom o 0 ls = visLms o ls := rfl

/-- working on the current batch: what remains to be checked for `Base` and `Cur`. -/
theorem addObservation_spec {s : Cam V F M} (hs : Base s) (hc : Cur s) (o : Obs V) : ∃ en s', s.addObservation o = .ok en s' ∧
    en.obs = o ∧ Base { s' with batchObs := s'.batchObs ++ [en] } ∧ Cur { s' with batchObs := s'.batchObs ++ [en] } ∧
    (∃ b, s'.batch = some b ∧ (s.batch = some b ∨ s.batch = none ∧ s.nb ≤ b) ∧ (∀ b', b' < s.nb → b' ≠ b → s'.w.B b' = s.w.B b')) ∧
    s'.batchObs = s.batchObs ∧ s'.num = s.num + 1 ∧ s'.w.est = s.w.est ∧ s'.opt = s.opt ∧ s'.lms = s.lms ∧ s'.cal = s.cal ∧
    s'.ready = s.ready ∧ s'.estObs = s.estObs ∧ s'.subs = s.subs ∧ s.nb ≤ s'.nb ∧ s.nd ≤ en.qdv ∧ en.tdv = en.qdv + 1 ∧
    s'.w.heap.params en.qdv = o.q ∧ s'.w.heap.params en.tdv = o.t ∧ (∀ d, d < s.nd → s'.w.heap.params d = s.w.heap.params d) := by
  obtain ⟨b, s1, h1, hb1, hc1, hbt, hbo, hnum, hest, hheap, hopt, hlms, hcal, hrdy, hestO, hsubs, hnb, hnd, hne, hBold, hor⟩ :=
    ensureBatch_spec hs hc
  have hcur := hc1
  simp only [Cur, hbt] at hcur
  obtain ⟨hblt, hbns, hcont⟩ := hcur
  -- first variable
  set s1a := s1.allocDV o.q with hs1a
  have hqn : s1.nd ∉ AL.keys (s1.w.B b).lookup := fun h => Nat.lt_irrefl _ (hb1.dvlt b _ h)
  set p1 := (s1.w.B b).withDV s1.nd s.opt.trGroup with hp1
  have hst1 : s1a.onBatch b (fun p => p.addDesignVariable (some s1.nd) s.opt.trGroup) = .ok () (s1a.setB b p1) := by
    have : s1a.w.B b = s1.w.B b := rfl
    simp [onBatch, addDV_eq, this, hqn, Res.mapState, hp1]
  set s2 := s1a.setB b p1 with hs2
  have x2 : Ext b s1 s2 := (ext_allocDV b s1 _).trans (ext_setB s1a b p1)
  have hnd2 : s2.nd = s1.nd + 1 := rfl
  have hB2 : s2.w.B b = p1 := setB_same _ _ _
  have hbinv1 : BInv s1.w.heap p1 := (hb1.binv b).withDV hqn _
  -- second variable
  set s2a := s2.allocDV o.t with hs2a
  have htn : s2.nd ∉ AL.keys (s2.w.B b).lookup := by
    rw [hB2, hnd2, hp1]
    simp only [OptProblem.withDV, AL.keys, List.map_append, List.map_cons, List.map_nil, List.mem_append, List.mem_singleton,
      not_or]
    exact ⟨fun h => Nat.lt_irrefl _ (Nat.lt_of_succ_lt (hb1.dvlt b _ h)), Nat.succ_ne_self _⟩
  set p2 := (s2.w.B b).withDV s2.nd s.opt.trGroup with hp2
  have hst2 : s2a.onBatch b (fun p => p.addDesignVariable (some s2.nd) s.opt.trGroup) = .ok () (s2a.setB b p2) := by
    have : s2a.w.B b = s2.w.B b := rfl
    simp [onBatch, addDV_eq, this, htn, Res.mapState, hp2]
  set s3 := s2a.setB b p2 with hs3
  have x3 : Ext b s1 s3 := x2.trans ((ext_allocDV b s2 _).trans (ext_setB s2a b p2))
  have hnd3 : s3.nd = s1.nd + 2 := rfl
  have hne3 : s3.ne = s1.ne := rfl
  have hB3 : s3.w.B b = p2 := setB_same _ _ _
  have hlook3 : p2.lookup = (s1.w.B b).lookup ++ [(s1.nd, s.opt.trGroup), (s1.nd + 1, s.opt.trGroup)] := by
    rw [hp2, hB2, hp1, hnd2]; simp [OptProblem.withDV]
  have hetd3 : s3.w.heap.etDVs = s1.w.heap.etDVs := rfl
  have hbinv3 : ∀ b', BInv s3.w.heap (s3.w.B b') := by
    intro b'
    apply BInv.heap (h := s1.w.heap) _ hetd3
    by_cases hbb : b' = b
    · subst hbb
      rw [hB3]
      exact BInv.withDV (by rw [hB2]; exact hbinv1) htn _
    · rw [x3.B b' hbb]; exact hb1.binv b'
  have het3 : p2.etLookup = (s1.w.B b).etLookup := by rw [hp2, hB2, hp1]; rfl
  have herr3 : p2.errorTerms = (s1.w.B b).errorTerms := by rw [hp2, hB2, hp1]; rfl
  have hgr3 : GroupsOk p2 := by
    rw [hp2]; apply GroupsOk.withDV; rw [hB2, hp1]; apply GroupsOk.withDV; exact hcont.groups
  have hkeys3 : ∀ d, d ∈ AL.keys p2.lookup ↔ d ∈ AL.keys (s1.w.B b).lookup ∨ d = s1.nd ∨ d = s1.nd + 1 := by
    intro d; rw [hlook3]; simp [AL.keys]
  have hlk : ∀ d, d ∈ s1.lms ++ s1.cal → d ∈ AL.keys (s1.w.B b).lookup := by
    intro d hd; rw [hcont.lookup]
    simp only [AL.keys, List.map_append, List.mem_append, List.map_map, List.mem_map, Function.comp] at hd ⊢
    rcases hd with hd | hd
    · exact Or.inl (Or.inl ⟨d, hd, rfl⟩)
    · exact Or.inl (Or.inr ⟨d, hd, rfl⟩)
  have hlms3 : s3.lms = s1.lms := rfl
  have hcal3 : s3.cal = s1.cal := rfl
  obtain ⟨s4, new, h4, x4, hnd4, hpar4, hbinv4, hetlt4, hlook4, hgr4, het4, herr4, hnew4, hdep4⟩ :=
    errorLoop_spec b s1.nd (s1.nd + 1) o s3.lms 0 s3 hbinv3 (by
      intro b' e he
      rw [hne3]
      by_cases hbb : b' = b
      · subst hbb; rw [hB3, het3] at he; exact hb1.etlt b' e he
      · rw [x3.B b' hbb] at he; exact hb1.etlt b' e he)
    (by rw [hB3, herr3, het3]; exact hcont.ets)
    (by rw [hB3, hkeys3]; exact Or.inr (Or.inl rfl)) (by rw [hB3, hkeys3]; exact Or.inr (Or.inr rfl))
    (by intro l hl; rw [hB3, hkeys3]; exact Or.inl (hlk l (List.mem_append.2 (Or.inl hl))))
    (by intro l hl; rw [hB3, hkeys3]; exact Or.inl (hlk l (List.mem_append.2 (Or.inr hl))))
  rw [hB3] at hlook4 hgr4 het4
  rw [het3] at het4
  have x : Ext b s1 s4 := x3.trans x4
  have hnd4' : s4.nd = s1.nd + 2 := by rw [hnd4, hnd3]
  have hnew' : ∀ e ∈ new, s1.ne ≤ e := fun e he => hne3 ▸ hnew4 e he
  have hlm : s4.lms = s1.lms := x.lms
  have hcl : s4.cal = s1.cal := x.cal
  have hop : s4.opt = s1.opt := x.opt
  have hsb : s4.subs = s1.subs := x.subs
  have hcongr : ∀ e, e < s1.ne → s4.w.heap.etDVs e = s1.w.heap.etDVs e := x.etDVs
  refine ⟨⟨o, s1.nd, s1.nd + 1⟩, { s4 with num := s4.num + 1 }, ?_, rfl, ?_, ?_, ⟨b, x.batch.trans hbt, hor, ?_⟩,
    x.batchObs.trans hbo, ?_, x.est.trans hest, hop.trans hopt, hlm.trans hlms, hcl.trans hcal, x.ready.trans hrdy,
    x.estObs.trans hestO, hsb.trans hsubs, ?_, by rw [hnd], rfl, ?_, ?_, ?_⟩
  · simp only [addObservation, h1, Res.bind]
    rw [hst1]
    simp only [Res.bind]
    rw [hst2]
    simp only [Res.bind, hnd2]
    rw [h4]
  · refine ⟨?_, ?_, hbinv4, ?_, ?_, hetlt4, ?_, ?_, ?_, ?_⟩
    · intro d hd
      simp only [hlm, hcl] at hd
      have := hb1.lt d hd
      simp only [hnd4']
      exact Nat.lt_of_lt_of_le this (Nat.le_add_right _ _)
    · simp only [hlm, hcl]; exact hb1.nodup
    · intro b' hb'
      simp only [x.nb] at hb' ⊢
      have hne' : b' ≠ b := by rintro rfl; exact absurd hblt (Nat.not_lt.2 hb')
      rw [x.B b' hne']; exact hb1.fresh b' hb'
    · intro b' d hd
      simp only [hnd4'] at hd ⊢
      by_cases hbb : b' = b
      · subst hbb
        rw [hlook4, hkeys3] at hd
        rcases hd with hd | rfl | rfl
        · exact Nat.lt_of_lt_of_le (hb1.dvlt b' d hd) (Nat.le_add_right _ _)
        · exact Nat.lt_add_of_pos_right (by decide)
        · exact Nat.lt_succ_self _
      · rw [x.B b' hbb] at hd
        exact Nat.lt_of_lt_of_le (hb1.dvlt b' d hd) (Nat.le_add_right _ _)
    · intro b' b'' e he he'
      simp only at he he'
      by_cases hbb : b' = b
      · by_cases hbb' : b'' = b
        · rw [hbb, hbb']
        · subst hbb
          rw [x.B b'' hbb'] at he'
          rw [het4] at he
          rcases List.mem_append.1 he with he | he
          · exact hb1.etDisj b' b'' e he he'
          · exact absurd (hb1.etlt b'' e he') (Nat.not_lt.2 (hnew' e he))
      · by_cases hbb' : b'' = b
        · subst hbb'
          rw [x.B b' hbb] at he
          rw [het4] at he'
          rcases List.mem_append.1 he' with he' | he'
          · exact hb1.etDisj b' b'' e he he'
          · exact absurd (hb1.etlt b' e he) (Nat.not_lt.2 (hnew' e he'))
        · rw [x.B b' hbb] at he; rw [x.B b'' hbb'] at he'; exact hb1.etDisj b' b'' e he he'
    · intro b' b'' d hd he he'
      simp only [hlm, hcl] at hd he he'
      have big : ∀ b, d = s1.nd ∨ d = s1.nd + 1 → d ∉ AL.keys (s1.w.B b).lookup := by
        intro c hdd hcc
        have := hb1.dvlt c d hcc
        rcases hdd with rfl | rfl
        · exact Nat.lt_irrefl _ this
        · exact Nat.lt_irrefl _ (Nat.lt_of_succ_lt this)
      by_cases hbb : b' = b
      · by_cases hbb' : b'' = b
        · rw [hbb, hbb']
        · subst hbb
          rw [x.B b'' hbb'] at he'
          rw [hlook4, hkeys3] at he
          rcases he with he | he
          · exact hb1.trDisj b' b'' d hd he he'
          · exact absurd he' (big b'' he)
      · by_cases hbb' : b'' = b
        · subst hbb'
          rw [x.B b' hbb] at he
          rw [hlook4, hkeys3] at he'
          rcases he' with he' | he'
          · exact hb1.trDisj b' b'' d hd he he'
          · exact absurd he (big b' he')
        · rw [x.B b' hbb] at he; rw [x.B b'' hbb'] at he'; exact hb1.trDisj b' b'' d hd he he'
    · intro y hy
      simp only [hsb] at hy
      obtain ⟨h5, h6⟩ := hb1.subsOk y hy
      have hyb : y.batch ≠ b := by
        rintro rfl
        exact hbns (List.mem_map_of_mem hy)
      simp only [x.nb, hlm, hcl, hop, x.B _ hyb]
      exact ⟨h5, h6.congr fun e he => hcongr e (hb1.etlt _ e he)⟩
    · simp only [hsb]; exact hb1.subsNodup
  · have hbt4 : s4.batch = some b := x.batch.trans hbt
    simp only [Cur]
    rw [hbt4]
    have hbo4 : s4.batchObs = s1.batchObs := x.batchObs
    refine ⟨by simp only [x.nb]; exact hblt, by rw [hsb]; exact hbns, ?_, ?_, herr4, ?_⟩
    · simp only [hlm, hcl, hop, hlook4, hlook3, hcont.lookup, hbo4, List.flatMap_append, List.map_append]
      simp [Entry.dvs, hopt]
    · intro g
      simp only [hgr4, hlook4]
      exact hgr3 g
    · rw [herr4, het4, List.map_append, hdep4]
      simp only [hlm, hcl, hbo4, List.flatMap_append, hlms3, hcal3, visFrom_zero]
      have hold : (s1.w.B b).etLookup.map s4.w.heap.etDVs = (s1.w.B b).etLookup.map s1.w.heap.etDVs :=
        List.map_congr_left fun e he => hcongr e (hb1.etlt b e he)
      rw [hold, ← hcont.ets, hcont.deps]
      simp
  · intro b' hb' hbb
    show s4.w.B b' = _
    rw [x.B b' hbb]; exact hBold b' hb'
  · show s4.num + 1 = _
    rw [x.num, hnum]
  · show s.nb ≤ s4.nb
    rw [x.nb]; exact hnb
  · show s4.w.heap.params s1.nd = _
    rw [hpar4]
    simp [hs3, hs2a, hs2, hs1a, allocDV, setB, Nat.ne_of_lt (Nat.lt_succ_self s1.nd)]
  · show s4.w.heap.params (s1.nd + 1) = _
    rw [hpar4]
    simp [hs3, hs2a, hs2, hs1a, allocDV, setB]
  · intro d hd
    show s4.w.heap.params d = _
    rw [x.params d (by rw [hnd]; exact hd), hheap]

/-! ### what `addBatch` never touches -/

/-- batches are the same, and so is everything about variables and error terms except the values. -/
def SameB (w w' : EWorld V F M) : Prop := w'.B = w.B ∧ w'.heap = { w.heap with params := w'.heap.params }

theorem SameB.trans {w w' w'' : EWorld V F M} (h : SameB w w') (k : SameB w' w'') : SameB w w'' :=
  ⟨k.1.trans h.1, by rw [k.2, h.2]⟩

theorem SameB.et {w w' : EWorld V F M} (h : SameB w w') : w'.heap.etDVs = w.heap.etDVs := by rw [h.2]

theorem restore_params (b : List (DVId × V)) (h : Heap V) :
    OptProblem.restoreLoop b h = { h with params := (OptProblem.restoreLoop b h).params } := by
  obtain ⟨h1, h2, h3, h4⟩ := restoreLoop_rest b h
  cases hr : OptProblem.restoreLoop b h
  rw [hr] at h1 h2 h3 h4
  simp only at h1 h2 h3 h4
  subst h1 h2 h3 h4
  rfl

theorem orderMarginalized_same {w w' : EWorld V F M} {ok : Bool} (h : w.orderMarginalized.outcome = some (ok, w')) :
    SameB w w' := by
  unfold EWorld.orderMarginalized at h
  simp only at h
  split at h
  · split at h
    · obtain ⟨q, -, rfl⟩ := outcome_mapState h
      exact ⟨rfl, rfl⟩
    · simp only [Res.outcome, Option.some.injEq, Prod.mk.injEq] at h
      rw [← h.2]; exact ⟨rfl, rfl⟩
  · simp only [Res.outcome, Option.some.injEq, Prod.mk.injEq] at h
    rw [← h.2]; exact ⟨rfl, rfl⟩

theorem runOptimizer_same {oracle : OptInput V → OptCall V F M} {w w' : EWorld V F M} {ok : Bool}
    (h : (w.runOptimizer oracle).outcome = some (ok, w')) : SameB w w' := by
  unfold EWorld.runOptimizer at h
  split at h
  · split at h
    · simp only at h
      split at h <;> (simp only [Res.outcome, Option.some.injEq, Prod.mk.injEq] at h; rw [← h.2]; exact ⟨rfl, rfl⟩)
    all_goals simp only [Res.outcome, Option.some.injEq, Prod.mk.injEq, reduceCtorEq] at h
    rw [← h.2]; exact ⟨rfl, rfl⟩
  all_goals simp only [Res.outcome, Option.some.injEq, Prod.mk.injEq, reduceCtorEq] at h
  rw [← h.2]; exact ⟨rfl, rfl⟩

theorem restoreLinearSolver_same {buildOk : Bool} {w w' : EWorld V F M} {ok : Bool}
    (h : (w.restoreLinearSolver buildOk).outcome = some (ok, w')) : SameB w w' := by
  unfold EWorld.restoreLinearSolver at h
  split at h
  · split at h
    · simp only at h
      split at h <;> (simp only [Res.outcome, Option.some.injEq, Prod.mk.injEq] at h; rw [← h.2]; exact ⟨rfl, rfl⟩)
    all_goals simp only [Res.outcome, Option.some.injEq, Prod.mk.injEq, reduceCtorEq] at h
    rw [← h.2]; exact ⟨rfl, rfl⟩
  all_goals simp only [Res.outcome, Option.some.injEq, Prod.mk.injEq, reduceCtorEq] at h
  rw [← h.2]; exact ⟨rfl, rfl⟩

theorem addBatch_same {D : Dbl F} {m0 : M} {oracle : OptInput V → OptCall V F M} {buildOk force : Bool}
    {w w' : EWorld V F M} {b : Option BatchId} {ok : Bool}
    (h : (w.addBatch D m0 oracle buildOk b force).outcome = some (ok, w')) : SameB w w' := by
  unfold EWorld.addBatch at h
  rcases outcome_bind h with ⟨_, w1, h1, h⟩ | ⟨e, h1, -⟩
  swap
  · have h1' : (Res.mapState w.setInc (w.est.inc.add w.B b)).outcome = some (false, w') := by rw [h1]; rfl
    obtain ⟨q, -, rfl⟩ := outcome_mapState h1'
    exact ⟨rfl, rfl⟩
  have k1 : SameB w w1 := by
    have h1' : (Res.mapState w.setInc (w.est.inc.add w.B b)).outcome = some (true, w1) := by rw [h1]; rfl
    obtain ⟨q, -, rfl⟩ := outcome_mapState h1'
    exact ⟨rfl, rfl⟩
  rcases outcome_bind h with ⟨_, w2, h2, h⟩ | ⟨e, h2, -⟩
  swap
  · exact k1.trans (orderMarginalized_same (ok := false) (by rw [h2]; rfl))
  have k2 := k1.trans (orderMarginalized_same (ok := true) (w' := w2) (by rw [h2]; rfl))
  have k3 : SameB w (if force = true then w2 else w2.setInc (w2.est.inc.saveDesignVariables w2.heap)) := by
    refine k2.trans ?_
    cases force <;> exact ⟨rfl, rfl⟩
  rcases outcome_bind h with ⟨r, w4, h4, h⟩ | ⟨e, h4, -⟩
  swap
  · exact k3.trans (runOptimizer_same (ok := false) (by rw [h4]; rfl))
  have k4 := k3.trans (runOptimizer_same (ok := true) (w' := w4) (by rw [h4]; rfl))
  simp only at h
  split at h
  · simp only [Res.outcome, Option.some.injEq, Prod.mk.injEq] at h
    rw [← h.2]; exact k4
  · split at h
    · simp only [Res.outcome, Option.some.injEq, Prod.mk.injEq] at h
      rw [← h.2]; exact ⟨k4.1, k4.2⟩
    · have k5 : SameB w4 ⟨w4.B, w4.est.inc.restoreDesignVariables w4.heap, w4.est⟩ :=
        ⟨rfl, restore_params w4.est.inc.backup w4.heap⟩
      rcases outcome_bind h with ⟨_, w6, h6, h⟩ | ⟨e, h6, -⟩
      swap
      · obtain ⟨q, -, rfl⟩ := outcome_mapState (b := false) (t := w') (by rw [h6]; rfl)
        exact k4.trans k5
      have k6 : SameB w w6 := by
        obtain ⟨q, -, rfl⟩ := outcome_mapState (b := true) (t := w6) (by rw [h6]; rfl)
        exact k4.trans k5
      rcases outcome_bind h with ⟨_, w7, h7, h⟩ | ⟨e, h7, -⟩
      · simp only [Res.outcome, Option.some.injEq, Prod.mk.injEq] at h
        rw [← h.2]
        split at h7
        · exact k6.trans (restoreLinearSolver_same (ok := true) (by rw [h7]; rfl))
        · cases h7; exact k6
      · split at h7
        · exact k6.trans (restoreLinearSolver_same (ok := false) (by rw [h7]; rfl))
        · cases h7

end Camera
end Verif
