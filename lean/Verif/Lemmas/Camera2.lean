import Verif.Lemmas.Camera

/-! Effects of the calls of the camera calibrator; histories. -/

namespace Verif
namespace Camera
variable {V F M : Type _}

open Cam

theorem Base.same {s : Cam V F M} (hs : Base s) {w' : EWorld V F M} (h : SameB s.w w') : Base { s with w := w' } where
  lt := hs.lt
  nodup := hs.nodup
  binv := fun b => by simp only [h.1]; exact (hs.binv b).heap h.et
  fresh := fun b hb => by simp only [h.1]; exact hs.fresh b hb
  dvlt := fun b d hd => by simp only [h.1] at hd; exact hs.dvlt b d hd
  etlt := fun b e he => by simp only [h.1] at he; exact hs.etlt b e he
  etDisj := fun b b' e h1 h2 => by simp only [h.1] at h1 h2; exact hs.etDisj b b' e h1 h2
  trDisj := fun b b' d hd h1 h2 => by simp only [h.1] at h1 h2; exact hs.trDisj b b' d hd h1 h2
  subsOk := fun x hx => by
    obtain ⟨h1, h2⟩ := hs.subsOk x hx
    simp only [h.1]
    exact ⟨h1, h2.congr fun e _ => by rw [h.et]⟩
  subsNodup := hs.subsNodup

theorem Cur.same {s : Cam V F M} (hs : Cur s) {w' : EWorld V F M} (h : SameB s.w w') : Cur { s with w := w' } := by
  unfold Cur at hs ⊢
  cases hb : s.batch with
  | none => simp only [hb] at hs ⊢; exact hs
  | some b =>
    simp only [hb] at hs ⊢
    refine ⟨hs.1, hs.2.1, ?_⟩
    rw [h.1]; exact hs.2.2.congr fun e _ => by rw [h.et]

theorem processBatch_none {D : Dbl F} {m0 : M} {oracle : OptInput V → OptCall V F M} {buildOk : Bool} {s : Cam V F M}
    (hb : s.batch = none) : s.processBatch D m0 oracle buildOk = .ok () s := by
  unfold processBatch; split
  · rfl
  · simp_all

theorem processBatch_throw {D : Dbl F} {m0 : M} {oracle : OptInput V → OptCall V F M} {buildOk : Bool} {s : Cam V F M}
    {b : BatchId} {e : Exc} {w' : EWorld V F M} (hb : s.batch = some b)
    (ha : s.w.addBatch D m0 oracle buildOk (some b) false = .throw e w') :
    s.processBatch D m0 oracle buildOk = .throw e { s with w := w' } := by
  unfold processBatch; split
  · simp_all
  · next b' hb' =>
    obtain rfl : b = b' := by simpa [hb] using hb'
    rw [ha]

theorem processBatch_ok {D : Dbl F} {m0 : M} {oracle : OptInput V → OptCall V F M} {buildOk : Bool} {s : Cam V F M}
    {b : BatchId} {r : RetVal F M} {w' : EWorld V F M} (hb : s.batch = some b)
    (ha : s.w.addBatch D m0 oracle buildOk (some b) false = .ok r w') :
    s.processBatch D m0 oracle buildOk = (Cam.initBatch { s with
        w := w'
        estObs := if r.batchAccepted then s.batchObs ++ s.estObs else s.estObs
        subs := s.subs ++ [⟨b, s.batchObs, r.batchAccepted⟩] }).bind fun _ s2 => .ok () { s2 with num := 0 } := by
  unfold processBatch; split
  · simp_all
  · next b' hb' =>
    obtain rfl : b = b' := by simpa [hb] using hb'
    rw [ha]

/-- a submission that returns. -/
theorem processBatch_returns {D : Dbl F} {m0 : M} {oracle : OptInput V → OptCall V F M} {buildOk : Bool} {s : Cam V F M}
    (hs : Base s) (hc : Cur s) {b : BatchId} (hb : s.batch = some b) {r : RetVal F M} {w' : EWorld V F M}
    (ha : s.w.addBatch D m0 oracle buildOk (some b) false = .ok r w') :
    ∃ s', s.processBatch D m0 oracle buildOk = .ok () s' ∧ Base s' ∧ Cur s' ∧ s'.opt = s.opt ∧ s'.lms = s.lms ∧ s'.cal = s.cal ∧
      s'.ready = s.ready ∧ s'.w.est = w'.est ∧
      (∀ b', b' ≠ s.nb → s'.w.B b' = s.w.B b') ∧ s'.w.heap = w'.heap ∧ s'.batch = some s.nb ∧
      (s'.w.B s.nb).errorTerms = [] ∧
      s'.batchObs = [] ∧ s'.num = 0 ∧ s'.subs = s.subs ++ [⟨b, s.batchObs, r.batchAccepted⟩] ∧
      s'.estObs = (if r.batchAccepted then s.batchObs ++ s.estObs else s.estObs) ∧ s'.nb = s.nb + 1 ∧ s'.nd = s.nd ∧
      s'.ne = s.ne := by
  have hsame : SameB s.w w' := addBatch_same (ok := true) (by rw [ha]; rfl)
  have hpb := processBatch_ok hb ha
  have hcur := hc
  simp only [Cur, hb] at hcur
  have hb1 : Base ({ s with
      w := w'
      estObs := if r.batchAccepted then s.batchObs ++ s.estObs else s.estObs
      subs := s.subs ++ [⟨b, s.batchObs, r.batchAccepted⟩] } : Cam V F M) := by
    have hb0 := hs.same hsame
    refine ⟨hb0.lt, hb0.nodup, hb0.binv, hb0.fresh, hb0.dvlt, hb0.etlt, hb0.etDisj, hb0.trDisj, ?_, ?_⟩
    · intro x hx
      rcases List.mem_append.1 hx with hx | hx
      · exact hb0.subsOk x hx
      · simp only [List.mem_singleton] at hx
        subst hx
        refine ⟨hcur.1, ?_⟩
        simp only [hsame.1]
        exact hcur.2.2.congr fun e _ => by rw [hsame.et]
    · simp only [List.map_append, List.map_cons, List.map_nil]
      rw [List.nodup_append]
      refine ⟨hs.subsNodup, by simp, ?_⟩
      intro x hx y hy
      simp only [List.mem_singleton] at hy
      rintro rfl
      exact hcur.2.1 (hy ▸ hx)
  obtain ⟨s2, h1, h2, h3, h4, h5, h6, h7, h8, h9, h10, h11, h12, h13, h14, h15, h16, h17, h18, h19⟩ := hb1.initBatch
  rw [h1] at hpb
  refine ⟨{ s2 with num := 0 }, hpb, ⟨h2.lt, h2.nodup, h2.binv, h2.fresh, h2.dvlt, h2.etlt, h2.etDisj, h2.trDisj, h2.subsOk,
    h2.subsNodup⟩, ?_, h9, h10, h11, h12, h7, ?_, h8, h4, h19, h5, rfl, h14, h13, h15, h16, h17⟩
  · simp only [Cur] at h3 ⊢; exact h3
  · intro b' hb'
    have := h18 b' hb'
    simp only [hsame.1] at this
    exact this

/-- outcome of `processBatch`. -/
theorem processBatch_eff {D : Dbl F} {m0 : M} {oracle : OptInput V → OptCall V F M} {buildOk : Bool} {s s' : Cam V F M}
    {ok : Bool} (hs : Base s) (hc : Cur s) (h : (s.processBatch D m0 oracle buildOk).outcome = some (ok, s')) :
    Base s' ∧ Cur s' ∧ s'.opt = s.opt ∧ s'.lms = s.lms ∧ s'.cal = s.cal ∧ s'.ready = s.ready ∧
    ((s.batch = none ∧ s' = s ∧ ok = true) ∨
     ∃ b, s.batch = some b ∧
      ((∃ e w', s.w.addBatch D m0 oracle buildOk (some b) false = .throw e w' ∧ s' = { s with w := w' } ∧ ok = false ∧
          s.processBatch D m0 oracle buildOk = .throw e s') ∨
       (∃ r w', s.w.addBatch D m0 oracle buildOk (some b) false = .ok r w' ∧ ok = true ∧ s'.w.est = w'.est ∧
          (∀ b', b' ≠ s.nb → s'.w.B b' = s.w.B b') ∧ s'.w.heap = w'.heap ∧ s'.batch = some s.nb ∧
          (s'.w.B s.nb).errorTerms = [] ∧
          s'.batchObs = [] ∧ s'.num = 0 ∧ s'.subs = s.subs ++ [⟨b, s.batchObs, r.batchAccepted⟩] ∧
          s'.estObs = (if r.batchAccepted then s.batchObs ++ s.estObs else s.estObs) ∧ s'.nb = s.nb + 1 ∧ s'.nd = s.nd ∧
          s'.ne = s.ne ∧ s.processBatch D m0 oracle buildOk = .ok () s'))) := by
  obtain ⟨ob, hb⟩ : ∃ ob, s.batch = ob := ⟨_, rfl⟩
  cases ob with
  | none =>
    rw [processBatch_none hb] at h
    simp only [Res.outcome, Option.some.injEq, Prod.mk.injEq] at h
    obtain ⟨rfl, rfl⟩ := h
    exact ⟨hs, hc, rfl, rfl, rfl, rfl, Or.inl ⟨hb, rfl, rfl⟩⟩
  | some b =>
    cases ha : s.w.addBatch D m0 oracle buildOk (some b) false with
    | throw e w' =>
      have hpb := processBatch_throw hb ha
      rw [hpb] at h
      simp only [Res.outcome, Option.some.injEq, Prod.mk.injEq] at h
      obtain ⟨rfl, rfl⟩ := h
      have hsame : SameB s.w w' := addBatch_same (ok := false) (by rw [ha]; rfl)
      refine ⟨hs.same hsame, hc.same hsame, rfl, rfl, rfl, rfl, Or.inr ⟨b, hb, Or.inl ⟨e, w', ha, rfl, rfl, hpb⟩⟩⟩
    | ub => simp [processBatch, hb, ha, Res.outcome] at h
    | diverge => simp [processBatch, hb, ha, Res.outcome] at h
    | ok r w' =>
      obtain ⟨s2, hpb, g1, g2, g3, g4, g5, g6, g7, g8, g9, g10, g11, g12, g13, g14, g15, g16, g17, g18⟩ :=
        processBatch_returns hs hc hb ha
      rw [hpb] at h
      simp only [Res.outcome, Option.some.injEq, Prod.mk.injEq] at h
      obtain ⟨rfl, rfl⟩ := h
      exact ⟨g1, g2, g3, g4, g5, g6, Or.inr ⟨b, hb, Or.inr ⟨r, w', ha, rfl, g7, g8, g9, g10, g11, g12, g13, g14, g15, g16, g17,
        g18, hpb⟩⟩⟩

theorem ReachOk.reach {S : Setup V F M} {s : Cam V F M} {seen : List (Obs V)} (h : ReachOk S s seen) : Reach S s seen := by
  induction h with
  | init => exact .init
  | step op _ hs ih => exact .step (ok := true) op ih (by rw [hs]; rfl)

/-- what holds after every history. -/
structure LInv (S : Setup V F M) (s : Cam V F M) (seen : List (Obs V)) : Prop where
  base : Base s
  cur : Cur s
  num : s.num = s.batchObs.length
  lms : s.lms = S.lms
  cal : s.cal = S.cal
  opt : s.opt.lmGroup = S.opt.lmGroup ∧ s.opt.calGroup = S.opt.calGroup ∧ s.opt.trGroup = S.opt.trGroup
  seen : seen = (s.subs.flatMap Sub.images ++ s.batchObs).map Entry.obs
  est : s.estObs = ((s.subs.filter Sub.accepted).reverse).flatMap Sub.images

theorem LInv.start {S : Setup V F M} (hS : S.Ok) : LInv S S.start [] where
  base := ⟨hS.lt, hS.nodup, fun _ => BInv.empty _, fun _ _ => rfl, by simp [Setup.start, Camera.init, OptProblem.empty, AL.keys],
    by simp [Setup.start, Camera.init, OptProblem.empty], by simp [Setup.start, Camera.init, OptProblem.empty],
    by simp [Setup.start, Camera.init, OptProblem.empty, AL.keys], by simp [Setup.start, Camera.init],
    by simp [Setup.start, Camera.init]⟩
  cur := rfl
  num := rfl
  lms := rfl
  cal := rfl
  opt := ⟨rfl, rfl, rfl⟩
  seen := rfl
  est := rfl

theorem Base.setNum {s : Cam V F M} (hs : Base s) (n : Nat) (o : Opt) (h1 : o.lmGroup = s.opt.lmGroup)
    (h2 : o.calGroup = s.opt.calGroup) (h3 : o.trGroup = s.opt.trGroup) (r : Bool) :
    Base { s with num := n, opt := o, ready := r } :=
  ⟨hs.lt, hs.nodup, hs.binv, hs.fresh, hs.dvlt, hs.etlt, hs.etDisj, hs.trDisj,
    fun x hx => by simp only [h1, h2, h3]; exact hs.subsOk x hx, hs.subsNodup⟩

theorem Cur.setNum {s : Cam V F M} (hs : Cur s) (n : Nat) (o : Opt) (h1 : o.lmGroup = s.opt.lmGroup)
    (h2 : o.calGroup = s.opt.calGroup) (h3 : o.trGroup = s.opt.trGroup) (r : Bool) :
    Cur { s with num := n, opt := o, ready := r } := by
  simp only [Cur, h1, h2, h3] at hs ⊢; exact hs

theorem LInv.process {S : Setup V F M} {s s' : Cam V F M} {seen : List (Obs V)} {oracle : OptInput V → OptCall V F M}
    {buildOk ok : Bool} (hi : LInv S s seen) (h : (s.processBatch S.D S.m0 oracle buildOk).outcome = some (ok, s')) :
    LInv S s' seen := by
  obtain ⟨hb, hc, h1, h2, h3, h4, h5⟩ := processBatch_eff hi.base hi.cur h
  rcases h5 with ⟨-, rfl, -⟩ | ⟨b, -, ⟨e, w', -, rfl, -, -⟩ | ⟨r, w', -, -, -, -, -, -, -, h6, h7, h8, h9, -⟩⟩
  · exact hi
  · exact ⟨hb, hc, hi.num, hi.lms, hi.cal, hi.opt, hi.seen, hi.est⟩
  · refine ⟨hb, hc, by rw [h6, h7]; rfl, h2.trans hi.lms, h3.trans hi.cal, by rw [h1]; exact hi.opt, ?_, ?_⟩
    · rw [h6, h8, hi.seen]; simp
    · rw [h9, h8, hi.est]
      cases hr : r.batchAccepted <;> simp [List.filter_append, hr]

theorem LInv.observe {S : Setup V F M} {s : Cam V F M} {seen : List (Obs V)} (hi : LInv S s seen) (o : Obs V) :
    ∃ en s1, s.addObservation o = .ok en s1 ∧ en.obs = o ∧
      LInv S { s1 with batchObs := s1.batchObs ++ [en] } (seen ++ [o]) ∧
    (∃ b, s1.batch = some b ∧ (s.batch = some b ∨ s.batch = none ∧ s.nb ≤ b) ∧ (∀ b', b' < s.nb → b' ≠ b → s1.w.B b' = s.w.B b')) ∧
    s1.batchObs = s.batchObs ∧ s1.num = s.num + 1 ∧ s1.w.est = s.w.est ∧ s1.opt = s.opt ∧ s1.lms = s.lms ∧ s1.cal = s.cal ∧
    s1.ready = s.ready ∧ s1.estObs = s.estObs ∧ s1.subs = s.subs ∧ s.nb ≤ s1.nb ∧ s.nd ≤ en.qdv ∧ en.tdv = en.qdv + 1 ∧
    s1.w.heap.params en.qdv = o.q ∧ s1.w.heap.params en.tdv = o.t ∧ (∀ d, d < s.nd → s1.w.heap.params d = s.w.heap.params d) := by
  obtain ⟨en, s1, h1, h2, h3, h4, h5, h6, h7, h8, h9, h10, h11, h12, h13, h14, h15⟩ := addObservation_spec hi.base hi.cur o
  refine ⟨en, s1, h1, h2, ⟨h3, h4, ?_, h10.trans hi.lms, h11.trans hi.cal, by simp only [h9]; exact hi.opt, ?_, ?_⟩, h5, h6, h7,
    h8, h9, h10, h11, h12, h13, h14, h15⟩
  · simp only [h6, h7, hi.num, List.length_append, List.length_singleton]
  · simp only [h14, h6, hi.seen]; simp [h2]
  · simp only [h13, h14]; exact hi.est

theorem LInv.step {S : Setup V F M} {s s' : Cam V F M} {seen : List (Obs V)} {op : Op V F M} {ok : Bool} (hi : LInv S s seen)
    (h : (op.step S.D S.m0 s).outcome = some (ok, s')) : LInv S s' (seen ++ op.detected s) := by
  cases op with
  | initGeometry found =>
    have h := outcome_bind_ok (f := some) h
    simp only [Op.detected, List.append_nil]
    unfold Cam.initGeometry at h
    split at h
    · simp only [Res.outcome, Option.some.injEq, Prod.mk.injEq] at h
      rw [← h.2]; exact hi
    · split at h
      · simp only [Res.outcome, Option.some.injEq, Prod.mk.injEq] at h
        rw [← h.2]
        exact ⟨hi.base.setNum s.num s.opt rfl rfl rfl true, hi.cur.setNum s.num s.opt rfl rfl rfl true, hi.num, hi.lms, hi.cal,
          hi.opt, hi.seen, hi.est⟩
      · simp only [Res.outcome, Option.some.injEq, Prod.mk.injEq] at h
        rw [← h.2]; exact hi
  | setNum n =>
    simp only [Op.step, Res.outcome, Option.some.injEq, Prod.mk.injEq] at h
    rw [← h.2]
    simp only [Op.detected, List.append_nil]
    exact ⟨hi.base.setNum s.num { s.opt with batchNumImages := n } rfl rfl rfl s.ready,
      hi.cur.setNum s.num { s.opt with batchNumImages := n } rfl rfl rfl s.ready, hi.num, hi.lms, hi.cal,
      hi.opt, hi.seen, hi.est⟩
  | processBatch oracle buildOk =>
    have h := outcome_bind_ok (f := fun _ => none) h
    simp only [Op.detected, List.append_nil]
    exact hi.process h
  | addImage found oracle buildOk =>
    have h := outcome_bind_ok (f := some) h
    unfold Cam.addImage at h
    cases hr : s.ready with
    | false =>
      simp only [hr, if_true, Res.outcome, Option.some.injEq, Prod.mk.injEq] at h
      rw [← h.2]
      cases found <;> simp only [Op.detected, hr, List.append_nil, Bool.false_eq_true, if_false] <;> exact hi
    | true =>
      simp only [hr, Bool.true_eq_false, if_false] at h
      cases found with
      | none =>
        simp only [Res.outcome, Option.some.injEq, Prod.mk.injEq] at h
        rw [← h.2]
        simp only [Op.detected, List.append_nil]; exact hi
      | some o =>
        obtain ⟨en, s1, h1, -, h2, -⟩ := hi.observe o
        simp only [h1] at h
        simp only [Res.bind] at h
        simp only [Op.detected, hr, if_true]
        split at h
        · exact h2.process (outcome_bind_ok (f := fun _ => true) h)
        · simp only [Res.outcome, Option.some.injEq, Prod.mk.injEq] at h
          rw [← h.2]; exact h2

theorem Reach.inv {S : Setup V F M} (hS : S.Ok) {s : Cam V F M} {seen : List (Obs V)} (h : Reach S s seen) :
    LInv S s seen := by
  induction h with
  | init => exact LInv.start hS
  | step op _ hs ih => exact ih.step hs

end Camera
end Verif
