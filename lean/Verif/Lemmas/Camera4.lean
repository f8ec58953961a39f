import Verif.Lemmas.Camera3
import Verif.Lemmas.IncMore

/-! Submissions that can never succeed. -/

namespace Verif
namespace Camera
variable {V F M : Type _}

open Cam

theorem addOne_cases (q : IncProblem V) (d : DVId) (g : GroupId) :
    ∃ q', q.addOne d g = .ok () q' ∨ q.addOne d g = .throw .invalidOperation q' := by
  unfold IncProblem.addOne
  simp only
  split
  · exact ⟨_, .inl rfl⟩
  · split
    · exact ⟨_, .inr rfl⟩
    · exact ⟨_, .inl rfl⟩

theorem addList_cases (es : List (DVId × GroupId)) (q : IncProblem V) :
    ∃ q', addList q es = .ok () q' ∨ addList q es = .throw .invalidOperation q' := by
  induction es generalizing q with
  | nil => exact ⟨q, .inl rfl⟩
  | cons e es ih =>
    obtain ⟨d, g⟩ := e
    obtain ⟨q1, h | h⟩ := addOne_cases q d g
    · obtain ⟨q', h'⟩ := ih q1
      refine ⟨q', ?_⟩
      simp only [addList, h, Res.bind]; exact h'
    · exact ⟨q1, .inr (by simp only [addList, h, Res.bind])⟩

/-- adding a contained batch that has error terms fails and leaves it contained. -/
theorem add_jam {h : Heap V} {B : BatchId → OptProblem V} {q : IncProblem V} {b : BatchId} (hb : BInv h (B b))
    (hin : b ∈ q.problems) (hne : (B b).etLookup ≠ []) :
    ∃ q', q.add B (some b) = .throw .invalidOperation q' ∧ q'.problems = q.problems := by
  have hlen : (B b).numErrorTerms = (B b).errorTerms.length := by rw [hb.et.length_eq]; rfl
  simp only [IncProblem.add]
  rw [addLoop_eq hb _ 0 _ (by rw [elems_length hb]; omega), List.drop_zero]
  obtain ⟨q1, h1 | h1⟩ := addList_cases (elems (B b)) q
  · have hr := (addList_rest _ _ (by rw [h1]; rfl : (addList q (elems (B b))).state? = some q1)).1
    rw [h1]
    simp only [Res.bind]
    rw [addErrorLoop_eq B hb _ 0 _ (by omega), List.drop_zero]
    have : ∃ e ∈ (B b).errorTerms, q1.isETInProblem B e = true := by
      obtain ⟨e, he⟩ := List.exists_mem_of_ne_nil _ hne
      exact ⟨e, hb.et.mem_iff.2 he, (isET_iff B q1 e).2 ⟨b, by rw [hr]; exact hin, he⟩⟩
    rw [if_pos this]
    exact ⟨q1, rfl, hr⟩
  · have hr := (addList_rest _ _ (by rw [h1]; rfl : (addList q (elems (B b))).state? = some q1)).1
    rw [h1]
    exact ⟨q1, rfl, hr⟩

/-- the pending batch is already in the estimator. -/
structure Jam (b : BatchId) (s : Cam V F M) : Prop where
  base : Base s
  cur : Cur s
  batch : s.batch = some b
  inp : b ∈ s.w.est.inc.problems
  ne : (s.w.B b).etLookup ≠ []

theorem Jam.process {D : Dbl F} {m0 : M} {oracle : OptInput V → OptCall V F M} {buildOk : Bool} {b : BatchId}
    {s : Cam V F M} (hj : Jam b s) : ∃ s', s.processBatch D m0 oracle buildOk = .throw .invalidOperation s' ∧
      Jam b s' ∧ s'.subs = s.subs ∧ s'.estObs = s.estObs ∧ s'.ready = s.ready := by
  obtain ⟨q', h1, h2⟩ := add_jam (hj.base.binv b) hj.inp hj.ne
  have ha : s.w.addBatch D m0 oracle buildOk (some b) false = .throw .invalidOperation (s.w.setInc q') := by
    unfold EWorld.addBatch
    rw [h1]; rfl
  have hp := processBatch_throw hj.batch ha
  have hsame : SameB s.w (s.w.setInc q') := addBatch_same (ok := false) (by rw [ha]; rfl)
  exact ⟨_, hp, ⟨hj.base.same hsame, hj.cur.same hsame, hj.batch, by simp only [EWorld.setInc, h2]; exact hj.inp, hj.ne⟩,
    rfl, rfl, rfl⟩

/-- the error terms of the batch only grow while images are added. -/
theorem etLookup_grows {s : Cam V F M} (hs : Base s) (hc : Cur s) {o : Obs V} {en : Entry V} {s1 : Cam V F M}
    (h : s.addObservation o = .ok en s1) {b : BatchId} (hb : s.batch = some b) (hne : (s.w.B b).etLookup ≠ []) :
    (s1.w.B b).etLookup ≠ [] ∧ s1.batch = some b := by
  obtain ⟨en', s1', h1, -, -, h4, ⟨b', h5, h6, -⟩, h7, -, -, h10, h11, h12, -⟩ := addObservation_spec hs hc o
  rw [h] at h1
  simp only [Res.ok.injEq] at h1
  obtain ⟨rfl, rfl⟩ := h1
  have hbb : b' = b := by
    rcases h6 with h6 | ⟨h6, -⟩
    · rw [hb] at h6; exact (Option.some.inj h6).symm
    · rw [hb] at h6; simp at h6
  subst hbb
  refine ⟨?_, h5⟩
  simp only [Cur, h5] at h4
  simp only [Cur, hb] at hc
  have d1 := h4.2.2.deps
  have d0 := hc.2.2.deps
  rw [h4.2.2.ets] at d1
  rw [hc.2.2.ets] at d0
  intro he
  rw [he, h7, h11, h12, List.flatMap_append] at d1
  have := congrArg List.length d1
  rw [List.length_append] at this
  have h0 := congrArg List.length d0
  simp only [List.map_nil, List.length_nil, List.length_map] at this h0
  have : (s.w.B b').etLookup.length = 0 := by omega
  exact hne (List.length_eq_zero_iff.1 this)

theorem Jam.step {S : Setup V F M} {b : BatchId} {s s' : Cam V F M} {seen : List (Obs V)} {ok : Bool} {op : Op V F M}
    (hl : LInv S s seen) (hj : Jam b s) (h : (op.step S.D S.m0 s).outcome = some (ok, s')) :
    Jam b s' ∧ s'.subs = s.subs ∧ s'.estObs = s.estObs := by
  cases op with
  | initGeometry found =>
    have h := outcome_bind_ok (f := some) h
    unfold Cam.initGeometry at h
    split at h
    · simp only [Res.outcome, Option.some.injEq, Prod.mk.injEq] at h
      rw [← h.2]; exact ⟨hj, rfl, rfl⟩
    · split at h
      · simp only [Res.outcome, Option.some.injEq, Prod.mk.injEq] at h
        rw [← h.2]
        exact ⟨⟨hj.base.setNum s.num s.opt rfl rfl rfl true, hj.cur.setNum s.num s.opt rfl rfl rfl true, hj.batch, hj.inp, hj.ne⟩,
          rfl, rfl⟩
      · simp only [Res.outcome, Option.some.injEq, Prod.mk.injEq] at h
        rw [← h.2]; exact ⟨hj, rfl, rfl⟩
  | setNum n =>
    simp only [Op.step, Res.outcome, Option.some.injEq, Prod.mk.injEq] at h
    rw [← h.2]
    exact ⟨⟨hj.base.setNum s.num { s.opt with batchNumImages := n } rfl rfl rfl s.ready,
      hj.cur.setNum s.num { s.opt with batchNumImages := n } rfl rfl rfl s.ready, hj.batch, hj.inp, hj.ne⟩, rfl, rfl⟩
  | processBatch oracle buildOk =>
    have h := outcome_bind_ok (f := fun _ => none) h
    obtain ⟨s2, h1, h2, h3, h4, -⟩ := hj.process (D := S.D) (m0 := S.m0) (oracle := oracle) (buildOk := buildOk)
    rw [h1] at h
    simp only [Res.outcome, Option.some.injEq, Prod.mk.injEq] at h
    rw [← h.2]; exact ⟨h2, h3, h4⟩
  | addImage found oracle buildOk =>
    have h := outcome_bind_ok (f := some) h
    unfold Cam.addImage at h
    split at h
    · simp only [Res.outcome, Option.some.injEq, Prod.mk.injEq] at h
      rw [← h.2]; exact ⟨hj, rfl, rfl⟩
    · cases found with
      | none =>
        simp only [Res.outcome, Option.some.injEq, Prod.mk.injEq] at h
        rw [← h.2]; exact ⟨hj, rfl, rfl⟩
      | some o =>
        obtain ⟨en, s1, h1, h2, h3, -, h7, h8, h9, h10, h11, h12, h13, h14, h15, -⟩ := hl.observe o
        obtain ⟨hne, hbt⟩ := etLookup_grows hj.base hj.cur h1 hj.batch hj.ne
        have hj1 : Jam b ({ s1 with batchObs := s1.batchObs ++ [en] } : Cam V F M) :=
          ⟨h3.base, h3.cur, hbt, by simp only [h9]; exact hj.inp, hne⟩
        simp only [h1] at h
        obtain ⟨a, s3, e, h⟩ | ⟨e, e', -⟩ := outcome_bind h
        · simp only [Res.ok.injEq] at e
          obtain ⟨rfl, rfl⟩ := e
          split at h
          · have h := outcome_bind_ok (f := fun _ => true) h
            obtain ⟨s2, k1, k2, k3, k4, -⟩ := hj1.process (D := S.D) (m0 := S.m0) (oracle := oracle) (buildOk := buildOk)
            rw [k1] at h
            simp only [Res.outcome, Option.some.injEq, Prod.mk.injEq] at h
            rw [← h.2]
            exact ⟨k2, k3.trans h15, k4.trans h14⟩
          · simp only [Res.outcome, Option.some.injEq, Prod.mk.injEq] at h
            rw [← h.2]
            exact ⟨hj1, h15, h14⟩
        · simp at e'

theorem Reach.later {S : Setup V F M} {P : Op V F M → Bool → Prop} {s s' : Cam V F M} {seen : List (Obs V)} (h : Reach S s seen)
    (hl : Later S.D S.m0 P s s') : ∃ seen', Reach S s' seen' := by
  induction hl with
  | refl => exact ⟨_, h⟩
  | step op _ _ hs ih =>
    obtain ⟨seen', h'⟩ := ih
    exact ⟨_, h'.step op hs⟩

theorem Jam.later {S : Setup V F M} (hS : S.Ok) {P : Op V F M → Bool → Prop} {b : BatchId} {s s' : Cam V F M} {seen : List (Obs V)} (h : Reach S s seen)
    (hj : Jam b s) (hl : Later S.D S.m0 P s s') : Jam b s' ∧ s'.subs = s.subs ∧ s'.estObs = s.estObs := by
  induction hl with
  | refl => exact ⟨hj, rfl, rfl⟩
  | step op hprev _ hs ih =>
    obtain ⟨h1, h2, h3⟩ := ih
    obtain ⟨seen', h'⟩ := h.later hprev
    obtain ⟨k1, k2, k3⟩ := Jam.step (h'.inv hS) h1 hs
    exact ⟨k1, k2.trans h2, k3.trans h3⟩

/-! ### executable histories -/

theorem run_reach {S : Setup V F M} {ops : List (Op V F M)} {s s' : Cam V F M} {seen : List (Obs V)} {l : List Bool}
    (h0 : Reach S s seen) (h : run S.D S.m0 ops s = some (s', l)) : ∃ seen', Reach S s' seen' := by
  induction ops generalizing s seen l with
  | nil => simp only [run, Option.some.injEq, Prod.mk.injEq] at h; exact ⟨seen, h.1 ▸ h0⟩
  | cons op ops ih =>
    simp only [run] at h
    cases ho : (op.step S.D S.m0 s).outcome with
    | none => rw [ho] at h; simp at h
    | some x =>
      obtain ⟨ok, s1⟩ := x
      rw [ho] at h
      simp only [Option.map_eq_some_iff] at h
      obtain ⟨⟨s2, l2⟩, h1, h2⟩ := h
      simp only [Prod.mk.injEq] at h2
      obtain ⟨rfl, -⟩ := h2
      exact ih (h0.step op ho) h1

theorem outcome_true {σ α : Type _} {r : Res σ α} {t : σ} (h : r.outcome = some (true, t)) : ∃ a, r = .ok a t := by
  cases r <;> simp [Res.outcome] at h
  exact ⟨_, by rw [h]⟩

theorem run_reachOk {S : Setup V F M} {ops : List (Op V F M)} {s s' : Cam V F M} {seen : List (Obs V)} {l : List Bool}
    (h0 : ReachOk S s seen) (h : run S.D S.m0 ops s = some (s', l)) (hl : ∀ b ∈ l, b = true) : ∃ seen', ReachOk S s' seen' := by
  induction ops generalizing s seen l with
  | nil => simp only [run, Option.some.injEq, Prod.mk.injEq] at h; exact ⟨seen, h.1 ▸ h0⟩
  | cons op ops ih =>
    simp only [run] at h
    cases ho : (op.step S.D S.m0 s).outcome with
    | none => rw [ho] at h; simp at h
    | some x =>
      obtain ⟨ok, s1⟩ := x
      rw [ho] at h
      simp only [Option.map_eq_some_iff] at h
      obtain ⟨⟨s2, l2⟩, h1, h2⟩ := h
      simp only [Prod.mk.injEq] at h2
      obtain ⟨rfl, rfl⟩ := h2
      have : ok = true := hl ok List.mem_cons_self
      subst this
      obtain ⟨a, ha⟩ := outcome_true ho
      exact ih (h0.step op ha) h1 fun b hb => hl b (List.mem_cons_of_mem _ hb)

end Camera
end Verif
