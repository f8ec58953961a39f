import Verif.Props.CalibLib

/-! Property C122: the calibration and the uncertainties a calibrator offers belong to the same run of the optimizer. -/

namespace Verif
namespace CalibLib
variable {X V F M : Type} {c : Env X V F M} {g : GroupId} {o : EstOptions F} {mo : F} {h : Heap V}

theorem lastAccepted_snoc_no {l : List (Sub X V F M)} {b : Sub X V F M} (hb : ∀ r, b.ret = some r → r.batchAccepted = false) :
    lastAccepted (l ++ [b]) = lastAccepted l := by
  unfold lastAccepted
  rw [List.filterMap_append]
  cases hr : b.ret with
  | none => simp [hr]
  | some r => simp [hr, hb r hr]

theorem lastAccepted_snoc_yes {l : List (Sub X V F M)} {b : Sub X V F M} {r : RetVal F M} (hb : b.ret = some r)
    (ha : r.batchAccepted = true) : lastAccepted (l ++ [b]) = some r := by
  unfold lastAccepted
  rw [List.filterMap_append]
  simp [hb, ha]

theorem inside_snoc' (l : List (Sub X V F M)) (b : Sub X V F M) :
    inside (l ++ [b]) = inside l ++ (if b.inside then [l.length] else []) := by
  unfold inside
  rw [List.zipIdx_append, List.filter_append]
  cases hb : b.inside <;> simp [hb]

/-- what the log of windows says, if all calls returned. -/
theorem together {st0 : Stats F M} {v0 : List V} : ∀ (log : List (Sub X V F M)),
    (∀ pre b post, log = pre ++ b :: post → Decided c g o st0 v0 pre b) → (∀ b ∈ log, b.ret.isSome = true) →
    ((∀ b ∈ log, ∀ r, b.ret = some r → r.batchAccepted = false) ∧ calAfter v0 log = v0 ∧ statsAfter st0 log = st0 ∧
      inside log = []) ∨
    ∃ pre b post r inp sc, log = pre ++ b :: post ∧ b.ret = some r ∧ r.batchAccepted = true ∧
      (∀ b' ∈ post, ∀ r', b'.ret = some r' → r'.batchAccepted = false) ∧ Sees c g pre b inp ∧
      (c.oracle pre.length inp).report = some (r.srv, sc) ∧ (c.oracle pre.length inp).marginal = some r.marginal ∧
      calAfter v0 log = c.cal.map (c.oracle pre.length inp).params ∧
      statsAfter st0 log = ⟨r.informationGain, r.marginal, EWorld.scaledOf c.m0 o sc, r.srv.JStart, r.srv.JFinal⟩ ∧
      inside log = inp.inc.problems := by
  intro log
  induction log using List.reverseRecOn with
  | nil => intro _ _; left; simp [calAfter, statsAfter, lastAccepted, inside]
  | append_singleton l b ih =>
    intro hd hret
    have hdb := hd l b [] rfl
    obtain ⟨r, hr⟩ := Option.isSome_iff_exists.1 (hret b (by simp))
    obtain ⟨inp, sc, h1, h2, h3, h4, h5, h6, h7, h8⟩ := hdb.returned r hr
    cases ha : r.batchAccepted with
    | true =>
      right
      refine ⟨l, b, [], r, inp, sc, rfl, hr, ha, by simp, h1, h2, h3, ?_, ?_, ?_⟩
      · rw [ha, if_pos rfl] at h8
        simp [calAfter, h8]
      · unfold statsAfter
        rw [lastAccepted_snoc_yes hr ha, ← h4]
      · rw [inside_snoc', h7, ha, if_pos rfl, h1.problems]
    | false =>
      have hno : ∀ r', b.ret = some r' → r'.batchAccepted = false := by
        intro r' hr'; rw [hr] at hr'; cases hr'; exact ha
      have hcal : calAfter v0 (l ++ [b]) = calAfter v0 l := by
        rw [ha] at h8
        simp only [Bool.false_eq_true, if_false] at h8
        rw [← hdb.before, ← h8]; simp [calAfter]
      have hst : statsAfter st0 (l ++ [b]) = statsAfter st0 l := by
        unfold statsAfter; rw [lastAccepted_snoc_no hno]
      have hin : inside (l ++ [b]) = inside l := by
        rw [inside_snoc', h7, ha]; simp
      rw [hcal, hst, hin]
      rcases ih (fun pre b' post hl => hd pre b' (post ++ [b]) (by rw [hl]; simp)) (fun b' hb' => hret b' (by simp [hb'])) with
        ⟨i1, i2, i3, i4⟩ | ⟨pre, b', post, r', inp', sc', i1, i2, i3, i4, i5, i6, i7, i8, i9, i10⟩
      · left
        refine ⟨?_, i2, i3, i4⟩
        intro b' hb' r' hr'
        rcases List.mem_append.1 hb' with hb' | hb'
        · exact i1 b' hb' r' hr'
        · rw [List.mem_singleton.1 hb'] at hr'; exact hno r' hr'
      · right
        refine ⟨pre, b', post ++ [b], r', inp', sc', by rw [i1]; simp, i2, i3, ?_, i5, i6, i7, i8, i9, i10⟩
        intro b2 hb2 r2 hr2
        rcases List.mem_append.1 hb2 with hb2 | hb2
        · exact i4 b2 hb2 r2 hr2
        · rw [List.mem_singleton.1 hb2] at hr2; exact hno r2 hr2

/-- **C122**: for every history in which no call threw: either no window was accepted, and the calibration and the statistics are
the initial ones and the problem has no batch; or the calibration, the statistics (uncertainties, singular values, rank, cost)
and the batches of the problem are all those of one run of the optimizer, that of the last accepted window. -/
theorem C122_together_partial (hx : ∀ x, Good c x) (hc : 0 < c.ncal) (hg : g = 0 ∨ g = 1) {s : St X V F M}
    (hr : Reach c (c.start mo g o h) s) (hl : s.log.length ≤ IncProblem.maxBatches) (hret : ∀ b ∈ s.log, b.ret.isSome = true) :
    ((∀ b ∈ s.log, ∀ r, b.ret = some r → r.batchAccepted = false) ∧ c.params s = c.cal.map h.params ∧
      s.w.est.stats = Estimator.initStats c.D mo c.m0 ∧ s.w.est.inc.problems = []) ∨
    ∃ pre b post r inp sc, s.log = pre ++ b :: post ∧ b.ret = some r ∧ r.batchAccepted = true ∧
      (∀ b' ∈ post, ∀ r', b'.ret = some r' → r'.batchAccepted = false) ∧ Sees c g pre b inp ∧
      (c.oracle pre.length inp).report = some (r.srv, sc) ∧ (c.oracle pre.length inp).marginal = some r.marginal ∧
      c.params s = c.cal.map (c.oracle pre.length inp).params ∧
      s.w.est.stats = ⟨r.informationGain, r.marginal, EWorld.scaledOf c.m0 o sc, r.srv.JStart, r.srv.JFinal⟩ ∧
      s.w.est.inc.problems = inp.inc.problems := by
  obtain ⟨h1, -, h3, h4, -⟩ := C121_problem hx hc hg hr hl
  rw [h1, h3, h4]
  exact together s.log (fun pre b post hs => C121_windows hx hc hg hr hl hs) hret

/-- **C122** (negation): after a window in which the optimizer failed, and until the next window, the calibration is what the failed
run left, and the batch of the window is in the problem, but the uncertainties and the other statistics are still those of the
last accepted window. -/
theorem C122_failed_run (hx : ∀ x, Good c x) (hc : 0 < c.ncal) (hg : g = 0 ∨ g = 1) {s s' : St X V F M} {x : X} {e : Exc}
    (hr : Reach c (c.start mo g o h) s) (hl : s.log.length < IncProblem.maxBatches)
    (hbuild : c.buildOk s.log.length = true)
    (hs : c.submit s x = .throw e s') :
    s'.w.est.stats = s.w.est.stats ∧ s'.w.est.inc.problems = s.w.est.inc.problems ++ [s.log.length] ∧
    ∃ inp, c.params s' = c.cal.map (c.oracle s.log.length inp).params ∧ inp.inc.problems = s'.w.est.inc.problems := by
  obtain ⟨s2, b, h1, h2, h3, h4⟩ := (reach_inv hx hc hg hr hl.le).step (hx x) hc hg hl
  rcases h4 with ⟨r, -, h4⟩ | ⟨h5, h4⟩
  · rw [h4] at hs; cases hs
  · rw [h4] at hs
    obtain ⟨-, rfl⟩ : _ ∧ s2 = s' := by simpa using hs
    have hdec := h3.dec s.log b [] h1
    obtain ⟨inp, hsee, h6⟩ := hdec.threw h5
    rcases h6 with ⟨-, h7, h8⟩ | ⟨h6, -⟩
    · have hi := reach_inv hx hc hg hr hl.le
      refine ⟨?_, ?_, inp, ?_, ?_⟩
      · rw [h3.stats, hi.stats, h1]
        unfold statsAfter
        rw [lastAccepted_snoc_no (by intro r hr; rw [h5] at hr; cases hr)]
      · rw [h3.probs, hi.probs, h1, inside_snoc', h7]; rfl
      · rw [h3.cal, h1]; simp [calAfter, h8]
      · rw [h3.probs, hsee.problems, h1, inside_snoc', h7]; rfl
    · rw [hbuild] at h6; cases h6

/-! ### The theorems apply -/

/-- the first run sets all values to 100, the second fails and leaves 101. -/
def failEnv : Env Unit Nat Int Nat := { exEnv Unit with oracle := fun n inp => { (exEnv Unit).oracle n inp with
  report := if n = 1 then none else ((exEnv Unit).oracle n inp).report } }

/-- **C122**, witness: after an accepted window and a failed run the calibration is that of the failed run, the uncertainties are
those of the accepted window. -/
theorem C122_witness : ∃ r s1 s2, failEnv.submit (failEnv.start (-1) 1 exOpts exHeap) () = .ok r s1 ∧
    failEnv.submit s1 () = .throw .external s2 ∧ failEnv.params s1 = [100, 100] ∧ failEnv.params s2 = [101, 101] ∧
    s2.w.est.stats = s1.w.est.stats ∧ s2.w.est.inc.problems = [0, 1] := by
  have hgood : ∀ x, Good failEnv x := fun x => ex_good Unit x
  have hc : 0 < failEnv.ncal := by simp [failEnv, exEnv]
  have hmax : 2 < IncProblem.maxBatches := by unfold IncProblem.maxBatches; norm_num
  obtain ⟨s1, b1, a1, a2, a3, a4⟩ := (Inv.init failEnv (-1) 1 exOpts exHeap).step (hgood ()) hc (.inr rfl)
    (show 0 < IncProblem.maxBatches by omega)
  have hlog : (failEnv.start (-1) 1 exOpts exHeap : St Unit Nat Int Nat).log = [] := rfl
  rw [hlog, List.nil_append] at a1
  have hd1 := a3.dec [] b1 [] a1
  rcases a4 with ⟨r, a5, a4⟩ | ⟨a5, -⟩
  rotate_left
  · obtain ⟨inp, -, h6⟩ := hd1.threw a5
    simp [failEnv, exEnv] at h6
  have hr1 : Reach failEnv (failEnv.start (-1) 1 exOpts exHeap) s1 := .step .start (by rw [a4]; rfl)
  have hlen1 : s1.log.length = 1 := by rw [a1]; rfl
  obtain ⟨inp, sc, b0, b1', b2, b3, b4, b5, b6, b7⟩ := hd1.returned r a5
  have hacc : r.batchAccepted = true := by
    apply b5.2
    simp only [failEnv, exEnv, List.length_nil, Option.some.injEq] at b2 b1'
    simp only [Nat.zero_ne_one, if_false, Option.some.injEq, Prod.mk.injEq] at b1'
    refine ⟨.inr ?_, fun _ => ?_⟩
    · rw [← b2]; simp [statsAfter, lastAccepted, Estimator.initStats]
    · rw [← b1'.1]; simp [exOpts, failEnv, exEnv]
  have hp1 : failEnv.params s1 = [100, 100] := by
    rw [a3.cal, a1]
    simp only [calAfter, List.getLast?_singleton, Option.map_some, Option.getD_some, b7, hacc, if_true]
    simp [failEnv, exEnv, Env.cal, List.range_succ]
  have hprob1 : s1.w.est.inc.problems = [0] := by
    rw [a3.probs, a1, show ([b1] : List (Sub Unit Nat Int Nat)) = [] ++ [b1] from rfl, inside_snoc', b6, hacc]; rfl
  rcases C121_never_refused hgood hc (.inr rfl) hr1 (by omega) () with ⟨r2, s2, h⟩ | ⟨s2, h, -⟩
  · exfalso
    obtain ⟨s2', b2', d1, d2, d3, d4⟩ := a3.step (hgood ()) hc (.inr rfl) (by omega)
    rcases d4 with ⟨r3, d5, d4⟩ | ⟨d5, d4⟩
    · obtain ⟨inp2, sc2, -, e1, -⟩ := (d3.dec s1.log b2' [] d1).returned r3 d5
      simp [failEnv, hlen1] at e1
    · rw [d4] at h; cases h
  · obtain ⟨h1, h2, inp2, h3, -⟩ := C122_failed_run hgood hc (.inr rfl) hr1 (by omega) 
      (by simp [failEnv, exEnv]) h
    refine ⟨_, s1, s2, a4, h, hp1, ?_, h1, ?_⟩
    · rw [h3, hlen1]; simp [failEnv, exEnv, Env.cal, List.range_succ]
    · rw [h2, hprob1, hlen1]; rfl

/-- the theorem about histories without exceptions applies to the program of `ex_car`. -/
example : ∃ s : CarCal (St CarBatch Nat Int Nat) Int (List Nat), s.params = [[7, 7], [100, 100], [100, 100]] ∧
    ∃ pre b post r inp, s.est.log = pre ++ b :: post ∧ Sees (exEnv CarBatch) 1 pre b inp ∧
      ((exEnv CarBatch).oracle pre.length inp).marginal = some r ∧ s.est.w.est.stats.marginal = r ∧
      (exEnv CarBatch).params s.est = (exEnv CarBatch).cal.map ((exEnv CarBatch).oracle pre.length inp).params := by
  obtain ⟨s, h1, h2, h3, h4, h5⟩ := ex_car
  obtain ⟨acc, gone, hrun⟩ := car_history _ .init h1
  have hl : s.sent.length ≤ IncProblem.maxBatches := by rw [h5]; unfold IncProblem.maxBatches; norm_num
  obtain ⟨hr, hrec⟩ := C121_car (ex_good CarBatch) (by simp [exEnv]) (.inr rfl) rfl rfl hrun hl
  have hret : ∀ b ∈ s.est.log, b.ret.isSome = true := by
    intro b hb
    obtain ⟨k, hk⟩ := List.getElem?_of_mem hb
    obtain ⟨r, h6, -⟩ := C121_entries (ex_good CarBatch) (by simp [exEnv]) (.inr rfl) hr hrec hl (by rw [h2, h5]; rfl) hk
    rw [h6]; rfl
  rcases C122_together_partial (ex_good CarBatch) (by simp [exEnv]) (.inr rfl) hr (hrec.sent ▸ hl) hret with
    ⟨-, -, -, h6⟩ | ⟨pre, b, post, r, inp, sc, k1, k2, k3, k4, k5, k6, k7, k8, k9, k10⟩
  · rw [h4] at h6; cases h6
  · exact ⟨s, h3, pre, b, post, r.marginal, inp, k1, k5, k7, by rw [k9], k8⟩

end CalibLib
end Verif
