import Verif.Model.SplineBatch
import Verif.Lemmas.Loop
import Verif.Lemmas.SplineBatch
import Verif.Props.SplineBatch
import Mathlib.Tactic.Linarith
import Mathlib.Tactic.Ring

/-! Properties C100 (`writeSplines`) and C101 (the batches of the calibrators as containers). -/

namespace Verif
variable {A B : Type} {V : Type}
namespace SplineOut

/-- Specification: `n` is the number of times `t0, t0 + step, …` before `t1`. -/
def Rounds (t0 t1 step : Int) (n : Nat) : Prop :=
  t1 ≤ t0 + n * step ∧ ∀ k : Nat, k < n → t0 + k * step < t1

/-- Specification: the lines for the times `t0, t0 + step, …`, `n` of them: position, then angles. -/
def lines (p : Int → A) (a : Int → B) (t0 step : Int) (n : Nat) : List (Tok A B) :=
  (List.range n).flatMap fun k => [Tok.pos (p (t0 + k * step)), Tok.ang (a (t0 + k * step))]

theorem lines_succ (p : Int → A) (a : Int → B) (t0 step : Int) (n : Nat) :
    lines p a t0 step (n + 1) =
      lines p a t0 step n ++ [Tok.pos (p (t0 + n * step)), Tok.ang (a (t0 + n * step))] := by
  simp [lines, List.range_succ, List.flatMap_append]

theorem rounds_exist {t0 t1 step : Int} (hs : 0 < step) : ∃ n, Rounds t0 t1 step n := by
  have : ∃ n : Nat, t1 ≤ t0 + n * step := by
    refine ⟨(t1 - t0).toNat, ?_⟩
    have h1 : t1 - t0 ≤ ((t1 - t0).toNat : Int) := Int.self_le_toNat _
    have h2 : (0 : Int) ≤ ((t1 - t0).toNat : Int) := Int.natCast_nonneg _
    nlinarith
  classical
  refine ⟨Nat.find this, Nat.find_spec this, fun k hk => ?_⟩
  have := Nat.find_min this hk
  omega

theorem rounds_unique {t0 t1 step : Int} {n m : Nat} (hn : Rounds t0 t1 step n) (hm : Rounds t0 t1 step m) : n = m := by
  rcases lt_trichotomy n m with h | h | h
  · have := hm.2 n h; have := hn.1; omega
  · exact h
  · have := hn.2 m h; have := hm.1; omega

/-- **C100**: with a positive step, one line per time from the start of the translation spline, at distance `step`, before its
end; each has the position and the angles of the two splines at that time.  The spline must end a step before the end of
the 64 bit times, and both splines must have values at those times. -/
theorem C100_rows (env : SplineEnv A B) {step : Int} (hs : 0 < step) (tr ro : SplineId) (out : List (Tok A B))
    (p : Int → A) (a : Int → B)
    (hmin : -9223372036854775808 ≤ env.minTime tr) (hmax : env.maxTime tr + step ≤ 9223372036854775808)
    (hp : ∀ t, env.minTime tr ≤ t → t < env.maxTime tr → env.pos tr t = .ok (p t) ())
    (ha : ∀ t, env.minTime tr ≤ t → t < env.maxTime tr → env.ang ro t = .ok (a t) ()) :
    ∃ n, Rounds (env.minTime tr) (env.maxTime tr) step n ∧
      writeSpline env step tr ro out = .ok () (out ++ lines p a (env.minTime tr) step n) := by
  obtain ⟨n, hn⟩ := rounds_exist (t0 := env.minTime tr) (t1 := env.maxTime tr) hs
  refine ⟨n, hn, ?_⟩
  have h := Loop.run_ok (fun s : Int × List (Tok A B) => s.1 < env.maxTime tr) (writeRound env tr ro step)
    (fun k => (env.minTime tr + k * step, out ++ lines p a (env.minTime tr) step k)) n ?_ ?_
  · have h0 : ((env.minTime tr + ((0 : Nat) : Int) * step, out ++ lines p a (env.minTime tr) step 0) : Int × List (Tok A B)) =
        (env.minTime tr, out) := by simp [lines]
    simp only [h0] at h
    rw [writeSpline, h]
    rfl
  · intro k hk
    have hlt := hn.2 k hk
    have hge : env.minTime tr ≤ env.minTime tr + k * step := by
      have : (0 : Int) ≤ k * step := mul_nonneg (Int.natCast_nonneg _) hs.le
      omega
    refine ⟨hlt, ?_⟩
    simp only [writeRound, emit, hp _ hge hlt, ha _ hge hlt, Res.bind]
    rw [if_neg (by omega)]
    congr 2
    · push_cast; ring
    · rw [lines_succ]; simp
  · have := hn.1
    show ¬ (env.minTime tr + n * step < env.maxTime tr)
    omega

/-- **C100** (negation): with a time step that rounds to zero nanoseconds the output never ends. -/
theorem C100_zero_step_never_ends (env : SplineEnv A B) (tr ro : SplineId) (out : List (Tok A B)) {x : A} {y : B}
    (h : env.minTime tr < env.maxTime tr) (h1 : -9223372036854775808 ≤ env.minTime tr)
    (h2 : env.minTime tr ≤ 9223372036854775807)
    (hp : env.pos tr (env.minTime tr) = .ok x ()) (ha : env.ang ro (env.minTime tr) = .ok y ()) :
    writeSpline env 0 tr ro out = .diverge := by
  have h := Loop.run_diverge (fun s : Int × List (Tok A B) => s.1 < env.maxTime tr) (writeRound env tr ro 0)
    (fun k => (env.minTime tr, out ++ (List.range k).flatMap fun _ => [Tok.pos x, Tok.ang y])) ?_
  · have h0 : ((env.minTime tr, out ++ (List.range 0).flatMap fun _ => [Tok.pos x, Tok.ang y]) : Int × List (Tok A B)) =
        (env.minTime tr, out) := by simp
    simp only [h0] at h
    rw [writeSpline, h]
    rfl
  · intro k
    refine ⟨h, ?_⟩
    simp only [writeRound, emit, hp, ha, Res.bind]
    rw [if_neg (by omega)]
    congr 2
    · simp
    · simp [List.range_succ, List.flatMap_append]

/-- **C100**: with a negative step it does not end normally, whatever the values. -/
theorem C100_negative_step_fails (env : SplineEnv A B) {step : Int} (hs : step ≤ 0) (tr ro : SplineId) (out : List (Tok A B))
    (h : env.minTime tr < env.maxTime tr) : ∀ out', writeSpline env step tr ro out ≠ .ok () out' := by
  intro out' he
  have key : ∀ (n : Nat) (s t : Int × List (Tok A B)), s.1 < env.maxTime tr →
      Loop.iter (fun s : Int × List (Tok A B) => s.1 < env.maxTime tr) (writeRound env tr ro step) n s = .ok () t →
      t.1 < env.maxTime tr := by
    intro n
    induction n with
    | zero => intro s t hs' ht; simp [Loop.iter] at ht; rw [← ht]; exact hs'
    | succ n ih =>
      intro s t hs' ht
      rw [Loop.iter, if_pos hs'] at ht
      cases hb : writeRound env tr ro step s with
      | ok u s1 =>
        rw [hb] at ht
        refine ih s1 t ?_ ht
        simp only [writeRound, emit] at hb
        cases h1 : env.pos tr s.1 <;> rw [h1] at hb <;> simp only [Res.bind, reduceCtorEq] at hb
        cases h2 : env.ang ro s.1 <;> rw [h2] at hb <;> simp only [reduceCtorEq] at hb
        split at hb
        · simp at hb
        · simp only [Res.ok.injEq] at hb
          rw [← hb.2]
          show s.1 + step < _
          omega
      | throw e s1 => rw [hb] at ht; simp [Res.bind] at ht
      | ub => rw [hb] at ht; simp [Res.bind] at ht
      | diverge => rw [hb] at ht; simp [Res.bind] at ht
  classical
  unfold writeSpline Loop.run at he
  split at he
  · rename_i hex
    cases hi : Loop.iter (fun s : Int × List (Tok A B) => s.1 < env.maxTime tr) (writeRound env tr ro step)
        (Nat.find hex) (env.minTime tr, out) with
    | ok u t =>
      have h1 := key _ _ _ h hi
      have h2 := Nat.find_spec hex
      rw [hi] at h2
      exact h2 h1
    | throw e s1 => rw [hi] at he; simp [Res.mapState] at he
    | ub => rw [hi] at he; simp [Res.mapState] at he
    | diverge => rw [hi] at he; simp [Res.mapState] at he
  · simp [Res.mapState] at he

/-- Specification: the pair of splines has values at the times that are written, and the times fit. -/
structure Good (env : SplineEnv A B) (step : Int) (p : SplineId → Int → A) (a : SplineId → Int → B)
    (xy : SplineId × SplineId) : Prop where
  lo : -9223372036854775808 ≤ env.minTime xy.1
  hi : env.maxTime xy.1 + step ≤ 9223372036854775808
  pos : ∀ t, env.minTime xy.1 ≤ t → t < env.maxTime xy.1 → env.pos xy.1 t = .ok (p xy.1 t) ()
  ang : ∀ t, env.minTime xy.1 ≤ t → t < env.maxTime xy.1 → env.ang xy.2 t = .ok (a xy.2 t) ()

/-- Specification: the lines of one pair of splines. -/
def PairLines (env : SplineEnv A B) (step : Int) (p : SplineId → Int → A) (a : SplineId → Int → B) (xy : SplineId × SplineId)
    (o : List (Tok A B)) : Prop :=
  ∃ n, Rounds (env.minTime xy.1) (env.maxTime xy.1) step n ∧ o = lines (p xy.1) (a xy.2) (env.minTime xy.1) step n

theorem writeBatch_ok {env : SplineEnv A B} {step : Int} {p : SplineId → Int → A} {a : SplineId → Int → B}
    (hs : 0 < step) (ros : List SplineId) (trs : List SplineId) (i : Nat) (out : List (Tok A B))
    (hg : ∀ xy ∈ trs.zip (ros.drop i), Good env step p a xy) (hl : i + trs.length ≤ ros.length) :
    ∃ os : List (List (Tok A B)), List.Forall₂ (PairLines env step p a) (trs.zip (ros.drop i)) os ∧
      writeBatch env step ros i trs out = .ok () (out ++ os.flatten) := by
  induction trs generalizing i out with
  | nil => exact ⟨[], by simp, by simp [writeBatch]⟩
  | cons tr trs ih =>
    simp only [List.length_cons] at hl
    have hi : i < ros.length := by omega
    rw [List.drop_eq_getElem_cons hi, List.zip_cons_cons] at hg ⊢
    have hg1 := hg (tr, ros[i]) (by simp)
    obtain ⟨n, hn, hw⟩ := C100_rows env hs tr (ros[i]) out (p tr) (a ros[i]) hg1.lo hg1.hi hg1.pos hg1.ang
    obtain ⟨os, ho, hr⟩ := ih (i + 1) (out ++ lines (p tr) (a ros[i]) (env.minTime tr) step n)
      (fun xy hxy => hg xy (List.mem_cons_of_mem _ hxy)) (by omega)
    refine ⟨lines (p tr) (a ros[i]) (env.minTime tr) step n :: os, ?_, ?_⟩
    · exact List.Forall₂.cons ⟨n, hn, rfl⟩ ho
    · rw [writeBatch, List.getElem?_eq_getElem hi]
      simp only [hw, Res.bind]
      rw [hr]
      simp

/-- **C100**: if every batch of the estimator has splines, with at least as many rotation as translation splines, the output
is the lines of the pairs of splines with the same position in their batch, batch after batch. -/
theorem C100_all_batches {env : SplineEnv A B} {step : Int} {p : SplineId → Int → A} {a : SplineId → Int → B}
    (hs : 0 < step) (bs : List (SplineProblem V)) (out : List (Tok A B))
    (hg : ∀ xy ∈ bs.flatMap fun b => b.trans.zip b.rot, Good env step p a xy)
    (hl : ∀ b ∈ bs, b.trans.length ≤ b.rot.length) :
    ∃ os : List (List (Tok A B)), List.Forall₂ (PairLines env step p a) (bs.flatMap fun b => b.trans.zip b.rot) os ∧
      writeAll env step (bs.map some) out = .ok () (out ++ os.flatten) := by
  induction bs generalizing out with
  | nil => exact ⟨[], by simp, by simp [writeAll]⟩
  | cons b bs ih =>
    rw [List.flatMap_cons] at hg ⊢
    obtain ⟨o1, h1, h2⟩ := writeBatch_ok hs b.rot b.trans 0 out
      (fun xy hxy => hg xy (List.mem_append_left _ (by simpa using hxy))) (by simpa using hl b (by simp))
    obtain ⟨o2, h3, h4⟩ := ih (out ++ o1.flatten) (fun xy hxy => hg xy (List.mem_append_right _ hxy))
      (fun c hc => hl c (by simp [hc]))
    refine ⟨o1 ++ o2, ?_, ?_⟩
    · rw [List.drop_zero] at h1
      exact List.rel_append h1 h3
    · simp only [List.map_cons, writeAll, h2, Res.bind]
      rw [h4]
      simp

/-- **C100** (negation): a batch with fewer rotation than translation splines ends the output with an exception, after the
complete pairs before it. -/
theorem C100_missing_rotation {env : SplineEnv A B} {step : Int} {p : SplineId → Int → A} {a : SplineId → Int → B}
    (hs : 0 < step) (bs : List (SplineProblem V)) (b : SplineProblem V) (rest : List (Option (SplineProblem V)))
    (out : List (Tok A B)) (hg : ∀ xy ∈ (bs ++ [b]).flatMap fun b => b.trans.zip b.rot, Good env step p a xy)
    (hl : ∀ b ∈ bs, b.trans.length ≤ b.rot.length) (hb : b.rot.length < b.trans.length) :
    ∃ os : List (List (Tok A B)),
      List.Forall₂ (PairLines env step p a) ((bs ++ [b]).flatMap fun b => b.trans.zip b.rot) os ∧
      writeAll env step (bs.map some ++ some b :: rest) out = .throw .stdOutOfRange (out ++ os.flatten) := by
  have hbatch : ∀ (trs : List SplineId) (i : Nat) (out : List (Tok A B)), i ≤ b.rot.length →
      b.rot.length < i + trs.length → (∀ xy ∈ trs.zip (b.rot.drop i), Good env step p a xy) →
      ∃ os : List (List (Tok A B)), List.Forall₂ (PairLines env step p a) (trs.zip (b.rot.drop i)) os ∧
        writeBatch env step b.rot i trs out = .throw .stdOutOfRange (out ++ os.flatten) := by
    intro trs
    induction trs with
    | nil => intro i out h1 h2; simp at h2; omega
    | cons tr trs ih =>
      intro i out h1 h2 hg
      simp only [List.length_cons] at h2
      by_cases hi : i < b.rot.length
      · rw [List.drop_eq_getElem_cons hi, List.zip_cons_cons] at hg ⊢
        have hg1 := hg (tr, b.rot[i]) (by simp)
        obtain ⟨n, hn, hw⟩ := C100_rows env hs tr (b.rot[i]) out (p tr) (a b.rot[i]) hg1.lo hg1.hi hg1.pos hg1.ang
        obtain ⟨os, ho, hr⟩ := ih (i + 1) (out ++ lines (p tr) (a b.rot[i]) (env.minTime tr) step n) (by omega) (by omega)
          (fun xy hxy => hg xy (List.mem_cons_of_mem _ hxy))
        refine ⟨lines (p tr) (a b.rot[i]) (env.minTime tr) step n :: os, ?_, ?_⟩
        · exact List.Forall₂.cons ⟨n, hn, rfl⟩ ho
        · rw [writeBatch, List.getElem?_eq_getElem hi]
          simp only [hw, Res.bind]
          rw [hr]
          simp
      · refine ⟨[], ?_, ?_⟩
        · rw [List.drop_eq_nil_of_le (by omega)]; simp
        · rw [writeBatch, List.getElem?_eq_none (by omega)]; simp
  rw [List.flatMap_append] at hg
  obtain ⟨o1, h1, h2⟩ := C100_all_batches (V := V) hs bs out (fun xy hxy => hg xy (List.mem_append_left _ hxy)) hl
  obtain ⟨o2, h3, h4⟩ := hbatch b.trans 0 (out ++ o1.flatten) (by omega) (by omega)
    (fun xy hxy => hg xy (List.mem_append_right _ (by simpa using hxy)))
  refine ⟨o1 ++ o2, ?_, ?_⟩
  · rw [List.flatMap_append]
    rw [List.drop_zero] at h3
    exact List.rel_append h1 (by simpa using h3)
  · have happ : ∀ (xs ys : List (Option (SplineProblem V))) (o : List (Tok A B)),
        writeAll env step (xs ++ ys) o = (writeAll env step xs o).bind fun _ o' => writeAll env step ys o' := by
      intro xs ys
      induction xs with
      | nil => intro o; rfl
      | cons x xs ih =>
        intro o
        cases x with
        | none => rfl
        | some x =>
          simp only [List.cons_append, writeAll]
          cases writeBatch env step x.rot 0 x.trans o with
          | ok u o' => simp only [Res.bind]; rw [ih]; rfl
          | throw e o' => rfl
          | ub => rfl
          | diverge => rfl
    rw [happ, h2]
    simp only [Res.bind, writeAll, h4]
    simp

/-- **C100** (negation): a batch of another class among the batches is undefined. -/
theorem C100_other_batch_undefined (env : SplineEnv A B) (step : Int) (bs : List (Option (SplineProblem V)))
    (out : List (Tok A B)) : writeAll env step (none :: bs) out = .ub := rfl

/-! ### C101 -/

theorem addSpline_eq (dvs : SplineId → List DVId) (k : SplineKind) (x : SplineId) (g : GroupId) (p : SplineProblem V)
    (h : Heap V) (hn : (dvs x).Nodup) (hd : ∀ d ∈ dvs x, d ∉ AL.keys p.base.lookup) :
    SplineProblem.addSpline dvs k (some x) g (p, h) =
      .ok () (({ p with base := p.base.withDVs g (dvs x) } : SplineProblem V).push k x, h.activate (dvs x)) := by
  have hf : freshPrefix (AL.keys p.base.lookup) (dvs x) = dvs x := by
    rw [freshPrefix_eq_iff]
    exact ⟨hn, hd⟩
  simp only [SplineProblem.addSpline, splineLoop_eq, hf, if_true]

theorem activate_activate (h : Heap V) (l m : List DVId) : (h.activate l).activate m = h.activate (l ++ m) := by
  unfold Heap.activate
  congr 1
  funext x
  by_cases h1 : x ∈ l <;> by_cases h2 : x ∈ m <;> simp [h1, h2]

theorem keys_withDVs (g : GroupId) (l : List DVId) (p : OptProblem V) :
    AL.keys (p.withDVs g l).lookup = AL.keys p.lookup ++ l := by
  rw [lookup_withDVs]
  simp [AL.keys, Function.comp_def]

theorem keys_empty : AL.keys (OptProblem.empty : OptProblem V).lookup = [] := rfl

/-- the container before the error terms: the two orders of insertion. -/
def beforeTerms (dvs : SplineId → List DVId) (late : Bool) (cal : List DVId) (tr ro : SplineId) : OptProblem V :=
  if late then ((OptProblem.empty.withDVs 0 (dvs tr)).withDVs 0 (dvs ro)).withDVs 1 cal
  else ((OptProblem.empty.withDVs 1 cal).withDVs 0 (dvs tr)).withDVs 0 (dvs ro)

theorem start_eq (dvs : SplineId → List DVId) (late : Bool) (cal : List DVId) (tr ro : SplineId) (ts : List ETId)
    (h : Heap V) (hn : (dvs tr ++ dvs ro ++ cal).Nodup) :
    calibBatch dvs late cal tr ro ts h =
      (onBase (addTermsAll (h.activate (dvs tr ++ dvs ro)) ts)
        ((⟨beforeTerms dvs late cal tr ro, [tr], [ro]⟩ : SplineProblem V), h.activate (dvs tr ++ dvs ro))).bind
        fun _ s2 => onBase (fun p => p.setGroupsOrdering [0, 1]) s2 := by
  obtain ⟨h12, h3, h123⟩ := List.nodup_append.1 hn
  obtain ⟨h1, h2, h12'⟩ := List.nodup_append.1 h12
  have hro : ∀ d ∈ dvs ro, d ∉ dvs tr := fun d hd hd' => h12' d hd' d hd rfl
  have hcal : ∀ d ∈ cal, d ∉ dvs tr ++ dvs ro := fun d hd hd' => h123 d hd' d hd rfl
  cases late
  · simp only [calibBatch, Bool.false_eq_true, if_false, onBase, SplineProblem.empty]
    rw [addAll_eq 1 cal _ h3 (by simp [OptProblem.empty, AL.keys])]
    simp only [Res.mapState, Res.bind]
    rw [addSpline_eq _ _ _ _ _ _ h1]
    · simp only [SplineProblem.push]
      rw [addSpline_eq _ _ _ _ _ _ h2]
      · simp only [SplineProblem.push, activate_activate, beforeTerms, List.nil_append, Bool.false_eq_true, if_false]
      · intro d hd
        simp only [keys_withDVs, keys_empty, List.nil_append, List.mem_append, not_or]
        exact ⟨fun hd' => hcal d hd' (by simp [hd]), hro d hd⟩
    · intro d hd
      simp only [keys_withDVs, keys_empty, List.nil_append]
      exact fun hd' => hcal d hd' (by simp [hd])
  · simp only [calibBatch, if_true, onBase, SplineProblem.empty]
    rw [addSpline_eq _ _ _ _ _ _ h1 (by simp [OptProblem.empty, AL.keys])]
    simp only [Res.mapState, Res.bind, SplineProblem.push]
    rw [addSpline_eq _ _ _ _ _ _ h2]
    · simp only [SplineProblem.push]
      rw [addAll_eq 1 cal _ h3]
      · simp only [activate_activate, beforeTerms, List.nil_append, if_true]
      · intro d hd
        simp only [keys_withDVs, keys_empty, List.nil_append]
        exact hcal d hd
    · intro d hd
      simp only [keys_withDVs, keys_empty, List.nil_append]
      exact hro d hd

theorem beforeTerms_keys (dvs : SplineId → List DVId) (late : Bool) (cal : List DVId) (tr ro : SplineId) (d : DVId) :
    d ∈ AL.keys (beforeTerms dvs late cal tr ro : OptProblem V).lookup ↔ d ∈ dvs tr ++ dvs ro ++ cal := by
  cases late <;> simp [beforeTerms, keys_withDVs, keys_empty, or_comm, or_left_comm]

theorem beforeTerms_inv (dvs : SplineId → List DVId) (late : Bool) (cal : List DVId) (tr ro : SplineId) (h : Heap V)
    (hn : (dvs tr ++ dvs ro ++ cal).Nodup) : BInv h (beforeTerms dvs late cal tr ro) := by
  obtain ⟨h12, h3, h123⟩ := List.nodup_append.1 hn
  obtain ⟨h1, h2, h12'⟩ := List.nodup_append.1 h12
  have hro : ∀ d ∈ dvs ro, d ∉ dvs tr := fun d hd hd' => h12' d hd' d hd rfl
  have hcal : ∀ d ∈ cal, d ∉ dvs tr ++ dvs ro := fun d hd hd' => h123 d hd' d hd rfl
  cases late
  · refine (((BInv.empty h).withDVs 1 cal h3 ?_).withDVs 0 (dvs tr) h1 ?_).withDVs 0 (dvs ro) h2 ?_
    · simp [OptProblem.empty, AL.keys]
    · intro d hd
      simp only [keys_withDVs, keys_empty, List.nil_append]
      exact fun hd' => hcal d hd' (by simp [hd])
    · intro d hd
      simp only [keys_withDVs, keys_empty, List.nil_append, List.mem_append, not_or]
      exact ⟨fun hd' => hcal d hd' (by simp [hd]), hro d hd⟩
  · refine (((BInv.empty h).withDVs 0 (dvs tr) h1 ?_).withDVs 0 (dvs ro) h2 ?_).withDVs 1 cal h3 ?_
    · simp [OptProblem.empty, AL.keys]
    · intro d hd
      simp only [keys_withDVs, keys_empty, List.nil_append]
      exact hro d hd
    · intro d hd
      simp only [keys_withDVs, keys_empty, List.nil_append]
      exact hcal d hd

theorem beforeTerms_groups (dvs : SplineId → List DVId) (late : Bool) (cal : List DVId) (tr ro : SplineId) (g : GroupId)
    (hs : dvs tr ++ dvs ro ≠ []) (hc : cal ≠ []) :
    AL.get g (beforeTerms dvs late cal tr ro : OptProblem V).groups =
      if g = 0 then some (dvs tr ++ dvs ro) else if g = 1 then some cal else none := by
  have hs' : dvs tr = [] → dvs ro ≠ [] := by
    intro h1 h2; exact hs (by simp [h1, h2])
  cases late <;> simp only [beforeTerms, Bool.false_eq_true, if_false, if_true, groups_withDVs, OptProblem.empty, AL.get_nil]
  all_goals
    by_cases h0 : g = 0
    · subst h0
      by_cases h1 : dvs tr = []
      · simp [h1, hs' h1]
      · by_cases h2 : dvs ro = [] <;> simp [h1, h2]
    · by_cases h1 : g = 1
      · subst h1; simp [hc]
      · simp [h0, h1]

theorem beforeTerms_ordering (dvs : SplineId → List DVId) (late : Bool) (cal : List DVId) (tr ro : SplineId)
    (hs : dvs tr ++ dvs ro ≠ []) (hc : cal ≠ []) :
    (beforeTerms dvs late cal tr ro : OptProblem V).ordering = if late then [0, 1] else [1, 0] := by
  have hs' : dvs tr = [] → dvs ro ≠ [] := by
    intro h1 h2; exact hs (by simp [h1, h2])
  cases late <;> simp only [beforeTerms, Bool.false_eq_true, if_false, if_true, ordering_withDVs, OptProblem.empty, AL.has,
    groups_withDVs, AL.get_nil]
  all_goals
    by_cases h1 : dvs tr = []
    · simp [h1, hs' h1, hc]
    · by_cases h2 : dvs ro = [] <;> simp [h1, h2, hc]

/-- **C101**: the batch a calibrator submits: if the calibration variables and the variables of the two new splines are all
distinct and there is at least one of each kind, the batch is made without exception and without changing anything but the
activity of the spline variables; group 0 holds the variables of the translation spline followed by those of the rotation
spline, group 1 the calibration variables, group 0 comes first, and the batch lists one spline of each kind. -/
theorem C101_batch (dvs : SplineId → List DVId) (late : Bool) (cal : List DVId) (tr ro : SplineId) (ts : List ETId)
    (h : Heap V) (hn : (dvs tr ++ dvs ro ++ cal).Nodup) (hs : dvs tr ++ dvs ro ≠ []) (hc : cal ≠ []) (ht : ts.Nodup)
    (hd : ∀ e ∈ ts, ∀ d ∈ h.etDVs e, d ∈ dvs tr ++ dvs ro ++ cal) :
    ∃ p h', calibBatch dvs late cal tr ro ts h = .ok () (p, h') ∧
      SplineProblem.Activated (dvs tr ++ dvs ro) h h' ∧
      p.trans = [tr] ∧ p.rot = [ro] ∧ p.base.ordering = [0, 1] ∧
      p.base.getGroup 0 = .ok (dvs tr ++ dvs ro) () ∧ p.base.getGroup 1 = .ok cal () ∧
      (∀ g, g ≠ 0 → g ≠ 1 → p.base.isGroupInProblem g = false) ∧
      (∀ i, p.base.designVariable i = match (dvs tr ++ dvs ro ++ cal)[i]? with
        | some d => .ok d ()
        | none => .throw .outOfBound ()) ∧
      p.base.errorTerms = ts ∧ p.base.numErrorTerms = ts.length := by
  have he : ∀ e ∈ ts, e ∉ (beforeTerms dvs late cal tr ro : OptProblem V).etLookup := by
    intro e _
    cases late <;> simp [beforeTerms, rest_withDVs, OptProblem.empty]
  have het : (beforeTerms dvs late cal tr ro : OptProblem V).errorTerms = [] ∧
      (beforeTerms dvs late cal tr ro : OptProblem V).etLookup = [] := by
    cases late <;> simp [beforeTerms, rest_withDVs, OptProblem.empty]
  have hcov : ∀ e ∈ ts, ∀ d ∈ (h.activate (dvs tr ++ dvs ro)).etDVs e,
      d ∈ AL.keys (beforeTerms dvs late cal tr ro : OptProblem V).lookup :=
    fun e he' d hd' => (beforeTerms_keys dvs late cal tr ro d).2 (hd e he' d hd')
  have hadd := addTermsAll_eq (h.activate (dvs tr ++ dvs ro)) ts (beforeTerms dvs late cal tr ro) ht he hcov
  have hg := beforeTerms_groups (V := V) dvs late cal tr ro
  have hi0 := beforeTerms_inv dvs late cal tr ro (h.activate (dvs tr ++ dvs ro)) hn
  have hi : BInv (h.activate (dvs tr ++ dvs ro)) ((beforeTerms dvs late cal tr ro).withETs ts) := by
    refine { hi0 with et := ?_, etn := ?_, cl := ?_ }
    · simp only [OptProblem.withETs, het]; exact List.Perm.refl _
    · simp only [OptProblem.withETs, het]; exact ht
    · simp only [OptProblem.withETs, het]; exact hcov
  have hord : ((beforeTerms dvs late cal tr ro : OptProblem V).withETs ts).ordering = if late then [0, 1] else [1, 0] :=
    beforeTerms_ordering dvs late cal tr ro hs hc
  have hset := setOrdering_eq hi [0, 1]
  have hperm : [0, 1].Perm ((beforeTerms dvs late cal tr ro : OptProblem V).withETs ts).ordering := by
    rw [hord]
    cases late
    · exact List.Perm.swap 1 0 []
    · exact List.Perm.refl _
  obtain ⟨-, hset⟩ := hset.resolve_right (fun h' => h'.1 hperm)
  have hfin : BInv (h.activate (dvs tr ++ dvs ro))
      ({ ((beforeTerms dvs late cal tr ro).withETs ts) with ordering := [0, 1] } : OptProblem V) :=
    { hi with g := hi.g.reorder hperm }
  refine ⟨⟨{ ((beforeTerms dvs late cal tr ro).withETs ts) with ordering := [0, 1] }, [tr], [ro]⟩,
    h.activate (dvs tr ++ dvs ro), ?_, SplineProblem.activate_spec _ _, rfl, rfl, rfl, ?_, ?_, ?_, ?_, ?_, ?_⟩
  · rw [start_eq dvs late cal tr ro ts h hn]
    simp only [onBase, hadd, Res.mapState, Res.bind, hset]
  · simp only [OptProblem.getGroup, OptProblem.withETs, hg 0 hs hc, if_true]
  · simp [OptProblem.getGroup, OptProblem.withETs, hg 1 hs hc]
  · intro g h0 h1
    simp [OptProblem.isGroupInProblem, AL.has, OptProblem.withETs, hg g hs hc, h0, h1]
  · intro i
    rw [designVariable_eq hfin]
    have : enumDV ((beforeTerms dvs late cal tr ro : OptProblem V).withETs ts).groups [0, 1] = dvs tr ++ dvs ro ++ cal := by
      simp [enumDV, OptProblem.withETs, hg 0 hs hc, hg 1 hs hc]
    rw [this]
    cases (dvs tr ++ dvs ro ++ cal)[i]? <;> rfl
  · simp [OptProblem.withETs, het]
  · simp [OptProblem.withETs, het, OptProblem.numErrorTerms]

/-- **C101** (negation): without any calibration variable the window ends in an exception, after the batch is filled. -/
theorem C101_no_calibration_variables (dvs : SplineId → List DVId) (late : Bool) (tr ro : SplineId) (h : Heap V)
    (hn : (dvs tr ++ dvs ro).Nodup) : ∃ s, calibBatch dvs late [] tr ro [] h = .throw .outOfBound s := by
  have hn' : (dvs tr ++ dvs ro ++ []).Nodup := by simpa using hn
  rw [start_eq dvs late [] tr ro [] h hn']
  simp only [onBase, addTermsAll, Res.mapState, Res.bind]
  have hi := beforeTerms_inv dvs late [] tr ro (h.activate (dvs tr ++ dvs ro)) hn'
  rcases setOrdering_eq hi [0, 1] with ⟨h1, -⟩ | ⟨-, h2⟩
  · have h1 : (1 : GroupId) ∈ (beforeTerms dvs late [] tr ro : OptProblem V).ordering := h1.mem_iff.1 (by simp)
    exfalso
    have e : (beforeTerms dvs late [] tr ro : OptProblem V) = (OptProblem.empty.withDVs 0 (dvs tr)).withDVs 0 (dvs ro) := by
      cases late <;> rfl
    rw [e, ordering_withDVs, ordering_withDVs] at h1
    split at h1 <;> split at h1 <;> simp [OptProblem.empty] at h1
  · rw [h2]; exact ⟨_, rfl⟩

/-- the hypotheses are met: two splines with three variables each, two calibration variables, two terms. -/
example : ∃ p h', calibBatch (V := Nat) (fun x => if x = 1 then [10, 11, 12] else [20, 21, 22]) false [3, 4] 1 2 [0, 1]
      ⟨fun _ => false, fun _ => 1, fun _ => 0, fun e => [3 + e, 10 + e, 21], fun _ => 1⟩ = .ok () (p, h') ∧
    p.base.ordering = [0, 1] := by
  obtain ⟨p, h', h1, -, -, -, h2, -⟩ := C101_batch (V := Nat) (fun x => if x = 1 then [10, 11, 12] else [20, 21, 22]) false
    [3, 4] 1 2 [0, 1] ⟨fun _ => false, fun _ => 1, fun _ => 0, fun e => [3 + e, 10 + e, 21], fun _ => 1⟩
    (by decide) (by decide) (by decide) (by decide) (by decide)
  exact ⟨p, h', h1, h2⟩

/-- C100 on two splines over [0, 10) and [10, 25) with step 4: three and four lines. -/
example : ∃ os : List (List (Tok Int Int)),
    writeAll (V := Nat) ⟨fun x => if x = 1 then 0 else 10, fun x => if x = 1 then 10 else 25, fun _ t => .ok t (),
      fun _ t => .ok (2 * t) ()⟩ 4 [some ⟨OptProblem.empty, [1], [1]⟩, some ⟨OptProblem.empty, [2], [2]⟩] [] = .ok () os.flatten ∧
    os.map List.length = [6, 8] := by
  obtain ⟨os, h1, h2⟩ := C100_all_batches (V := Nat) (A := Int) (B := Int) (env := ⟨fun x => if x = 1 then 0 else 10, fun x => if x = 1 then 10 else 25, fun _ t => .ok t (),
      fun _ t => .ok (2 * t) ()⟩) (step := 4) (p := fun _ t => t) (a := fun _ t => 2 * t) (by decide)
      [⟨OptProblem.empty, [1], [1]⟩, ⟨OptProblem.empty, [2], [2]⟩] []
      (by
        intro xy hxy
        refine ⟨?_, ?_, fun _ _ _ => rfl, fun _ _ _ => rfl⟩
        · simp only; split <;> omega
        · simp only; split <;> omega)
      (by simp)
  refine ⟨os, by simpa using h2, ?_⟩
  simp only [List.flatMap_cons, List.flatMap_nil, List.zip_cons_cons, List.zip_nil_left, List.cons_append, List.nil_append] at h1
  rcases h1 with _ | ⟨⟨n1, hn1, rfl⟩, _ | ⟨⟨n2, hn2, rfl⟩, _ | _⟩⟩
  have e1 : n1 = 3 := rounds_unique hn1 ⟨by decide, by decide⟩
  have e2 : n2 = 4 := rounds_unique hn2 ⟨by decide, by decide⟩
  subst e1 e2
  rfl

end SplineOut
end Verif
